import Verif.Spec.World
import Verif.Spec.Render
/-! # Vocabulary for statements about the text of an adapter -/

namespace DS
variable {V E : Type} [PyVal V]

/-- `m` lists the id `u` of type `ct` among its children. -/
def Lists (m : Model V) (ct u : String) : Prop := ∃ f, (ct, f) ∈ m.cls.children ∧ u ∈ (m.kidList f).getD []

/-- `m` is stored: `get` finds it, or `get_all` returns it. -/
def Held (S : Snap V) (m : Model V) : Prop := (∃ t u, S.find t u = some m) ∨ ∃ t, m ∈ S.all t

/-- `x` is `m`, or a child of `m` that is stored, or a stored child of one of those, and so on. -/
inductive Beneath (S : Snap V) (m : Model V) : Model V → Prop where
  | self : Beneath S m m
  | child {k ct u x} : Beneath S m k → Lists k ct u → S.find ct u = some x → Beneath S m x

/-- The objects in the store of `A` refer to an adapter with that store (as `add` makes them do; objects read from
Redis always do). -/
def Owned (A : Adapter V) (w : World V E) : Prop :=
  ∀ sid, A.ref.store = .local sid → ∀ t u r, findRef w sid t u = some r →
    ∃ a, (w.heap r).adapter = some a ∧ a.store = .local sid

/-- The id of a Redis store is free of special characters. -/
def Adapter.PlainStore (A : Adapter V) : Prop := ∀ sid, A.ref.store = .redis sid → Plain sid

end DS
