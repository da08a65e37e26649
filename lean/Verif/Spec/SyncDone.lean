import Verif.Spec.Sync
/-! # When the change that a call asks for is there -/

namespace DS
variable {V E : Type} [PyVal V]

/-- A call did what it was asked: it returned an object (its own, not `None`), and an `update` passed the new values on to
`super().update()`. -/
def Succeeded (c : CrudCall V) (out : Outcome) : Prop := out.result = .object ∧ (c.act = .update → out.applied = true)

/-- A call did its work on the objects of the adapter: `update` passed the new values on to `super().update()`, whatever it returned or raised after
that; `create` and `delete` returned an object. -/
def Took (c : CrudCall V) (out : Outcome) : Prop := (c.act = .update ∧ out.applied = true) ∨ (c.act ≠ .update ∧ out.result = .object)

/-- The change that a call asks for is there in `D`; `D0` is what was stored before the sync.  For `create`: an object of the
class, under the unique id that its identifiers give, with the given values, and defaults for fields not given.  For `update`:
the object that was there, with the given values, and its other values as they were (a Python dictionary holds each key once).
For `delete`: nothing is stored. -/
def InEffect (A : Adapter V) (D0 D : Snap V) : CrudCall V → Prop
  | .create t ids attrs => ∃ c u m, Dict.get? A.classes t = some c ∧ c.createUniqueId ids = some u ∧ D.find t u = some m ∧ m.cls = c ∧
      ∀ f d, (f, d) ∈ c.fields → Dict.get? m.vals f = c.newValue ids attrs f d
  | .update t u attrs => ∃ m0 m, D0.find t u = some m0 ∧ D.find t u = some m ∧ m.cls = m0.cls ∧
      (Dict.WF attrs → ∀ f, Dict.get? m.vals f = (Dict.get? attrs f).or (Dict.get? m0.vals f))
  | .delete t u => D.find t u = none

/-- The adapter's store keeps the objects themselves, so that changing an object changes what is stored. -/
def KeepsObjects (A : Adapter V) : Prop := ∃ sid, A.ref.store = .local sid

end DS
