import Verif.Spec.Remains
import Verif.Spec.RedisNext
/-! # What calls leave that did their work or not -/

namespace DS
variable {V : Type} [PyVal V]

/-- `D'` is what is left of `D` by calls that take their data from `S`, where `did a k` says that a call of kind `a` for the object `k` did its work. -/
structure CallsLeave (dst : Adapter V) (S D D' : Snap V) (did : Action → Key → Prop) : Prop where
  /-- Of the objects that the destination did not have, those are there that a call created. -/
  created : ∀ k : Key, D.find k.1 k.2 = none → (D'.find k.1 k.2 ≠ none ↔ did .create k)
  /-- They are instances of the destination's class, with the source's identifiers and attributes, and defaults otherwise. -/
  fresh : ∀ (k : Key) m, D.find k.1 k.2 = none → D'.find k.1 k.2 = some m →
    ∃ s c, S.find k.1 k.2 = some s ∧ Dict.get? dst.classes k.1 = some c ∧ m.cls = c ∧ m.flags = c.defaultFlags ∧
      ∀ f d, (f, d) ∈ c.fields → Dict.get? m.vals f = c.newValue s.identifiers s.attrs f d
  /-- Of the objects that the destination had, those are gone that a call deleted, and those below a deleted object that takes along what is below it. -/
  gone : ∀ k : Key, D.find k.1 k.2 ≠ none → (D'.find k.1 k.2 = none ↔ did .delete k ∨ ∃ k0, did .delete k0 ∧ TakesAlong D k0 ∧ ListedBelow D k0 k)
  /-- The others keep their class, their flags and, if no call updated them, all their values. -/
  same : ∀ (k : Key) m0 m, D.find k.1 k.2 = some m0 → D'.find k.1 k.2 = some m → m.cls = m0.cls ∧ m.flags = m0.flags ∧ (¬ did .update k → m.vals = m0.vals)
  /-- Those that a call updated have the source's values where they differed, and their own otherwise. -/
  updated : ∀ (k : Key) m0 m, D.find k.1 k.2 = some m0 → D'.find k.1 k.2 = some m → did .update k →
    ∃ s, S.find k.1 k.2 = some s ∧ (∀ f a, Differs s m0 f a → Dict.get? m.vals f = some a) ∧
      ∀ f, (∀ a, ¬ Differs s m0 f a) → Dict.get? m.vals f = Dict.get? m0.vals f
  /-- The children of an object are those it has on either side, as far as they are there. -/
  lists : ∀ k c : Key, listsO (D'.find k.1 k.2) c.1 c.2 = true ↔ D'.find k.1 k.2 ≠ none ∧ D'.find c.1 c.2 ≠ none ∧ Linked S D k c
  /-- No child list repeats an id. -/
  sound : ∀ (k : Key) m, D'.find k.1 k.2 = some m → Sound m

/-- The same objects, with the same classes, flags, values and children. -/
def SameObjects (D D' : Snap V) : Prop :=
  ∀ k : Key, (D'.find k.1 k.2 = none ↔ D.find k.1 k.2 = none) ∧
    ∀ m m', D.find k.1 k.2 = some m → D'.find k.1 k.2 = some m' → m'.cls = m.cls ∧ m'.flags = m.flags ∧ m'.vals = m.vals ∧ ∀ ct u, m'.lists ct u = m.lists ct u

end DS
