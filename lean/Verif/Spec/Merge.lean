import Verif.Spec.Declared
import Verif.Spec.Outcome
import Verif.Spec.Chain
/-! # Merging two adapters -/

namespace DS
variable {V E : Type} [PyVal V]

/-- The classes make objects that are not excluded from diffs by their own flags. -/
def MakesUnflagged (A : Adapter V) : Prop := ∀ t c, Dict.get? A.classes t = some c →
  flagOn c.defaultFlags MF.IGNORE = false ∧ flagOn c.defaultFlags MF.SKIP_UNMATCHED_SRC = false ∧ flagOn c.defaultFlags MF.SKIP_UNMATCHED_DST = false

/-- Two adapters that can be merged: they hold alike forests of the same models in separate local stores, no object is excluded from diffs by its
own flags, and the classes take the identifiers and attributes of stored objects as they are. -/
structure Mergeable (F : Decls V) (D : Prop) (n : Nat) (a b : Adapter V) (sa sb : Nat) (w : World V E) : Prop where
  reachable : Reachable F D w
  first : Family F a
  second : Family F b
  first_store : a.ref.store = .local sa
  second_store : b.ref.store = .local sb
  first_top : a.topLevel.Nodup
  second_top : b.topLevel.Nodup
  models : SameModels a b
  separate : Separate a b w
  alike : Alike a b n (snap a w) (snap b w)
  parsed : ∀ (k : Key) d f v, (snap b w).find k.1 k.2 = some d → f ∈ d.cls.identifiers ∨ f ∈ d.cls.attributes → Dict.get? d.vals f = some v → d.cls.reads f v = some v
  first_unflagged : (snap a w).Unflagged
  second_unflagged : (snap b w).Unflagged
  makes : MakesUnflagged b

/-- Two objects have equal values in the attributes they share. -/
def AttrsAgree (s d : Model V) : Prop := ∀ f v v', Dict.get? s.attrs f = some v → Dict.get? d.attrs f = some v' → PyVal.eq v v' = true

/-- `A'` and `B'` hold the union of `A` and `B`, where `A` has precedence. -/
structure Merged (a b : Adapter V) (A B A' B' : Snap V) : Prop where
  /-- What `A` has is in both, in the first with the values it had. -/
  first : ∀ (k : Key) s, Shown a b 0 A B k → A.find k.1 k.2 = some s →
    ∃ s' d', A'.find k.1 k.2 = some s' ∧ B'.find k.1 k.2 = some d' ∧ s'.cls = s.cls ∧ (∀ f, Dict.get? s'.vals f = Dict.get? s.vals f) ∧ AttrsAgree s' d'
  /-- What only `B` has is in both, in the second as it was. -/
  second : ∀ (k : Key) d, Shown a b 0 A B k → A.find k.1 k.2 = none → B.find k.1 k.2 = some d →
    ∃ s', A'.find k.1 k.2 = some s' ∧ B'.find k.1 k.2 = some d ∧ s'.cls = d.cls ∧ (∀ f, f ∈ d.cls.identifiers ∨ f ∈ d.cls.attributes → Dict.get? s'.vals f = Dict.get? d.vals f)
  /-- What is not reached from the top is left alone. -/
  others : ∀ k : Key, ¬ Shown a b 0 A B k → A'.find k.1 k.2 = A.find k.1 k.2 ∧ B'.find k.1 k.2 = B.find k.1 k.2
  /-- The children of an object are those that it has on either side. -/
  lists : ∀ k c : Key, Shown a b 0 A B k → Shown a b 0 A B c → 
    (listsO (A'.find k.1 k.2) c.1 c.2 = true ↔ Linked A B k c) ∧ (listsO (B'.find k.1 k.2) c.1 c.2 = true ↔ Linked A B k c)

end DS
