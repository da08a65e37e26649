import Verif.Spec.Outcome
import Verif.Spec.Retry
import Verif.Spec.SyncDone
/-! # What is to be done -/

namespace DS
variable {V : Type} [PyVal V]

/-- A sync from `S` to `D` has the object to create: it takes part in the comparison, and only the source has it. -/
def ToCreate (src dst : Adapter V) (flags : Nat) (S D : Snap V) (k : Key) : Prop :=
  Shown src dst flags S D k ∧ S.find k.1 k.2 ≠ none ∧ D.find k.1 k.2 = none

/-- A sync from `S` to `D` has the attribute `f` of the object to set to `a`: the object takes part, both sides have it, and differ there. -/
def ToUpdate (src dst : Adapter V) (flags : Nat) (S D : Snap V) (k : Key) (f : String) (a : V) : Prop :=
  Shown src dst flags S D k ∧ ∃ s m, S.find k.1 k.2 = some s ∧ D.find k.1 k.2 = some m ∧ Differs s m f a

/-- A sync from `S` to `D` has the object to delete: it takes part, and only the destination has it. -/
def ToDelete (src dst : Adapter V) (flags : Nat) (S D : Snap V) (k : Key) : Prop :=
  Shown src dst flags S D k ∧ S.find k.1 k.2 = none ∧ D.find k.1 k.2 ≠ none

/-- Among the events there is a call of this kind for the object that did its work. -/
def Did (dst : Adapter V) (evs : List (Event V)) (a : Action) (k : Key) : Prop :=
  ∃ c out, Event.call c out ∈ evs ∧ c.act = a ∧ CallKey dst c k ∧ Took c out

/-- The diff has an element about the object with this action. -/
def Plans (dst : Adapter V) (d : Diff V) (a : Action) (k : Key) : Prop := ∃ e, InTree e d.kids ∧ ElemKey dst e k ∧ e.action = some a

/-- Any number of syncs from the same source with the same flags, whatever the user's code does, and whether they return or raise. -/
inductive Tries {E : Type} (n rl : Nat) (src dst : Adapter V) (flags : Nat) : World V E → World V E → Prop where
  | nil {w} : Tries n rl src dst flags w w
  | sync {w w1 w' hooks dc res} : Tries n rl src dst flags w w1 → dc.Reorders → syncFrom n rl hooks dst src dc flags none w1 = (res, w') →
      Tries n rl src dst flags w w'

end DS
