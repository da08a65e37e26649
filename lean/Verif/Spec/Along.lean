import Verif.Spec.CallsLeave
/-! # What goes along with deleted objects -/

namespace DS
variable {V : Type} [PyVal V]

/-- Above the object is one that a sync from `S` to `D` has to delete and that takes along what is below it. -/
def BelowDeleted (src dst : Adapter V) (flags : Nat) (S D : Snap V) (k : Key) : Prop :=
  ∃ k0, ToDelete src dst flags S D k0 ∧ TakesAlong D k0 ∧ ListedBelow D k0 k

end DS
