import Verif.Spec.Converge
/-! # Diffs that were computed before the sync they are used in -/

namespace DS
variable {V E : Type} [PyVal V]

/-- `d` is what `diff_from` computed, with the diff class `dc` and the flags `flags`, at a time when the two adapters had the contents that they have in `w`. -/
def KeptDiff (n : Nat) (src dst : Adapter V) (dc : DiffClass V) (flags : Nat) (w : World V E) (d : Diff V) : Prop :=
  ∃ v v1 : World V E, Comparable src dst v ∧ diffFrom n dst src dc flags v = (.ok d, v1) ∧ snap src v = snap src w ∧ snap dst v = snap dst w

end DS
