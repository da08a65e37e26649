import Verif.Spec.Outcome
import Verif.Spec.SameContents
/-! # Syncs that are tried again -/

namespace DS
variable {V E : Type} [PyVal V]

/-- Any number of syncs from the same source with the same flags, with any diff classes, whatever the user's code does, and whether they return
or raise. -/
inductive Attempts (n rl : Nat) (src dst : Adapter V) (flags : Nat) : World V E → World V E → Prop where
  | nil {w} : Attempts n rl src dst flags w w
  | sync {w w1 w' hooks dc res} : Attempts n rl src dst flags w w1 → syncFrom n rl hooks dst src dc flags none w1 = (res, w') →
      Attempts n rl src dst flags w w'

/-- The destination's classes make objects that are not flagged IGNORE. -/
structure Steady (dst : Adapter V) : Prop where
  made : ∀ t c, Dict.get? dst.classes t = some c → flagOn c.defaultFlags MF.IGNORE = false

/-- The object is flagged SKIP_CHILDREN_ON_DELETE: when it is deleted, so is everything below it, without calls. -/
def TakesAlong (D : Snap V) (k : Key) : Prop := ∃ m, D.find k.1 k.2 = some m ∧ flagOn m.flags MF.SKIP_CHILDREN_ON_DELETE = true

/-- The object is left over in `T`: the source does not have it, it took part in the comparison of `S` and `D` or is below one that did and takes
along what is below it, and it is still there with the values it had, but takes part no more, so that no sync with these flags will delete it; an
object above it, which the source does not have either, is gone. -/
structure Stranded (src dst : Adapter V) (flags : Nat) (S D T : Snap V) (k : Key) : Prop where
  not_src : S.find k.1 k.2 = none
  shown : Shown src dst flags S D k ∨ ∃ k0, Shown src dst flags S D k0 ∧ S.find k0.1 k0.2 = none ∧ TakesAlong D k0 ∧ ListedBelow D k0 k
  still : ∃ m0 m, D.find k.1 k.2 = some m0 ∧ T.find k.1 k.2 = some m ∧ m.cls = m0.cls ∧ m.flags = m0.flags ∧
    ∀ f, Dict.get? m.vals f = Dict.get? m0.vals f
  out : ¬ Shown src dst flags S T k
  orphan : ∃ a, ListedBelow D a k ∧ S.find a.1 a.2 = none ∧ T.find a.1 a.2 = none

end DS
