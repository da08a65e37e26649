import Verif.Spec.DiffCmd
import Verif.Spec.Sync
import Verif.Model.Syncer
/-! # A sync whose diff is computed while other clients write to the source -/

namespace DS
variable {V E : Type} [PyVal V]

/-- The classes of the destination take the identifiers of the source's objects as they are. -/
def FitIds (dst : Adapter V) (vs : View V) (H : Dict (Obj V) → Prop) : Prop :=
  ∀ t u s c, Seen vs H t u (some s) → Dict.get? dst.classes t = some c → c.identifiers = s.cls.identifiers ∧ c.KeepsIds s.identifiers

/-- `diff = dst.diff_from(src, flags)`, computed by client `i` while other clients are at work, followed by `dst.sync_from(src, flags=flags, diff=diff)`; the
destination is in the memory of the process. -/
structure DiffThenSync (i : Nat) (s : Sys V (List (Elem V))) (l : List (Sys V (List (Elem V)))) (s' : Sys V (List (Elem V))) (N n rl : Nat) (hooks : Hooks V E)
    (dst src : Adapter V) (dc : DiffClass V) (flags : Nat) (d : Diff V) (w : World V E) (res : Except Err (Diff V)) (w' : World V E) : Prop where
  exec : Exec s l s'
  starts : s.cl i = .at (qDiff ⟨src, dst, flags⟩ (View.of src w) (View.of dst w) N)
  ends : s'.cl i = .at (.ret (.ok d.kids))
  readable : Readable ⟨src, dst, flags⟩ (View.of src w) (View.of dst w) (Moments l)
  fits : FitIds dst (View.of src w) (Moments l)
  inMemory : ∃ sid, dst.ref.store = .local sid
  ready : DstReady dst w
  nonempty : d.len ≠ 0
  sync : syncFrom n rl hooks dst src dc flags (some d) w = (res, w')

/-- Why an object of the destination counts as absent from the source: it is of a top-level type and the source had no such object at some moment; or an object of the
destination lists it that the source had at some moment without listing it, or that is gone itself. -/
inductive Gone (src dst : Adapter V) (vs : View V) (D : Snap V) (H : Dict (Obj V) → Prop) : String → String → Prop where
  | top {t u} : t ∈ src.topLevel → t ∈ dst.topLevel → Seen vs H t u none → Gone src dst vs D H t u
  | unlisted {t u t' u' m' s'} : D.find t' u' = some m' → m'.lists t u = true → Seen vs H t' u' (some s') → s'.lists t u = false → Gone src dst vs D H t u
  | beneath {t u t' u' m'} : D.find t' u' = some m' → m'.lists t u = true → Gone src dst vs D H t' u' → Gone src dst vs D H t u

end DS
