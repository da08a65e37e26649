import Verif.Model.DiffCmd
import Verif.Model.SyncCmd
import Verif.Model.Adapter
import Verif.Spec.DiffCmd
/-! # `sync_from` as a client of the Redis server

The diff of `Verif/Model/DiffCmd.lean` and the sync of `Verif/Model/SyncCmd.lean`, one after the other, in one process. -/

namespace DS
variable {V E α : Type}

/-- The exception of a client as its result. -/
def Proc.attempt : Proc V α → Proc V (Except Err α)
  | .ret r => .ret (.ok r)
  | .cmd c k => .cmd c fun x => (k x).attempt

variable [PyVal V]

/-- `Adapter.diff_from`, /repo/diffsync/__init__.py:673-696.  Simplifications: those of `qDiff`; so the instances that it reads from the server are not
kept in the memory, and the count of processed models is left out. -/
def cDiffFrom (n : Nat) (dst src : Adapter V) (dc : DiffClass V) (flags : Nat) : Cl V E (Diff V) := fun w =>
  (qDiff ⟨src, dst, flags⟩ (View.of src w) (View.of dst w) n).attempt.bind fun r => .ret (.ok (r.map fun es => ⟨dc, es, 0⟩, w))

/-- The diff `sync_from` uses, /repo/diffsync/__init__.py:606-608. -/
def cChooseDiff (n : Nat) (dst src : Adapter V) (dc : DiffClass V) (flags : Nat) (diff : Option (Diff V)) : Cl V E (Diff V) :=
  match diff with
  | some d => if d.truthy then Cl.lift (M.pure d) else cDiffFrom n dst src dc flags
  | none => cDiffFrom n dst src dc flags

/-- `Adapter.sync_from`, /repo/diffsync/__init__.py:577-620, for a destination whose store is on the server, with label `sid`; `n` and `rlimit` are
recursion limits. -/
def cSyncFromR (sid : String) (n rlimit : Nat) (hooks : Hooks V E) (dst src : Adapter V) (dc : DiffClass V) (flags : Nat) (diff : Option (Diff V)) : Cl V E (Diff V) :=
  Cl.bind (Cl.lift (checkDiffClass dc diff)) fun _ =>
  Cl.bind (cChooseDiff n dst src dc flags diff) fun d =>
  Cl.bind (cPerformSync ⟨src, dst, flags, d.cls, hooks, rlimit⟩ sid n d) fun changed =>
  Cl.bind (Cl.lift (if changed then M.emit (.syncComplete dst.ref.id src.ref.id) else M.pure ())) fun _ =>
  Cl.lift (M.pure d)

end DS
