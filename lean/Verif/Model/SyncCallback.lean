import Verif.Model.SyncerOpen
import Verif.Model.DifferOpen
/-! # `sync_from` with one arbitrary callback, called while the diff is computed and while it is applied (/repo/diffsync/__init__.py:577-620) -/

namespace DS
variable {V E : Type} [PyVal V]

/-- The diff `sync_from` uses, /repo/diffsync/__init__.py:606-608: the callback is handed on to `diff_from`. -/
def oChooseDiff (cb : Nat → Nat → M V E Unit) (n : Nat) (dst src : Adapter V) (dc : DiffClass V) (flags : Nat) (diff : Option (Diff V)) :
    M V E (Diff V) :=
  match diff with
  | some d => if d.truthy then pure d else oDiffFrom cb n dst src dc flags
  | none => oDiffFrom cb n dst src dc flags

/-- The second half of `sync_from`, /repo/diffsync/__init__.py:610-620. -/
def cApply (n rlimit : Nat) (hooks : OpenHooks V E) (dst src : Adapter V) (flags : Nat) (d : Diff V) : M V E (Diff V) := do
  let changed ← oPerformSync ⟨src, dst, flags, d.cls, hooks, rlimit⟩ n d
  if changed then do
    M.emit (.syncComplete dst.ref.id src.ref.id)
    runUser (hooks.complete d)
  else pure ()
  pure d

/-- `Adapter.sync_from`, /repo/diffsync/__init__.py:577-620. -/
def cSyncFrom (n rlimit : Nat) (hooks : OpenHooks V E) (dst src : Adapter V) (dc : DiffClass V) (flags : Nat)
    (diff : Option (Diff V)) : M V E (Diff V) := do
  checkDiffClass dc diff
  let d ← oChooseDiff hooks.callback n dst src dc flags diff
  cApply n rlimit hooks dst src flags d

end DS
