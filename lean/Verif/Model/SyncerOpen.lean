import Verif.Model.Adapter
/-!
# The syncer with user code that may do anything (/repo/diffsync/helpers.py:284-473)

`Verif.Model.Syncer` lets user code decide how each call ends, but not touch the adapters.  Here `create`, `update`, `delete`,
the progress callback and `sync_complete` are arbitrary computations: they may add, change and remove objects of either adapter
(or of any other), change flags and child lists, return any object, and raise any exception at any point.
-/

namespace DS
variable {V E : Type} [PyVal V]

/-- User code: the overridable methods of models (/repo/diffsync/__init__.py:226-307) and adapters (647-665), and the callback of
`sync_from` (/repo/diffsync/__init__.py:582, /repo/diffsync/helpers.py:319-320). -/
structure OpenHooks (V E : Type) where
  create : ModelClass V → Dict V → Dict V → M V E (Option Ref)
  update : Ref → Dict V → M V E (Option Ref)
  delete : Ref → M V E (Option Ref)
  callback : Nat → Nat → M V E Unit
  complete : Diff V → M V E Unit

/-- Run user code.  It has no access to the attributes of the running `DiffSyncSyncer` (/repo/diffsync/helpers.py:299-313: no user code is
given it).  Simplification: events that user code itself causes, e.g. by running another sync, are not recorded. -/
def runUser {α : Type} (m : M V E α) : M V E α := fun w =>
  match m w with
  | (r, w') => (r, { w' with trace := w.trace, sproc := w.sproc, stotal := w.stotal, sact := w.sact, scls := w.scls, slog := w.slog })

/-- How a call ended. -/
def endOf : Except Err (Option Ref) → HookResult
  | .ok (some _) => .object
  | .ok none => .none
  | .error x => .raises x

/-- Call user code, /repo/diffsync/helpers.py:430, 434, 438, and record the call and how it ended. -/
def openCall (c : CrudCall V) (m : M V E (Option Ref)) : M V E (Option Ref) := fun w =>
  match runUser m w with
  | (r, w') => (r, { w' with trace := w'.trace ++ [.call c { result := endOf r }] })

/-- The constant attributes of a `DiffSyncSyncer`, /repo/diffsync/helpers.py:299-303, and user code. -/
structure OpenCtx (V E : Type) where
  src : Adapter V
  dst : Adapter V
  flags : Nat
  /-- the class of `self.diff` (its order methods) -/
  dc : DiffClass V
  hooks : OpenHooks V E
  /-- recursion limit available to `remove` -/
  rlimit : Nat

/-- `incr_elements_processed`, /repo/diffsync/helpers.py:315-320. -/
def oIncrElements (S : OpenCtx V E) : M V E Unit := do
  incrElements
  let w ← M.read
  runUser (S.hooks.callback w.sproc w.stotal)

/-- The `try` body of `sync_model`, /repo/diffsync/helpers.py:426-438. -/
def oApplyAction (S : OpenCtx V E) (c : ModelClass V) (action : Action) (dst : Option Ref) (ids attrs : Dict V) :
    M V E (Option Ref) :=
  match action, dst with
  | .create, some _ => M.raise .objectNotCreated
  | .create, none => openCall (.create c.name ids attrs) (S.hooks.create c ids attrs)
  | .update, none => M.raise .objectNotUpdated
  | .update, some r => do
    let o ← deref r
    openCall (.update o.m.type o.m.uid attrs) (S.hooks.update r attrs)
  | .delete, none => M.raise .objectNotDeleted
  | .delete, some r => do
    let o ← deref r
    openCall (.delete o.m.type o.m.uid) (S.hooks.delete r)

/-- The `try` block of `sync_model`, /repo/diffsync/helpers.py:425-446: the object and its status. -/
def oTryAction (S : OpenCtx V E) (c : ModelClass V) (action : Action) (dst : Option Ref) (ids attrs : Dict V) :
    M V E (Option Ref × Status) := do
  let r? ← oApplyAction S c action dst ids attrs
  match r? with
  | some r => do
    let o ← deref r
    pure (some r, o.status)
  | none => pure (none, .failure)

/-- `sync_model`, /repo/diffsync/helpers.py:409-458. -/
def oSyncModel (S : OpenCtx V E) (c : ModelClass V) (action : Option Action) (dst : Option Ref) (ids attrs : Dict V) :
    M V E (Bool × Option Ref) :=
  match action with
  | none => do
    logSyncStatus S.flags none .success
    pure (false, dst)
  | some a => do
    let res ← M.attempt (oTryAction S c a dst ids attrs) Err.isCrud
    match res with
    | .error e => do
      logSyncStatus S.flags (some a) .error
      if flagOn S.flags GF.CONTINUE_ON_FAILURE then pure (true, none) else M.raise e
    | .ok (r?, st) => do
      logSyncStatus S.flags (some a) st
      pure (true, r?)

/-- The context without user code. -/
def OpenCtx.closed (S : OpenCtx V E) : SyncCtx V E := ⟨S.src, S.dst, S.flags, S.dc, Hooks.default V E, S.rlimit⟩

/-- Visiting the children before the object, /repo/diffsync/helpers.py:376-378. -/
def oFirst (f : Elem V → M V E Bool) (natural : Bool) (kids : List (Elem V)) : M V E Unit :=
  if natural then M.bind (M.orEach f kids false) (fun _ => pure ()) else pure ()

/-- From the bookkeeping in the store on, /repo/diffsync/helpers.py:388-407. -/
def oRest (S : OpenCtx V E) (f : Elem V → M V E Bool) (action : Option Action) (parent : Option Ref) (r : Ref) (natural skipChildren changed : Bool)
    (kids : List (Elem V)) : M V E Bool := do
  applyStore S.closed action parent r skipChildren
  if action == some .delete && skipChildren then pure changed
  else do
    oIncrElements S
    if !natural || !(action == some .delete) then M.orEach f kids changed else pure changed

/-- `sync_diff_element`, /repo/diffsync/helpers.py:335-407, with recursion limit `n`.  (The parts in which no user code runs are those
of `Verif.Model.Syncer`.) -/
def oSyncElem (S : OpenCtx V E) : Nat → Elem V → Option Ref → M V E Bool
  | 0, _, _ => M.raise .recursionError
  | n + 1, e, parent => do
    let c ← enterElem S.closed e
    let _src ← getOrNone S.src (.cls c) (.dict e.keys)
    let dst ← fetchDst S.closed c e.keys
    let (natural, skipChildren) ← dstFlags dst
    oFirst (fun k => oSyncElem S n k dst) (natural && e.action == some .delete && !skipChildren) (getChildren S.dc e.kids)
    -- `self.action`, `self.model_class` as left by the children, if any were visited
    let w ← M.read
    let (changed, modified) ← oSyncModel S (w.scls.getD c) w.sact dst e.keys (e.plus.getD [])
    match modified with
    | none => do
      let w' ← M.read
      M.emit (.noObject w'.slog)
      pure changed
    | some r => oRest S (fun k => oSyncElem S n k (some r)) w.sact parent r natural skipChildren changed (getChildren S.dc e.kids)

/-- `DiffSyncSyncer.__init__` and `perform_sync`, /repo/diffsync/helpers.py:290-333. -/
def oPerformSync (S : OpenCtx V E) (n : Nat) (d : Diff V) : M V E Bool := do
  M.modify (fun w => { w with sproc := 0, stotal := d.len, sact := none, scls := none, slog := ⟨none, "", ""⟩ })
  M.orEach (fun e => oSyncElem S n e none) (getChildren S.dc d.kids) false

/-- `Adapter.sync_from`, /repo/diffsync/__init__.py:577-620.  Simplification: the callback is arbitrary only while the diff is applied, not
while it is computed; for that see `cSyncFrom` in `Verif.Model.SyncCallback`. -/
def oSyncFrom (n rlimit : Nat) (hooks : OpenHooks V E) (dst src : Adapter V) (dc : DiffClass V) (flags : Nat)
    (diff : Option (Diff V)) : M V E (Diff V) := do
  checkDiffClass dc diff
  let d ← chooseDiff n dst src dc flags diff
  let changed ← oPerformSync ⟨src, dst, flags, d.cls, hooks, rlimit⟩ n d
  if changed then do
    M.emit (.syncComplete dst.ref.id src.ref.id)
    runUser (hooks.complete d)
  else pure ()
  pure d

end DS
