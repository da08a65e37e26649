import Verif.Model.Differ
/-! # `DiffSyncSyncer` (/repo/diffsync/helpers.py:284-473) -/

namespace DS
variable {V E : Type} [PyVal V]

/-- The constant attributes of a `DiffSyncSyncer`, /repo/diffsync/helpers.py:299-303, and user code. -/
structure SyncCtx (V E : Type) where
  src : Adapter V
  dst : Adapter V
  flags : Nat
  /-- the class of `self.diff` (its order methods) -/
  dc : DiffClass V
  hooks : Hooks V E
  /-- recursion limit available to `remove` (kept apart from the one of the element recursion) -/
  rlimit : Nat

/-- `incr_elements_processed`, /repo/diffsync/helpers.py:315-320 (always called with `delta = 1`). -/
def incrElements : M V E Unit :=
  M.modify (fun w => { w with sproc := w.sproc + 1,
                              trace := w.trace ++ [.syncProgress (w.sproc + 1) w.stotal] })

/-- `log_sync_status`, /repo/diffsync/helpers.py:460-473. -/
def logSyncStatus (flags : Nat) (action : Option Action) (status : Status) : M V E Unit := do
  let w ← M.read
  match action with
  | none =>
    if flagOn flags GF.LOG_UNCHANGED_RECORDS then M.emit (.log .debug w.slog status) else pure ()
  | some _ =>
    match status with
    | .success => M.emit (.log .info w.slog status)
    | .failure => M.emit (.log .warning w.slog status)
    | _ => M.emit (.log .error w.slog status)

/-- Call user code: record the call, let the oracle decide. -/
def callHook (h : Hooks V E) (c : CrudCall V) : M V E Outcome := fun w =>
  let (out, env') := h w.env c
  (.ok out, { w with env := env', trace := w.trace ++ [.call c out] })

/-- `set_status`, /repo/diffsync/__init__.py:203-206. -/
def setStatus (r : Ref) (s : Status) (msg : String := "") : M V E Unit := do
  let o ← deref r
  writeObj r { o with status := s, msg := msg }

/-- A status set by user code after the base method. -/
def overrideStatus (r : Ref) : Option (Status × String) → M V E Unit
  | none => pure ()
  | some (s, msg) => setStatus r s msg

/-- `model_class.create(adapter, ids, attrs)`, /repo/diffsync/__init__.py:208-245, as overridden by user code. -/
def hookCreate (S : SyncCtx V E) (c : ModelClass V) (ids attrs : Dict V) : M V E (Option Ref) := do
  let out ← callHook S.hooks (.create c.name ids attrs)
  match out.result with
  | .raises e => M.raise e
  | .none => pure none
  | .object => do
    let m ← M.ofExcept (c.construct ids attrs)
    let r ← alloc { m := m, adapter := some S.dst.ref, status := .success, msg := "Created successfully" }
    overrideStatus r out.status
    pure (some r)

/-- `update_base`, /repo/diffsync/__init__.py:247-263. -/
def updateBase (r : Ref) (attrs : Dict V) : M V E Unit := do
  setattrsRef r attrs
  setStatus r .success "Updated successfully"

/-- How a user method that has an instance ends. -/
def finishHook (r : Ref) (out : Outcome) : M V E (Option Ref) := do
  overrideStatus r out.status
  match out.result with
  | .raises e => M.raise e
  | .none => pure none
  | .object => pure (some r)

/-- `dst_model.update(attrs)`, /repo/diffsync/__init__.py:247-281, as overridden by user code. -/
def hookUpdate (S : SyncCtx V E) (r : Ref) (attrs : Dict V) : M V E (Option Ref) := do
  let o ← deref r
  let out ← callHook S.hooks (.update o.m.type o.m.uid attrs)
  if out.applied then updateBase r attrs else pure ()
  finishHook r out

/-- `dst_model.delete()`, /repo/diffsync/__init__.py:283-307, as overridden by user code. -/
def hookDelete (S : SyncCtx V E) (r : Ref) : M V E (Option Ref) := do
  let o ← deref r
  let out ← callHook S.hooks (.delete o.m.type o.m.uid)
  if out.applied then setStatus r .success "Deleted successfully" else pure ()
  finishHook r out

/-- The `try` body of `sync_model`, /repo/diffsync/helpers.py:426-438. -/
def applyAction (S : SyncCtx V E) (c : ModelClass V) (action : Action) (dst : Option Ref) (ids attrs : Dict V) :
    M V E (Option Ref) :=
  match action, dst with
  | .create, some _ => M.raise .objectNotCreated
  | .create, none => hookCreate S c ids attrs
  | .update, none => M.raise .objectNotUpdated
  | .update, some r => hookUpdate S r attrs
  | .delete, none => M.raise .objectNotDeleted
  | .delete, some r => hookDelete S r

/-- The `try` block of `sync_model`, /repo/diffsync/helpers.py:425-446: the object and its status. -/
def tryAction (S : SyncCtx V E) (c : ModelClass V) (action : Action) (dst : Option Ref) (ids attrs : Dict V) :
    M V E (Option Ref × Status) := do
  let r? ← applyAction S c action dst ids attrs
  match r? with
  | some r => do
    let o ← deref r
    pure (some r, o.status)
  | none => pure (none, .failure)

/-- `sync_model`, /repo/diffsync/helpers.py:409-458; `action` and `c` are the values of `self.action` and
`self.model_class`.  (`self.action` is always one of the three actions or `None`, so line 440 is unreachable.) -/
def syncModel (S : SyncCtx V E) (c : ModelClass V) (action : Option Action) (dst : Option Ref) (ids attrs : Dict V) :
    M V E (Bool × Option Ref) :=
  match action with
  | none => do
    logSyncStatus S.flags none .success
    pure (false, dst)
  | some a => do
    let res ← M.attempt (tryAction S c a dst ids attrs) Err.isCrud
    match res with
    | .error e => do
      logSyncStatus S.flags (some a) .error
      if flagOn S.flags GF.CONTINUE_ON_FAILURE then pure (true, none) else M.raise e
    | .ok (r?, st) => do
      logSyncStatus S.flags (some a) st
      pure (true, r?)

/-- Retrieving the destination object, /repo/diffsync/helpers.py:359-365. -/
def fetchDst (S : SyncCtx V E) (c : ModelClass V) (ids : Dict V) : M V E (Option Ref) :=
  M.tryCatch
    (do let r ← get S.dst (.cls c) (.dict ids)
        setStatus r .unknown
        pure (some r))
    Err.isNotFound (fun _ => pure none)

/-- The flag booleans, /repo/diffsync/helpers.py:367-372. -/
def dstFlags (dst : Option Ref) : M V E (Bool × Bool) :=
  match dst with
  | none => pure (false, false)
  | some r => do
    let o ← deref r
    pure (flagOn o.m.flags MF.NATURAL_DELETION_ORDER, flagOn o.m.flags MF.SKIP_CHILDREN_ON_DELETE)

/-- `parent_model.add_child(child)` on heap objects, /repo/diffsync/helpers.py:389-390. -/
def addChildRef (parent child : Ref) : M V E Unit := do
  let p ← deref parent
  let c ← deref child
  let m ← M.ofExcept (p.m.addChild c.m.type c.m.uid)
  writeObj parent { p with m := m }

/-- `parent_model.remove_child(child)` on heap objects, /repo/diffsync/helpers.py:393-394. -/
def removeChildRef (parent child : Ref) : M V E Unit := do
  let p ← deref parent
  let c ← deref child
  let m ← M.ofExcept (p.m.removeChild c.m.type c.m.uid)
  writeObj parent { p with m := m }

/-- `if parent_model: ...`. -/
def withParent (parent : Option Ref) (f : Ref → M V E Unit) : M V E Unit :=
  match parent with
  | none => pure ()
  | some p => f p

/-- Bookkeeping in the destination store after `sync_model`, /repo/diffsync/helpers.py:388-396; `r` is the
resulting model. -/
def applyStore (S : SyncCtx V E) (action : Option Action) (parent : Option Ref) (r : Ref) (skipChildren : Bool) :
    M V E Unit :=
  match action with
  | some .create => do
    withParent parent (fun p => addChildRef p r)
    add S.dst r
  | some .delete => do
    withParent parent (fun p => removeChildRef p r)
    remove S.dst S.rlimit r skipChildren
  | _ => pure ()

/-- Local state set at the start of `sync_diff_element`, /repo/diffsync/helpers.py:343-351. -/
def enterElem (S : SyncCtx V E) (e : Elem V) : M V E (ModelClass V) := do
  let c ← M.ofOption .attributeError (Dict.get? S.dst.classes e.type)
  let u ← M.ofOption .keyError (c.createUniqueId e.keys)
  M.modify (fun w => { w with scls := some c, slog := ⟨e.action, e.type, u⟩, sact := e.action })
  pure c

/-- `sync_diff_element`, /repo/diffsync/helpers.py:335-407, with recursion limit `n`. -/
def syncElem (S : SyncCtx V E) : Nat → Elem V → Option Ref → M V E Bool
  | 0, _, _ => M.raise .recursionError
  | n + 1, e, parent => do
    let c ← enterElem S e
    let _src ← getOrNone S.src (.cls c) (.dict e.keys)
    let dst ← fetchDst S c e.keys
    let (natural, skipChildren) ← dstFlags dst
    if natural && e.action == some .delete && !skipChildren then do
      let _ ← M.orEach (fun k => syncElem S n k dst) (getChildren S.dc e.kids) false
      pure ()
    else pure ()
    -- `self.action`, `self.model_class` as left by the children, if any were visited
    let w ← M.read
    let (changed, modified) ← syncModel S (w.scls.getD c) w.sact dst e.keys (e.plus.getD [])
    match modified with
    | none => do
      let w' ← M.read
      M.emit (.noObject w'.slog)
      pure changed
    | some r => do
      applyStore S w.sact parent r skipChildren
      if w.sact == some .delete && skipChildren then pure changed
      else do
        incrElements
        if !natural || !(w.sact == some .delete) then
          M.orEach (fun k => syncElem S n k (some r)) (getChildren S.dc e.kids) changed
        else pure changed

/-- `DiffSyncSyncer.__init__` and `perform_sync`, /repo/diffsync/helpers.py:290-333. -/
def performSync (S : SyncCtx V E) (n : Nat) (d : Diff V) : M V E Bool := do
  M.modify (fun w => { w with sproc := 0, stotal := d.len, sact := none, scls := none, slog := ⟨none, "", ""⟩ })
  M.orEach (fun e => syncElem S n e none) (getChildren S.dc d.kids) false

end DS
