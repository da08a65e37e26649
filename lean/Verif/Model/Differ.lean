import Verif.Model.Store
/-! # `DiffSyncDiffer` (/repo/diffsync/helpers.py:34-281) -/

namespace DS
variable {V E : Type} [PyVal V]

/-- The constant attributes of a `DiffSyncDiffer`, /repo/diffsync/helpers.py:49-55.  (The diff class only
matters for reading the result.) -/
structure DiffCtx (V : Type) where
  src : Adapter V
  dst : Adapter V
  flags : Nat

/-- `incr_models_processed`, /repo/diffsync/helpers.py:62-67.  The event is recorded whether or not a callback is given. -/
def incrModels (delta : Nat) : M V E Unit :=
  if delta = 0 then pure ()
  else M.modify (fun w => { w with dproc := w.dproc + delta,
                                   trace := w.trace ++ [.diffProgress (w.dproc + delta) w.dtotal] })

/-- The instances returned by `get_all`, read.  (Nothing mutates instances during a diff, so reading
them when they are fetched is the same as reading them later.) -/
def getAllModels (A : Adapter V) (t : String) : M V E (List (Model V)) := do
  let rs ← getAll A t
  M.mapEach (fun r => do let o ← deref r; pure o.m) rs

/-- The instances returned by `get_by_uids`, read. -/
def getModelsByUids (A : Adapter V) (uids : List String) (t : String) : M V E (List (Model V)) := do
  let rs ← getByUids A uids t
  M.mapEach (fun r => do let o ← deref r; pure o.m) rs

/-- `{item.get_unique_id(): item for item in l}`, /repo/diffsync/helpers.py:114-115. -/
def byUid (l : List (Model V)) : Dict (Model V) := Dict.ofList (l.map (fun m => (m.uid, m)))

/-- `combined_dict`, /repo/diffsync/helpers.py:113-121. -/
def combine (src dst : List (Model V)) : Dict (Option (Model V) × Option (Model V)) :=
  let ds := byUid src
  let dd := byUid dst
  Dict.ofList ((Dict.keys ds ++ Dict.keys dd).map (fun u => (u, (Dict.get? ds u, Dict.get? dd u))))

/-- One iteration of `validate_objects_for_diff`, /repo/diffsync/helpers.py:155-161. -/
def validatePair : Option (Model V) × Option (Model V) → Except Err Unit
  | (some s, some d) =>
    if s.type ≠ d.type then .error .typeError
    else if s.shortname ≠ d.shortname then .error .valueError
    else if Dict.pyEq s.identifiers d.identifiers then .ok ()
    else .error .valueError
  | _ => .ok ()

/-- `validate_objects_for_diff`, /repo/diffsync/helpers.py:140-161. -/
def validatePairs : List (Option (Model V) × Option (Model V)) → Except Err Unit
  | [] => .ok ()
  | p :: ps =>
    match validatePair p with
    | .ok () => validatePairs ps
    | .error e => .error e

/-- The six tests of `diff_object_pair` that skip a pair, /repo/diffsync/helpers.py:187-210. -/
def skipPair (flags : Nat) (src dst : Option (Model V)) : Bool :=
  (flagOn flags GF.SKIP_UNMATCHED_SRC && dst.isNone)
  || (flagOn flags GF.SKIP_UNMATCHED_DST && src.isNone)
  || (match src with | some s => dst.isNone && flagOn s.flags MF.SKIP_UNMATCHED_SRC | none => false)
  || (match dst with | some d => src.isNone && flagOn d.flags MF.SKIP_UNMATCHED_DST | none => false)
  || (match src with | some s => flagOn s.flags MF.IGNORE | none => false)
  || (match dst with | some d => flagOn d.flags MF.IGNORE | none => false)

/-- `len(getattr(obj, child_fieldname))` for a field of the object's own `_children`. -/
def kidCount (m : Model V) (f : String) : Nat := ((m.kidList f).getD []).length

/-- `children_mapping` of `diff_child_objects` and the increments on the way,
/repo/diffsync/helpers.py:249-268. -/
def childrenMapping (src dst : Option (Model V)) : M V E (Dict String) :=
  match src, dst with
  | some s, some d => do
    M.forEach (fun p => if Dict.has d.cls.children p.1 then pure () else incrModels (kidCount s p.2)) s.cls.children
    M.forEach (fun p => if Dict.has s.cls.children p.1 then pure () else incrModels (kidCount d p.2)) d.cls.children
    pure (s.cls.children.filter (fun p => Dict.has d.cls.children p.1))
  | some s, none => pure s.cls.children
  | none, some d => pure d.cls.children
  | none, none => M.raise .runtimeError

/-- `self.src_diffsync.get_by_uids(getattr(obj, child_fieldname), child_type) if obj else []`,
/repo/diffsync/helpers.py:275-276. -/
def childModels (A : Adapter V) (o : Option (Model V)) (childType field : String) : M V E (List (Model V)) :=
  match o with
  | none => pure []
  | some m => do
    let uids ← M.ofOption .attributeError (m.kidList field)
    getModelsByUids A uids childType

/-- The loop of `diff_child_objects`, /repo/diffsync/helpers.py:270-279; `kids` are the children attached
so far, `rec` is `diff_object_list`. -/
def diffChildLoop (C : DiffCtx V) (rec : List (Model V) → List (Model V) → M V E (List (Elem V)))
    (src dst : Option (Model V)) : Dict String → List (Elem V) → M V E (List (Elem V))
  | [], kids => pure kids
  | (ct, f) :: rest, kids => do
    let so ← childModels C.src src ct f
    let d ← childModels C.dst dst ct f
    let es ← rec so d
    let kids' ← M.ofExcept (addElems kids es)
    diffChildLoop C rec src dst rest kids'

/-- `diff_object_pair` together with `diff_child_objects`, /repo/diffsync/helpers.py:163-281; `rec` is
`diff_object_list`. -/
def diffPair (C : DiffCtx V) (rec : List (Model V) → List (Model V) → M V E (List (Elem V)))
    (src dst : Option (Model V)) : M V E (Option (Elem V)) :=
  match src.or dst with
  | none => M.raise .runtimeError
  | some m =>
    if skipPair C.flags src dst then do
      incrModels 1
      pure none
    else do
      incrModels ((if src.isSome then 1 else 0) + (if dst.isSome then 1 else 0))
      let mapping ← childrenMapping src dst
      let kids ← diffChildLoop C rec src dst mapping []
      pure (some { type := m.type, name := m.shortname, keys := m.identifiers,
                   srcName := C.src.name, dstName := C.dst.name,
                   src := src.map Model.attrs, dst := dst.map Model.attrs, kids := kids })

/-- The loop of `diff_object_list`, /repo/diffsync/helpers.py:131-138. -/
def diffPairs (pair : Option (Model V) → Option (Model V) → M V E (Option (Elem V))) :
    List (Option (Model V) × Option (Model V)) → M V E (List (Elem V))
  | [] => pure []
  | (s, d) :: ps => do
    let e? ← pair s d
    let es ← diffPairs pair ps
    pure (match e? with | some e => e :: es | none => es)

/-- `diff_object_list`, /repo/diffsync/helpers.py:102-138, with recursion limit `n`. -/
def diffList (C : DiffCtx V) : Nat → List (Model V) → List (Model V) → M V E (List (Elem V))
  | 0, _, _ => M.raise .recursionError
  | n + 1, src, dst => do
    let comb := combine src dst
    incrModels ((src.length - comb.length) + (dst.length - comb.length))
    M.ofExcept (validatePairs (Dict.values comb))
    diffPairs (diffPair C (diffList C n)) (Dict.values comb)

/-- The first loop of `calculate_diffs`, /repo/diffsync/helpers.py:79-86. -/
def countSkippedType (C : DiffCtx V) (t : String) : M V E Unit :=
  if C.dst.topLevel.contains t then do
    let l ← getAll C.dst t
    incrModels l.length
  else if C.src.topLevel.contains t then do
    let l ← getAll C.src t
    incrModels l.length
  else pure ()

/-- The second loop of `calculate_diffs`, /repo/diffsync/helpers.py:88-95. -/
def diffTypes (C : DiffCtx V) (n : Nat) : List String → List (Elem V) → M V E (List (Elem V))
  | [], kids => pure kids
  | t :: ts, kids => do
    let s ← getAllModels C.src t
    let d ← getAllModels C.dst t
    let es ← diffList C n s d
    let kids' ← M.ofExcept (addElems kids es)
    diffTypes C n ts kids'

/-- `DiffSyncDiffer.__init__` and `calculate_diffs`, /repo/diffsync/helpers.py:40-100, i.e. `Adapter.diff_from`,
/repo/diffsync/__init__.py:673-696, with recursion limit `n`. -/
def diffFrom (n : Nat) (dst src : Adapter V) (dc : DiffClass V) (flags : Nat) : M V E (Diff V) := do
  let ls ← lenAdapter src
  let ld ← lenAdapter dst
  M.modify (fun w => { w with dproc := 0, dtotal := ls + ld })
  let C : DiffCtx V := ⟨src, dst, flags⟩
  M.forEach (countSkippedType C) (symmetricDifference dst.topLevel src.topLevel)
  let kids ← diffTypes C n (intersection dst.topLevel src.topLevel) []
  let w ← M.read
  pure { cls := dc, kids := kids, processed := w.dproc }

/-- `Adapter.diff_to`, /repo/diffsync/__init__.py:698-714. -/
def diffTo (n : Nat) (self target : Adapter V) (dc : DiffClass V) (flags : Nat) : M V E (Diff V) :=
  diffFrom n target self dc flags

end DS
