import Verif.Model.Differ
/-!
# The differ with a progress callback that may do anything (/repo/diffsync/helpers.py:34-281)

`Verif.Model.Differ` records when the callback is called.  Here the callback is an arbitrary computation: it may read and change the adapters, change
any state of its own, and raise any exception.
-/

namespace DS
variable {V E : Type} [PyVal V]

/-- Run the callback.  It has no access to the attributes of the running `DiffSyncDiffer` (/repo/diffsync/helpers.py:49-59: no user code is
given it) nor to those of a running `DiffSyncSyncer`.  Simplification: events that the callback itself causes, e.g. by running another diff, are not
recorded. -/
def runCallback (m : M V E Unit) : M V E Unit := fun w =>
  match m w with
  | (r, w') => (r, { w' with
      trace := w.trace, dproc := w.dproc, dtotal := w.dtotal
      sproc := w.sproc, stotal := w.stotal, sact := w.sact, scls := w.scls, slog := w.slog })

/-- `incr_models_processed`, /repo/diffsync/helpers.py:62-67. -/
def oIncrModels (cb : Nat → Nat → M V E Unit) (delta : Nat) : M V E Unit :=
  if delta = 0 then pure ()
  else do
    incrModels delta
    let w ← M.read
    runCallback (cb w.dproc w.dtotal)

/-- `children_mapping` of `diff_child_objects` and the increments on the way, /repo/diffsync/helpers.py:249-268. -/
def oChildrenMapping (cb : Nat → Nat → M V E Unit) (src dst : Option (Model V)) : M V E (Dict String) :=
  match src, dst with
  | some s, some d => do
    M.forEach (fun p => if Dict.has d.cls.children p.1 then pure () else oIncrModels cb (kidCount s p.2)) s.cls.children
    M.forEach (fun p => if Dict.has s.cls.children p.1 then pure () else oIncrModels cb (kidCount d p.2)) d.cls.children
    pure (s.cls.children.filter (fun p => Dict.has d.cls.children p.1))
  | some s, none => pure s.cls.children
  | none, some d => pure d.cls.children
  | none, none => M.raise .runtimeError

/-- `diff_object_pair` together with `diff_child_objects`, /repo/diffsync/helpers.py:163-281; `rec` is `diff_object_list`.  Simplification, as in
`Verif.Model.Differ`: instances are read when they are fetched.  A callback that alters an instance after it was fetched is therefore seen
only if the instance is fetched again. -/
def oDiffPair (cb : Nat → Nat → M V E Unit) (C : DiffCtx V) (rec : List (Model V) → List (Model V) → M V E (List (Elem V)))
    (src dst : Option (Model V)) : M V E (Option (Elem V)) :=
  match src.or dst with
  | none => M.raise .runtimeError
  | some m =>
    if skipPair C.flags src dst then do
      oIncrModels cb 1
      pure none
    else do
      oIncrModels cb ((if src.isSome then 1 else 0) + (if dst.isSome then 1 else 0))
      let mapping ← oChildrenMapping cb src dst
      let kids ← diffChildLoop C rec src dst mapping []
      pure (some { type := m.type, name := m.shortname, keys := m.identifiers,
                   srcName := C.src.name, dstName := C.dst.name,
                   src := src.map Model.attrs, dst := dst.map Model.attrs, kids := kids })

/-- `diff_object_list`, /repo/diffsync/helpers.py:102-138, with recursion limit `n`. -/
def oDiffList (cb : Nat → Nat → M V E Unit) (C : DiffCtx V) : Nat → List (Model V) → List (Model V) → M V E (List (Elem V))
  | 0, _, _ => M.raise .recursionError
  | n + 1, src, dst => do
    let comb := combine src dst
    oIncrModels cb ((src.length - comb.length) + (dst.length - comb.length))
    M.ofExcept (validatePairs (Dict.values comb))
    diffPairs (oDiffPair cb C (oDiffList cb C n)) (Dict.values comb)

/-- The first loop of `calculate_diffs`, /repo/diffsync/helpers.py:79-86. -/
def oCountSkipped (cb : Nat → Nat → M V E Unit) (C : DiffCtx V) (t : String) : M V E Unit :=
  if C.dst.topLevel.contains t then do
    let l ← getAll C.dst t
    oIncrModels cb l.length
  else if C.src.topLevel.contains t then do
    let l ← getAll C.src t
    oIncrModels cb l.length
  else pure ()

/-- The second loop of `calculate_diffs`, /repo/diffsync/helpers.py:88-95. -/
def oDiffTypes (cb : Nat → Nat → M V E Unit) (C : DiffCtx V) (n : Nat) : List String → List (Elem V) → M V E (List (Elem V))
  | [], kids => pure kids
  | t :: ts, kids => do
    let s ← getAllModels C.src t
    let d ← getAllModels C.dst t
    let es ← oDiffList cb C n s d
    let kids' ← M.ofExcept (addElems kids es)
    oDiffTypes cb C n ts kids'

/-- `Adapter.diff_from(source, callback=cb)`, /repo/diffsync/__init__.py:673-696, /repo/diffsync/helpers.py:40-100, with recursion limit `n`. -/
def oDiffFrom (cb : Nat → Nat → M V E Unit) (n : Nat) (dst src : Adapter V) (dc : DiffClass V) (flags : Nat) : M V E (Diff V) := do
  let ls ← lenAdapter src
  let ld ← lenAdapter dst
  M.modify (fun w => { w with dproc := 0, dtotal := ls + ld })
  let C : DiffCtx V := ⟨src, dst, flags⟩
  M.forEach (oCountSkipped cb C) (symmetricDifference dst.topLevel src.topLevel)
  let kids ← oDiffTypes cb C n (intersection dst.topLevel src.topLevel) []
  let w ← M.read
  pure { cls := dc, kids := kids, processed := w.dproc }

end DS
