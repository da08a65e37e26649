import Verif.Model.RedisCmd
import Verif.Model.Differ
/-! # `diff_from` as a client of the Redis server

`Verif/Model/Differ.lean` computes a diff in one go.  Here the differ (/repo/diffsync/helpers.py) is written as the sequence of commands that its
reads of the two adapters send to the server, so that other clients may write to the stores between any two of them.
Simplification: the count of processed models and the progress callback are left out (`Verif/Model/DifferOpen.lean` has them). -/

namespace DS
variable {V : Type} [PyVal V]

/-- An adapter as a diff reads it: one whose store is in the process's own memory, where other clients do not reach, by its contents; one with a Redis
store by the commands that are sent. -/
inductive View (V : Type) where
  | held (all : String → List (Model V)) (find : String → String → Option (Model V))
  | server (A : Adapter V) (sid : String)

/-- `get_all` of the adapter, /repo/diffsync/store/local.py:51-65 and /repo/diffsync/store/redis.py:111-129. -/
def View.all : View V → String → Proc V (List (Model V))
  | .held all _, t => .ret (.ok (all t))
  | .server A sid, t => (pGetAll A sid t).bind fun os => .ret (.ok (os.map Obj.m))

/-- `get_by_uids` of the adapter, /repo/diffsync/store/local.py:67-90 and /repo/diffsync/store/redis.py:131-152. -/
def View.byUids : View V → List String → String → Proc V (List (Model V))
  | .held _ find, us, t => Proc.mapEach (fun u => match find t u with
      | some m => .ret (.ok m)
      | none => .ret (.error .objectNotFound)) us
  | .server A sid, us, t => (pGetByUids A sid us t).bind fun os => .ret (.ok (os.map Obj.m))

/-- `len(adapter)`, whose value only the progress callback gets to see, /repo/diffsync/store/redis.py:210-220. -/
def View.len : View V → Proc V Unit
  | .held _ _ => .ret (.ok ())
  | .server _ sid => (pCount sid none).bind fun _ => .ret (.ok ())

/-- `get_by_uids(getattr(obj, child_fieldname), child_type) if obj else []`, /repo/diffsync/helpers.py:275-276. -/
def qChildModels (v : View V) (o : Option (Model V)) (ct f : String) : Proc V (List (Model V)) :=
  match o with
  | none => .ret (.ok [])
  | some m =>
    match m.kidList f with
    | none => .ret (.error .attributeError)
    | some us => v.byUids us ct

/-- `children_mapping` of `diff_child_objects`, /repo/diffsync/helpers.py:249-268. -/
def qMapping : Option (Model V) → Option (Model V) → Except Err (Dict String)
  | some s, some d => .ok (s.cls.children.filter (fun p => Dict.has d.cls.children p.1))
  | some s, none => .ok s.cls.children
  | none, some d => .ok d.cls.children
  | none, none => .error .runtimeError

/-- The loop of `diff_child_objects`, /repo/diffsync/helpers.py:270-279; `kids` are the children attached so far, `rec` is `diff_object_list`. -/
def qChildLoop (vs vd : View V) (rec : List (Model V) → List (Model V) → Proc V (List (Elem V)))
    (src dst : Option (Model V)) : Dict String → List (Elem V) → Proc V (List (Elem V))
  | [], kids => .ret (.ok kids)
  | (ct, f) :: rest, kids =>
    Proc.bind (qChildModels vs src ct f) fun so =>
    Proc.bind (qChildModels vd dst ct f) fun d =>
    Proc.bind (rec so d) fun es =>
    Proc.bind (.ret (addElems kids es)) fun kids' =>
    qChildLoop vs vd rec src dst rest kids'

/-- `diff_object_pair` together with `diff_child_objects`, /repo/diffsync/helpers.py:163-281; `rec` is `diff_object_list`. -/
def qPair (C : DiffCtx V) (vs vd : View V) (rec : List (Model V) → List (Model V) → Proc V (List (Elem V)))
    (src dst : Option (Model V)) : Proc V (Option (Elem V)) :=
  match src.or dst with
  | none => .ret (.error .runtimeError)
  | some m =>
    if skipPair C.flags src dst then .ret (.ok none)
    else
      Proc.bind (.ret (qMapping src dst)) fun mapping =>
      Proc.bind (qChildLoop vs vd rec src dst mapping []) fun kids =>
      .ret (.ok (some { type := m.type, name := m.shortname, keys := m.identifiers,
                        srcName := C.src.name, dstName := C.dst.name,
                        src := src.map Model.attrs, dst := dst.map Model.attrs, kids := kids }))

/-- The loop of `diff_object_list`, /repo/diffsync/helpers.py:131-138. -/
def qPairs (pair : Option (Model V) → Option (Model V) → Proc V (Option (Elem V))) :
    List (Option (Model V) × Option (Model V)) → Proc V (List (Elem V))
  | [] => .ret (.ok [])
  | (s, d) :: ps =>
    Proc.bind (pair s d) fun e? =>
    Proc.bind (qPairs pair ps) fun es =>
    .ret (.ok (match e? with | some e => e :: es | none => es))

/-- `diff_object_list`, /repo/diffsync/helpers.py:102-138, with recursion limit `n`. -/
def qList (C : DiffCtx V) (vs vd : View V) : Nat → List (Model V) → List (Model V) → Proc V (List (Elem V))
  | 0, _, _ => .ret (.error .recursionError)
  | n + 1, src, dst =>
    Proc.bind (.ret (validatePairs (Dict.values (combine src dst)))) fun _ =>
    qPairs (qPair C vs vd (qList C vs vd n)) (Dict.values (combine src dst))

/-- The first loop of `calculate_diffs`, /repo/diffsync/helpers.py:79-86: it reads the objects only to count them. -/
def qSkipped (C : DiffCtx V) (vs vd : View V) (t : String) : Proc V Unit :=
  if C.dst.topLevel.contains t then Proc.bind (vd.all t) fun _ => .ret (.ok ())
  else if C.src.topLevel.contains t then Proc.bind (vs.all t) fun _ => .ret (.ok ())
  else .ret (.ok ())

/-- The second loop of `calculate_diffs`, /repo/diffsync/helpers.py:88-95. -/
def qTypes (C : DiffCtx V) (vs vd : View V) (n : Nat) : List String → List (Elem V) → Proc V (List (Elem V))
  | [], kids => .ret (.ok kids)
  | t :: ts, kids =>
    Proc.bind (vs.all t) fun s =>
    Proc.bind (vd.all t) fun d =>
    Proc.bind (qList C vs vd n s d) fun es =>
    Proc.bind (.ret (addElems kids es)) fun kids' =>
    qTypes C vs vd n ts kids'

/-- `DiffSyncDiffer.__init__` and `calculate_diffs`, /repo/diffsync/helpers.py:40-100, i.e. `Adapter.diff_from`, /repo/diffsync/__init__.py:673-696, up to
the elements of the diff, with recursion limit `n`. -/
def qDiff (C : DiffCtx V) (vs vd : View V) (n : Nat) : Proc V (List (Elem V)) :=
  Proc.bind vs.len fun _ =>
  Proc.bind vd.len fun _ =>
  Proc.bind (Proc.forEach (qSkipped C vs vd) (symmetricDifference C.dst.topLevel C.src.topLevel)) fun _ =>
  qTypes C vs vd n (intersection C.dst.topLevel C.src.topLevel) []

end DS
