import Verif.Model.World
import Verif.Model.Glob
/-! # Stores (/repo/diffsync/store/__init__.py, local.py, redis.py) -/

namespace DS
variable {V E : Type} [PyVal V]

/-- How callers name a model: a string, or a class (or instance, which is used only for its class)
(/repo/diffsync/store/__init__.py:245-252). -/
inductive ModelArg (V : Type) where
  | name (s : String)
  | cls (c : ModelClass V)

/-- How callers name an object: unique id or identifier dictionary (/repo/diffsync/store/__init__.py:263-266). -/
inductive Ident (V : Type) where
  | uid (s : String)
  | dict (d : Dict V)

/-- The model name of a model argument (/repo/diffsync/store/local.py:60-63). -/
def ModelArg.modelName : ModelArg V → String
  | .name s => s
  | .cls c => c.name

/-! ## Heap -/

/-- The instance at an address. -/
def deref (r : Ref) : M V E (Obj V) := fun w => (.ok (w.heap r), w)

/-- Overwrite the instance at an address. -/
def World.setObj (w : World V E) (r : Ref) (o : Obj V) : World V E :=
  { w with heap := fun r' => if r' = r then o else w.heap r' }

/-- Mutate an instance. -/
def writeObj (r : Ref) (o : Obj V) : M V E Unit := M.modify (fun w => w.setObj r o)

/-- Create an instance. -/
def alloc (o : Obj V) : M V E Ref := fun w =>
  (.ok w.next, { w.setObj w.next o with next := w.next + 1 })

/-! ## Redis keys -/

/-- `_store_label`, /repo/diffsync/store/redis.py:21, 58. -/
def storeLabel (sid : String) : String := "diffsync:" ++ sid

/-- `_get_key_for_object`, /repo/diffsync/store/redis.py:89-90. -/
def redisKey (sid modelname uid : String) : String := storeLabel sid ++ (":" ++ (modelname ++ (":" ++ uid)))

/-- `scan_iter(pfx + "*")` (/repo/diffsync/store/redis.py:81, 126, 220): the keys that match the pattern.
Simplification: in insertion order, each key once. -/
def scanKeys (d : Dict (Obj V)) (pfx : String) : List String := (Dict.keys d).filter (globMatch (pfx ++ "*"))

/-! ## Reading -/

/-- `self._data[modelname]` on a `defaultdict(dict)`: creates an empty entry when absent
(/repo/diffsync/store/local.py:20, 47, 65, 86, 103, 124, 132, 145). -/
def touch (d : Dict (Dict Ref)) (t : String) : Dict (Dict Ref) :=
  if Dict.has d t then d else Dict.set d t []

/-- Change a local store's `_data`. -/
def World.setLoc (w : World V E) (sid : Nat) (d : Dict (Dict Ref)) : World V E :=
  { w with loc := fun s => if s = sid then d else w.loc s }

/-- Evaluate `self._data[modelname]`. -/
def localModel (sid : Nat) (t : String) : M V E (Dict Ref) := fun w =>
  let d := touch (w.loc sid) t
  (.ok ((Dict.get? d t).getD []), w.setLoc sid d)

/-- `_get_object_from_redis_key`, /repo/diffsync/store/redis.py:64-71: a fresh instance each time. -/
def redisLoad (A : Adapter V) (key : String) : M V E Ref := fun w =>
  match Dict.get? w.redis key with
  | some o => alloc { o with adapter := some A.ref } w
  | none => (.error .objectNotFound, w)

/-- `store.get` after resolution of model and identifier: /repo/diffsync/store/local.py:47-49,
/repo/diffsync/store/redis.py:109. -/
def getRaw (A : Adapter V) (t u : String) : M V E Ref :=
  match A.ref.store with
  | .local sid => do
    let d ← localModel sid t
    M.ofOption .objectNotFound (Dict.get? d u)
  | .redis sid => redisLoad A (redisKey sid t u)

/-- `_get_object_class_and_model` and `_get_uid`, /repo/diffsync/store/__init__.py:241-272: the model name and the
unique id; `ValueError` for a dictionary with an unknown model name, `KeyError` for a missing
identifier.  Simplification: `hasattr(self.adapter, model)` is taken to mean a model class attribute. -/
def resolve (A : Adapter V) (model : ModelArg V) (ident : Ident V) : Except Err (String × String) :=
  let cls? := match model with
    | .name s => Dict.get? A.classes s
    | .cls c => some c
  match ident with
  | .uid s => .ok (model.modelName, s)
  | .dict d =>
    match cls? with
    | none => .error .valueError
    | some c =>
      match c.createUniqueId d with
      | some u => .ok (model.modelName, u)
      | none => .error .keyError

/-- `Adapter.get` / `store.get`, /repo/diffsync/__init__.py:728-743, /repo/diffsync/store/local.py:30-49,
/repo/diffsync/store/redis.py:92-109. -/
def get (A : Adapter V) (model : ModelArg V) (ident : Ident V) : M V E Ref := do
  let (t, u) ← M.ofExcept (resolve A model ident)
  getRaw A t u

/-- `except ObjectNotFound`. -/
def Err.isNotFound : Err → Bool
  | .objectNotFound => true
  | _ => false

/-- `Adapter.get_or_none`, /repo/diffsync/__init__.py:745-765. -/
def getOrNone (A : Adapter V) (model : ModelArg V) (ident : Ident V) : M V E (Option Ref) :=
  M.tryCatch (do let r ← get A model ident; pure (some r)) Err.isNotFound (fun _ => pure none)

/-- `get_all`, /repo/diffsync/store/local.py:51-65, /repo/diffsync/store/redis.py:111-129. -/
def getAll (A : Adapter V) (t : String) : M V E (List Ref) :=
  match A.ref.store with
  | .local sid => do
    let d ← localModel sid t
    pure (Dict.values d)
  | .redis sid => do
    let w ← M.read
    M.mapEach (redisLoad A) (scanKeys w.redis (storeLabel sid ++ (":" ++ (t ++ ":"))))

/-- `get_by_uids`, /repo/diffsync/store/local.py:67-89, /repo/diffsync/store/redis.py:131-152. -/
def getByUids (A : Adapter V) (uids : List String) (t : String) : M V E (List Ref) :=
  M.mapEach (fun u => getRaw A t u) uids

/-- `get_all_model_names`, /repo/diffsync/store/local.py:22-28, /repo/diffsync/store/redis.py:73-87; a Python set, as
a duplicate-free list.  For Redis: the third `:`-separated part of each key.  Simplification: a key with fewer parts is left out, where the code raises
`IndexError`; no key that a store writes is like that. -/
def getAllModelNames (A : Adapter V) : M V E (List String) := fun w =>
  match A.ref.store with
  | .local sid => (.ok (Dict.keys (w.loc sid)), w)
  | .redis sid =>
    (.ok (dedup ((scanKeys w.redis (storeLabel sid ++ ":")).filterMap
      (fun k => (splitColon k.toList)[2]?.map String.ofList))), w)
where
  /-- `item.split(b":")`, /repo/diffsync/store/redis.py:84. -/
  splitColon : List Char → List (List Char)
    | [] => [[]]
    | c :: cs =>
      if c = ':' then [] :: splitColon cs
      else match splitColon cs with
        | [] => [[c]]
        | p :: ps => (c :: p) :: ps

/-- `count()`, /repo/diffsync/store/local.py:136-139, /repo/diffsync/store/redis.py:210-220. -/
def countStore (k : StoreKind) (w : World V E) : Nat :=
  match k with
  | .local sid => ((w.loc sid).map (fun p => p.2.length)).sum
  | .redis sid => (scanKeys w.redis (storeLabel sid ++ ":")).length

/-- `len(adapter)`, /repo/diffsync/__init__.py:508-510. -/
def lenAdapter (A : Adapter V) : M V E Nat := fun w => (.ok (countStore A.ref.store w), w)

/-- `count(model)`, /repo/diffsync/store/local.py:136-145, /repo/diffsync/store/redis.py:210-220.  In the local store an
empty model name counts as "no model" (`if not model`); the Redis store lower-cases the name. -/
def count (A : Adapter V) (model : Option (ModelArg V)) : M V E Nat := fun w =>
  match A.ref.store, model with
  | .local sid, some (.name s) =>
    if s = "" then lenAdapter A w
    else match localModel sid s w with
      | (.ok d, w') => (.ok d.length, w')
      | (.error e, w') => (.error e, w')
  | .local sid, some (.cls c) =>
    match localModel sid c.name w with
      | (.ok d, w') => (.ok d.length, w')
      | (.error e, w') => (.error e, w')
  | .redis sid, some a =>
    (.ok (scanKeys w.redis (storeLabel sid ++ (":" ++ (a.modelName.toLower ++ ":")))).length, w)
  | _, none => lenAdapter A w

/-! ## Writing -/

/-- Truth value of an adapter: `Adapter` defines `__len__` (/repo/diffsync/__init__.py:508-510), so an adapter is
"false" while its store is empty (used at /repo/diffsync/store/local.py:110, /repo/diffsync/store/__init__.py:99). -/
def adapterTruthy (a : Option AdRef) (w : World V E) : Bool :=
  match a with
  | none => false
  | some r => countStore r.store w != 0

/-- `add`, /repo/diffsync/store/local.py:91-113, /repo/diffsync/store/redis.py:154-184. -/
def add (A : Adapter V) (r : Ref) : M V E Unit := do
  let o ← deref r
  let t := o.m.type
  let u := o.m.uid
  match A.ref.store with
  | .local sid =>
    let d ← localModel sid t
    match Dict.get? d u with
    | some r' => if r' = r then pure () else M.raise .objectAlreadyExists
    | none =>
      let w ← M.read
      if adapterTruthy o.adapter w then pure () else writeObj r { o with adapter := some A.ref }
      M.modify (fun w => w.setLoc sid (Dict.set (w.loc sid) t (Dict.set d u r)))
  | .redis sid =>
    let w ← M.read
    match Dict.get? w.redis (redisKey sid t u) with
    | some o' => if o'.m.dictEq o.m then pure () else M.raise .objectAlreadyExists
    | none => M.modify (fun w => { w with redis := Dict.set w.redis (redisKey sid t u) { o with adapter := none } })

/-- `update`, /repo/diffsync/store/local.py:115-128, /repo/diffsync/store/redis.py:186-199. -/
def update (A : Adapter V) (r : Ref) : M V E Unit := do
  let o ← deref r
  let t := o.m.type
  let u := o.m.uid
  match A.ref.store with
  | .local sid =>
    let d ← localModel sid t
    if Dict.get? d u = some r then pure ()
    else M.modify (fun w => w.setLoc sid (Dict.set (w.loc sid) t (Dict.set d u r)))
  | .redis sid =>
    M.modify (fun w => { w with redis := Dict.set w.redis (redisKey sid t u) { o with adapter := none } })

/-- `remove_item`, /repo/diffsync/store/local.py:130-134, /repo/diffsync/store/redis.py:201-208. -/
def removeItem (A : Adapter V) (t u : String) : M V E Unit :=
  match A.ref.store with
  | .local sid => do
    let d ← localModel sid t
    if Dict.has d u then M.modify (fun w => w.setLoc sid (Dict.set (w.loc sid) t (Dict.erase d u)))
    else M.raise .objectNotFound
  | .redis sid => do
    let w ← M.read
    if Dict.has w.redis (redisKey sid t u) then
      M.modify (fun w => { w with redis := Dict.erase w.redis (redisKey sid t u) })
    else M.raise .objectNotFound

/-- The (child type, child id) pairs visited by the two nested loops of `remove`,
/repo/diffsync/store/__init__.py:103-104. -/
def childRefs (m : Model V) : List (String × String) :=
  m.cls.children.flatMap (fun p => ((m.kidList p.2).getD []).map (fun u => (p.1, u)))

/-- The first part of `remove`, /repo/diffsync/store/__init__.py:94-100: drop the item, detach the adapter (only if
the adapter is still "true", i.e. not empty). -/
def removeOne (A : Adapter V) (r : Ref) : M V E Unit := do
  let o ← deref r
  removeItem A o.m.type o.m.uid
  let w ← M.read
  if adapterTruthy o.adapter w then writeObj r { o with adapter := none } else pure ()

/-- `remove`, /repo/diffsync/store/__init__.py:84-116, with recursion limit `n`. -/
def remove (A : Adapter V) : Nat → Ref → Bool → M V E Unit
  | 0, _, _ => M.raise .recursionError
  | n + 1, r, removeChildren => do
    let o ← deref r
    removeOne A r
    if removeChildren then
      M.forEach (fun c => M.tryCatch
          (do let k ← getRaw A c.1 c.2
              remove A n k removeChildren)
          Err.isNotFound
          (fun _ => M.emit (.childNotFound c.1 c.2 o.m.type o.m.uid)))
        (childRefs o.m)
    else pure ()

/-! ## Convenience methods (/repo/diffsync/store/__init__.py:141-239) -/

/-- `get_or_instantiate`, /repo/diffsync/store/__init__.py:141-165. -/
def getOrInstantiate (A : Adapter V) (c : ModelClass V) (ids attrs : Dict V) : M V E (Ref × Bool) :=
  M.tryCatch (do let r ← get A (.cls c) (.dict ids); pure (r, false)) Err.isNotFound (fun _ => do
    let m ← M.ofExcept (c.construct ids attrs)
    let r ← alloc { m := m }
    add A r
    pure (r, true))

/-- `get_or_add_model_instance`, /repo/diffsync/store/__init__.py:167-183. -/
def getOrAddInstance (A : Adapter V) (r : Ref) : M V E (Ref × Bool) := do
  let o ← deref r
  M.tryCatch (do let r' ← get A (.name o.m.type) (.uid o.m.uid); pure (r', false)) Err.isNotFound (fun _ => do
    add A r
    pure (r, true))

/-- `for attr, value in attrs.items(): setattr(obj, attr, value)` on a heap object
(/repo/diffsync/store/__init__.py:236-237). -/
def setattrsRef (r : Ref) (attrs : Dict V) : M V E Unit := do
  let o ← deref r
  let (m', e?) := o.m.setattrs attrs
  writeObj r { o with m := m' }
  match e? with
  | none => pure ()
  | some e => M.raise e

/-- `for attr, value in attrs.items(): if getattr(obj, attr) != value: setattr(obj, attr, value)`
(/repo/diffsync/store/__init__.py:208-210); `getattr` of an unknown attribute is an `AttributeError`. -/
def setattrsIfDiff (m : Model V) : Dict V → Model V × Option Err
  | [] => (m, none)
  | (k, v) :: d =>
    match Dict.get? m.vals k with
    | none => (m, some .attributeError)
    | some v0 =>
      if PyVal.eq v0 v then setattrsIfDiff m d
      else match m.setattr k v with
        | .ok m' => setattrsIfDiff m' d
        | .error e => (m, some e)

/-- `update_or_instantiate`, /repo/diffsync/store/__init__.py:185-212. -/
def updateOrInstantiate (A : Adapter V) (c : ModelClass V) (ids attrs : Dict V) : M V E (Ref × Bool) := do
  let (r, created) ← M.tryCatch (do let r ← get A (.cls c) (.dict ids); pure (r, false)) Err.isNotFound (fun _ => do
    let m ← M.ofExcept (c.construct ids attrs)
    let r ← alloc { m := m }
    add A r
    pure (r, true))
  let o ← deref r
  let (m', e?) := setattrsIfDiff o.m attrs
  writeObj r { o with m := m' }
  match e? with
  | none => pure (r, created)
  | some e => M.raise e

/-- `update_or_add_model_instance`, /repo/diffsync/store/__init__.py:214-239. -/
def updateOrAddInstance (A : Adapter V) (r : Ref) : M V E (Ref × Bool) := do
  let o ← deref r
  let (r', added) ← M.tryCatch (do let r' ← get A (.name o.m.type) (.uid o.m.uid); pure (r', false)) Err.isNotFound (fun _ => do
    add A r
    pure (r, true))
  setattrsRef r' o.m.attrs
  pure (r', added)

end DS
