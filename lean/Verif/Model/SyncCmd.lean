import Verif.Model.RedisCmd
import Verif.Model.Syncer
/-! # A sync into a Redis store as a client of the server

`Verif/Model/Syncer.lean` runs a sync in one go.  Here the syncer (/repo/diffsync/helpers.py:284-473), for a destination whose store is on a Redis
server, is written as the sequence of commands that it sends, with the work of the client's own process in between: so it may be killed between any two
commands.  The source's store may be local or on the same server.  `Verif/Props/SyncKilled.lean` proves that a client that is not interrupted does
what `performSync` does. -/

namespace DS
variable {V E : Type}

/-- A client with a memory of its own: the `World` but for `redis`, which it does not have and the commands go to instead (that field is
carried along unread).  Exceptions are part of the result, since the memory is kept. -/
def Cl (V E α : Type) : Type := World V E → Proc V (Except Err α × World V E)

namespace Cl
variable {α β : Type}

/-- Work in the client's own memory. -/
def lift (x : M V E α) : Cl V E α := fun w => .ret (.ok (x w))

/-- Sequencing: stop at the first exception. -/
def bind (x : Cl V E α) (f : α → Cl V E β) : Cl V E β := fun w =>
  Proc.bind (x w) (fun p => match p with
    | (.ok a, w') => f a w'
    | (.error e, w') => .ret (.ok (.error e, w')))

/-- `try: x except <p>: h`. -/
def tryCatch (x : Cl V E α) (p : Err → Bool) (h : Err → Cl V E α) : Cl V E α := fun w =>
  Proc.bind (x w) (fun q => match q with
    | (.ok a, w') => .ret (.ok (.ok a, w'))
    | (.error e, w') => if p e then h e w' else .ret (.ok (.error e, w')))

/-- Send a command and get the reply. -/
def send (c : Cmd V) : Cl V E c.Reply := fun w => .cmd c (fun x => .ret (.ok (.ok x, w)))

/-- `for a in l: f(a)`. -/
def forEach (f : α → Cl V E Unit) : List α → Cl V E Unit
  | [] => lift (M.pure ())
  | a :: l => bind (f a) (fun _ => forEach f l)

/-- `for a in l: acc = acc or f(a)`, evaluating `f(a)` each time (`acc |= f(a)`). -/
def orEach (f : α → Cl V E Bool) : List α → Bool → Cl V E Bool
  | [], acc => lift (M.pure acc)
  | a :: l, acc => bind (f a) (fun b => orEach f l (acc || b))

end Cl

variable [PyVal V]

/-- `_get_object_from_redis_key`, /repo/diffsync/store/redis.py:64-71. -/
def cLoad (A : Adapter V) (key : String) : Cl V E Ref :=
  Cl.bind (Cl.send (.get key)) fun (o? : Option (Obj V)) => match o? with
    | some o => Cl.lift (alloc { o with adapter := some A.ref })
    | none => Cl.lift (M.raise .objectNotFound)

/-- `store.get` after resolution of model and identifier, /repo/diffsync/store/local.py:47-49, /repo/diffsync/store/redis.py:109. -/
def cGetRaw (A : Adapter V) (t u : String) : Cl V E Ref :=
  match A.ref.store with
  | .local _ => Cl.lift (getRaw A t u)
  | .redis sid => cLoad A (redisKey sid t u)

/-- `Adapter.get`, /repo/diffsync/__init__.py:728-743. -/
def cGet (A : Adapter V) (model : ModelArg V) (ident : Ident V) : Cl V E Ref :=
  Cl.bind (Cl.lift (M.ofExcept (resolve A model ident))) fun p => cGetRaw A p.1 p.2

/-- `Adapter.get_or_none`, /repo/diffsync/__init__.py:745-765. -/
def cGetOrNone (A : Adapter V) (model : ModelArg V) (ident : Ident V) : Cl V E (Option Ref) :=
  Cl.tryCatch (Cl.bind (cGet A model ident) fun r => Cl.lift (M.pure (some r))) Err.isNotFound (fun _ => Cl.lift (M.pure none))

/-- `add`, /repo/diffsync/store/redis.py:154-184. -/
def cAdd (sid : String) (r : Ref) : Cl V E Unit :=
  Cl.bind (Cl.lift (deref r)) fun o =>
  Cl.bind (Cl.send (.get (redisKey sid o.m.type o.m.uid))) fun (o? : Option (Obj V)) => match o? with
    | some o' => if o'.m.dictEq o.m then Cl.lift (M.pure ()) else Cl.lift (M.raise .objectAlreadyExists)
    | none => Cl.send (.set (redisKey sid o.m.type o.m.uid) { o with adapter := none })

/-- `remove_item`, /repo/diffsync/store/redis.py:201-208. -/
def cRemoveItem (sid t u : String) : Cl V E Unit :=
  Cl.bind (Cl.send (.exist (redisKey sid t u))) fun (b : Bool) => match b with
    | true => Cl.send (.del (redisKey sid t u))
    | false => Cl.lift (M.raise .objectNotFound)

/-- Truth value of an adapter, i.e. `len(adapter)`, /repo/diffsync/__init__.py:508-510, /repo/diffsync/store/redis.py:210-220. -/
def cTruthy (a : Option AdRef) : Cl V E Bool :=
  match a with
  | none => Cl.lift (M.pure false)
  | some r =>
    match r.store with
    | .local _ => Cl.lift (fun w => (.ok (countStore r.store w != 0), w))
    | .redis sid => Cl.bind (Cl.send (.scan (storeLabel sid ++ ":"))) fun (ks : List String) => Cl.lift (M.pure (ks.length != 0))

/-- The first part of `remove`, /repo/diffsync/store/__init__.py:94-100. -/
def cRemoveOne (sid : String) (r : Ref) : Cl V E Unit :=
  Cl.bind (Cl.lift (deref r)) fun o =>
  Cl.bind (cRemoveItem sid o.m.type o.m.uid) fun _ =>
  Cl.bind (cTruthy o.adapter) fun b =>
  Cl.lift (if b then writeObj r { o with adapter := none } else M.pure ())

/-- `remove`, /repo/diffsync/store/__init__.py:84-116, with recursion limit `n`. -/
def cRemove (A : Adapter V) (sid : String) : Nat → Ref → Bool → Cl V E Unit
  | 0, _, _ => Cl.lift (M.raise .recursionError)
  | n + 1, r, removeChildren =>
    Cl.bind (Cl.lift (deref r)) fun o =>
    Cl.bind (cRemoveOne sid r) fun _ =>
    if removeChildren then
      Cl.forEach (fun c => Cl.tryCatch
          (Cl.bind (cLoad A (redisKey sid c.1 c.2)) fun k => cRemove A sid n k removeChildren)
          Err.isNotFound
          (fun _ => Cl.lift (M.emit (.childNotFound c.1 c.2 o.m.type o.m.uid))))
        (childRefs o.m)
    else Cl.lift (M.pure ())

/-- Retrieving the destination object, /repo/diffsync/helpers.py:359-365. -/
def cFetchDst (S : SyncCtx V E) (c : ModelClass V) (ids : Dict V) : Cl V E (Option Ref) :=
  Cl.tryCatch
    (Cl.bind (cGet S.dst (.cls c) (.dict ids)) fun r =>
     Cl.bind (Cl.lift (setStatus r .unknown)) fun _ => Cl.lift (M.pure (some r)))
    Err.isNotFound (fun _ => Cl.lift (M.pure none))

/-- Bookkeeping in the destination store after `sync_model`, /repo/diffsync/helpers.py:388-396. -/
def cApplyStore (S : SyncCtx V E) (sid : String) (action : Option Action) (parent : Option Ref) (r : Ref) (skipChildren : Bool) :
    Cl V E Unit :=
  match action with
  | some .create => Cl.bind (Cl.lift (withParent parent (fun p => addChildRef p r))) fun _ => cAdd sid r
  | some .delete => Cl.bind (Cl.lift (withParent parent (fun p => removeChildRef p r))) fun _ => cRemove S.dst sid S.rlimit r skipChildren
  | _ => Cl.lift (M.pure ())

/-- `sync_diff_element`, /repo/diffsync/helpers.py:335-407, with recursion limit `n`; `sid` is the store of the destination.  What `sync_model` does
(409-458), with the calls of user code, is work in the client's own process. -/
def cSyncElem (S : SyncCtx V E) (sid : String) : Nat → Elem V → Option Ref → Cl V E Bool
  | 0, _, _ => Cl.lift (M.raise .recursionError)
  | n + 1, e, parent =>
    Cl.bind (Cl.lift (enterElem S e)) fun c =>
    Cl.bind (cGetOrNone S.src (.cls c) (.dict e.keys)) fun _ =>
    Cl.bind (cFetchDst S c e.keys) fun dst =>
    Cl.bind (Cl.lift (dstFlags dst)) fun fl =>
    Cl.bind (if fl.1 && e.action == some .delete && !fl.2 then
        Cl.bind (Cl.orEach (fun k => cSyncElem S sid n k dst) (getChildren S.dc e.kids) false) fun _ => Cl.lift (M.pure ())
      else Cl.lift (M.pure ())) fun _ =>
    Cl.bind (Cl.lift (fun w => (.ok (w.sact, w.scls), w))) fun a =>
    Cl.bind (Cl.lift (syncModel S (a.2.getD c) a.1 dst e.keys (e.plus.getD []))) fun x =>
    match x.2 with
    | none => Cl.bind (Cl.lift (fun w => M.emit (.noObject w.slog) w)) fun _ => Cl.lift (M.pure x.1)
    | some r =>
      Cl.bind (cApplyStore S sid a.1 parent r fl.2) fun _ =>
      if a.1 == some .delete && fl.2 then Cl.lift (M.pure x.1)
      else Cl.bind (Cl.lift incrElements) fun _ =>
        if !fl.1 || !(a.1 == some .delete) then
          Cl.orEach (fun k => cSyncElem S sid n k (some r)) (getChildren S.dc e.kids) x.1
        else Cl.lift (M.pure x.1)

/-- `DiffSyncSyncer.__init__` and `perform_sync`, /repo/diffsync/helpers.py:290-333. -/
def cPerformSync (S : SyncCtx V E) (sid : String) (n : Nat) (d : Diff V) : Cl V E Bool :=
  Cl.bind (Cl.lift (M.modify (fun w => { w with sproc := 0, stotal := d.len, sact := none, scls := none, slog := ⟨none, "", ""⟩ }))) fun _ =>
  Cl.orEach (fun e => cSyncElem S sid n e none) (getChildren S.dc d.kids) false

end DS
