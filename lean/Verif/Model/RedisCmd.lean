import Verif.Model.Store
/-! # The Redis store as a client of the server

`Verif/Model/Store.lean` runs each method of `RedisStore` in one go.  Here the methods are written as the sequences of commands that they
send to the server (/repo/diffsync/store/redis.py), so that commands of other clients of the same server can come in between.
`Verif/Props/RedisSeq.lean` proves that a client that is not interrupted does what the methods of `Verif/Model/Store.lean` do. -/

namespace DS
variable {V : Type}

/-- The commands that redis.py sends: `GET` (66, 169), `SET` (184, 199), `EXISTS` (205), `DEL` (208), and `SCAN` with the
pattern `pfx*` (81, 126, 220).  Simplification: values are objects rather than their pickles. -/
inductive Cmd (V : Type) where
  | get (key : String)
  | set (key : String) (o : Obj V)
  | exist (key : String)
  | del (key : String)
  | scan (pfx : String)

/-- What the server answers. -/
def Cmd.Reply : Cmd V → Type
  | .get _ => Option (Obj V)
  | .set _ _ => Unit
  | .exist _ => Bool
  | .del _ => Unit
  | .scan _ => List String

/-- A client: it has ended with a result or an exception, or it sends a command and goes on with the reply. -/
inductive Proc (V : Type) (α : Type) where
  | ret (r : Except Err α)
  | cmd (c : Cmd V) (k : c.Reply → Proc V α)

namespace Proc
variable {α β : Type}

/-- `p; k(result)`: an exception of `p` ends the client. -/
def bind : Proc V α → (α → Proc V β) → Proc V β
  | .ret (.ok a), k => k a
  | .ret (.error e), _ => .ret (.error e)
  | .cmd c f, k => .cmd c (fun x => bind (f x) k)

instance : Monad (Proc V) where
  pure a := .ret (.ok a)
  bind := bind

/-- `try: p except ...: h`. -/
def tryCatch : Proc V α → (Err → Bool) → (Err → Proc V α) → Proc V α
  | .ret (.ok a), _, _ => .ret (.ok a)
  | .ret (.error e), sel, h => if sel e then h e else .ret (.error e)
  | .cmd c f, sel, h => .cmd c (fun x => tryCatch (f x) sel h)

/-- `[f(x) for x in l]`. -/
def mapEach {γ : Type} (f : γ → Proc V α) : List γ → Proc V (List α)
  | [] => .ret (.ok [])
  | x :: xs => bind (f x) (fun a => bind (mapEach f xs) (fun as => .ret (.ok (a :: as))))

/-- `for x in l: f(x)`. -/
def forEach {γ : Type} (f : γ → Proc V Unit) : List γ → Proc V Unit
  | [] => .ret (.ok ())
  | x :: xs => bind (f x) (fun _ => forEach f xs)

end Proc

section
variable [PyVal V]

/-- `_get_object_from_redis_key`, /repo/diffsync/store/redis.py:64-71. -/
def pLoad (A : Adapter V) (key : String) : Proc V (Obj V) :=
  .cmd (.get key) (fun o? => match o? with
    | some o => .ret (.ok { o with adapter := some A.ref })
    | none => .ret (.error .objectNotFound))

/-- `get`, /repo/diffsync/store/redis.py:92-109, after resolution of model and identifier. -/
def pGet (A : Adapter V) (sid t u : String) : Proc V (Obj V) := pLoad A (redisKey sid t u)

/-- `get_all`, /repo/diffsync/store/redis.py:111-129. -/
def pGetAll (A : Adapter V) (sid t : String) : Proc V (List (Obj V)) :=
  .cmd (.scan (storeLabel sid ++ (":" ++ (t ++ ":")))) (fun ks => Proc.mapEach (pLoad A) ks)

/-- `get_by_uids`, /repo/diffsync/store/redis.py:131-152. -/
def pGetByUids (A : Adapter V) (sid : String) (uids : List String) (t : String) : Proc V (List (Obj V)) :=
  Proc.mapEach (fun u => pGet A sid t u) uids

/-- `add`, /repo/diffsync/store/redis.py:154-184. -/
def pAdd (sid : String) (o : Obj V) : Proc V Unit :=
  .cmd (.get (redisKey sid o.m.type o.m.uid)) (fun o? => match o? with
    | some o' => if o'.m.dictEq o.m then .ret (.ok ()) else .ret (.error .objectAlreadyExists)
    | none => .cmd (.set (redisKey sid o.m.type o.m.uid) { o with adapter := none }) (fun _ => .ret (.ok ())))

/-- `update`, /repo/diffsync/store/redis.py:186-199. -/
def pUpdate (sid : String) (o : Obj V) : Proc V Unit :=
  .cmd (.set (redisKey sid o.m.type o.m.uid) { o with adapter := none }) (fun _ => .ret (.ok ()))

/-- `remove_item`, /repo/diffsync/store/redis.py:201-208. -/
def pRemoveItem (sid t u : String) : Proc V Unit :=
  .cmd (.exist (redisKey sid t u)) (fun b => match b with
    | true => .cmd (.del (redisKey sid t u)) (fun _ => .ret (.ok ()))
    | false => .ret (.error .objectNotFound))

/-- `remove`, /repo/diffsync/store/__init__.py:84-116, with recursion limit `n`.  Simplification: the `len(adapter)` of
`if obj.adapter` (99), which reads only, and the log record (109) are left out. -/
def pRemove (A : Adapter V) (sid : String) : Nat → Model V → Bool → Proc V Unit
  | 0, _, _ => .ret (.error .recursionError)
  | n + 1, m, removeChildren =>
    Proc.bind (pRemoveItem sid m.type m.uid) (fun _ =>
      if removeChildren then
        Proc.forEach (fun c => Proc.tryCatch (Proc.bind (pGet A sid c.1 c.2) (fun o => pRemove A sid n o.m removeChildren))
          Err.isNotFound (fun _ => .ret (.ok ()))) (childRefs m)
      else .ret (.ok ()))

/-- `count`, /repo/diffsync/store/redis.py:210-220, and `len(adapter)`. -/
def pCount (sid : String) : Option (ModelArg V) → Proc V Nat
  | none => .cmd (.scan (storeLabel sid ++ ":")) (fun ks => .ret (.ok ks.length))
  | some a => .cmd (.scan (storeLabel sid ++ (":" ++ (a.modelName.toLower ++ ":")))) (fun ks => .ret (.ok ks.length))

/-- `get_all_model_names`, /repo/diffsync/store/redis.py:73-87. -/
def pModelNames (sid : String) : Proc V (List String) :=
  .cmd (.scan (storeLabel sid ++ ":")) (fun ks =>
    .ret (.ok (dedup (ks.filterMap (fun k => (getAllModelNames.splitColon k.toList)[2]?.map String.ofList)))))

end

/-! ## The server -/

/-- One command on the server's data.  `SCAN` is shown as if it were atomic: see `Spec/Concurrent.lean` for what it is when other clients
are at work. -/
def Cmd.exec : (c : Cmd V) → Dict (Obj V) → c.Reply × Dict (Obj V)
  | .get k, d => (Dict.get? d k, d)
  | .set k o, d => ((), Dict.set d k o)
  | .exist k, d => (Dict.has d k, d)
  | .del k, d => ((), Dict.erase d k)
  | .scan p, d => (scanKeys d p, d)

/-- A client that is alone on the server. -/
def Proc.run {α : Type} : Proc V α → Dict (Obj V) → Except Err α × Dict (Obj V)
  | .ret r, d => (r, d)
  | .cmd c k, d => Proc.run (k (c.exec d).1) (c.exec d).2

end DS
