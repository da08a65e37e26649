import Verif.Model.RenderAdapter
/-! Construction of adapters and Redis stores, and their texts -/

namespace DS
variable {V E : Type} [PyVal V]

/-- `x if x else y` for an optional string. -/
def orElseStr (x : Option String) (y : String) : String :=
  match x with
  | none => y
  | some s => if s = "" then y else s

/-- `self.type` after `Adapter.__init__`, /repo/diffsync/__init__.py:459-461; `type` is the class attribute. -/
def adapterType (className : String) (type : Option String) : String := type.getD className

/-- `self.name` after `Adapter.__init__`, /repo/diffsync/__init__.py:463-464. -/
def adapterNamed (className : String) (type name : Option String) : String := orElseStr name (adapterType className type)

/-- `str(adapter)` of an adapter that was constructed with `name`, /repo/diffsync/__init__.py:498-502. -/
def adapterText (className : String) (type name : Option String) : String := adapterName (adapterType className type) (adapterNamed className type name)

/-- `repr(adapter)`, /repo/diffsync/__init__.py:504-506. -/
def adapterRepr (className : String) (type name : Option String) : String := "<" ++ adapterText className type name ++ ">"

/-- The argument `internal_storage_engine`: the class `LocalStore`, whose new instance is `sid`, or an instance of a store. -/
inductive Engine where
  | newLocal (sid : Nat)
  | given (s : StoreKind)

/-- `Adapter.__init__`, /repo/diffsync/__init__.py:443-464 with `LocalStore.__init__`, /repo/diffsync/store/local.py:16-20.
`id`: identity of the new adapter; `top`, `classes`: of its class.  The attribute `store.adapter` is not kept in the model, which
uses the adapter through which an operation is called. -/
def adapterInit (id : Nat) (className : String) (type name : Option String) (top : List String) (classes : Dict (ModelClass V)) (eng : Engine) :
    M V E (Adapter V) :=
  match eng with
  | .newLocal sid => do
    M.modify (fun w => w.setLoc sid [])
    pure { ref := ⟨id, .local sid⟩, name := adapterNamed className type name, topLevel := top, classes := classes }
  | .given s => pure { ref := ⟨id, s⟩, name := adapterNamed className type name, topLevel := top, classes := classes }

/-- What a Redis client is made for: `Redis.from_url(url, db=db)` or `Redis(host=host, port=port, db=db)`. -/
inductive Target where
  | url (u : String) (db : Nat)
  | host (h : String) (port db : Nat)
  deriving DecidableEq, Repr

/-- What comes of making a client and of `ping()`: an answer (true or not), `redis.exceptions.ConnectionError`, or another exception. -/
inductive Contact where
  | answer (b : Bool)
  | connectionError
  | raises (e : Err)
  deriving DecidableEq, Repr

/-- Exceptions of `RedisStore.__init__`; `ObjectStoreException` itself, not one of its subclasses. -/
inductive InitErr where
  | valueError | objectStore
  | other (e : Err)
  deriving DecidableEq, Repr

/-- Arguments of `RedisStore.__init__`, /repo/diffsync/store/redis.py:27-36. -/
structure RedisArgs where
  storeId : Option String := none
  host : Option String := none
  port : Nat := 6379
  url : Option String := none
  db : Nat := 0

/-- The client that is made, /repo/diffsync/store/redis.py:43-49. -/
def redisTarget (a : RedisArgs) : Option Target :=
  if orElseStr a.url "" ≠ "" then some (.url (orElseStr a.url "") a.db)
  else if orElseStr a.host "" ≠ "" then some (.host (orElseStr a.host "") a.port a.db)
  else none

/-- `RedisStore.__init__`, /repo/diffsync/store/redis.py:27-58: the client and `_store_id`, or the exception.  `net` is the network, `uuid` the
result of `uuid.uuid4()`. -/
def redisInit (net : Target → Contact) (uuid : String) (a : RedisArgs) : Except InitErr (Target × String) :=
  if orElseStr a.url "" ≠ "" ∧ orElseStr a.host "" ≠ "" ∧ a.port ≠ 0 then .error .valueError
  else match redisTarget a with
    | none => .error .objectStore
    | some t =>
      match net t with
      | .answer true => .ok (t, orElseStr a.storeId uuid)
      | .answer false => .error .objectStore
      | .connectionError => .error .objectStore
      | .raises e => .error (.other e)

end DS
