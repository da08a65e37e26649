import Verif.Model.Obj
import Verif.Model.Diff
/-!
# The world: heap, stores, user code, observable events; and the state+exception monad
-/

namespace DS

/-- Address of a `DiffSyncModel` instance: Python object identity (`is`,
/repo/diffsync/store/local.py:105, 125). -/
abbrev Ref := Nat

/-- A call of a user-overridable method made by the syncer (/repo/diffsync/helpers.py:430, 434, 438). -/
inductive CrudCall (V : Type) where
  | create (type : String) (ids attrs : Dict V)
  | update (type uid : String) (attrs : Dict V)
  | delete (type uid : String)
  deriving DecidableEq

/-- How a user-overridable method ends. -/
inductive HookResult where
  /-- returns the object (`self`, or the created object) -/
  | object
  /-- returns `None` -/
  | none
  /-- raises -/
  | raises (e : Err)
  deriving DecidableEq

/-- Behaviour of one call of a user method: whether it calls the base method
(`update_base`, /repo/diffsync/__init__.py:247-263; `delete_base`, 283-292), a status it then sets
(`set_status`, 203-206), and how it ends.  A `create` that returns an object has called `create_base`
(208-224). -/
structure Outcome where
  applied : Bool := true
  status : Option (Status × String) := .none
  result : HookResult := .object
  deriving DecidableEq

/-- Log level of an outcome record (/repo/diffsync/helpers.py:465-473). -/
inductive Level where
  | debug | info | warning | error
  deriving DecidableEq, Repr

/-- The logger binding `action`/`model`/`unique_id` (/repo/diffsync/helpers.py:345-350). -/
structure LogCtx where
  action : Option Action
  model : String
  uid : String
  deriving DecidableEq, Repr

/-- Observable events, in the order they happen. -/
inductive Event (V : Type) where
  /-- `callback("diff", current, total)`, /repo/diffsync/helpers.py:66-67 -/
  | diffProgress (current total : Nat)
  /-- `callback("sync", current, total)`, /repo/diffsync/helpers.py:319-320 -/
  | syncProgress (current total : Nat)
  /-- a call of user code and how it ended -/
  | call (c : CrudCall V) (out : Outcome)
  /-- an outcome record, /repo/diffsync/helpers.py:460-473 -/
  | log (level : Level) (ctx : LogCtx) (status : Status)
  /-- "No object resulted from sync", /repo/diffsync/helpers.py:385 -/
  | noObject (ctx : LogCtx)
  /-- "Unable to remove child element as it was not found!", /repo/diffsync/store/__init__.py:110 -/
  | childNotFound (childType childUid parentType parentUid : String)
  /-- `sync_complete(source, diff, flags, logger)` on the adapter `dst`, /repo/diffsync/__init__.py:618 -/
  | syncComplete (dst src : Nat)
  deriving DecidableEq

/-- User code: an arbitrary state machine over its own state `E`, deciding the outcome of each
`create`/`update`/`delete` call (/repo/diffsync/__init__.py:226-307).  Simplifications: user methods do not touch the adapters
themselves, and return `self`/the created object rather than some other object. -/
def Hooks (V E : Type) := E → CrudCall V → Outcome × E

/-- The methods as inherited from `DiffSyncModel`, /repo/diffsync/__init__.py:245, 281, 307. -/
def Hooks.default (V E : Type) : Hooks V E := fun e _ => ({}, e)

/-- Everything that can change. -/
structure World (V E : Type) where
  /-- Python heap: instances by address -/
  heap : Ref → Obj V
  /-- addresses `≥ next` are unused -/
  next : Ref
  /-- `LocalStore._data` per store instance, /repo/diffsync/store/local.py:20 -/
  loc : Nat → Dict (Dict Ref)
  /-- contents of the Redis server: key ↦ pickled object, /repo/diffsync/store/redis.py:184 -/
  redis : Dict (Obj V)
  /-- state of user code -/
  env : E
  /-- events so far, oldest first -/
  trace : List (Event V)
  /-- `DiffSyncDiffer.models_processed` / `total_models`, /repo/diffsync/helpers.py:58-59 -/
  dproc : Nat := 0
  dtotal : Nat := 0
  /-- `DiffSyncSyncer.elements_processed` / `total_elements`, /repo/diffsync/helpers.py:305-306 -/
  sproc : Nat := 0
  stotal : Nat := 0
  /-- `DiffSyncSyncer.action`, /repo/diffsync/helpers.py:313 -/
  sact : Option Action := none
  /-- `DiffSyncSyncer.model_class`, /repo/diffsync/helpers.py:312 -/
  scls : Option (ModelClass V) := none
  /-- the binding of `DiffSyncSyncer.logger`, /repo/diffsync/helpers.py:311 -/
  slog : LogCtx := ⟨none, "", ""⟩

/-- A computation that may read and change the world and may raise; the world at the moment of the
exception is kept. -/
abbrev M (V E α : Type) := World V E → Except Err α × World V E

namespace M
variable {V E α β : Type}

/-- Return a value. -/
def pure (a : α) : M V E α := fun w => (.ok a, w)
/-- Sequencing: stop at the first exception. -/
def bind (x : M V E α) (f : α → M V E β) : M V E β := fun w =>
  match x w with
  | (.ok a, w') => f a w'
  | (.error e, w') => (.error e, w')

instance : Monad (M V E) where
  pure := M.pure
  bind := M.bind

/-- `raise e` -/
def raise (e : Err) : M V E α := fun w => (.error e, w)
/-- Read the world. -/
def read : M V E (World V E) := fun w => (.ok w, w)
/-- Change the world. -/
def modify (f : World V E → World V E) : M V E Unit := fun w => (.ok (), f w)
/-- `try: x except <p>: h` -/
def tryCatch (x : M V E α) (p : Err → Bool) (h : Err → M V E α) : M V E α := fun w =>
  match x w with
  | (.ok a, w') => (.ok a, w')
  | (.error e, w') => if p e then h e w' else (.error e, w')
/-- `try: x except <p> as e: ...`, giving the exception to the code that follows. -/
def attempt (x : M V E α) (p : Err → Bool) : M V E (Except Err α) := fun w =>
  match x w with
  | (.ok a, w') => (.ok (.ok a), w')
  | (.error e, w') => if p e then (.ok (.error e), w') else (.error e, w')
/-- Turn a pure result into a computation. -/
def ofExcept (r : Except Err α) : M V E α := fun w => (r, w)
/-- Turn an optional result into a computation, raising `e` if absent. -/
def ofOption (e : Err) (r : Option α) : M V E α := fun w =>
  match r with
  | some a => (.ok a, w)
  | none => (.error e, w)
/-- Emit an event. -/
def emit (ev : Event V) : M V E Unit := modify (fun w => { w with trace := w.trace ++ [ev] })
/-- `for a in l: f(a)` -/
def forEach (f : α → M V E Unit) : List α → M V E Unit
  | [] => M.pure ()
  | a :: l => M.bind (f a) (fun _ => forEach f l)
/-- `[f(a) for a in l]` -/
def mapEach (f : α → M V E β) : List α → M V E (List β)
  | [] => M.pure []
  | a :: l => M.bind (f a) (fun b => M.bind (mapEach f l) (fun bs => M.pure (b :: bs)))
/-- `for a in l: acc = acc or f(a)`, evaluating `f(a)` each time (`acc |= f(a)`). -/
def orEach (f : α → M V E Bool) : List α → Bool → M V E Bool
  | [], acc => M.pure acc
  | a :: l, acc => M.bind (f a) (fun b => orEach f l (acc || b))

end M

/-- An `Adapter` subclass instance (/repo/diffsync/__init__.py:431-464): identity and store, `name`,
`top_level`, and the model classes that are attributes of the class, in the order of `dir(cls)`. -/
structure Adapter (V : Type) where
  ref : AdRef
  name : String := ""
  topLevel : List String
  classes : Dict (ModelClass V)

/-- `Adapter.__init_subclass__`, /repo/diffsync/__init__.py:466-483: each class attribute has the name of
its model, and `top_level` names class attributes.  -/
def Adapter.validate {V : Type} (A : Adapter V) : Except Err Unit :=
  if A.classes.any (fun p => !(p.2.name == p.1)) then .error .attributeError
  else if A.topLevel.any (fun t => !Dict.has A.classes t) then .error .attributeError
  else .ok ()

end DS
