import Verif.Model.Store
import Verif.Spec.Differ
/-! # What a store should be: a map

Stated without reference to `LocalStore` or `RedisStore`. -/

namespace DS

/-- The state of any number of stores: for each store, model name and unique id, what is stored there. -/
abbrev Maps (α : Type) := StoreKind → String → String → Option α

/-- The state with one entry replaced. -/
def Maps.put {α : Type} (m : Maps α) (k : StoreKind) (t u : String) (a : Option α) : Maps α :=
  fun k' t' u' => if k' = k ∧ t' = t ∧ u' = u then a else m k' t' u'

/-- Operations of a store on objects and keys (`remove` is `remove(obj)` without children). -/
inductive StoreOp where
  | add (r : Ref)
  | update (r : Ref)
  | remove (r : Ref)
  | get (t u : String)
  | getOrNone (t u : String)
  | getAll (t : String)

/-- One operation on the store `k` of a map-like state.  `key r` is the model name and unique id of the object `r`,
`val r` what storing `r` stores, `same` decides whether adding something that is already there is a no-op.  Results:
the list of what is returned, or the exception. -/
inductive MapStep {α : Type} (key : Ref → String × String) (val : Ref → α) (same : α → α → Prop) (k : StoreKind) :
    StoreOp → Maps α → Except Err (List α) → Maps α → Prop where
  | addNew {m r} : m k (key r).1 (key r).2 = none →
      MapStep key val same k (.add r) m (.ok []) (m.put k (key r).1 (key r).2 (some (val r)))
  | addSame {m r a} : m k (key r).1 (key r).2 = some a → same a (val r) → MapStep key val same k (.add r) m (.ok []) m
  | addOther {m r a} : m k (key r).1 (key r).2 = some a → ¬ same a (val r) →
      MapStep key val same k (.add r) m (.error .objectAlreadyExists) m
  | update {m r} : MapStep key val same k (.update r) m (.ok []) (m.put k (key r).1 (key r).2 (some (val r)))
  | remove {m r} : m k (key r).1 (key r).2 ≠ none →
      MapStep key val same k (.remove r) m (.ok []) (m.put k (key r).1 (key r).2 none)
  | removeAbsent {m r} : m k (key r).1 (key r).2 = none →
      MapStep key val same k (.remove r) m (.error .objectNotFound) m
  | get {m t u a} : m k t u = some a → MapStep key val same k (.get t u) m (.ok [a]) m
  | getAbsent {m t u} : m k t u = none → MapStep key val same k (.get t u) m (.error .objectNotFound) m
  | getOrNone {m t u a} : m k t u = some a → MapStep key val same k (.getOrNone t u) m (.ok [a]) m
  | getOrNoneAbsent {m t u} : m k t u = none → MapStep key val same k (.getOrNone t u) m (.ok []) m
  /-- each stored object of the model exactly once -/
  | getAll {m t} (us : List String) {l : List α} : us.Nodup → (∀ u, u ∈ us ↔ m k t u ≠ none) → l.map some = us.map (m k t) →
      MapStep key val same k (.getAll t) m (.ok l) m

/-- A sequence of operations on stores, with results. -/
inductive MapRun {α : Type} (key : Ref → String × String) (val : Ref → α) (same : α → α → Prop) :
    List (StoreKind × StoreOp) → Maps α → List (Except Err (List α)) → Maps α → Prop where
  | nil {m} : MapRun key val same [] m [] m
  | cons {k op ops m m' m'' res rs} : MapStep key val same k op m res m' → MapRun key val same ops m' rs m'' →
      MapRun key val same ((k, op) :: ops) m (res :: rs) m''

variable {V E : Type} [PyVal V]

/-- The operation as performed by an adapter, returning the objects it returns. -/
def runOp (A : Adapter V) : StoreOp → M V E (List Ref)
  | .add r => do add A r; pure []
  | .update r => do update A r; pure []
  | .remove r => do remove A 1 r false; pure []
  | .get t u => do let r ← get A (.name t) (.uid u); pure [r]
  | .getOrNone t u => do let r? ← getOrNone A (.name t) (.uid u); pure r?.toList
  | .getAll t => getAll A t

/-- A sequence of operations, going on after exceptions; each result is looked at (`obs`) when it is returned. -/
def runOps {α : Type} (obs : World V E → Ref → α) :
    List (Adapter V × StoreOp) → World V E → List (Except Err (List α)) × World V E
  | [], w => ([], w)
  | (A, op) :: ops, w =>
    let (res, w') := runOp A op w
    let (rs, w'') := runOps obs ops w'
    ((res.map (fun l => l.map (obs w'))) :: rs, w'')

/-- The object an operation mentions. -/
def StoreOp.ref? : StoreOp → Option Ref
  | .add r | .update r | .remove r => some r
  | _ => none

/-- The model name an operation mentions. -/
def StoreOp.name? : StoreOp → Option String
  | .get t _ | .getOrNone t _ | .getAll t => some t
  | _ => none

/-- The state of the local stores as a map. -/
def localMaps (w : World V E) : Maps Ref := fun k t u =>
  match k with
  | .local sid => findRef w sid t u
  | .redis _ => none

/-- The state of the Redis stores as a map, for plain store ids and model names. -/
def redisMaps (w : World V E) : Maps (Obj V) := fun k t u =>
  match k with
  | .local _ => none
  | .redis sid => if Plain sid ∧ Plain t then Dict.get? w.redis (redisKey sid t u) else none

/-- Every key on the Redis server that starts like a diffsync key has been written by a store whose id and model
names are free of `:`; other keys may be anything. -/
structure RedisOK (w : World V E) : Prop where
  wf : Dict.WF w.redis
  keys : ∀ k ∈ Dict.keys w.redis, "diffsync:".toList.isPrefixOf k.toList = true →
    ∃ sid t u, Plain sid ∧ Plain t ∧ k = redisKey sid t u

/-- The invariant of a Redis store: keys are well-formed, and objects are stored under their own model name and unique
id, which together with their child types are free of `:`. -/
structure RedisStoreOK (sid : String) (w : World V E) : Prop extends RedisOK w where
  sid_ok : Plain sid
  key_ok : ∀ t u o, Plain t → Dict.get? w.redis (redisKey sid t u) = some o → o.m.type = t ∧ o.m.uid = u
  kids_ok : ∀ t u o, Plain t → Dict.get? w.redis (redisKey sid t u) = some o → ∀ c ∈ childRefs o.m, Plain c.1

end DS
