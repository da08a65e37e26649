import Verif.Model.SyncFromCmd
import Verif.Spec.SyncConc
import Verif.Spec.DiffCmd
/-! # Whole syncs, from the diff on, into a Redis store at the same time -/

namespace DS
variable {V E α : Type} [PyVal V]

/-- A call of `sync_from` (without `diff` argument) that a client makes: source, diff class, flags, user code, recursion limits, and the client's memory. -/
structure FromJob (V E : Type) where
  src : Adapter V
  dc : DiffClass V
  flags : Nat
  hooks : Hooks V E
  depth : Nat
  rlimit : Nat
  mem : World V E

/-- The client that makes the call on the adapter `A`, whose store has this label. -/
def FromJob.client (J : FromJob V E) (A : Adapter V) (sid : String) : Proc V (Except Err (Diff V) × World V E) :=
  cSyncFromR sid J.depth J.rlimit J.hooks A J.src J.dc J.flags none J.mem

/-- The client that makes the call with a diff of its own. -/
def FromJob.clientWith (J : FromJob V E) (A : Adapter V) (sid : String) (d : Diff V) : Proc V (Except Err (Diff V) × World V E) :=
  cSyncFromR sid J.depth J.rlimit J.hooks A J.src J.dc J.flags (some d) J.mem

/-- What the call does once it has the elements of the diff: a sync with this diff, in a world that has the server for itself. -/
def FromJob.apply (J : FromJob V E) (A : Adapter V) (es : List (Elem V)) : M V E (Diff V) := do
  let changed ← performSync ⟨J.src, A, J.flags, J.dc, J.hooks, J.rlimit⟩ J.depth ⟨J.dc, es, 0⟩
  if changed then M.emit (.syncComplete A.ref.id J.src.ref.id) else pure ()
  pure ⟨J.dc, es, 0⟩

/-- The context of the sync that follows the diff. -/
def FromJob.ctx (J : FromJob V E) (A : Adapter V) : SyncCtx V E := ⟨J.src, A, J.flags, J.dc, J.hooks, J.rlimit⟩

/-- What the source held under a type and unique id when the server had some of the contents `H`: if the source is in the client's own memory, what it holds there; if its store is on
the server, what was stored there. -/
def FromJob.Had (J : FromJob V E) (H : Dict (Obj V) → Prop) (t u : String) (m : Model V) : Prop := Seen (View.of J.src J.mem) H t u (some m)

/-- The source held this under the type and unique id whenever the server had some of the contents `H`. -/
def FromJob.Kept (J : FromJob V E) (H : Dict (Obj V) → Prop) (t u : String) (m : Model V) : Prop := ∀ o, Seen (View.of J.src J.mem) H t u o → o = some m

/-- What is assumed of the source, while the server has the contents `H`: it has its objects under their own types and unique ids, types free of `:`; child types that are
declared on both sides have the same field names; and the destination's classes leave the identifiers of the source's objects as they read. -/
structure FromJob.Ready (J : FromJob V E) (A : Adapter V) (H : Dict (Obj V) → Prop) : Prop where
  ok : (View.of J.src J.mem).Sound H
  top : ∀ t ∈ J.src.topLevel, (View.of J.src J.mem).Takes t
  fields : ∀ t u m c, J.Had H t u m → Dict.get? A.classes m.type = some c →
    ∀ ct f f', Dict.get? m.cls.children ct = some f → Dict.get? c.children ct = some f' → f = f'
  ids : ∀ t u m c, J.Had H t u m → Dict.get? A.classes t = some c → c.KeepsIds m.identifiers
  plain : ∀ t u m, J.Had H t u m → Plain m.type

/-- What is assumed of the destination: valid classes, with names and child types free of `:`, each child type declared once. -/
structure Adapter.OnServer (A : Adapter V) (sid : String) : Prop where
  store : A.ref.store = .redis sid
  sid_ok : Plain sid
  valid : A.Valid
  plain : ∀ t c, Dict.get? A.classes t = some c → Plain t
  kids : ∀ t c, Dict.get? A.classes t = some c → (Dict.keys c.children).Nodup ∧ ∀ ct ∈ Dict.keys c.children, Plain ct
  top : A.topLevel.Nodup
  top_plain : ∀ t ∈ A.topLevel, Plain t

/-- The objects in the store are instances of the adapter's classes. -/
def AllInstances (A : Adapter V) (sid : String) (d : Dict (Obj V)) : Prop :=
  ∀ key o, OfStore sid key → Dict.get? d key = some o → Dict.get? A.classes o.m.type = some o.m.cls

/-- The objects that are found by going down from the top-level types, along the lists of children, with the way to them (the last step first);
`has` tells what is stored under a type and unique id. -/
inductive WayTo (has : String → String → Model V → Prop) (top : List String) : List Key → Model V → Prop where
  | top {t u m} : t ∈ top → has t u m → WayTo has top [(t, u)] m
  | step {π p t u m} : WayTo has top π p → p.lists t u = true → has t u m → WayTo has top ((t, u) :: π) m

/-- In the course of an execution, the store had an object that the sync's source did not keep in its place all the time: on some way that leads to it in the store, with what
was stored there at some times, the source does not lead to an object by objects that it kept. -/
def Dropped (J : FromJob V E) (A : Adapter V) (sid : String) (l : List (Sys V α)) (t u : String) : Prop :=
  ∃ π m, WayTo (fun t u m => ∃ o, StoredDuring l (redisKey sid t u) o ∧ o.m = m) A.topLevel ((t, u) :: π) m ∧
    ¬ ∃ m', WayTo (J.Kept (Moments l)) J.src.topLevel ((t, u) :: π) m'

/-- The object is what the destination's class makes of an object that the sync's source had: it gets that object's identifiers and attributes. -/
def MadeFrom (J : FromJob V E) (A : Adapter V) (H : Dict (Obj V) → Prop) (m : Model V) : Prop :=
  ∃ π m' c, WayTo (J.Had H) J.src.topLevel π m' ∧ Dict.get? A.classes m'.type = some c ∧ c.construct m'.identifiers m'.attrs = .ok m ∧
    m.type = m'.type ∧ c.createUniqueId m'.identifiers = some m.uid

/-- The keys that go along with dropped objects flagged SKIP_CHILDREN_ON_DELETE, as they were stored at some times, along the lists of children. -/
inductive AlsoGone (dropped : String → String → Prop) (stored : String → Obj V → Prop) (sid : String) : String → Prop where
  | root {t u o} : dropped t u → stored (redisKey sid t u) o → flagOn o.m.flags MF.SKIP_CHILDREN_ON_DELETE = true → AlsoGone dropped stored sid (redisKey sid t u)
  | down {key o t u} : AlsoGone dropped stored sid key → stored key o → ListsChild o.m t u → AlsoGone dropped stored sid (redisKey sid t u)

/-- Commands that store in this store, if anything, instances of the adapter's classes. -/
def Cmd.OnlyInstances (B : Adapter V) (ks : String) : Cmd V → Prop
  | .set key o => OfStore ks key → Dict.get? B.classes o.m.type = some o.m.cls
  | _ => True

/-- The classes of two adapters fit together: child types that are declared on both sides have the same field names, and the classes of the second adapter leave the identifiers of the
first one's objects as they read. -/
structure ClassesFit (B A : Adapter V) : Prop where
  fields : ∀ t c c', Dict.get? B.classes t = some c → Dict.get? A.classes t = some c' →
    ∀ ct f f', Dict.get? c.children ct = some f → Dict.get? c'.children ct = some f' → f = f'
  ids : ∀ (m : Model V) c', Dict.get? B.classes m.type = some m.cls → Dict.get? A.classes m.type = some c' → c'.KeepsIds m.identifiers

/-- The clients of the server: some call `sync_from` on the adapter; the others do not write to its store, and write objects under their own keys only. -/
structure Clients (A : Adapter V) (sid : String) (jobs : Nat → Option (FromJob V E)) (s : Sys V (Except Err (Diff V) × World V E)) : Prop where
  syncs : ∀ j J, jobs j = some J → s.cl j = .at (J.client A sid)
  others : ∀ j, jobs j = none → ∃ p, s.cl j = .at p ∧ Sends (Cmd.Outside sid) p ∧ Sends Cmd.Proper p

end DS
