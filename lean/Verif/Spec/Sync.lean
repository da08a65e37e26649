import Verif.Spec.Differ
import Verif.Spec.Store
import Verif.Model.Adapter
/-! # Vocabulary for statements about syncs -/

namespace DS
variable {V E : Type} [PyVal V]

/-- A model name and a unique id. -/
abbrev Key := String × String

/-- Key of an object. -/
def Model.key (m : Model V) : Key := (m.type, m.uid)

/-- The key of the object a diff element is about, for the model classes of an adapter. -/
def ElemKey (A : Adapter V) (e : Elem V) (k : Key) : Prop :=
  ∃ c u, Dict.get? A.classes e.type = some c ∧ c.createUniqueId e.keys = some u ∧ k = (e.type, u)

/-- The key of the object a create/update/delete call is about. -/
def CallKey (A : Adapter V) : CrudCall V → Key → Prop
  | .create t ids _, k => ∃ c u, Dict.get? A.classes t = some c ∧ c.createUniqueId ids = some u ∧ k = (t, u)
  | .update t u _, k => k = (t, u)
  | .delete t u, k => k = (t, u)

/-- Below an element to be deleted there are only elements to be deleted (as in every diff that `diff_from`
computes). -/
def DelClosed (es : List (Elem V)) : Prop :=
  ∀ e, InTree e es → e.action = some .delete → ∀ e', InTree e' e.kids → e'.action = some .delete

/-- The model classes of an adapter are named after their attribute (`Adapter.__init_subclass__`,
/repo/diffsync/__init__.py:466-476) and valid, and no two child types of a class share a list field. -/
structure Adapter.Valid (A : Adapter V) : Prop where
  names : ∀ t c, Dict.get? A.classes t = some c → c.name = t
  valid : ∀ t c, Dict.get? A.classes t = some c → c.Valid
  fields : ∀ t c, Dict.get? A.classes t = some c → c.childFields.Nodup

/-- The objects of a local store are instances of the adapter's own classes. -/
def Instances (A : Adapter V) (sid : Nat) (w : World V E) : Prop :=
  ∀ t u r c, findRef w sid t u = some r → Dict.get? A.classes t = some c → (w.heap r).m.cls = c

/-- The values to be set by updates are values of attributes (as in every diff that `diff_from` computes). -/
def PlainUpdates (A : Adapter V) (es : List (Elem V)) : Prop :=
  ∀ e, InTree e es → e.action = some .update → ∀ c, Dict.get? A.classes e.type = some c →
    ∀ k ∈ Dict.keys (e.plus.getD []), k ∈ c.attributes

/-- The classes leave the identifiers of the objects to be created as they read. -/
def KeptIds (A : Adapter V) (es : List (Elem V)) : Prop :=
  ∀ e, InTree e es → e.action = some .create → ∀ c, Dict.get? A.classes e.type = some c → c.KeepsIds e.keys

/-- The classes of `dst` leave the identifiers of the objects of the source `S` as they read. -/
def KeepsIdsOf (dst : Adapter V) (S : Snap V) : Prop :=
  ∀ t u s c, S.find t u = some s → Dict.get? dst.classes t = some c → c.KeepsIds s.identifiers

/-- The calls of user code in a list of events. -/
def callsOf (evs : List (Event V)) : List (CrudCall V × Outcome) :=
  evs.filterMap (fun ev => match ev with | .call c out => some (c, out) | _ => none)

/-- The call that a diff element prescribes: by its action, on the object with its key, with the values of its source
side (`create`) or the values that differ (`update`). -/
def Prescribes (A : Adapter V) (e : Elem V) (call : CrudCall V) : Prop :=
  ∃ u, ElemKey A e (e.type, u) ∧
    match e.action with
    | none => False
    | some .create => call = .create e.type e.keys (e.plus.getD [])
    | some .update => call = .update e.type u (e.plus.getD [])
    | some .delete => call = .delete e.type u

/-- No two elements of a diff are about the same object. -/
def DistinctKeys (A : Adapter V) (es : List (Elem V)) : Prop :=
  (nodesL es).Pairwise (fun e e' => ∀ k, ElemKey A e k → ¬ ElemKey A e' k)

/-- The logger binding of the records about an element. -/
def RecordOf (A : Adapter V) (e : Elem V) (ctx : LogCtx) : Prop := ∃ u, ElemKey A e (e.type, u) ∧ ctx = ⟨e.action, e.type, u⟩

/-- The exception of a refused action. -/
def staleErr : Action → Err
  | .create => .objectNotCreated
  | .update => .objectNotUpdated
  | .delete => .objectNotDeleted

/-- Level at which an outcome is logged (/repo/diffsync/helpers.py:460-473). -/
def levelOf : Status → Level
  | .success => .info
  | .failure => .warning
  | _ => .error

/-- The diff a sync works with: the one supplied, unless it is missing or empty; else the one `diff_from` computes
(/repo/diffsync/__init__.py:600-608). -/
def UsedDiff (n : Nat) (dst src : Adapter V) (dc : DiffClass V) (flags : Nat) (diff : Option (Diff V)) (w : World V E)
    (d : Diff V) : Prop :=
  (diff = some d ∧ d.len ≠ 0) ∨ ((∀ d', diff = some d' → d'.len = 0) ∧ (diffFrom n dst src dc flags w).1 = .ok d)

/-- `k'` is a child of `k` in the destination, or is below it in the diff. -/
def EdgeIn (A : Adapter V) (D : Snap V) (es : List (Elem V)) (k k' : Key) : Prop :=
  (∃ m, D.find k.1 k.2 = some m ∧ m.lists k'.1 k'.2 = true) ∨
  ∃ e e', InTree e es ∧ e' ∈ e.kids ∧ ElemKey A e k ∧ ElemKey A e' k'

/-- The object with this key is flagged SKIP_CHILDREN_ON_DELETE, or would be when created. -/
def SkipsChildren (A : Adapter V) (D : Snap V) (k : Key) : Prop :=
  (∃ m, D.find k.1 k.2 = some m ∧ flagOn m.flags MF.SKIP_CHILDREN_ON_DELETE = true) ∨
  ∃ c, Dict.get? A.classes k.1 = some c ∧ flagOn c.defaultFlags MF.SKIP_CHILDREN_ON_DELETE = true

/-- The keys that may be removed along with successfully deleted objects flagged SKIP_CHILDREN_ON_DELETE; `evs` are the
events of the sync. -/
inductive TakenAlong (A : Adapter V) (D : Snap V) (es : List (Elem V)) (evs : List (Event V)) : Key → Prop where
  | root {e k} : InTree e es → e.action = some .delete → ElemKey A e k → SkipsChildren A D k →
      (∃ out, Event.call (.delete k.1 k.2) out ∈ evs ∧ out.result = .object) → TakenAlong A D es evs k
  | down {k k'} : TakenAlong A D es evs k → EdgeIn A D es k k' → TakenAlong A D es evs k'

/-- The flags of the object stored under a key. -/
def Snap.flagsAt (D : Snap V) (k : Key) : Option Nat := (D.find k.1 k.2).map Model.flags

/-- What is assumed of the destination of a sync: a local store holding instances of the adapter's own, valid
classes. -/
structure SyncReady (A : Adapter V) (sid : Nat) (w : World V E) : Prop where
  store : A.ref.store = .local sid
  valid : A.Valid
  ok : w.OK
  inst : Instances A sid w
  children : ∀ t u m, (snap A w).find t u = some m → (Dict.keys m.cls.children).Nodup

/-- What is assumed of the destination of a sync, whatever its store: it holds instances of the adapter's own, valid classes.  Of a
Redis store also: it was filled through this library, with store labels and model names free of `:`. -/
structure DstReady (A : Adapter V) (w : World V E) : Prop where
  valid : A.Valid
  ok : w.OK
  inst : ∀ t u m c, (snap A w).find t u = some m → Dict.get? A.classes t = some c → m.cls = c
  children : ∀ t u m, (snap A w).find t u = some m → (Dict.keys m.cls.children).Nodup
  redis : ∀ sid, A.ref.store = .redis sid → RedisStoreOK sid w ∧ ∀ t c, Dict.get? A.classes t = some c → Plain t

/-- What is assumed of a diff that is applied (it holds of every diff that `diff_from` computes, the last as far as the destination's
classes leave identifiers as they are). -/
structure GoodDiff (A : Adapter V) (es : List (Elem V)) : Prop where
  plain : PlainUpdates A es
  del : DelClosed es
  ids : KeptIds A es

/-- Whether the object stored under a key carries a model flag. -/
def Flagged (flagsAt : Key → Option Nat) (k : Key) (b : Nat) : Prop := ∃ fl, flagsAt k = some fl ∧ flagOn fl b = true

/-- The calls that a list of diff elements prescribes, in the documented order: each object before its children, in the
order of the diff's `get_children`; below a deleted object flagged SKIP_CHILDREN_ON_DELETE there are none, and the children
of a deleted object flagged NATURAL_DELETION_ORDER come before it. -/
inductive CallPlan (A : Adapter V) (dc : DiffClass V) (flagsAt : Key → Option Nat) : List (Elem V) → List (CrudCall V) → Prop where
  | nil : CallPlan A dc flagsAt [] []
  | nothing {e l cs cs'} : e.action = none → CallPlan A dc flagsAt (getChildren dc e.kids) cs → CallPlan A dc flagsAt l cs' →
      CallPlan A dc flagsAt (e :: l) (cs ++ cs')
  | objectFirst {e l k call cs cs'} : Prescribes A e call → ElemKey A e k →
      ¬ (e.action = some .delete ∧ Flagged flagsAt k MF.SKIP_CHILDREN_ON_DELETE) →
      ¬ (e.action = some .delete ∧ Flagged flagsAt k MF.NATURAL_DELETION_ORDER) →
      CallPlan A dc flagsAt (getChildren dc e.kids) cs → CallPlan A dc flagsAt l cs' → CallPlan A dc flagsAt (e :: l) (call :: cs ++ cs')
  | childrenFirst {e l k call cs cs'} : Prescribes A e call → ElemKey A e k →
      ¬ (e.action = some .delete ∧ Flagged flagsAt k MF.SKIP_CHILDREN_ON_DELETE) →
      e.action = some .delete ∧ Flagged flagsAt k MF.NATURAL_DELETION_ORDER →
      CallPlan A dc flagsAt (getChildren dc e.kids) cs → CallPlan A dc flagsAt l cs' → CallPlan A dc flagsAt (e :: l) (cs ++ call :: cs')
  | childrenSkipped {e l k call cs'} : Prescribes A e call → ElemKey A e k →
      e.action = some .delete ∧ Flagged flagsAt k MF.SKIP_CHILDREN_ON_DELETE →
      CallPlan A dc flagsAt l cs' → CallPlan A dc flagsAt (e :: l) (call :: cs')

/-- The diff that a sync works with, whichever it is, is fit to be applied. -/
def Applicable (n : Nat) (dst src : Adapter V) (dc : DiffClass V) (flags : Nat) (diff : Option (Diff V)) (w : World V E) : Prop :=
  ∀ d, UsedDiff n dst src dc flags diff w d → GoodDiff dst d.kids

/-- The events added between two worlds. -/
def newEvents (w w' : World V E) : List (Event V) := w'.trace.drop w.trace.length

/-- An adapter that uses another store than the destination, and none of the same objects. -/
def Separate (A dst : Adapter V) (w : World V E) : Prop :=
  match A.ref.store, dst.ref.store with
  | .local s, .local sid => s ≠ sid ∧ ∀ t u t' u' r, findRef w s t u = some r → findRef w sid t' u' ≠ some r
  | .redis s, .redis sid => s ≠ sid ∧ Plain s
  | _, _ => True

/-- A call of `sync_from`: `d` is the diff the sync works with, and `(res, w')` is the
outcome (result or exception, and the world afterwards). -/
structure SyncRun (n rl : Nat) (hooks : Hooks V E) (dst src : Adapter V) (dc : DiffClass V) (flags : Nat) (diff : Option (Diff V))
    (w : World V E) (d : Diff V) (res : Except Err (Diff V)) (w' : World V E) : Prop where
  ready : DstReady dst w
  used : UsedDiff n dst src dc flags diff w d
  good : GoodDiff dst d.kids
  run : syncFrom n rl hooks dst src dc flags diff w = (res, w')

/-- The elements of a diff are about distinct objects, and its order methods only reorder. -/
def Tidy (dst : Adapter V) (d : Diff V) : Prop := d.cls.Reorders ∧ DistinctKeys dst d.kids

/-- An attempt to change something: a call of user code, or the record of an action that is refused. -/
def Attempt : Event V → Prop
  | .call _ _ => True
  | .log .error _ .error => True
  | _ => False

/-- The progress reports in a list of events. -/
def progressOf (evs : List (Event V)) : List (Nat × Nat) :=
  evs.filterMap (fun ev => match ev with | .syncProgress a b => some (a, b) | _ => none)

/-- The reports `p + 1, …, p + k`, each out of `t`. -/
def countUp (t : Nat) : Nat → Nat → List (Nat × Nat)
  | _, 0 => []
  | p, k + 1 => (p + 1, t) :: countUp t (p + 1) k

/-- No element was found to have no object ("No object resulted from sync"). -/
def NoMissing (evs : List (Event V)) : Prop := ∀ ctx, Event.noObject ctx ∉ evs

/-- Some of the elements of a list, in some order, each at most as often as there. -/
def SubPerm {α : Type} (a b : List α) : Prop := ∃ l, a.Perm l ∧ l.Sublist b

/-- Something was attempted for an element: the call it prescribes was made, or its action was refused. -/
def Attempted (A : Adapter V) (evs : List (Event V)) (e : Elem V) : Prop :=
  (∃ c out, Prescribes A e c ∧ Event.call c out ∈ evs) ∨ ∃ ctx, RecordOf A e ctx ∧ Event.log .error ctx .error ∈ evs

/-- An element for which there was no object to go on with: its call did not return one, its action was refused, or it had no
action and nothing was stored. -/
def LeftWithout (A : Adapter V) (evs : List (Event V)) (e : Elem V) : Prop :=
  (∃ c out, Prescribes A e c ∧ Event.call c out ∈ evs ∧ out.result ≠ .object) ∨
  ∃ ctx, RecordOf A e ctx ∧ Event.noObject ctx ∈ evs ∧ (e.action = none ∨ Event.log .error ctx .error ∈ evs)

/-- The action of an element does not fit what is stored: an object to be created exists, or one to be updated or deleted does
not. -/
def Stale (A : Adapter V) (D : Snap V) (e : Elem V) (a : Action) : Prop :=
  e.action = some a ∧ ∃ k, ElemKey A e k ∧ match a with
    | .create => D.find k.1 k.2 ≠ none
    | _ => D.find k.1 k.2 = none

/-- How the outcome of a call is logged. -/
def Reported : HookResult → Level → Status → Prop
  | .raises _, lv, st => lv = .error ∧ st = .error
  | .none, lv, st => lv = .warning ∧ st = .failure
  | .object, lv, st => lv = levelOf st

/-- The action a call stands for. -/
def CrudCall.act : CrudCall V → Action
  | .create .. => .create
  | .update .. => .update
  | .delete .. => .delete

/-- The logger binding of a record about a call: its action, and the model name and unique id of its object. -/
def RecordFor (A : Adapter V) (c : CrudCall V) (ctx : LogCtx) : Prop := ctx.action = some c.act ∧ CallKey A c (ctx.model, ctx.uid)

/-- The element deletes an object flagged NATURAL_DELETION_ORDER and not SKIP_CHILDREN_ON_DELETE: it goes after those below it. -/
def DeletedAfterChildren (A : Adapter V) (flagsAt : Key → Option Nat) (e : Elem V) : Prop :=
  e.action = some .delete ∧ ∀ k, ElemKey A e k → Flagged flagsAt k MF.NATURAL_DELETION_ORDER ∧ ¬ Flagged flagsAt k MF.SKIP_CHILDREN_ON_DELETE

/-- A record names the object below the one that is deleted by the call, instead of that one. -/
def RecordMisplaced (A : Adapter V) (flagsAt : Key → Option Nat) (es : List (Elem V)) (c : CrudCall V) (ctx : LogCtx) : Prop :=
  ∃ e z, InTree e es ∧ Prescribes A e c ∧ DeletedAfterChildren A flagsAt e ∧ InTree z e.kids ∧ RecordOf A z ctx

/-- `ctx` is the logger binding of the last outcome record among the events. -/
def LastRecord (evs : List (Event V)) (ctx : LogCtx) : Prop :=
  ∃ L lv st R, evs = L ++ .log lv ctx st :: R ∧ ∀ lv' ctx' st', Event.log lv' ctx' st' ∉ R

/-- The records of level debug, in order: logger binding and status. -/
def unchangedOf (evs : List (Event V)) : List (LogCtx × Status) :=
  evs.filterMap (fun ev => match ev with | .log .debug ctx st => some (ctx, st) | _ => none)

/-- No object that a diff deletes is flagged NATURAL_DELETION_ORDER. -/
def NoNatural (A : Adapter V) (flagsAt : Key → Option Nat) (es : List (Elem V)) : Prop :=
  ∀ e, InTree e es → e.action = some .delete → ∀ k, ElemKey A e k → ¬ Flagged flagsAt k MF.NATURAL_DELETION_ORDER

/-- Every element is about an object of a class the destination knows, with values for its identifiers. -/
def Keyed (A : Adapter V) (es : List (Elem V)) : Prop := ∀ e, InTree e es → ∃ k, ElemKey A e k

/-- Source objects of a type that the destination knows have the identifiers that its class declares. -/
def SameIds (dst : Adapter V) (S : Snap V) : Prop :=
  ∀ t u m c, S.find t u = some m → Dict.get? dst.classes t = some c → c.identifiers = m.cls.identifiers

end DS
