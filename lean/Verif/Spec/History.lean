import Verif.Spec.Sync
import Verif.Spec.Obj
import Verif.Spec.Store
/-! # Histories: everything a program can do with the library -/

namespace DS
variable {V E : Type} [PyVal V]

/-- The model classes that the adapters using a store declare (adapters that share a store declare the same models). -/
abbrev Decls (V : Type) := StoreKind → Dict (ModelClass V)

/-- An adapter of a program whose stores hold the models declared by `F`; the id and the model names of a Redis store are plain. -/
structure Family (F : Decls V) (A : Adapter V) : Prop where
  classes : A.classes = F A.ref.store
  valid : A.Valid
  top : ∀ t ∈ A.topLevel, t ∈ Dict.keys A.classes
  plain : ∀ sid, A.ref.store = .redis sid → Plain sid ∧ ∀ t ∈ Dict.keys A.classes, Plain t
  kids_plain : ∀ sid, A.ref.store = .redis sid → ∀ t c, Dict.get? A.classes t = some c → ∀ ct ∈ Dict.keys c.children, Plain ct

/-- The object at an address exists and is an instance of the class that the adapter declares for its type. -/
def Declared (A : Adapter V) (w : World V E) (r : Ref) : Prop :=
  r < w.next ∧ Dict.get? A.classes (w.heap r).m.type = some (w.heap r).m.cls

/-- The update elements of a diff set no identifiers. -/
def SparesIds (A : Adapter V) (es : List (Elem V)) : Prop :=
  ∀ e, InTree e es → e.action = some .update → ∀ c, Dict.get? A.classes e.type = some c →
    ∀ k ∈ Dict.keys (e.plus.getD []), k ∉ c.identifiers

/-- `obj.adapter` is not set, or is an adapter with the store of `A`, or one whose store is empty (such an adapter counts as false). -/
def Attachable (A : Adapter V) (w : World V E) (r : Ref) : Prop :=
  ∀ a, (w.heap r).adapter = some a → a.store = A.ref.store ∨ countStore a.store w = 0

/-- `obj.adapter` is an adapter with the store of `A`. -/
def Attached (A : Adapter V) (w : World V E) (r : Ref) : Prop := ∃ a, (w.heap r).adapter = some a ∧ a.store = A.ref.store

/-- `obj.adapter` is not set, or is an adapter with the store `S`. -/
def Belongs (S : StoreKind) (w : World V E) (r : Ref) : Prop := ∀ a, (w.heap r).adapter = some a → a.store = S

/-- The store of the adapter is a local one. -/
def Adapter.OnLocal (A : Adapter V) : Prop := ∃ sid, A.ref.store = .local sid

/-- One call of the library, or one action of the program on its objects, with any arguments, whether it returns or raises.  What is
asked of the program: classes are valid; the identifiers of an object are not assigned to; an adapter is given objects of the class it
declares for their type; lists of children given to a constructor have no duplicates.  `S` is the store that the step is about: that of the adapter whose method is
called, or of the adapter that an object refers to, if any; reading is about any store.  With `D`, the program moreover minds the
adapters that objects refer to (`obj.adapter`): it does not add an object to a local store, or remove it from a store, while it belongs to an
adapter with objects in another store, and it calls `update` of a local store with objects of that store only. -/
inductive StepOn (F : Decls V) (D : Prop) (w : World V E) : StoreKind → World V E → Prop where
  /-- `c(**kw)` -/
  | new {S} {c : ModelClass V} {kw kids fl m} : c.Valid → (∀ p ∈ kids, p.2.Nodup) → c.instantiate kw kids fl = .ok m → StepOn F D w S (alloc { m := m } w).2
  /-- `obj.attr = value`, several times -/
  | assign {S r d} : r < w.next → Belongs S w r → (∀ k ∈ Dict.keys d, k ∉ (w.heap r).m.cls.identifiers) → StepOn F D w S (setattrsRef r d w).2
  /-- `obj.model_flags = fl` -/
  | setFlags {S r} (fl : Nat) : r < w.next → Belongs S w r → StepOn F D w S (w.setObj r { w.heap r with m := { (w.heap r).m with flags := fl } })
  /-- `obj.set_status(s, msg)` -/
  | setStatus {S r s msg} : r < w.next → Belongs S w r → StepOn F D w S (setStatus r s msg w).2
  /-- `obj.add_child(child)` -/
  | addChild {S p c} : p < w.next → Belongs S w p → c < w.next → StepOn F D w S (addChildRef p c w).2
  /-- `obj.remove_child(child)` -/
  | removeChild {S p c} : p < w.next → Belongs S w p → c < w.next → StepOn F D w S (removeChildRef p c w).2
  | add {A r} : Family F A → Declared A w r → (D → A.OnLocal → Attachable A w r) → StepOn F D w A.ref.store (add A r w).2
  | update {A r} : Family F A → Declared A w r → (D → A.OnLocal → Attached A w r) → StepOn F D w A.ref.store (update A r w).2
  | remove {A n r b} : Family F A → r < w.next → (D → Attachable A w r) → StepOn F D w A.ref.store (remove A n r b w).2
  | get {S A model ident} : Family F A → StepOn F D w S (get A model ident w).2
  | getOrNone {S A model ident} : Family F A → StepOn F D w S (getOrNone A model ident w).2
  | getAll {S A t} : Family F A → StepOn F D w S (getAll A t w).2
  | getByUids {S A uids t} : Family F A → StepOn F D w S (getByUids A uids t w).2
  | count {S A model} : Family F A → StepOn F D w S (count A model w).2
  | getOrInstantiate {A c ids attrs} : Family F A → Dict.get? A.classes c.name = some c → StepOn F D w A.ref.store (getOrInstantiate A c ids attrs w).2
  | getOrAddInstance {A r} : Family F A → Declared A w r → (D → A.OnLocal → Attachable A w r) → StepOn F D w A.ref.store (getOrAddInstance A r w).2
  | updateOrInstantiate {A c ids attrs} : Family F A → Dict.get? A.classes c.name = some c → (∀ k ∈ Dict.keys attrs, k ∉ c.identifiers) →
      StepOn F D w A.ref.store (updateOrInstantiate A c ids attrs w).2
  | updateOrAddInstance {A r} : Family F A → Declared A w r → (D → A.OnLocal → Attachable A w r) → StepOn F D w A.ref.store (updateOrAddInstance A r w).2
  | diff {S n dst src dc flags} : Family F dst → Family F src → StepOn F D w S (diffFrom n dst src dc flags w).2
  /-- with any user methods, a diff supplied or not -/
  | sync {n rl hooks dst src dc flags diff} : Family F dst → Family F src → (∀ d, diff = some d → SparesIds dst d.kids) →
      StepOn F D w dst.ref.store (syncFrom n rl hooks dst src dc flags diff w).2
  | dict {S A ed} : Family F A → StepOn F D w S (adapterDict A ed w).2
  | load {A data} : Family F A → (∀ d ∈ Dict.values data, ∀ o ∈ Dict.values d, ∀ p ∈ o.kids, p.2.Nodup) → StepOn F D w A.ref.store (loadFromDict A data w).2
  /-- the program changes its own state -/
  | user {S} (e : E) : StepOn F D w S { w with env := e }

/-- One step, about any store. -/
def ProgStep (F : Decls V) (D : Prop) (w w' : World V E) : Prop := ∃ S, StepOn F D w S w'

/-- A program that has just started: no objects, empty local stores, and a Redis server without diffsync keys. -/
structure Fresh (w : World V E) : Prop where
  next : w.next = 0
  loc : ∀ sid, w.loc sid = []
  wf : Dict.WF w.redis
  keys : ∀ k ∈ Dict.keys w.redis, "diffsync:".toList.isPrefixOf k.toList = false

/-- The worlds a program can get to. -/
inductive Reachable (F : Decls V) (D : Prop) : World V E → Prop where
  | start {w} : Fresh w → Reachable F D w
  | step {w w'} : Reachable F D w → ProgStep F D w w' → Reachable F D w'

end DS

namespace DS
variable {V E : Type} [PyVal V]

/-- Any number of further steps. -/
inductive Leads (F : Decls V) (D : Prop) (w : World V E) : World V E → Prop where
  | refl : Leads F D w w
  | step {w1 w2} : Leads F D w w1 → ProgStep F D w1 w2 → Leads F D w w2

/-- Any number of further steps, none of them about the store `S`, by a program that minds the adapters of objects. -/
inductive Elsewhere (F : Decls V) (S : StoreKind) (w : World V E) : World V E → Prop where
  | refl : Elsewhere F S w w
  | step {w1 w2 T} : Elsewhere F S w w1 → StepOn F True w1 T w2 → T ≠ S → Elsewhere F S w w2

/-- The classes of two adapters name the field of a child type they share alike. -/
def FieldsAgree (A B : Adapter V) : Prop :=
  ∀ t a b, Dict.get? A.classes t = some a → Dict.get? B.classes t = some b →
    ∀ ct f f', Dict.get? a.children ct = some f → Dict.get? b.children ct = some f' → f = f'

/-- A well-formed instance of the class that an adapter declares for a model name: it has the key under which it is stored, a value for
every field and a list for every field of children, and no list names a child twice. -/
structure WellFormed (A : Adapter V) (t u : String) (m : Model V) : Prop where
  type : m.type = t
  uid : m.uid = u
  cls : Dict.get? A.classes t = some m.cls
  fields : ∀ k, k ∈ m.cls.fields.map Prod.fst → ∃ v, Dict.get? m.vals k = some v
  lists : ∀ ct f, Dict.get? m.cls.children ct = some f → ∃ l, m.kidList f = some l ∧ l.Nodup

end DS
