import Verif.Spec.SkipCount
/-! # The same contents, and the same diffs

Used to say that a diff depends on nothing but the contents of the two adapters. -/

namespace DS
variable {V : Type} [PyVal V]

/-- Two child lists with the same members, each as often, in any order; or no child list on both sides. -/
def SameList : Option (List String) → Option (List String) → Prop
  | none, none => True
  | some l, some l' => l.Perm l'
  | _, _ => False

/-- Two objects that are the same but for the order of their child lists and for fields that are neither identifiers nor
attributes nor part of the short name. -/
structure SameModel (m m' : Model V) : Prop where
  cls : m'.cls = m.cls
  flags : m'.flags = m.flags
  ids : m'.identifiers = m.identifiers
  short : m'.shortname = m.shortname
  attrs : m'.attrs = m.attrs
  lists : ∀ ct f, Dict.get? m.cls.children ct = some f → SameList (m.kidList f) (m'.kidList f)

/-- `SameModel`, or nothing on both sides. -/
inductive SameO : Option (Model V) → Option (Model V) → Prop where
  | absent : SameO none none
  | both {m m'} : SameModel m m' → SameO (some m) (some m')

/-- The same objects under every type and unique id. -/
def SameContents (S S' : Snap V) : Prop := ∀ t u, SameO (S.find t u) (S'.find t u)

/-- `e'` is `e`, at every depth, but for the order of the children (and the names of the adapters). -/
inductive SameElem : Elem V → Elem V → Prop where
  | mk {e e' : Elem V} (l : List (Elem V)) :
      e'.type = e.type → e'.name = e.name → e'.keys = e.keys → e'.src = e.src → e'.dst = e.dst →
      l.Perm e'.kids → l.length = e.kids.length → (∀ x ∈ e.kids.zip l, SameElem x.1 x.2) →
      SameElem e e'

/-- `SameElem` for the elements of two diffs. -/
def SameElems (es es' : List (Elem V)) : Prop :=
  ∃ l : List (Elem V), l.Perm es' ∧ l.length = es.length ∧ ∀ x ∈ es.zip l, SameElem x.1 x.2

/-- The same types are top level. -/
def SameTops (a a' : Adapter V) : Prop := ∀ t, t ∈ a.topLevel ↔ t ∈ a'.topLevel

/-- Adding one object after the other, as `load` methods do. -/
def loadAll {E : Type} (A : Adapter V) : List Ref → M V E Unit
  | [] => pure ()
  | r :: rs => do add A r; loadAll A rs

/-- The model name and the unique id of an object. -/
def keyOf {E : Type} (w : World V E) (r : Ref) : String × String := ((w.heap r).m.type, (w.heap r).m.uid)

/-- Objects that are new to an adapter: under different keys, none of them in use. -/
structure NewTo {E : Type} (A : Adapter V) (rs : List Ref) (w : World V E) : Prop where
  alloc : ∀ r ∈ rs, r < w.next
  distinct : rs.Pairwise (fun r r' => keyOf w r ≠ keyOf w r')
  unused : ∀ r ∈ rs, (snap A w).find (keyOf w r).1 (keyOf w r).2 = none
  taken : ∀ r ∈ rs, A.Takes (keyOf w r).1
  redis : ∀ sid, A.ref.store = .redis sid → Plain sid

end DS
