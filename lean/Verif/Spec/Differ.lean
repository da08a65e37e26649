import Verif.Spec.World
import Verif.Spec.Diff
import Verif.Spec.Obj
/-! # What a diff of two adapters should be

Stated on the contents (`Snap`) of the two adapters, without reference to the algorithm. -/

namespace DS
variable {V : Type} [PyVal V]

/-- `m` lists `u` as a child of type `ct`. -/
def Model.lists (m : Model V) (ct u : String) : Bool :=
  match Dict.get? m.cls.children ct with
  | none => false
  | some f => match m.kidList f with
    | none => false
    | some l => l.contains u

/-- The object on one side lists `u` as a child of type `ct`. -/
def listsO (o : Option (Model V)) (ct u : String) : Bool :=
  match o with
  | none => false
  | some m => m.lists ct u

/-- A place in the comparison: a type and unique id with the objects found there on the two sides. -/
structure Pos (V : Type) where
  type : String
  uid : String
  src : Option (Model V)
  dst : Option (Model V)

/-- Child types are compared when the objects present at the place all declare them. -/
def comparesType (s d : Option (Model V)) (ct : String) : Prop :=
  (∀ m, s = some m → ct ∈ Dict.keys m.cls.children) ∧ (∀ m, d = some m → ct ∈ Dict.keys m.cls.children)

/-- `c` is one of the places at the top of the comparison. -/
structure IsTop (src dst : Adapter V) (S D : Snap V) (c : Pos V) : Prop where
  src_top : c.type ∈ src.topLevel
  dst_top : c.type ∈ dst.topLevel
  src_eq : c.src = S.find c.type c.uid
  dst_eq : c.dst = D.find c.type c.uid
  some_side : c.src ≠ none ∨ c.dst ≠ none

/-- `c` is one of the places directly below `p`: some object at `p` lists it, and its two sides are the objects
stored under that type and id, on the sides that list it. -/
structure IsChild (S D : Snap V) (p c : Pos V) : Prop where
  compared : comparesType p.src p.dst c.type
  listed : listsO p.src c.type c.uid = true ∨ listsO p.dst c.type c.uid = true
  src_eq : c.src = if listsO p.src c.type c.uid then S.find c.type c.uid else none
  dst_eq : c.dst = if listsO p.dst c.type c.uid then D.find c.type c.uid else none

/-- The places the flags exclude from a diff. -/
inductive Hidden (flags : Nat) : Option (Model V) → Option (Model V) → Prop where
  | globalSrc (s) : flagOn flags GF.SKIP_UNMATCHED_SRC = true → Hidden flags (some s) none
  | globalDst (d) : flagOn flags GF.SKIP_UNMATCHED_DST = true → Hidden flags none (some d)
  | modelSrc (s) : flagOn s.flags MF.SKIP_UNMATCHED_SRC = true → Hidden flags (some s) none
  | modelDst (d) : flagOn d.flags MF.SKIP_UNMATCHED_DST = true → Hidden flags none (some d)
  | ignoreSrc (s d) : flagOn s.flags MF.IGNORE = true → Hidden flags (some s) d
  | ignoreDst (s d) : flagOn d.flags MF.IGNORE = true → Hidden flags s (some d)

/-- A place that is not excluded. -/
def Pos.Visible (flags : Nat) (c : Pos V) : Prop := ¬ Hidden flags c.src c.dst

/-- All places that take part in a comparison: reached from the top through visible places. -/
inductive Compared (src dst : Adapter V) (flags : Nat) (S D : Snap V) : Pos V → Prop where
  | top {c} : IsTop src dst S D c → Compared src dst flags S D c
  | child {p c} : Compared src dst flags S D p → p.Visible flags → IsChild S D p c → Compared src dst flags S D c

/-- The data of an element are those of the objects at the place. -/
structure Header (src dst : Adapter V) (e : Elem V) (p : Pos V) : Prop where
  type_eq : e.type = p.type
  src_eq : e.src = p.src.map Model.attrs
  dst_eq : e.dst = p.dst.map Model.attrs
  name_eq : ∀ m, p.src.or p.dst = some m → e.name = m.shortname ∧ e.keys = m.identifiers
  srcName_eq : e.srcName = src.name
  dstName_eq : e.dstName = dst.name

/-- No place occurs twice. -/
def DistinctPos (ps : List (Pos V)) : Prop := ps.Pairwise (fun a b => ¬ (a.type = b.type ∧ a.uid = b.uid))

/-- An element describes a place: its data are those of the place, and its children describe, one for one, the
visible places below. -/
inductive Describes (src dst : Adapter V) (flags : Nat) (S D : Snap V) : Elem V → Pos V → Prop where
  | mk {e : Elem V} {p : Pos V} (ps : List (Pos V)) :
      Header src dst e p →
      DistinctPos ps →
      (∀ c, c ∈ ps ↔ IsChild S D p c ∧ c.Visible flags) →
      e.kids.length = ps.length →
      (∀ x ∈ e.kids.zip ps, Describes src dst flags S D x.1 x.2) →
      Describes src dst flags S D e p

/-- The elements of a diff describe, one for one, the visible places at the top. -/
def DescribesTop (src dst : Adapter V) (flags : Nat) (S D : Snap V) (es : List (Elem V)) : Prop :=
  ∃ ps : List (Pos V), DistinctPos ps ∧ (∀ c, c ∈ ps ↔ IsTop src dst S D c ∧ c.Visible flags) ∧
    es.length = ps.length ∧ ∀ x ∈ es.zip ps, Describes src dst flags S D x.1 x.2

/-- Contents as they are after any use of the API: objects are stored under their own type and unique id, and
`get_all` returns each stored object once. -/
structure Snap.Consistent (S : Snap V) : Prop where
  key_ok : ∀ t u m, S.find t u = some m → m.type = t ∧ m.uid = u
  all_iff : ∀ t m, m ∈ S.all t ↔ ∃ u, S.find t u = some m
  all_nodup : ∀ t, ((S.all t).map Model.uid).Nodup
  children_nodup : ∀ t u m, S.find t u = some m → (Dict.keys m.cls.children).Nodup

/-- Two objects with the same type and unique id use the same field name for a child type they both declare. -/
def SameFields (S D : Snap V) : Prop :=
  ∀ t u s d, S.find t u = some s → D.find t u = some d →
    ∀ ct f f', Dict.get? s.cls.children ct = some f → Dict.get? d.cls.children ct = some f' → f = f'

end DS

/-! ## Reasons for a diff to raise -/

namespace DS
variable {V : Type} [PyVal V]

/-- `Compared`, with the number of steps from the top. -/
inductive ComparedAt (src dst : Adapter V) (flags : Nat) (S D : Snap V) : Nat → Pos V → Prop where
  | top {c} : IsTop src dst S D c → ComparedAt src dst flags S D 0 c
  | child {k p c} : ComparedAt src dst flags S D k p → p.Visible flags → IsChild S D p c →
      ComparedAt src dst flags S D (k + 1) c

/-- An object at the place lists, for a compared child type, an id that is not stored. -/
def Pos.Dangling (S D : Snap V) (p : Pos V) : Prop :=
  ∃ ct u, comparesType p.src p.dst ct ∧
    ((listsO p.src ct u = true ∧ S.find ct u = none) ∨ (listsO p.dst ct u = true ∧ D.find ct u = none))

/-- The two objects at the place differ in type, shortname or identifiers. -/
def Pos.Unlike (p : Pos V) : Prop :=
  ∃ s d, p.src = some s ∧ p.dst = some d ∧
    (s.type ≠ d.type ∨ s.shortname ≠ d.shortname ∨ Dict.pyEq s.identifiers d.identifiers = false)

/-- Two places of the same type with different unique ids but the same shortname. -/
def Clash (c c' : Pos V) : Prop :=
  c.type = c'.type ∧ c.uid ≠ c'.uid ∧
    ∃ m m', c.src.or c.dst = some m ∧ c'.src.or c'.dst = some m' ∧ m.shortname = m'.shortname

/-- An object at the place has no child list for a child type its class declares. -/
def Pos.Incomplete (p : Pos V) : Prop :=
  ∃ ct f m, comparesType p.src p.dst ct ∧ (p.src = some m ∨ p.dst = some m) ∧ Dict.get? m.cls.children ct = some f ∧
    m.kidList f = none

/-- What must be the case when a diff with recursion limit `N` raises the given exception. -/
def DiffProblem (src dst : Adapter V) (flags : Nat) (S D : Snap V) (N : Nat) : Err → Prop
  | .objectNotFound => ∃ p, Compared src dst flags S D p ∧ p.Visible flags ∧ p.Dangling S D
  | .valueError => ∃ p, Compared src dst flags S D p ∧ p.Unlike
  | .objectAlreadyExists => ∃ c c', c.Visible flags ∧ c'.Visible flags ∧ Clash c c' ∧
      ((IsTop src dst S D c ∧ IsTop src dst S D c') ∨
       ∃ p, Compared src dst flags S D p ∧ p.Visible flags ∧ IsChild S D p c ∧ IsChild S D p c')
  | .attributeError => ∃ p, Compared src dst flags S D p ∧ p.Visible flags ∧ p.Incomplete
  | .recursionError => (N = 0 ∧ ∃ t, t ∈ src.topLevel ∧ t ∈ dst.topLevel) ∨ ∃ k p, N = k + 1 ∧ ComparedAt src dst flags S D k p ∧ p.Visible flags ∧
      (p.src ≠ none ∨ p.dst ≠ none) ∧ ∃ ct, comparesType p.src p.dst ct
  | _ => False

end DS

namespace DS
variable {V E : Type} [PyVal V]

/-- Two adapters in a world whose diff is considered: the world is well-formed, both contents are consistent and of types that the
stores can tell apart (always so for local stores),
objects with the same type and id use the same child field names, and no type is declared top level twice. -/
structure Comparable (src dst : Adapter V) (w : World V E) : Prop where
  ok : w.OK
  src_ok : (snap src w).Consistent
  dst_ok : (snap dst w).Consistent
  src_types : Serves src (snap src w)
  dst_types : Serves dst (snap dst w)
  fields : SameFields (snap src w) (snap dst w)
  top_nodup : dst.topLevel.Nodup

/-- The two sides of a place are both present and agree on every attribute they share. -/
def Pos.Agrees (p : Pos V) : Prop :=
  ∃ s d, p.src = some s ∧ p.dst = some d ∧
    ∀ k a b, Dict.get? s.attrs k = some a → Dict.get? d.attrs k = some b → PyVal.eq a b = true

/-- `c` is directly below `p` and neither is excluded: one step down in a comparison. -/
def Below (flags : Nat) (S D : Snap V) (p c : Pos V) : Prop := p.Visible flags ∧ IsChild S D p c ∧ c.Visible flags

/-- `q` is one or more steps below `p`. -/
inductive FarBelow (flags : Nat) (S D : Snap V) (p : Pos V) : Pos V → Prop where
  | one {q} : Below flags S D p q → FarBelow flags S D p q
  | more {q r} : FarBelow flags S D p q → Below flags S D q r → FarBelow flags S D p r

/-- A chain of stored objects of length `k` (in steps), each listing the next as a child. -/
inductive ListsChain (S : Snap V) : Nat → (String × String) → (String × String) → Prop where
  | refl (a) : ListsChain S 0 a a
  | step {k a t u ct v m} : ListsChain S k a (t, u) → S.find t u = some m → m.lists ct v = true →
      ListsChain S (k + 1) a (ct, v)

/-- No stored object is its own transitive child. -/
def Snap.Acyclic (S : Snap V) : Prop := ∀ k a, ¬ ListsChain S (k + 1) a a

end DS

/-! ## Diffs with subtrees removed -/

namespace DS
variable {V : Type} [PyVal V]

mutual
/-- The element with every descendant for which `drop` holds removed, together with what is below it. -/
def Elem.prune (drop : Elem V → Bool) : Elem V → Elem V
  | ⟨t, n, k, sn, dn, s, d, ks⟩ => ⟨t, n, k, sn, dn, s, d, pruneL drop ks⟩
/-- The elements with every one at any depth for which `drop` holds removed, together with what is below it. -/
def pruneL (drop : Elem V → Bool) : List (Elem V) → List (Elem V)
  | [] => []
  | k :: ks => if drop k then pruneL drop ks else k.prune drop :: pruneL drop ks
end

/-- The element exists on the source side only / on the destination side only. -/
def Elem.srcOnly (e : Elem V) : Bool := e.src.isSome && e.dst.isNone
def Elem.dstOnly (e : Elem V) : Bool := e.src.isNone && e.dst.isSome

/-- The elements that global flags exclude: one-sided ones on a side that is to be skipped. -/
def skippedBy (flags : Nat) (e : Elem V) : Bool :=
  (flagOn flags GF.SKIP_UNMATCHED_SRC && e.srcOnly) || (flagOn flags GF.SKIP_UNMATCHED_DST && e.dstOnly)

end DS

/-! ## Mirrored diffs -/

namespace DS
variable {V : Type} [PyVal V]

/-- `e'` is `e` with the two sides exchanged, at every depth; children may come in another order. -/
inductive Mirror : Elem V → Elem V → Prop where
  | mk {e e' : Elem V} (l : List (Elem V)) :
      e'.type = e.type → e'.name = e.name → (e'.keys = e.keys ∨ Dict.pyEq e.keys e'.keys = true) →
      e'.srcName = e.dstName → e'.dstName = e.srcName → e'.src = e.dst → e'.dst = e.src →
      l.Perm e'.kids → l.length = e.kids.length → (∀ x ∈ e.kids.zip l, Mirror x.1 x.2) →
      Mirror e e'

/-- `Mirror` for the children of two diffs. -/
def MirrorL (es es' : List (Elem V)) : Prop :=
  ∃ l : List (Elem V), l.Perm es' ∧ l.length = es.length ∧ ∀ x ∈ es.zip l, Mirror x.1 x.2

/-- Flags seen from the other side: SKIP_UNMATCHED_SRC and SKIP_UNMATCHED_DST exchanged. -/
def FlagsSwapped (flags flags' : Nat) : Prop :=
  flagOn flags' GF.SKIP_UNMATCHED_SRC = flagOn flags GF.SKIP_UNMATCHED_DST ∧
  flagOn flags' GF.SKIP_UNMATCHED_DST = flagOn flags GF.SKIP_UNMATCHED_SRC

/-- The model flag SKIP_UNMATCHED_SRC is set exactly where SKIP_UNMATCHED_DST is. -/
def Snap.SymmetricFlags (S : Snap V) : Prop :=
  ∀ t u m, S.find t u = some m → flagOn m.flags MF.SKIP_UNMATCHED_SRC = flagOn m.flags MF.SKIP_UNMATCHED_DST

end DS
