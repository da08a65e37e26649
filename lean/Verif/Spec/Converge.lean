import Verif.Spec.Sync
/-! # When two adapters can be reconciled

Conditions on the contents of a source and a destination under which a sync converges. -/

namespace DS
variable {V E : Type} [PyVal V]

/-- `k` lists `c` as a child, on one of the sides. -/
def Linked (S D : Snap V) (k c : Key) : Prop := listsO (S.find k.1 k.2) c.1 c.2 = true ∨ listsO (D.find k.1 k.2) c.1 c.2 = true

/-- `k` is reached in that many steps from a type that is top level on both sides. -/
inductive FromTop (src dst : Adapter V) (S D : Snap V) : Nat → Key → Prop where
  | top {k} : k.1 ∈ src.topLevel → k.1 ∈ dst.topLevel → FromTop src dst S D 0 k
  | down {j k c} : FromTop src dst S D j k → Linked S D k c → FromTop src dst S D (j + 1) c

/-- An object as the library builds it: an instance of a valid class, with values for its fields and its child lists, none of
which repeats an id. -/
structure Sound (m : Model V) : Prop where
  valid : m.cls.Valid
  vals : Dict.keys m.vals = m.cls.fieldNames
  lists : ∀ ct f, Dict.get? m.cls.children ct = some f → ∃ l, m.kidList f = some l ∧ l.Nodup

/-- Two objects describe the same thing: equal identifiers, and equal values for the fields that make up the short name. -/
structure Fits (s d : Model V) : Prop where
  ids : Dict.pyEq s.identifiers d.identifiers = true
  short : d.cls.shortname = s.cls.shortname
  names : ∀ f ∈ s.cls.shortname, s.strField f = d.strField f

/-- The class `c` of the destination fits a source object: same identifiers, the same lists for the child types of the source
object, and the source object's identifiers and attributes make an object that fits it and has the same unique id. -/
structure SourceFit (c : ModelClass V) (s : Model V) : Prop where
  identifiers : c.identifiers = s.cls.identifiers
  children : ∀ ct f, Dict.get? s.cls.children ct = some f → Dict.get? c.children ct = some f
  keeps : c.KeepsIds s.identifiers
  builds : ∃ m, c.construct s.identifiers s.attrs = .ok m ∧ Fits s m

/-- Two keys of the same type that occur side by side: both at the top, or both listed by the same object. -/
def Siblings (src dst : Adapter V) (S D : Snap V) (k k' : Key) : Prop :=
  k.1 = k'.1 ∧ ((k.1 ∈ src.topLevel ∧ k.1 ∈ dst.topLevel) ∨ ∃ p, Linked S D p k ∧ Linked S D p k')

/-- Source and destination can be reconciled within the recursion limit `n`. -/
structure Reconcilable (src dst : Adapter V) (n : Nat) (S D : Snap V) : Prop where
  /-- The child lists form forests, the same on both sides where they overlap. -/
  one_parent : ∀ k k' c, Linked S D k c → Linked S D k' c → k = k'
  not_top : ∀ k c, Linked S D k c → ¬ (c.1 ∈ src.topLevel ∧ c.1 ∈ dst.topLevel)
  depth : ∀ j k, FromTop src dst S D j k → j + 1 < n
  src_stored : ∀ k c : Key, listsO (S.find k.1 k.2) c.1 c.2 = true → S.find c.1 c.2 ≠ none
  dst_stored : ∀ k c : Key, listsO (D.find k.1 k.2) c.1 c.2 = true → D.find c.1 c.2 ≠ none
  src_place : ∀ k c : Key, listsO (S.find k.1 k.2) c.1 c.2 = true → D.find c.1 c.2 ≠ none → listsO (D.find k.1 k.2) c.1 c.2 = true
  dst_place : ∀ k c : Key, listsO (D.find k.1 k.2) c.1 c.2 = true → S.find c.1 c.2 ≠ none → listsO (S.find k.1 k.2) c.1 c.2 = true
  /-- The destination has classes for its top-level types and for the child types of its classes. -/
  top_known : ∀ t ∈ dst.topLevel, Dict.get? dst.classes t ≠ none
  kids_known : ∀ t c ct, Dict.get? dst.classes t = some c → ct ∈ Dict.keys c.children → Dict.get? dst.classes ct ≠ none
  /-- The objects are sound and fit one another. -/
  sound : ∀ (k : Key) m, S.find k.1 k.2 = some m ∨ D.find k.1 k.2 = some m → Sound m
  source : ∀ (k : Key) s c, S.find k.1 k.2 = some s → Dict.get? dst.classes k.1 = some c → SourceFit c s
  pairs : ∀ (k : Key) s d, S.find k.1 k.2 = some s → D.find k.1 k.2 = some d → Fits s d
  /-- Objects side by side have different short names. -/
  names : ∀ k k' m m', Siblings src dst S D k k' → k ≠ k' → (S.find k.1 k.2 = some m ∨ D.find k.1 k.2 = some m) →
    (S.find k'.1 k'.2 = some m' ∨ D.find k'.1 k'.2 = some m') → m.shortname ≠ m'.shortname

/-- Attribute values of stored objects equal themselves (as NaN does not). -/
def SelfEqual (S : Snap V) : Prop := ∀ (k : Key) s f v, S.find k.1 k.2 = some s → Dict.get? s.attrs f = some v → PyVal.eq v v = true

/-- What the class makes of the attribute values of `s` is equal to them. -/
def ModelClass.KeepsValues (c : ModelClass V) (s : Model V) : Prop :=
  ∀ f v v', Dict.get? s.attrs f = some v → c.reads f v = some v' → PyVal.eq v v' = true

/-- The classes of the destination keep the attribute values of the objects of the source. -/
def KeepsValuesOf (dst : Adapter V) (S : Snap V) : Prop :=
  ∀ (k : Key) s c, S.find k.1 k.2 = some s → Dict.get? dst.classes k.1 = some c → c.KeepsValues s

/-- The object takes part in the comparison: it is reached from the top through objects that are not excluded, and is not excluded
itself. -/
def Shown (src dst : Adapter V) (flags : Nat) (S D : Snap V) (k : Key) : Prop :=
  ∃ p, Compared src dst flags S D p ∧ p.Visible flags ∧ (p.type, p.uid) = k

/-- The classes of the destination keep the attribute values of the objects that a sync is to create. -/
def KeepsNew (src dst : Adapter V) (flags : Nat) (S D : Snap V) : Prop :=
  ∀ (k : Key) s c, Shown src dst flags S D k → S.find k.1 k.2 = some s → D.find k.1 k.2 = none → Dict.get? dst.classes k.1 = some c → c.KeepsValues s

/-- Every call of user code did its work: it returned an object, and an update has been applied. -/
def AllSucceed (evs : List (Event V)) : Prop :=
  ∀ c out, Event.call c out ∈ evs → out.result = .object ∧ (c.act = .update → out.applied = true)

/-- What a converging sync starts from. -/
structure CanConverge (n : Nat) (src dst : Adapter V) (sid : Nat) (w : World V E) : Prop where
  comparable : Comparable src dst w
  ready : SyncReady dst sid w
  separate : Separate src dst w
  reconcilable : Reconcilable src dst n (snap src w) (snap dst w)

/-- Any number of syncs from the same source, whatever the user's code does, with any flags and diff classes, whether they
return or raise. -/
inductive Syncs (n rl : Nat) (src dst : Adapter V) : World V E → World V E → Prop where
  | nil {w} : Syncs n rl src dst w w
  | sync {w w1 w' hooks dc flags res} : Syncs n rl src dst w w1 → syncFrom n rl hooks dst src dc flags none w1 = (res, w') → Syncs n rl src dst w w'

end DS
