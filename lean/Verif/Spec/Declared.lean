import Verif.Spec.History
import Verif.Spec.Converge
/-! # Adapters that declare the same models -/

namespace DS
variable {V E : Type} [PyVal V]

/-- Two adapters declare the same models, in a way that objects can be rebuilt from what a diff carries: every field without a default is an
identifier or an attribute, short names are made of identifiers, and the types of children are declared. -/
structure SameModels (src dst : Adapter V) : Prop where
  same : src.classes = dst.classes
  required : ∀ t c, Dict.get? dst.classes t = some c → ∀ f, (f, none) ∈ c.fields → f ∈ c.identifiers ∨ f ∈ c.attributes
  short : ∀ t c, Dict.get? dst.classes t = some c → ∀ f ∈ c.shortname, f ∈ c.identifiers
  children : ∀ t c ct, Dict.get? dst.classes t = some c → ct ∈ Dict.keys c.children → ct ∈ Dict.keys dst.classes

/-- The contents of source and destination form forests that place shared objects alike, within the recursion limit; objects with the same
key have the same identifiers; objects side by side have different short names; identifiers and attributes of the objects of the source equal
themselves (as NaN does not), and their classes take these values as they are. -/
structure Alike (src dst : Adapter V) (n : Nat) (S D : Snap V) : Prop where
  one_parent : ∀ k k' c, Linked S D k c → Linked S D k' c → k = k'
  not_top : ∀ k c, Linked S D k c → ¬ (c.1 ∈ src.topLevel ∧ c.1 ∈ dst.topLevel)
  depth : ∀ j k, FromTop src dst S D j k → j + 1 < n
  src_stored : ∀ k c : Key, listsO (S.find k.1 k.2) c.1 c.2 = true → S.find c.1 c.2 ≠ none
  dst_stored : ∀ k c : Key, listsO (D.find k.1 k.2) c.1 c.2 = true → D.find c.1 c.2 ≠ none
  src_place : ∀ k c : Key, listsO (S.find k.1 k.2) c.1 c.2 = true → D.find c.1 c.2 ≠ none → listsO (D.find k.1 k.2) c.1 c.2 = true
  dst_place : ∀ k c : Key, listsO (D.find k.1 k.2) c.1 c.2 = true → S.find c.1 c.2 ≠ none → listsO (S.find k.1 k.2) c.1 c.2 = true
  same_ids : ∀ (k : Key) s d, S.find k.1 k.2 = some s → D.find k.1 k.2 = some d → ∀ f ∈ s.cls.identifiers, Dict.get? s.vals f = Dict.get? d.vals f
  names : ∀ k k' m m', Siblings src dst S D k k' → k ≠ k' → (S.find k.1 k.2 = some m ∨ D.find k.1 k.2 = some m) →
    (S.find k'.1 k'.2 = some m' ∨ D.find k'.1 k'.2 = some m') → m.shortname ≠ m'.shortname
  self_eq : ∀ (k : Key) s f v, S.find k.1 k.2 = some s → f ∈ s.cls.identifiers ∨ f ∈ s.cls.attributes → Dict.get? s.vals f = some v → PyVal.eq v v = true
  parsed : ∀ (k : Key) s f v, S.find k.1 k.2 = some s → f ∈ s.cls.identifiers ∨ f ∈ s.cls.attributes → Dict.get? s.vals f = some v → s.cls.reads f v = some v

end DS
