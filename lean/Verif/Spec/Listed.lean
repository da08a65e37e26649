import Verif.Spec.Differ
/-! # Contents in which every object is listed once -/

namespace DS
variable {V : Type} [PyVal V]

/-- Every object is listed exactly once: child lists have no repetitions and name stored objects, no two objects list the same child, and
objects of top-level types are nobody's children. -/
structure ListedOnce (A : Adapter V) (S : Snap V) : Prop where
  nodup : ∀ t u m ct f l, S.find t u = some m → Dict.get? m.cls.children ct = some f → m.kidList f = some l → l.Nodup
  one : ∀ t u m t' u' m' ct c, S.find t u = some m → S.find t' u' = some m' → m.lists ct c = true → m'.lists ct c = true → t = t' ∧ u = u'
  top : ∀ t u m ct c, S.find t u = some m → m.lists ct c = true → ct ∉ A.topLevel
  stored : ∀ t u m ct c, S.find t u = some m → m.lists ct c = true → S.find ct c ≠ none

end DS
