import Verif.Spec.Sync
/-! # What a removal with children takes away and what it warns of (C101) -/

namespace DS
variable {V E : Type} [PyVal V]

/-- The listings of an object: for every kind of children of its class and every unique id in that list, the child and the object that lists it.  An id that
occurs twice in a list is two listings. -/
def Model.listings (m : Model V) : List (Key × Key) :=
  m.cls.children.flatMap (fun p => ((m.kidList p.2).getD []).map (fun u => ((p.1, u), m.key)))

/-- The warning about a listing: the child was not found. -/
def listingWarning (l : Key × Key) : Event V := .childNotFound l.1.1 l.1.2 l.2.1 l.2.2

/-- What a removal of `root` with its children does to the contents `D` and what it reports: `gone` are the objects that were there and are not any more, each
once.  Of their listings, each is either one that led to the removal of the child (one for every object that is gone except `root`) or has a warning. -/
def RemovalReport (D D' : String → String → Option (Model V)) (root : Key) (evs : List (Event V)) (gone : List (Model V)) : Prop :=
  (gone.map Model.key).Nodup ∧ (∀ m ∈ gone, D m.type m.uid = some m) ∧ (∀ t u, D' t u = if (t, u) ∈ gone.map Model.key then none else D t u) ∧
  ∃ warned via : List (Key × Key), evs = warned.map listingWarning ∧ (warned ++ via).Perm (gone.flatMap Model.listings) ∧
    (root :: via.map Prod.fst).Perm (gone.map Model.key) ∧ ∀ l ∈ warned, D' l.1.1 l.1.2 = none
end DS
