import Verif.Spec.Converge
/-! # What a successful sync leaves

The contents of the destination after a sync, in terms of the contents before, without reference to the diff. -/

namespace DS
variable {V : Type} [PyVal V]

/-- `c` is below `k` in the child lists, directly or not. -/
inductive ListedBelow (D : Snap V) : Key → Key → Prop where
  | child {k c : Key} : listsO (D.find k.1 k.2) c.1 c.2 = true → ListedBelow D k c
  | step {k c c' : Key} : ListedBelow D k c → listsO (D.find c.1 c.2) c'.1 c'.2 = true → ListedBelow D k c'

/-- The object may go along with one that is deleted and flagged SKIP_CHILDREN_ON_DELETE. -/
def GoesAlong (src dst : Adapter V) (flags : Nat) (S D : Snap V) (k : Key) : Prop :=
  ∃ k0, Shown src dst flags S D k0 ∧ S.find k0.1 k0.2 = none ∧ SkipsChildren dst D k0 ∧ ListedBelow D k0 k

/-- An attribute of both objects, with different values; `a` is that of the first. -/
def Differs (s m : Model V) (f : String) (a : V) : Prop :=
  Dict.get? s.attrs f = some a ∧ ∃ b, Dict.get? m.attrs f = some b ∧ PyVal.eq a b = false

/-- `D'` is what a sync from `S` makes of `D`. -/
structure Synced (src dst : Adapter V) (flags : Nat) (S D D' : Snap V) : Prop where
  /-- Objects that the source does not have are gone. -/
  deleted : ∀ k : Key, Shown src dst flags S D k → S.find k.1 k.2 = none → D'.find k.1 k.2 = none
  /-- Objects that the destination did not have are there: instances of the destination's class, with the source's identifiers and
  attributes, and defaults otherwise. -/
  created : ∀ (k : Key) s, Shown src dst flags S D k → S.find k.1 k.2 = some s → D.find k.1 k.2 = none →
    ∃ c m, Dict.get? dst.classes k.1 = some c ∧ D'.find k.1 k.2 = some m ∧ m.cls = c ∧ m.flags = c.defaultFlags ∧
      ∀ f d, (f, d) ∈ c.fields → Dict.get? m.vals f = c.newValue s.identifiers s.attrs f d
  /-- Objects of both sides are still there; the attributes that differed have the source's values, everything else is as it was. -/
  updated : ∀ (k : Key) s m0, Shown src dst flags S D k → S.find k.1 k.2 = some s → D.find k.1 k.2 = some m0 →
    ∃ m, D'.find k.1 k.2 = some m ∧ m.cls = m0.cls ∧ m.flags = m0.flags ∧
      (∀ f a, Differs s m0 f a → Dict.get? m.vals f = some a) ∧
      ∀ f, (∀ a, ¬ Differs s m0 f a) → Dict.get? m.vals f = Dict.get? m0.vals f
  /-- Other objects are as they were, child lists included, but for those below a deleted object that takes along what is below it. -/
  others : ∀ k : Key, ¬ Shown src dst flags S D k → ¬ GoesAlong src dst flags S D k → D'.find k.1 k.2 = D.find k.1 k.2
  /-- The children of an object are those it has on either side, as far as they are there. -/
  lists : ∀ k c : Key, listsO (D'.find k.1 k.2) c.1 c.2 = true ↔
    D'.find k.1 k.2 ≠ none ∧ D'.find c.1 c.2 ≠ none ∧ Linked S D k c
  /-- No child list repeats an id. -/
  sound : ∀ (k : Key) m, D'.find k.1 k.2 = some m → Sound m

/-- Below an object flagged SKIP_CHILDREN_ON_DELETE no object is excluded from diffs by its own flags. -/
def Snap.NoneGoesAlong (A : Adapter V) (D : Snap V) : Prop :=
  ∀ (k0 k : Key) m, SkipsChildren A D k0 → ListedBelow D k0 k → D.find k.1 k.2 = some m →
    flagOn m.flags MF.IGNORE = false ∧ flagOn m.flags MF.SKIP_UNMATCHED_DST = false

end DS
