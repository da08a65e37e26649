import Verif.Spec.Differ
/-! # Comparing along a chain of adapters -/

namespace DS
variable {V : Type} [PyVal V]

/-- The middle one of three adapters has whatever the outer two have in common: top-level types, and at a type and unique
id that all three hold, the attributes and the child types. -/
structure Between (a b c : Adapter V) (A B C : Snap V) : Prop where
  top : ∀ t, t ∈ a.topLevel → t ∈ c.topLevel → t ∈ b.topLevel
  attrs : ∀ t u x y z k, A.find t u = some x → B.find t u = some y → C.find t u = some z →
    k ∈ Dict.keys x.attrs → k ∈ Dict.keys z.attrs → k ∈ Dict.keys y.attrs
  kids : ∀ t u x y z ct, A.find t u = some x → B.find t u = some y → C.find t u = some z →
    ct ∈ Dict.keys x.cls.children → ct ∈ Dict.keys z.cls.children → ct ∈ Dict.keys y.cls.children

/-- No object of the adapter is excluded from diffs by its own flags. -/
def Snap.Unflagged (S : Snap V) : Prop := ∀ t u m, S.find t u = some m →
  flagOn m.flags MF.IGNORE = false ∧ flagOn m.flags MF.SKIP_UNMATCHED_SRC = false ∧ flagOn m.flags MF.SKIP_UNMATCHED_DST = false

/-- Neither SKIP_UNMATCHED_SRC nor SKIP_UNMATCHED_DST is among the flags. -/
def ComparesAll (flags : Nat) : Prop :=
  flagOn flags GF.SKIP_UNMATCHED_SRC = false ∧ flagOn flags GF.SKIP_UNMATCHED_DST = false

end DS
