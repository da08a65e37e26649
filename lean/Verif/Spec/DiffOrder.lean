import Verif.Spec.Differ
/-! # The order of the elements of a diff -/

namespace DS
variable {V : Type} [PyVal V]

/-- The unique ids that the object on one side lists as children of a type, in the order of its list. -/
def kidIds (o : Option (Model V)) (ct : String) : List String :=
  match o with
  | none => []
  | some m => ((Dict.get? m.cls.children ct).bind m.kidList).getD []

/-- The child types that are compared below two objects, in the order in which the source's class declares them (the destination's, if the source has no
object there). -/
def comparedTypes : Option (Model V) → Option (Model V) → List String
  | some s, some d => (Dict.keys s.cls.children).filter (fun ct => decide (ct ∈ Dict.keys d.cls.children))
  | some s, none => Dict.keys s.cls.children
  | none, some d => Dict.keys d.cls.children
  | none, none => []

/-- The places at the top in order: by type in the order of the destination's `top_level`; of one type the ids that the source has, in the order in which
it holds them, then those that only the destination has, in the order in which that holds them. -/
def topPlaces (src dst : Adapter V) (S D : Snap V) : List (Pos V) :=
  (dst.topLevel.filter (fun t => decide (t ∈ src.topLevel))).flatMap fun t =>
    ((S.all t).map Model.uid ++ (D.all t).map Model.uid).eraseDups.map fun u => ⟨t, u, S.find t u, D.find t u⟩

/-- The places below a place in order: by type in the order of declaration; of one type the ids that the source's object lists, in the order of its list,
then those that only the destination's object lists, in the order of that list. -/
def childPlaces (S D : Snap V) (p : Pos V) : List (Pos V) :=
  (comparedTypes p.src p.dst).flatMap fun ct =>
    (kidIds p.src ct ++ kidIds p.dst ct).eraseDups.map fun u =>
      ⟨ct, u, if u ∈ kidIds p.src ct then S.find ct u else none, if u ∈ kidIds p.dst ct then D.find ct u else none⟩

open Classical in
/-- Those of the places that flags do not exclude, in the same order. -/
noncomputable def visible (flags : Nat) (ps : List (Pos V)) : List (Pos V) := ps.filter (fun c => decide (c.Visible flags))

/-- An element stands for a place, and its children for the visible places below it, in order, and so on. -/
inductive InOrder (src dst : Adapter V) (flags : Nat) (S D : Snap V) : Elem V → Pos V → Prop where
  | mk {e : Elem V} {p : Pos V} :
      Header src dst e p →
      e.kids.length = (visible flags (childPlaces S D p)).length →
      (∀ x ∈ e.kids.zip (visible flags (childPlaces S D p)), InOrder src dst flags S D x.1 x.2) →
      InOrder src dst flags S D e p

end DS
