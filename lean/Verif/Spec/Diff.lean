import Verif.Model.Diff
/-! # Vocabulary for statements about diffs -/

namespace DS
variable {V : Type} [PyVal V]

/-- `e` occurs somewhere in the forest `kids`, at any depth. -/
inductive InTree (e : Elem V) : List (Elem V) → Prop where
  | here {kids} : e ∈ kids → InTree e kids
  | under {kids k} : k ∈ kids → InTree e k.kids → InTree e kids

mutual
/-- All elements of a tree, in pre-order. -/
def Elem.nodes : Elem V → List (Elem V)
  | ⟨t, n, k, sn, dn, s, d, ks⟩ => ⟨t, n, k, sn, dn, s, d, ks⟩ :: nodesL ks
/-- All elements of a forest, in pre-order. -/
def nodesL : List (Elem V) → List (Elem V)
  | [] => []
  | k :: ks => k.nodes ++ nodesL ks
end

/-- The order methods of a diff class yield each child exactly once. -/
def DiffClass.Reorders (dc : DiffClass V) : Prop := ∀ g l, (dc.order g l).Perm l

/-- Number of elements anywhere in the forest with the given action. -/
def countAction (a : Option Action) (kids : List (Elem V)) : Nat :=
  (nodesL kids).countP (fun e => decide (e.action = a))

/-- The value the source / destination side of an element has for an attribute, if it has that side. -/
def Elem.srcVal (e : Elem V) (k : String) : Option V := e.src.bind (fun s => Dict.get? s k)
def Elem.dstVal (e : Elem V) (k : String) : Option V := e.dst.bind (fun d => Dict.get? d k)

/-- Attribute `k` is carried by both sides with different values (Python `!=`). -/
def Elem.DiffersAt (e : Elem V) (k : String) : Prop :=
  ∃ v w, e.srcVal k = some v ∧ e.dstVal k = some w ∧ PyVal.eq v w = false

/-- No two elements of the list have the same type and name. -/
def UniqueNames (kids : List (Elem V)) : Prop := kids.Pairwise (fun a b => ¬ (a.type = b.type ∧ a.name = b.name))

/-- `d[t][n]` for a two-level dictionary, if both keys are present. -/
def get2 {α : Type} (d : Dict (Dict α)) (t n : String) : Option α := (Dict.get? d t).bind (fun g => Dict.get? g n)

/-- The diff after a sequence of `Diff.add` calls, some of which may have raised. -/
def addAll (d : Diff V) (es : List (Elem V)) : Diff V := es.foldl (fun d e => (d.add e).2) d

end DS
