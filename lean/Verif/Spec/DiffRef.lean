import Verif.Model.DiffRef
/-! # What a history of calls makes of diffs -/

namespace DS
variable {V : Type} [PyVal V]

/-- The heaps that calls of `Diff()`, `DiffElement()`, `add_attrs` and `add` lead to, with the elements that were added to each diff, in the order of the calls.
`add_child` is `add` to the `child_diff`. -/
inductive ByHand : DiffHeap V → (Nat → List Nat) → Prop where
  | start : ByHand (DiffHeap.empty V) fun _ => []
  | diff {h log} : ByHand h log → ByHand h.newDiff log
  | elem {h log} (type name : String) (keys : Dict V) (srcName dstName : String) : ByHand h log → ByHand (h.newElem type name keys srcName dstName) log
  | attrs {h log} (e : Nat) (s d : Option (Dict V)) : ByHand h log → e < h.nElem → ByHand (h.addAttrs e s d) log
  | added {h log d e} : ByHand h log → d < h.nDiff → e < h.nElem → (h.add d e).1 = .ok () → ByHand (h.add d e).2 (assign log d (log d ++ [e]))
  | refused {h log d e err} : ByHand h log → d < h.nDiff → e < h.nElem → (h.add d e).1 = .error err → ByHand (h.add d e).2 log

/-- An element is, with all that was added to it and below it, a tree. -/
inductive IsTree (h : DiffHeap V) (log : Nat → List Nat) : Nat → Elem V → Prop where
  | mk {e : Nat} (f : Nat → Elem V) : (∀ c ∈ log (h.elem e).diff, IsTree h log c (f c)) →
      IsTree h log e { (h.elem e).bare with kids := (log (h.elem e).diff).map f }

/-- `x` is below `e`: it was added to `e`, or to an element below `e`. -/
inductive IsBelow (h : DiffHeap V) (log : Nat → List Nat) : Nat → Nat → Prop where
  | child {e x} : x ∈ log (h.elem e).diff → IsBelow h log e x
  | deeper {e c x} : c ∈ log (h.elem e).diff → IsBelow h log c x → IsBelow h log e x

/-- No two siblings of the tree have the same type and name. -/
inductive DistinctSiblings : Elem V → Prop where
  | mk {T : Elem V} : T.kids.Pairwise (fun a b => ¬ (a.type = b.type ∧ a.name = b.name)) → (∀ k ∈ T.kids, DistinctSiblings k) → DistinctSiblings T

/-- The types of some elements, in the order of their first occurrence. -/
def typesOf (h : DiffHeap V) : List Nat → List String
  | [] => []
  | e :: es => (h.elem e).type :: (typesOf h es).filter fun t => !(t == (h.elem e).type)

end DS
