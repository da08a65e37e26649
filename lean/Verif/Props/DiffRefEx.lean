import Verif.Props.DiffRef
import Verif.Model.Concrete
/-! # Examples for C85 -/
set_option linter.unusedSectionVars false

namespace DS.Ex

/-- Elements 0 to 3 (with the child diffs 0 to 3) and a diff, 4. -/
def hB : DiffHeap PV :=
  ((((((DiffHeap.empty PV).newElem "site" "nyc" [("name", .s "nyc")]).newElem "device" "a" [("name", .s "a")]).newElem "device" "b" [("name", .s "b")]).newElem "device" "a"
    [("name", .s "a")]).newDiff).addAttrs 2 (some [("role", .s "core")]) (some [("role", .s "leaf")])
theorem hB_made : ByHand hB (fun _ => []) := .attrs _ _ _ (.diff (.elem _ _ _ _ _ (.elem _ _ _ _ _ (.elem _ _ _ _ _ (.elem _ _ _ _ _ .start))))) (by decide)

/-- The site is added to the diff, and both devices to the site. -/
def hT : DiffHeap PV := (((hB.add 4 0).2.addChild 0 1).2.addChild 0 2).2
def logT : Nat → List Nat := assign (assign (assign (fun _ => []) 4 [0]) 0 [1]) 0 [1, 2]
theorem hT_made : ByHand hT logT :=
  .added (d := 0) (e := 2) (.added (d := 0) (e := 1) (.added (d := 4) (e := 0) hB_made (by decide) (by decide) rfl) (by decide) (by decide) rfl) (by decide) (by decide) rfl

example : hT.children 4 = [0] ∧ hT.kids 0 = [1, 2] := by decide +kernel
/-- Another device `a` is refused, and the first one stays. -/
example : hT.addChild 0 3 = (.error .objectAlreadyExists, hT) := (C85_add hT_made 0 3).1 ⟨1, by decide, by decide⟩
/-- The second device differs, and so the site does. -/
example : hT.hasDiffs 5 0 = .ok true ∧ hT.hasDiffs 5 1 = .ok false := by decide +kernel
example : (match hT.summary 5 0 with | .ok s => [s.create, s.update, s.delete, s.noChange] | .error _ => []) = [0, 1, 0, 2] := by decide +kernel
example : hT.len 2 0 = .ok 3 ∧ hT.len 1 0 = .error .recursionError := by decide +kernel
/-- The site is a tree. -/
example : ∃ T, IsTree hT logT 0 T := tree_of_len hT_made.inv 2 0 3 (by decide +kernel)

/-- A device below two sites: it is counted twice. -/
def hS : DiffHeap PV := (((hT.newElem "site" "sfo" [("name", .s "sfo")]).addChild 4 2).2.add 4 4).2
example : hS.lenDiff 3 4 = .ok 5 ∧ hS.children 4 = [0, 4] ∧ hS.kids 0 = [1, 2] ∧ hS.kids 4 = [2] := by decide +kernel

/-- The site below one of its devices: `add_child` accepts it. -/
def hC : DiffHeap PV := (hT.addChild 1 0).2
theorem hC_made : ByHand hC (assign logT 1 [0]) := .added (d := 1) (e := 0) hT_made (by decide) (by decide) rfl
example (n : Nat) : hC.len n 0 = .error .recursionError ∧ hC.summary n 0 = .error .recursionError ∧ ∀ i, hC.str n i 0 = .error .recursionError :=
  C85_cycle hC_made (x := 0) (.inl rfl) (.deeper (c := 1) (by decide) (.child (by decide))) n
/-- `has_diffs` may still return, namely if it finds a difference before it gets to the cycle. -/
example : (hC.addAttrs 1 (some [("role", .s "x")]) none).hasDiffs 2 0 = .ok true ∧ hC.hasDiffs 50 0 = .error .recursionError := by decide +kernel

end DS.Ex
