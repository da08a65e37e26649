import Verif.Props.DifferOpen
/-! # Concrete callbacks -/
set_option linter.unusedSectionVars false

namespace DS.Ex

/-- A callback that writes down what it is told and gives up after `k` calls. -/
def noteUpTo (k : Nat) (c t : Nat) : M String (List (Nat × Nat)) Unit := fun w =>
  if w.env.length < k then (.ok (), { w with env := w.env ++ [(c, t)] }) else (.error .valueError, { w with env := w.env ++ [(c, t)] })

/-- It only looks. -/
theorem noteUpTo_looks (k : Nat) : OnlyLooks (noteUpTo k) := by
  refine ⟨fun c t w => ?_, fun c t w r _ => ?_, fun c t w sid ty => ?_, fun c t w => ?_⟩ <;>
    · unfold noteUpTo
      split <;> first | rfl | exact Nat.le_refl _

/-- Two sites with a device; one of them differs. -/
def wNote : World String (List (Nat × Nat)) :=
  addModels (ad 1) [site "nyc" ["a"], device "a" "leaf" []] (addModels (ad 2) [site "nyc" ["a"], device "a" "spine" []] (world0 String _ []))

theorem wNote_ok : wNote.OK := addModels_ok _ _ _ (addModels_ok _ _ _ (world0_ok _))

def noted (k : Nat) := oDiffFrom (noteUpTo k) 10 (ad 2) (ad 1) (DiffClass.default _) 0 wNote

/-- Patient: the diff is the usual one, and the callback has been told 2 of 4 and 4 of 4. -/
example : sumOf (noted 9) = sumOf (diffFrom 10 (ad 2) (ad 1) (DiffClass.default _) 0 wNote) ∧
    (sumOf (noted 9)).isSome ∧ (noted 9).2.env = [(2, 4), (4, 4)] := by decide +kernel

/-- Impatient: the second call raises and so does the diff. -/
example : (match (noted 1).1 with | .error .valueError => true | _ => false) = true ∧ (noted 1).2.env = [(2, 4), (4, 4)] := by decide +kernel
example : (match (noted 0).1 with | .error .valueError => true | _ => false) = true ∧ (noted 0).2.env = [(2, 4)] := by decide +kernel

/-- A callback that meddles: it removes the device from the source (the store, not the child list), so that the diff does not find it. -/
def meddle (_ _ : Nat) : M String (List (Nat × Nat)) Unit := removeItem (ad 1) "device" "a"

/-- `C81_any_callback` speaks about it: the first call returned, and the diff raised something else. -/
example : (match (oDiffFrom meddle 10 (ad 2) (ad 1) (DiffClass.default _) 0 wNote).1 with | .error .objectNotFound => true | _ => false) = true ∧
    (oDiffFrom meddle 10 (ad 2) (ad 1) (DiffClass.default _) 0 wNote).2.trace.length = wNote.trace.length + 1 := by decide +kernel

end DS.Ex
