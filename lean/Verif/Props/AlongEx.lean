import Verif.Props.Along
import Verif.Props.OutcomeEx
/-! # Instances of the theorems of `Verif.Props.Along` -/
set_option maxRecDepth 100000

namespace DS.Ex

theorem wAl_ok : wAl.OK := addModels_ok _ _ _ (addModels_ok _ _ _ (world0_ok _))
theorem canAl : CanConverge 10 (ad 1) (ad 2) 2 wAl := canConverge_of (by decide) wAl_ok (by decide +kernel) (by decide +kernel) (by constructor <;> decide +kernel)
def wAl1 := (syncFrom 10 20 (scripted String) (ad 2) (ad 1) (DiffClass.default _) 0 none wAl).2
def wAl2 := (syncFrom 10 20 (scripted String) (ad 2) (ad 1) backwards 0 none wAl).2
theorem syncAl1 : syncFrom 10 20 (scripted String) (ad 2) (ad 1) (DiffClass.default _) 0 none wAl =
    ((syncFrom 10 20 (scripted String) (ad 2) (ad 1) (DiffClass.default _) 0 none wAl).1, wAl1) := (Prod.eta _).symm
theorem syncAl2 : syncFrom 10 20 (scripted String) (ad 2) (ad 1) backwards 0 none wAl =
    ((syncFrom 10 20 (scripted String) (ad 2) (ad 1) backwards 0 none wAl).1, wAl2) := (Prod.eta _).symm
theorem allAl1 : AllSucceed (newEvents wAl wAl1) := allSucceed_of (by decide +kernel)
theorem allAl2 : AllSucceed (newEvents wAl wAl2) := allSucceed_of (by decide +kernel)
theorem devX : ∃ m, (snap (ad 2) wAl).find "device" "x" = some m ∧ flagOn m.flags MF.IGNORE = true := by
  have h : (match (snap (ad 2) wAl).find "device" "x" with
    | some m => flagOn m.flags MF.IGNORE
    | none => false) = true := by decide +kernel
  cases hm : (snap (ad 2) wAl).find "device" "x" with
  | none => rw [hm] at h; cases h
  | some m => rw [hm] at h; exact ⟨m, rfl, h⟩
theorem notX : (snap (ad 1) wAl).find "device" "x" = none := Option.isNone_iff_eq_none.1 (by decide +kernel)
/-- The device takes no part. -/
theorem hiddenX : ¬ Shown (ad 1) (ad 2) 0 (snap (ad 1) wAl) (snap (ad 2) wAl) ("device", "x") := by
  intro h
  obtain ⟨_, hv, _⟩ := h.placed canAl.reconcilable canAl.ready.instOf
  obtain ⟨m, hm, hf⟩ := devX
  apply hv
  show Hidden 0 ((snap (ad 1) wAl).find "device" "x") ((snap (ad 2) wAl).find "device" "x")
  rw [hm]
  exact .ignoreDst _ _ hf
/-- C70: it goes along with the site above it. -/
example : BelowDeleted (ad 1) (ad 2) 0 (snap (ad 1) wAl) (snap (ad 2) wAl) ("device", "x") := by
  obtain ⟨m, hm, _⟩ := devX
  exact (C70_others_exact canAl reorders_default (by decide) syncAl1 allAl1 hiddenX hm).1.1 (Option.isNone_iff_eq_none.1 (by decide +kernel))
example : SameContents (snap (ad 2) wAl1) (snap (ad 2) wAl2) :=
  C70_same_outcome_always canAl reorders_default (by decide) syncAl1 allAl1 canAl reorders_backwards (by decide) syncAl2 allAl2 (sameContents_self _) (sameContents_self _)
    (fun _ => Iff.rfl) (fun _ => Iff.rfl) rfl

end DS.Ex
