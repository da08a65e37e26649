import Verif.Props.Isolated
import Verif.Props.HistoryEx
/-! # Examples for C74 -/
set_option linter.unusedSectionVars false

namespace DS.Ex

theorem elsewhere_wH1 : Elsewhere famF (.redis "one") wHe wH1 := by
  have h := StepOn.sync (D := True) (w := wHe) (n := 20) (rl := 20) (hooks := scripted String) (dc := DiffClass.default _) (flags := GF.CONTINUE_ON_FAILURE) (diff := none)
    (ad_family 2) (adR_family 1 (sid := "one") (by decide)) (fun _ h => by cases h)
  rw [wH1]
  exact .step .refl h (fun h => by cases h)
theorem elsewhere_wH2 : Elsewhere famF (.local 2) wH1 wH2 := by
  have h := StepOn.sync (D := True) (w := wH1) (n := 20) (rl := 20) (hooks := scripted String) (dc := DiffClass.default _) (flags := 0) (diff := none)
    (adR_family 1 (sid := "one") (by decide)) (ad_family 2) (fun _ h => by cases h)
  rw [wH2]
  exact .step .refl h (fun h => by cases h)

/-- The sync with a failure changes the local store and not the Redis store that it reads. -/
example : snap (adR 1 "one") wH1 = snap (adR 1 "one") wHe := C74_isolated wHe_reachable (adR_family 1 (by decide)) elsewhere_wH1
example : contents (ad 2) keysH wH1 ≠ contents (ad 2) keysH wHe := by decide +kernel
/-- The other way round. -/
example : snap (ad 2) wH2 = snap (ad 2) wH1 := C74_isolated wH1_reachable (ad_family 2) elsewhere_wH2
example : contents (adR 1 "one") keysH wH2 ≠ contents (adR 1 "one") keysH wH1 := by decide +kernel
example := C74_same_objects wH1_reachable elsewhere_wH2 "device" "a"
example : findRef wH1 2 "device" "a" = some 1 := by decide +kernel
example : Separate (ad 2) (ad 1) wH2 := C74_separate wH2_reachable (ad_family 2) (by decide)
example (hooks : Hooks String (List Outcome)) := C74_sync wH2_reachable (ad_family 2) (adR_family 1 (sid := "one") (by decide)) (ad_family 1) (by decide) 20 20 hooks
  (DiffClass.default _) 0 (diff := none) (fun _ h => by cases h)
example := C74_converges w1_reachable (ad_family 1) (ad_family 2) (sid := 2) rfl (by decide) (by decide) (sameModels_ad 1 2) alike1 (by decide)
  reorders_default (sync_pair (withEnv w1 []) 0) all1

/-- One object added to two local stores. -/
def wTwice : World String (List Outcome) := (add (ad 1) 0 (addModels (ad 2) [device "a" "core" []] (world0 String _ []))).2
/-- **C74** Why the program has to mind: an object that was added to two local stores is updated in both by a call about one of them. -/
theorem C74_shared_object_changes_in_both :
    (snap (ad 1) wTwice).find "device" "a" = some (device "a" "core" []) ∧ (snap (ad 2) wTwice).find "device" "a" = some (device "a" "core" []) ∧
    (snap (ad 2) (updateOrInstantiate (ad 1) deviceC [("name", "a")] [("role", "leaf")] wTwice).2).find "device" "a" = some (device "a" "leaf" []) := by
  decide +kernel

end DS.Ex
