import Verif.Props.Removal
import Verif.Props.RedisEx
/-! # What a removal with children reports: concrete cases -/

namespace DS.Ex

/-- A site that lists a device that is not there, and two devices that list the same interface. -/
def lRem : List (Model String) := [site "nyc" ["a", "ghost", "b"], device "a" "leaf" ["a__eth0"], device "b" "leaf" ["a__eth0", "b__eth0"], interface "a" "eth0" "up",
  interface "b" "eth0" "up", site "lax" []]
def wRem : World String (List Outcome) := addModels (ad 2) lRem (world0 String _ [])
theorem wRem_ok : wRem.OK := addModels_ok _ _ _ (world0_ok _)

/-- C101: the hypotheses of the theorem about local stores. -/
example := C101_removal_report_local (ad 2) rfl wRem wRem_ok (show findRef wRem 2 "site" "nyc" = some 0 by decide +kernel) 10 (by decide +kernel)
/-- Five objects go; there are six listings, of which four led to an object. -/
example : newEvents wRem (remove (ad 2) 10 0 true wRem).2 =
    [.childNotFound "device" "ghost" "site" "nyc", .childNotFound "interface" "a__eth0" "device" "b"] := by decide +kernel
example : countStore (ad 2).ref.store wRem = 6 ∧ countStore (ad 2).ref.store (remove (ad 2) 10 0 true wRem).2 = 1 := by decide +kernel

/-- The same contents in a Redis store. -/
def wRemR : World String (List Outcome) := addModels (adR 1 "one") lRem (world0 String _ [])
theorem wRemR_holds : RedisHolds wRemR (lRem.map (fun m => (("one", m.type, m.uid), m))) where
  all := by decide +kernel
  wf := by unfold Dict.WF; decide +kernel
  plain := by decide +kernel
  own := by decide +kernel
  kids := by decide +kernel
  nodup := by decide +kernel
example := C101_removal_report_redis (adR 1 "one") rfl wRemR (wRemR_holds.ok (by decide)) (r := 0) (by decide +kernel) (by decide +kernel) (by decide +kernel) 10
  (by decide +kernel)
example : newEvents wRemR (remove (adR 1 "one") 10 0 true wRemR).2 =
    [.childNotFound "device" "ghost" "site" "nyc", .childNotFound "interface" "a__eth0" "device" "b"] := by decide +kernel

/-- So the hypothesis of the other theorems is met, by a report with two warnings. -/
example : ∃ gone evs D D', RemovalReport (V := String) D D' ("site", "nyc") evs gone ∧ evs.length = 2 := by
  obtain ⟨w', gone, h1, h2⟩ := C101_removal_report_local (ad 2) rfl wRem wRem_ok (show findRef wRem 2 "site" "nyc" = some 0 by decide +kernel) 10 (by decide +kernel)
  refine ⟨gone, _, _, _, h2, ?_⟩
  have : w' = (remove (ad 2) 10 0 true wRem).2 := by rw [h1]
  rw [this]
  decide +kernel
end DS.Ex
