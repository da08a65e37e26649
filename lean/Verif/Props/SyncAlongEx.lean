import Verif.Props.SyncAlong
import Verif.Props.SyncEx
/-! # When a sync reports children that are not found: a concrete case -/

namespace DS.Ex

/-- The source is empty; the destination has a site flagged SKIP_CHILDREN_ON_DELETE with a device flagged IGNORE, which lists an interface that is not there. -/
def wAlongW : World String (List Outcome) := addModels (ad 2) [site "lax" ["c"] 2, device "c" "leaf" ["c__eth0"] 1] (world0 String _ [])
theorem wAlongW_ok : wAlongW.OK := addModels_ok _ _ _ (world0_ok _)
theorem run_alongW : SyncRun 10 20 (scripted String) (ad 2) (ad 1) (DiffClass.default _) 0 none wAlongW (dOf wAlongW 0) (sync wAlongW 0).1 (sync wAlongW 0).2 ∧
    Tidy (ad 2) (dOf wAlongW 0) := run_ex wAlongW_ok 0 (by decide +kernel) (by decide +kernel) (by decide +kernel)

/-- C101: the hypotheses of `C101_in_a_sync`, and the warning. -/
example {L R : List (Event String)} {ct cu pt pu : String} (h : newEvents wAlongW (sync wAlongW 0).2 = L ++ .childNotFound ct cu pt pu :: R) :=
  C101_in_a_sync run_alongW.1 run_alongW.2 h
example : Event.childNotFound "interface" "c__eth0" "device" "c" ∈ newEvents wAlongW (sync wAlongW 0).2 := by decide +kernel
example : (callsOf (newEvents wAlongW (sync wAlongW 0).2)).length = 1 := by decide +kernel
end DS.Ex
