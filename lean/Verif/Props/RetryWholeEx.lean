import Verif.Props.RetryWhole
import Verif.Props.RetryEx
/-! # Instances of the theorems of `Verif.Props.RetryWhole` -/
set_option maxRecDepth 100000

namespace DS.Ex

/-- `wRt` with the site `lax` flagged SKIP_CHILDREN_ON_DELETE. -/
def wRw0 : World String (List Outcome) :=
  addModels (ad 1) [site "nyc" ["a", "b"], device "a" "core" [], device "b" "leaf" []]
  (addModels (ad 2) [site "nyc" ["a"], device "a" "leaf" [], site "lax" ["x"] MF.SKIP_CHILDREN_ON_DELETE, device "x" "leaf" []] (world0 String _ []))
theorem wRw0_ok : wRw0.OK := addModels_ok _ _ _ (addModels_ok _ _ _ (world0_ok _))
/-- The first attempt ends when `lax` is to be deleted. -/
def wRw := withEnv wRw0 osRt
def wRw1 := (sync wRw 0).2
def wRw2 := (sync wRw1 0).2
def wRwW := (syncW wRw 0).2
theorem canRw : CanConverge 10 (ad 1) (ad 2) 2 wRw := canConverge_env _ wRw0_ok (by decide +kernel) (by decide +kernel) (by constructor <;> decide +kernel)
theorem attRw : Attempts 10 20 (ad 1) (ad 2) 0 wRw wRw1 := .sync .nil (hooks := scripted String) (dc := .default _) (res := (sync wRw 0).1) (by unfold wRw1; exact (Prod.eta _).symm)
theorem sRw : syncFrom 10 20 (scripted String) (ad 2) (ad 1) (DiffClass.default _) 0 none wRw1 = ((sync wRw1 0).1, wRw2) := by unfold wRw2; exact (Prod.eta _).symm
theorem sRwW : syncFrom 10 20 willing (ad 2) (ad 1) (DiffClass.default _) 0 none wRw = ((syncW wRw 0).1, wRwW) := by unfold wRwW; exact (Prod.eta _).symm
theorem alongRw (k c : Key) (hl : listsO ((snap (ad 2) wRw).find k.1 k.2) c.1 c.2 = true) (hS : (snap (ad 1) wRw).find k.1 k.2 = none) : TakesAlong (snap (ad 2) wRw) k := by
  have g : ∀ x ∈ objs 2 wRw, x.2.kids.all (fun p => p.2.isEmpty) = true ∨ flagOn x.2.flags MF.SKIP_CHILDREN_ON_DELETE = true ∨ ((snap (ad 1) wRw).find x.1.1 x.1.2).isSome = true := by
    decide +kernel
  obtain ⟨m, hm⟩ := Option.ne_none_iff_exists'.1 (listsO_some hl)
  rcases g _ (mem_objs (k := k) hm) with h | h | h
  · rw [hm] at hl
    have hl : m.lists c.1 c.2 = true := hl
    unfold Model.lists at hl
    split at hl
    · cases hl
    · rename_i f _
      split at hl
      · cases hl
      · rename_i l hl'
        have := List.all_eq_true.1 h _ (Dict.mem_of_get? hl')
        rw [show l = [] from List.isEmpty_iff.1 this] at hl; cases hl
  · exact ⟨m, hm, h⟩
  · rw [hS] at h; cases h
example : SameContents (snap (ad 2) wRwW) (snap (ad 2) wRw2) :=
  C71_retries_whole canRw (keep_ad 2 _) (by decide) (steady_ad 2) alongRw attRw reorders_default sRw (allSucceed_of (by decide +kernel)) reorders_default (by decide) sRwW
    (allSucceed_of (by decide +kernel))
/-- After the first attempt the site is there with its device, after the second neither is. -/
example : ((snap (ad 2) wRw1).find "site" "lax").isSome = true ∧ ((snap (ad 2) wRw1).find "device" "x").isSome = true ∧
    ((snap (ad 2) wRw2).find "site" "lax").isNone = true ∧ ((snap (ad 2) wRw2).find "device" "x").isNone = true := by decide +kernel

/-- Objects that take no part and go along: device `x` of `lax` takes along its interface, which is flagged IGNORE. The first attempt ends when `x` is to be deleted, after
`lax` is gone. -/
def wRy0 : World String (List Outcome) :=
  addModels (ad 1) [site "nyc" ["a", "b"], device "a" "core" [], device "b" "leaf" []]
  (addModels (ad 2) [site "nyc" ["a"], device "a" "leaf" [], site "lax" ["x"], device "x" "leaf" ["x__e0"] MF.SKIP_CHILDREN_ON_DELETE, interface "x" "e0" "" MF.IGNORE] (world0 String _ []))
theorem wRy0_ok : wRy0.OK := addModels_ok _ _ _ (addModels_ok _ _ _ (world0_ok _))
def wRy := withEnv wRy0 osRt'
def wRy1 := (sync wRy 0).2
def wRy2 := (sync wRy1 0).2
def wRyW := (syncW wRy 0).2
theorem canRy : CanConverge 10 (ad 1) (ad 2) 2 wRy := canConverge_env _ wRy0_ok (by decide +kernel) (by decide +kernel) (by constructor <;> decide +kernel)
theorem attRy : Attempts 10 20 (ad 1) (ad 2) 0 wRy wRy1 := .sync .nil (hooks := scripted String) (dc := .default _) (res := (sync wRy 0).1) (by unfold wRy1; exact (Prod.eta _).symm)
theorem sRy : syncFrom 10 20 (scripted String) (ad 2) (ad 1) (DiffClass.default _) 0 none wRy1 = ((sync wRy1 0).1, wRy2) := by unfold wRy2; exact (Prod.eta _).symm
theorem sRyW : syncFrom 10 20 willing (ad 2) (ad 1) (DiffClass.default _) 0 none wRy = ((syncW wRy 0).1, wRyW) := by unfold wRyW; exact (Prod.eta _).symm
/-- C71: the interface, which takes no part itself, is left over with the device; a sync that succeeds at once leaves neither. -/
example : Stranded (ad 1) (ad 2) 0 (snap (ad 1) wRy) (snap (ad 2) wRy) (snap (ad 2) wRy2) ("interface", "x__e0") := by
  rcases C71_retries canRy (keep_ad 2 _) (by decide) (steady_ad 2) attRy reorders_default sRy (allSucceed_of (by decide +kernel)) reorders_default (by decide) sRyW
    (allSucceed_of (by decide +kernel)) "interface" "x__e0" with h | h
  · exfalso
    have h1 : (snap (ad 2) wRyW).find "interface" "x__e0" = none := Option.isNone_iff_eq_none.1 (by decide +kernel)
    have h2 : ((snap (ad 2) wRy2).find "interface" "x__e0").isSome = true := by decide +kernel
    rw [h.isNone.2 h1] at h2; cases h2
  · exact h.1
example : errOf (sync wRy 0) = some .objectNotDeleted ∧ (calls (newEvents wRy wRy1)).length = 4 ∧ (calls (newEvents wRy1 wRy2)).length = 0 := by decide +kernel

end DS.Ex
