import Verif.Props.Merge
import Verif.Props.HistoryEx
import Verif.Props.ChainEx
/-! # C79 on concrete adapters -/
set_option maxRecDepth 100000

namespace DS.Ex

/-- The second adapter of `w1` synced from the first without deletions. -/
def wM1 (w : World String (List Outcome)) (f : Nat) :=
  (syncFrom 10 20 (scripted String) (ad 2) (ad 1) (DiffClass.default _) f none w).2
/-- Then the first from the second. -/
def wM2 (w : World String (List Outcome)) (f : Nat) :=
  (syncFrom 10 20 (scripted String) (ad 1) (ad 2) (DiffClass.default _) f none w).2
theorem syncM1 (w : World String (List Outcome)) (f : Nat) : syncFrom 10 20 (scripted String) (ad 2) (ad 1) (DiffClass.default _) f none w =
    ((syncFrom 10 20 (scripted String) (ad 2) (ad 1) (DiffClass.default _) f none w).1, wM1 w f) := rfl
theorem syncM2 (w : World String (List Outcome)) (f : Nat) : syncFrom 10 20 (scripted String) (ad 1) (ad 2) (DiffClass.default _) f none w =
    ((syncFrom 10 20 (scripted String) (ad 1) (ad 2) (DiffClass.default _) f none w).1, wM2 w f) := rfl

theorem makes_ad (k : Nat) : MakesUnflagged (ad k) := by
  intro t c h
  have := Dict.mem_of_get? h
  simp only [ad, List.mem_cons, List.not_mem_nil, or_false, Prod.mk.injEq] at this
  rcases this with ⟨rfl, rfl⟩ | ⟨rfl, rfl⟩ | ⟨rfl, rfl⟩ <;> decide

/-- The adapters of `w1` can be merged. -/
theorem mergeable1 : Mergeable famF True 10 (ad 1) (ad 2) 1 2 (withEnv w1 []) where
  reachable := w1_reachable
  first := ad_family 1
  second := ad_family 2
  first_store := rfl
  second_store := rfl
  first_top := by decide
  second_top := by decide
  models := sameModels_ad 1 2
  separate := (can1 []).separate
  alike := alike1
  parsed k d f v hd _ _ := parse_untyped ((by decide +kernel : ∀ x ∈ objs 2 (withEnv w1 []), x.2.cls.types = []) _ (mem_objs hd)) f v
  first_unflagged := unflagged_of (by decide +kernel)
  second_unflagged := unflagged_of (by decide +kernel)
  makes := makes_ad 2

theorem allM1 : AllSucceed (newEvents (withEnv w1 []) (wM1 (withEnv w1 []) GF.SKIP_UNMATCHED_DST)) := allSucceed_of (by decide +kernel)
theorem allM2 : AllSucceed (newEvents (wM1 (withEnv w1 []) GF.SKIP_UNMATCHED_DST) (wM2 (wM1 (withEnv w1 []) GF.SKIP_UNMATCHED_DST) 0)) :=
  allSucceed_of (by decide +kernel)

/-- C79 applies: each adapter has objects that the other one lacks, on all three levels, and they differ in the role of a device. -/
example := C79_merge mergeable1 (f2 := 0) (by decide) (by decide) (by decide) reorders_default reorders_default (by decide) (syncM1 _ _) allM1 (syncM2 _ _) allM2
example := C79_calls mergeable1 (f2 := 0) (by decide) (by decide) (by decide) reorders_default (by decide) (syncM1 _ _) allM1 (syncM2 _ _)
example := C79_in_sync mergeable1 (f2 := 0) (by decide) (by decide) ⟨by decide, by decide⟩ reorders_default reorders_default (by decide) (syncM1 _ _) allM1 (syncM2 _ _) allM2
  reorders_default (f := 0) ⟨by decide, by decide⟩

/-- Both hold nine objects in the end, where they held five and six. -/
example : (objs 1 w1).length = 5 ∧ (objs 2 w1).length = 6 ∧ (objs 1 (wM2 (wM1 w1 GF.SKIP_UNMATCHED_DST) 0)).length = 9 ∧
    (objs 2 (wM2 (wM1 w1 GF.SKIP_UNMATCHED_DST) 0)).length = 9 := by decide +kernel
/-- The first adapter's role for the device is the one that both have in the end. -/
example : (((snap (ad 2) w1).find "device" "a").map (fun m => Dict.get? m.vals "role")) = some (some "spine") ∧
    (((snap (ad 1) (wM2 (wM1 w1 GF.SKIP_UNMATCHED_DST) 0)).find "device" "a").map (fun m => Dict.get? m.vals "role")) = some (some "leaf") ∧
    (((snap (ad 2) (wM2 (wM1 w1 GF.SKIP_UNMATCHED_DST) 0)).find "device" "a").map (fun m => Dict.get? m.vals "role")) = some (some "leaf") := by decide +kernel

/-- The flags matter: without SKIP_UNMATCHED_DST in the first sync what only the second adapter has is lost, and with SKIP_UNMATCHED_SRC in the second sync
the first adapter does not get it. -/
example : (snap (ad 2) w1).find "site" "lax" ≠ none ∧ (snap (ad 2) (wM2 (wM1 w1 0) 0)).find "site" "lax" = none ∧
    (snap (ad 1) (wM2 (wM1 w1 GF.SKIP_UNMATCHED_DST) GF.SKIP_UNMATCHED_SRC)).find "site" "lax" = none ∧
    (snap (ad 1) (wM2 (wM1 w1 GF.SKIP_UNMATCHED_DST) 0)).find "site" "lax" ≠ none := by
  refine ⟨?_, ?_, ?_, ?_⟩ <;> decide +kernel

end DS.Ex
