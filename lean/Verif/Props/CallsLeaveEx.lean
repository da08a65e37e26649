import Verif.Props.CallsLeave
import Verif.Props.KeptEx
/-! # Instances of the theorems of `Verif.Props.CallsLeave` -/
set_option maxRecDepth 100000

namespace DS
open Ex

/-- C98: some calls fail, a site is deleted that takes along what is below it. -/
theorem leftKf : CallsLeave (ad 2) (snap (ad 1) wKf) (snap (ad 2) wKf) (snap (ad 2) wKf1) (Did (ad 2) (newEvents wKf wKf1)) :=
  C98_left canKf (rl := 20) (hooks := scripted String) (dc := .default _) (flags := GF.CONTINUE_ON_FAILURE) (fun _ _ => List.Perm.refl _) (by decide) (Prod.eta _).symm
example : CallsLeave (ad 2) (snap (ad 1) wKf) (snap (ad 2) wKf) (snap (ad 2) wKf1) (Did (ad 2) (newEvents wKf wKf1)) :=
  C98_left_to canKf (rl := 20) (hooks := scripted String) (dc := .default _) (flags := GF.CONTINUE_ON_FAILURE) (fun _ _ => List.Perm.refl _) (by decide) (Prod.eta _).symm
example (k : Key) (hd : Did (ad 2) (newEvents wKf wKf1) .delete k) : ToDelete (ad 1) (ad 2) GF.CONTINUE_ON_FAILURE (snap (ad 1) wKf) (snap (ad 2) wKf) k :=
  C98_deletes canKf (rl := 20) (hooks := scripted String) (dc := .default _) (by decide) (Prod.eta _).symm hd
/-- What is left: the device below the site that was deleted alone is gone; the site that could not be deleted is there. -/
example : ((snap (ad 2) wKf1).find "device" "k").isNone = true ∧ ((snap (ad 2) wKf1).find "site" "ams").isSome = true ∧
    ((snap (ad 2) wKf1).find "device" "b").isSome = true ∧ ((snap (ad 2) wKf1).find "site" "sfo").isNone = true := by decide +kernel

/-- C98: the site that is flagged SKIP_CHILDREN_ON_DELETE takes its device along. -/
theorem alongK : TakesAlong (snap (ad 2) wKf) ("site", "skp") ∧ ListedBelow (snap (ad 2) wKf) ("site", "skp") ("device", "k") := by
  have h : (match (snap (ad 2) wKf).find "site" "skp" with
    | some m => flagOn m.flags MF.SKIP_CHILDREN_ON_DELETE
    | none => false) = true := by decide +kernel
  refine ⟨?_, .child (by decide +kernel)⟩
  cases hm : (snap (ad 2) wKf).find "site" "skp" with
  | none => rw [hm] at h; cases h
  | some m => rw [hm] at h; exact ⟨m, hm, h⟩
theorem noSkp : (snap (ad 1) wKf).find "site" "skp" = none := Option.isNone_iff_eq_none.1 (by decide +kernel)
example : (∀ k, k = ("site", "skp") ∨ ListedBelow (snap (ad 2) wKf) ("site", "skp") k → (snap (ad 2) wKf1).find k.1 k.2 ≠ none) ∨
    (∀ k, k = ("site", "skp") ∨ ListedBelow (snap (ad 2) wKf) ("site", "skp") k → (snap (ad 2) wKf1).find k.1 k.2 = none) := by
  have hs : syncFrom 10 20 (scripted String) (ad 2) (ad 1) (.default _) GF.CONTINUE_ON_FAILURE none wKf = ((sync wKf GF.CONTINUE_ON_FAILURE).1, wKf1) := (Prod.eta _).symm
  exact C98_subtree (k0 := ("site", "skp")) canKf (by decide) hs noSkp alongK.1

/-- `wK` with calls that fail or not. -/
def wKx (os : List Outcome) : World String (List Outcome) :=
  withEnv wK ({ applied := false, result := .raises .objectNotCreated } :: {} :: { result := .none } :: { applied := false, result := .raises .objectNotDeleted } :: os)
theorem canKx0 : CanConverge 10 (ad 1) (ad 2) 2 (wKx []) := canConverge_of (by decide) (withEnv_ok wK_ok _) (by decide +kernel) (by decide +kernel) (by constructor <;> decide +kernel)
theorem canKx1 : CanConverge 10 (ad 1) (ad 2) 2 (wKx [{}, {}]) := canConverge_of (by decide) (withEnv_ok wK_ok _) (by decide +kernel) (by decide +kernel) (by constructor <;> decide +kernel)

/-- C98: the same outcomes from another environment, within another recursion limit. -/
example : callsOf (newEvents (wKx []) (sync (wKx []) GF.CONTINUE_ON_FAILURE).2) =
      callsOf (newEvents (wKx [{}, {}]) (syncFrom 10 30 (scripted String) (ad 2) (ad 1) (.default _) GF.CONTINUE_ON_FAILURE none (wKx [{}, {}])).2) ∧
    SameObjects (snap (ad 2) (sync (wKx []) GF.CONTINUE_ON_FAILURE).2)
      (snap (ad 2) (syncFrom 10 30 (scripted String) (ad 2) (ad 1) (.default _) GF.CONTINUE_ON_FAILURE none (wKx [{}, {}])).2) :=
  C98_same_outcomes canKx0 canKx1 (rl := 20) (rl' := 30) (hooks := scripted String) (hooks' := scripted String) (dc := .default _) (dc' := .default _) (by decide) (by decide)
    (fun _ _ => rfl) (fun _ _ => rfl) ((snap_withEnv _ _ _).trans (snap_withEnv _ _ _).symm) ((snap_withEnv _ _ _).trans (snap_withEnv _ _ _).symm)
    (Prod.eta _).symm (Prod.eta _).symm (by decide +kernel)
example : (callsOf (newEvents (wKx []) (sync (wKx []) GF.CONTINUE_ON_FAILURE).2)).length ≥ 4 ∧
    ((callsOf (newEvents (wKx []) (sync (wKx []) GF.CONTINUE_ON_FAILURE).2)).any fun x => !x.2.applied) = true := by decide +kernel
/-- In one of them the site goes with its device, in the sync that stops at the first failure both stay. -/
example : ((snap (ad 2) (sync (wKx []) GF.CONTINUE_ON_FAILURE).2).find "device" "k").isNone = true ∧ ((snap (ad 2) (sync (wKx []) GF.CONTINUE_ON_FAILURE).2).find "site" "skp").isNone = true ∧
    ((snap (ad 2) (sync (wKx []) 0).2).find "device" "k").isSome = true ∧ ((snap (ad 2) (sync (wKx []) 0).2).find "site" "skp").isSome = true := by decide +kernel

end DS
