import Verif.Props.SyncDone
import Verif.Props.SyncEx
/-! # Concrete syncs that meet the hypotheses of C61 -/
set_option linter.unusedSectionVars false

namespace DS.Ex

/-! ## hypotheses that are met -/

theorem errOf_crud {r : Except Err (Diff String) × World String (List Outcome)} (h : (errOf r).all (fun x => x.isCrud) = true) :
    ∀ x, r.1 = .error x → x.isCrud = true := by
  intro x hx
  unfold errOf at h
  rw [hx] at h
  exact h

/-- C61: of a sync that is aborted by an exception, the call before is in effect. -/
example : errOf (sync (withEnv w1 os2) 0) = some .objectNotDeleted ∧
    InEffect (ad 2) (snap (ad 2) (withEnv w1 os2)) (snap (ad 2) (sync (withEnv w1 os2) 0).2) (.create "device" [("name", "b")] [("role", "spine")]) :=
  ⟨by decide +kernel, C61_all_in_effect (run2 0 (.inl rfl)).1 (run2 0 (.inl rfl)).2 (errOf_crud (by decide +kernel))
    (fun _ _ _ _ _ => not_skips _ (withEnv_ok w1_ok _) (by decide +kernel) _)
    (out := {}) (by decide +kernel) ⟨rfl, fun h => by cases h⟩ (fun h => by cases h)⟩

/-- C61: an update and a deletion of a sync that returns. -/
example : InEffect (ad 2) (snap (ad 2) w1) (snap (ad 2) (sync w1 0).2) (.update "device" "a" [("role", "leaf")]) ∧
    InEffect (ad 2) (snap (ad 2) w1) (snap (ad 2) (sync w1 0).2) (.delete "interface" "c__eth0") :=
  ⟨C61_all_in_effect run1.1 run1.2 (errOf_crud (by decide +kernel)) (fun _ _ _ _ _ => not_skips _ w1_ok (by decide +kernel) _)
    (out := {}) (by decide +kernel) ⟨rfl, fun _ => rfl⟩ (fun _ => ⟨2, rfl⟩),
   C61_all_in_effect run1.1 run1.2 (errOf_crud (by decide +kernel)) (fun _ _ _ _ _ => not_skips _ w1_ok (by decide +kernel) _)
    (out := {}) (by decide +kernel) ⟨rfl, fun h => by cases h⟩ (fun h => by cases h)⟩

/-- C61: the update that returned `None` in a sync that is aborted later is in effect, since it passed the values on. -/
example : InEffect (ad 2) (snap (ad 2) (withEnv w1 os2)) (snap (ad 2) (sync (withEnv w1 os2) 0).2) (.update "device" "a" [("role", "leaf")]) := by
  rcases C61_passed_on_updates_take_effect (run2 0 (.inl rfl)).1 (run2 0 (.inl rfl)).2 (out := { result := .none }) (t := "device") (u := "a")
    (attrs := [("role", "leaf")]) (by decide +kernel) rfl ⟨2, rfl⟩ with h | h
  · exact h
  · exfalso
    generalize (("device", "a") : Key) = k at h
    induction h with
    | root _ _ _ h _ => exact not_skips _ (withEnv_ok w1_ok _) (by decide +kernel) _ h
    | down _ _ ih => exact ih

end DS.Ex
