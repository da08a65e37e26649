import Verif.Lemmas.RemoveReport
import Verif.Lemmas.SyncFrameG
/-! Changes to a store that report nothing. -/
set_option linter.unusedSectionVars false

namespace DS
variable {V E : Type} [PyVal V]

theorem add_trace (A : Adapter V) (r : Ref) (w : World V E) : (add A r w).2.trace = w.trace := by
  unfold add
  rw [deref_bind]
  cases hA : A.ref.store with
  | «local» sid =>
    simp only
    rw [M.bind_ok (localModel_eq sid _ w)]
    cases hd : Dict.get? (tbl w sid (w.heap r).m.type) (w.heap r).m.uid with
    | some r' =>
      simp only
      split <;> rfl
    | none =>
      simp only
      rw [M.bind_ok (show M.read _ = (.ok _, _) from rfl)]
      split <;> rfl
  | redis sid =>
    simp only
    rw [M.bind_ok (show M.read w = (.ok w, w) from rfl)]
    cases hd : Dict.get? w.redis (redisKey sid (w.heap r).m.type (w.heap r).m.uid) with
    | some o => simp only; split <;> rfl
    | none => rfl

theorem remove_only_trace (A : Adapter V) (n : Nat) (r : Ref) (w : World V E) : (remove A n r false w).2.trace = w.trace := by
  cases n with
  | zero => rfl
  | succ n =>
    rw [remove, deref_bind]
    have h1 := removeOne_trace A r w
    cases h : removeOne A r w with
    | mk q w1 =>
      rw [h] at h1
      cases q with
      | error x => rw [M.bind_err h]; exact h1
      | ok _ => rw [M.bind_ok h]; exact h1

/-- The bookkeeping after an action reports nothing, except when children are removed along. -/
theorem applyStore_silent {S : SyncCtx V E} (a : Option Action) (parent : Option Ref) (r : Ref) (skip : Bool) (w : World V E)
    (h : ¬ (a = some .delete ∧ skip = true)) : (applyStore S a parent r skip w).2.trace = w.trace := by
  have hp : ∀ (f : Ref → M V E Unit) (g : M V E Unit), (∀ p w, (f p w).2.trace = w.trace) → (∀ w, (g w).2.trace = w.trace) →
      ((withParent parent f >>= fun _ => g) w).2.trace = w.trace := by
    intro f g hf hg
    cases parent with
    | none => exact hg w
    | some p =>
      unfold withParent
      simp only
      have h2 := hf p w
      cases hq : f p w with
      | mk x w1 =>
        rw [hq] at h2
        cases x with
        | error e => rw [M.bind_err hq]; exact h2
        | ok _ => rw [M.bind_ok hq, hg w1]; exact h2
  unfold applyStore
  split
  · apply hp
    · intro p w
      rw [addChildRef_eq]
      split <;> rfl
    · exact add_trace S.dst r
  · have : skip = false := by
      cases skip with
      | false => rfl
      | true => exact absurd ⟨rfl, rfl⟩ h
    subst this
    apply hp
    · intro p w
      rw [removeChildRef_eq]
      split <;> rfl
    · exact remove_only_trace S.dst S.rlimit r
  · rfl
end DS
