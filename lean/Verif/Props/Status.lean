import Verif.Lemmas.StatusTop
import Verif.Props.SyncEx
/-! # C75: what `get_status()` says after a sync -/
set_option linter.unusedSectionVars false

namespace DS
variable {V E : Type} [PyVal V]

section
variable {n rl : Nat} {hooks : Hooks V E} {dst src : Adapter V} {dc : DiffClass V} {flags : Nat} {diff : Option (Diff V)}
  {w w' : World V E} {d : Diff V} {res : Except Err (Diff V)} {sid : Nat}

/-- **C75** An object of a local destination store that `create()`, `update()` or `delete()` was called for, and that is in the store
when the sync returns or raises, says what that call left: what the user's method set, or SUCCESS if the base method was called, or
UNKNOWN - never what an earlier sync left. -/
theorem C75_status_after_call (h : SyncRun n rl hooks dst src dc flags diff w d res w') (ht : Tidy dst d) (hA : dst.ref.store = .local sid)
    {c : CrudCall V} {out : Outcome} (hc : Event.call c out ∈ newEvents w w') {k : Key} (hk : CallKey dst c k) {s : Status × String} (hs : statusOf w' sid k = some s) :
    s = statusAfter c out := by
  obtain ⟨evs, h1, st⟩ := syncFrom_stat hA h.ready h.used h.good ht h.run
  rw [newEvents_eq h1] at hc
  obtain ⟨r, hr, rfl⟩ := Option.map_eq_some_iff.1 hs
  obtain ⟨k', a, b⟩ := st.calls c out hc
  rw [← hk.unique a] at b
  exact (st.said k r hr b).1 c out hc hk

/-- **C75** An object for which no such call was made was there before; its status is what it was, or UNKNOWN if the sync came by. -/
theorem C75_status_without_call (h : SyncRun n rl hooks dst src dc flags diff w d res w') (ht : Tidy dst d) (hA : dst.ref.store = .local sid)
    {k : Key} (hk : ∀ c out, Event.call c out ∈ newEvents w w' → ¬ CallKey dst c k) {s : Status × String} (hs : statusOf w' sid k = some s) :
    statusOf w sid k = some s ∨ (s = (.unknown, "") ∧ statusOf w sid k ≠ none) := by
  obtain ⟨evs, h1, st⟩ := syncFrom_stat hA h.ready h.used h.good ht h.run
  rw [newEvents_eq h1] at hk
  obtain ⟨r, hr, rfl⟩ := Option.map_eq_some_iff.1 hs
  have key : findRef w sid k.1 k.2 = some r ∧ (w'.stat r = w.stat r ∨ w'.stat r = (.unknown, "")) := by
    by_cases hK : KeyIn dst d.kids k
    · exact (st.said k r hr hK).2 hk
    · obtain ⟨a, b⟩ := st.out k r hr hK
      exact ⟨a, .inl b⟩
  obtain ⟨a, b | b⟩ := key
  · left; unfold statusOf; rw [a]; exact congrArg some b.symm
  · right; refine ⟨b, ?_⟩; unfold statusOf; rw [a]; exact fun h => by cases h

/-- **C75** An object that the diff has no element for keeps its status, if it is still there. -/
theorem C75_status_outside_diff (h : SyncRun n rl hooks dst src dc flags diff w d res w') (ht : Tidy dst d) (hA : dst.ref.store = .local sid)
    {k : Key} (hk : ∀ e, InTree e d.kids → ¬ ElemKey dst e k) (hs : statusOf w' sid k ≠ none) : statusOf w' sid k = statusOf w sid k := by
  obtain ⟨evs, h1, st⟩ := syncFrom_stat hA h.ready h.used h.good ht h.run
  cases hr : findRef w' sid k.1 k.2 with
  | none => unfold statusOf at hs; rw [hr] at hs; exact absurd rfl hs
  | some r =>
    obtain ⟨a, b⟩ := st.out k r hr (fun ⟨x, a, b⟩ => hk x a b)
    unfold statusOf; rw [hr, a]; exact congrArg some b
end

namespace Ex
/-- C75: the sync of `w1` creates, updates and leaves alone. -/
example : statusOf (sync w1 0).2 2 ("device", "a") = some (.success, "Updated successfully") ∧
    statusOf (sync w1 0).2 2 ("site", "sfo") = some (.success, "Created successfully") ∧
    statusOf (sync w1 0).2 2 ("site", "nyc") = some (.unknown, "") := by decide +kernel
example {c : CrudCall String} {out : Outcome} (hc : Event.call c out ∈ newEvents w1 (sync w1 0).2) {k : Key} (hk : CallKey (ad 2) c k) {s : Status × String}
    (hs : statusOf (sync w1 0).2 2 k = some s) : s = statusAfter c out := C75_status_after_call run1.1 run1.2 rfl hc hk hs
/-- With failures: `delete()` of the device `c` raises before the base method is called. -/
example : statusOf (sync (withEnv w1 os2) GF.CONTINUE_ON_FAILURE).2 2 ("device", "c") = some (.unknown, "") ∧
    statusOf (sync (withEnv w1 os2) GF.CONTINUE_ON_FAILURE).2 2 ("device", "a") = some (.success, "Updated successfully") := by decide +kernel
/-- A method that sets its own status. -/
example : statusOf (sync (withEnv w1 [{ status := some (.failure, "rejected") }]) 0).2 2 ("device", "a") = some (.failure, "rejected") := by decide +kernel
end Ex
end DS
