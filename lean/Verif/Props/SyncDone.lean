import Verif.Lemmas.SyncDoneTop
/-! # C61: calls that succeeded are in effect -/
set_option linter.unusedSectionVars false

namespace DS
variable {V E : Type} [PyVal V]

section
variable {n rl : Nat} {hooks : Hooks V E} {dst src : Adapter V} {dc : DiffClass V} {flags : Nat} {diff : Option (Diff V)}
  {w w' : World V E} {d : Diff V} {res : Except Err (Diff V)}

/-- **C61** Whatever else fails, and wherever the sync stops: what a call that succeeded asked for is there when the sync
returns or raises (for `update`, in a store that keeps the objects themselves).  Exempt is what was created or updated and then
went along with a deleted object flagged SKIP_CHILDREN_ON_DELETE, and the very last call of a sync that raises another
exception than those about object handling. -/
theorem C61_successful_calls_take_effect (h : SyncRun n rl hooks dst src dc flags diff w d res w') (ht : Tidy dst d)
    {pre post : List (Event V)} {c : CrudCall V} {out : Outcome} (he : newEvents w w' = pre ++ .call c out :: post) (hs : Succeeded c out)
    (hl : callsOf post ≠ [] ∨ ∀ x, res = .error x → x.isCrud = true) (hu : c.act = .update → KeepsObjects dst) :
    InEffect dst (snap dst w) (snap dst w') c ∨
      c.act ≠ .delete ∧ ∃ k, CallKey dst c k ∧ TakenAlong dst (snap dst w) d.kids (newEvents w w') k := by
  obtain ⟨evs, evs1, evs2, h1, h2, h3, h4, h5, _⟩ := syncFrom_done h.ready h.used h.good ht h.run
  have hn := newEvents_eq h1
  rw [← hn] at h3
  rw [hn] at he
  have h6 : Event.call c out ∈ evs1 := by
    rw [he] at h2
    rcases List.append_eq_append_iff.1 h2 with ⟨a, g1, g2⟩ | ⟨a, g1, g2⟩
    · cases a with
      | nil =>
        exfalso
        simp only [List.nil_append] at g2
        rcases hl with hl | hl
        · rw [← g2, callsOf_call, List.length_cons] at h4
          exact hl (List.length_eq_zero_iff.1 (by omega))
        · have := h5 hl
          rw [← g2] at this; cases this
      | cons x a =>
        rw [List.cons_append] at g2
        cases g2
        rw [g1]; simp
    · exfalso
      have g3 : callsOf evs2 = callsOf a ++ (c, out) :: callsOf post := by rw [g2]; simp
      rcases hl with hl | hl
      · rw [g3, List.length_append, List.length_cons] at h4
        exact hl (List.length_eq_zero_iff.1 (by omega))
      · rw [h5 hl] at g3
        exact absurd g3 (by simp)
  exact h3 c out h6 hs.took hu

/-- **C61** For an `update` it does not matter what the method returns or raises afterwards: once it has passed the new values on to `super().update()`,
they are there in the end, and a later sync does not try again. -/
theorem C61_passed_on_updates_take_effect (h : SyncRun n rl hooks dst src dc flags diff w d res w') (ht : Tidy dst d)
    {t u : String} {attrs : Dict V} {out : Outcome} (he : Event.call (.update t u attrs) out ∈ newEvents w w') (ha : out.applied = true) (hu : KeepsObjects dst) :
    InEffect dst (snap dst w) (snap dst w') (.update t u attrs) ∨ TakenAlong dst (snap dst w) d.kids (newEvents w w') (t, u) := by
  obtain ⟨evs, evs1, evs2, h1, h2, h3, _, _, h6⟩ := syncFrom_done h.ready h.used h.good ht h.run
  have hn := newEvents_eq h1
  rw [← hn] at h3
  rw [hn, h2] at he
  rcases List.mem_append.1 he with he | he
  · rcases h3 _ out he (.inl ⟨rfl, ha⟩) (fun _ => hu) with g | ⟨_, k, hk, g⟩
    · exact .inl g
    · cases (show k = (t, u) from hk); exact .inr g
  · exact absurd rfl (h6 _ out he).2

/-- **C61** In particular, when the sync returns or raises an exception about object handling, every call that succeeded is in
effect, if no object flagged SKIP_CHILDREN_ON_DELETE is deleted. -/
theorem C61_all_in_effect (h : SyncRun n rl hooks dst src dc flags diff w d res w') (ht : Tidy dst d) (hx : ∀ x, res = .error x → x.isCrud = true)
    (hk : ∀ e k, InTree e d.kids → ElemKey dst e k → e.action = some .delete → ¬ SkipsChildren dst (snap dst w) k)
    {c : CrudCall V} {out : Outcome} (he : Event.call c out ∈ newEvents w w') (hs : Succeeded c out)
    (hu : c.act = .update → KeepsObjects dst) : InEffect dst (snap dst w) (snap dst w') c := by
  obtain ⟨pre, post, he⟩ := List.append_of_mem he
  rcases C61_successful_calls_take_effect h ht he hs (.inr hx) hu with h1 | ⟨_, k, hck, h2⟩
  · exact h1
  · exfalso
    clear hck
    induction h2 with
    | root g1 g2 g3 g4 _ => exact hk _ _ g1 g3 g2 g4
    | down _ _ ih => exact ih
end

end DS
