import Verif.Props.WaitFree
import Verif.Props.SyncFromEx
/-! # C90: concrete clients -/
set_option linter.unusedSectionVars false

namespace DS.Ex

theorem two_rests {α : Type} (d : Dict (Obj String)) (p q : Proc String α) : AtRest (two d p q) ∧ ∀ j, 2 ≤ j → Ended j (two d p q) := by
  refine ⟨fun j => ?_, fun j hj => ⟨_, two_rest _ _ _ (by omega) (by omega)⟩⟩
  by_cases h0 : j = 0
  · subst h0; exact ⟨_, two_cl0 _ _ _⟩
  · by_cases h1 : j = 1
    · subst h1; exact ⟨_, two_cl1 _ _ _⟩
    · exact ⟨_, two_rest _ _ _ h0 h1⟩

/-- C90: two calls of `sync_from` at the same time: every execution comes to an end, and then both calls have. -/
example : (¬ ∃ who f, f 0 = two wToRedis.redis (fromA.client (adR 2 "two") "two") (fromB.client (adR 2 "two") "two") ∧ Endless who f) ∧
    ∀ s' l, Exec (two wToRedis.redis (fromA.client (adR 2 "two") "two") (fromB.client (adR 2 "two") "two")) l s' → (∀ i, ¬ CanGoOn i s') → ∀ i, Ended i s' :=
  C90_all_end (two_rests _ _ _).1 2 (two_rests _ _ _).2

/-- An execution without end: infinitely many clients, one after the other, look something up. -/
def endless (d : Dict (Obj String)) (n : Nat) : Sys String (Obj String) :=
  ⟨d, fun j => if j < n then .at (pGet (adR 2 "two") "two" "site" "nyc" |>.run d |>.1 |> .ret) else .at (pGet (adR 2 "two") "two" "site" "nyc")⟩

theorem endless_run (d : Dict (Obj String)) : Endless id (endless d) := by
  intro n
  have h : (endless d n).cl n = .at (pGet (adR 2 "two") "two" "site" "nyc") := by simp [endless]
  have hm := Move.cmd (i := n) (s := endless d n) h id
  suffices e : endless d (n + 1) = _ from e ▸ hm
  unfold endless
  congr
  funext j
  by_cases h1 : j = n
  · simp only [h1, Nat.lt_succ_self, if_true]
    congr 1
    unfold pGet pLoad
    simp only [Proc.run, Cmd.exec]
    cases Dict.get? d (redisKey "two" "site" "nyc") <;> rfl
  · by_cases h2 : j < n
    · have : j < n + 1 := by omega
      simp [h1, h2, this, Stage.see]
    · have : ¬ j < n + 1 := by omega
      simp [h1, h2, this, Stage.see]

/-- C90: each of these clients comes to its end. -/
example (d : Dict (Obj String)) (i : Nat) : ∃ N r, ∀ n, N ≤ n → (endless d n).cl i = .at (.ret r) := by
  refine C90_ends (endless_run d) (fun j => ⟨_, by simp [endless]; rfl⟩) (i := i) fun n hg => ⟨i, ?_, rfl⟩
  obtain ⟨s', hm⟩ := hg
  by_cases h : i < n
  · have : (endless d n).cl i = .at (.ret ((pGet (adR 2 "two") "two" "site" "nyc").run d).1) := by simp [endless, h]
    cases hm with
    | cmd h' => rw [this] at h'; cases h'
    | scanBegins h' => rw [this] at h'; cases h'
    | scanEnds h' => rw [this] at h'; cases h'
  · omega

end DS.Ex
