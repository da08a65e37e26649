import Verif.Model.Utils
import Verif.Lemmas.LedgerRun
/-! # C84: the list helpers -/

namespace DS

theorem insertSorted_sorted {x : String} {l : List String} (h : l.Pairwise (· ≤ ·)) : (insertSorted x l).Pairwise (· ≤ ·) := by
  induction l with
  | nil => simp [insertSorted]
  | cons y ys ih =>
    rw [List.pairwise_cons] at h
    unfold insertSorted
    split
    · rename_i hx
      refine List.pairwise_cons.2 ⟨fun z hz => ?_, List.pairwise_cons.2 h⟩
      rw [List.mem_cons] at hz
      rcases hz with rfl | hz
      · exact Std.le_of_lt hx
      · exact String.le_trans (Std.le_of_lt hx) (h.1 z hz)
    · rename_i hx
      refine List.pairwise_cons.2 ⟨fun z hz => ?_, ih h.2⟩
      rw [(insertSorted_perm x ys).mem_iff, List.mem_cons] at hz
      rcases hz with rfl | hz
      · exact String.not_lt.1 hx
      · exact h.1 z hz

theorem sortStrings_sorted (l : List String) : (sortStrings l).Pairwise (· ≤ ·) := by
  induction l with
  | nil => simp [sortStrings]
  | cons x xs ih => exact insertSorted_sorted ih

/-- **C84** `intersection(l1, l2)` is `l1` without the strings that are not in `l2`: same order, same repetitions. -/
theorem C84_intersection (l1 l2 : List String) :
    List.Sublist (intersection l1 l2) l1 ∧ ∀ x, (intersection l1 l2).count x = if x ∈ l2 then l1.count x else 0 := by
  unfold intersection
  refine ⟨List.filter_sublist, fun x => ?_⟩
  split
  · rename_i h
    exact List.count_filter (by simpa using h)
  · rename_i h
    exact List.count_eq_zero.2 (fun hx => h (by simpa using (List.mem_filter.1 hx).2))

/-- **C84** `symmetric_difference(l1, l2)` has exactly the strings that are in one of the lists but not in the other, each once, in ascending order. -/
theorem C84_symmetric_difference (l1 l2 : List String) :
    (∀ x, x ∈ symmetricDifference l1 l2 ↔ (x ∈ l1 ∧ x ∉ l2) ∨ (x ∈ l2 ∧ x ∉ l1)) ∧ (symmetricDifference l1 l2).Pairwise (· < ·) := by
  have hm : ∀ x, x ∈ symmetricDifference l1 l2 ↔ (x ∈ l1 ∧ x ∉ l2) ∨ (x ∈ l2 ∧ x ∉ l1) := fun x => by
    unfold symmetricDifference
    rw [(sortStrings_perm _).mem_iff, List.mem_append, mem_dedup', mem_dedup']
    simp
  refine ⟨hm, ?_⟩
  have hn : (symmetricDifference l1 l2).Nodup := by
    unfold symmetricDifference
    refine (sortStrings_perm _).nodup_iff.2 (List.nodup_append.2 ⟨nodup_dedup' _, nodup_dedup' _, fun a ha b hb hab => ?_⟩)
    rw [mem_dedup'] at ha hb
    subst hab
    simp at ha hb
    exact ha.2 hb.1
  have hs : (symmetricDifference l1 l2).Pairwise (· ≤ ·) := sortStrings_sorted _
  exact (List.pairwise_and_iff.2 ⟨hs, hn⟩).imp fun {a b} h => by
    rcases Decidable.em (a < b) with h1 | h1
    · exact h1
    · exact absurd (String.le_antisymm h.1 (String.not_lt.1 h1)) h.2

/-- **C84** It does not matter in which order the lists are given. -/
theorem C84_symmetric (l1 l2 : List String) : symmetricDifference l1 l2 = symmetricDifference l2 l1 := by
  have key : ∀ a b : List String, a.Pairwise (· < ·) → b.Pairwise (· < ·) → (∀ x, x ∈ a ↔ x ∈ b) → a = b := by
    intro a
    induction a with
    | nil =>
      intro b _ _ h
      cases b with
      | nil => rfl
      | cons y ys => exact absurd ((h y).2 (by simp)) (by simp)
    | cons x xs ih =>
      intro b ha hb h
      cases b with
      | nil => exact absurd ((h x).1 (by simp)) (by simp)
      | cons y ys =>
        rw [List.pairwise_cons] at ha hb
        have hxy : x = y := by
          rcases List.mem_cons.1 ((h x).1 (by simp)) with e | e
          · exact e
          · rcases List.mem_cons.1 ((h y).2 (by simp)) with e' | e'
            · exact e'.symm
            · exact absurd (ha.1 y e') (String.lt_asymm (hb.1 x e))
        subst hxy
        rw [ih ys ha.2 hb.2 (fun z => ?_)]
        have := h z
        rw [List.mem_cons, List.mem_cons] at this
        refine ⟨fun hz => (this.1 (.inr hz)).elim (fun e => ?_) id, fun hz => (this.2 (.inr hz)).elim (fun e => ?_) id⟩
        · subst e; exact absurd (ha.1 z hz) (Std.lt_irrefl)
        · subst e; exact absurd (hb.1 z hz) (Std.lt_irrefl)
  refine key _ _ (C84_symmetric_difference l1 l2).2 (C84_symmetric_difference l2 l1).2 fun x => ?_
  rw [(C84_symmetric_difference l1 l2).1, (C84_symmetric_difference l2 l1).1]
  exact Or.comm

example : intersection ["site", "rack", "site", "vlan"] ["vlan", "site"] = ["site", "site", "vlan"] ∧
    symmetricDifference ["site", "vlan", "rack", "vlan"] ["site", "device"] = ["device", "rack", "vlan"] := by decide +kernel

end DS
