import Verif.Spec.Listed
import Verif.Lemmas.Differ
import Verif.Lemmas.Mirror
/-! A ledger of the objects a diff counts as processed, and the bound that follows when every object is listed once. -/
set_option linter.unusedSectionVars false

namespace DS
variable {V E α β : Type} [PyVal V]

/-! ## ledgers -/

/-- How often the object stored at `y` lists `x`, for child lists without repetitions. -/
def occ (S : Snap V) (y x : String × String) : Nat := if listsO (S.find y.1 y.2) x.1 x.2 then 1 else 0

/-- `ls` are visited, starting from `rs`: every visit is one of `rs` or is due to one visit of an object listing it. -/
structure Led (S : Snap V) (rs ls : List (String × String)) : Prop where
  count : ∀ x, ls.count x ≤ rs.count x + (ls.map (fun y => occ S y x)).sum
  reach : ∀ x ∈ ls, ∃ r ∈ rs, ∃ k, ListsChain S k r x

theorem Led.nil {S : Snap V} (rs : List (String × String)) : Led S rs [] := ⟨fun x => by simp, by simp⟩

theorem mem_of_count_pos {l : List (String × String)} {x : String × String} (h : 0 < l.count x) : x ∈ l := List.count_pos_iff.1 h

theorem Led.mono {S : Snap V} {rs rs' ls : List (String × String)} (h : Led S rs ls) (hr : ∀ x, rs.count x ≤ rs'.count x) : Led S rs' ls where
  count x := Nat.le_trans (h.count x) (Nat.add_le_add_right (hr x) _)
  reach x hx := by
    obtain ⟨r, h1, h2⟩ := h.reach x hx
    exact ⟨r, mem_of_count_pos (Nat.lt_of_lt_of_le (List.count_pos_iff.2 h1) (hr r)), h2⟩

theorem Led.append {S : Snap V} {r1 r2 l1 l2 : List (String × String)} (h1 : Led S r1 l1) (h2 : Led S r2 l2) : Led S (r1 ++ r2) (l1 ++ l2) where
  count x := by
    have a := h1.count x
    have b := h2.count x
    simp only [List.count_append, List.map_append, List.sum_append]
    omega
  reach x hx := by
    rcases List.mem_append.1 hx with hx | hx
    · obtain ⟨r, a, b⟩ := h1.reach x hx
      exact ⟨r, List.mem_append_left _ a, b⟩
    · obtain ⟨r, a, b⟩ := h2.reach x hx
      exact ⟨r, List.mem_append_right _ a, b⟩

theorem ListsChain.prepend {S : Snap V} {k : Nat} {y r x : String × String} (h : listsO (S.find y.1 y.2) r.1 r.2 = true) (hc : ListsChain S k r x) :
    ListsChain S (k + 1) y x := by
  induction hc with
  | refl a =>
    cases hm : S.find y.1 y.2 with
    | none => rw [hm] at h; cases h
    | some m => rw [hm] at h; exact .step (.refl y) hm h
  | step _ hf hl ih => exact .step (ih h) hf hl

theorem occ_pos {S : Snap V} {y x : String × String} (h : 0 < occ S y x) : listsO (S.find y.1 y.2) x.1 x.2 = true := by
  unfold occ at h
  split at h
  · assumption
  · exact absurd h (by simp)

/-- Visiting an object and then what it lists. -/
theorem Led.visit {S : Snap V} {y : String × String} {rs ls : List (String × String)} (h : Led S rs ls) (hr : ∀ x, rs.count x ≤ occ S y x) :
    Led S [y] (y :: ls) where
  count x := by
    have a := h.count x
    have b := hr x
    simp only [List.count_cons, List.count_nil, List.map_cons, List.sum_cons]
    omega
  reach x hx := by
    rcases List.mem_cons.1 hx with rfl | hx
    · exact ⟨x, by simp, 0, .refl x⟩
    · obtain ⟨r, h1, k, h2⟩ := h.reach x hx
      exact ⟨y, by simp, k + 1, h2.prepend (occ_pos (Nat.lt_of_lt_of_le (List.count_pos_iff.2 h1) (hr r)))⟩

theorem Led.roots {S : Snap V} (rs : List (String × String)) : Led S rs rs :=
  ⟨fun x => Nat.le_add_right _ _, fun x hx => ⟨x, hx, 0, .refl x⟩⟩

theorem Led.of_nil {S : Snap V} {ls : List (String × String)} (h : Led S [] ls) : ls = [] := by
  cases ls with
  | nil => rfl
  | cons a l => obtain ⟨r, hr, _⟩ := h.reach a (by simp); cases hr

/-- The key of one side of a place. -/
def keyO (k : String × String) : Option (Model V) → List (String × String)
  | none => []
  | some _ => [k]

theorem Led.place {S : Snap V} {k : String × String} {o : Option (Model V)} {rs ls : List (String × String)} (h : Led S rs ls)
    (h0 : o = none → rs = []) (h1 : o ≠ none → ∀ x, rs.count x ≤ occ S k x) : Led S (keyO k o) (keyO k o ++ ls) := by
  cases o with
  | none => rw [h0 rfl] at h; rw [h.of_nil]; exact .nil _
  | some m => exact h.visit (h1 (by simp))

/-- When everything is listed at most once, and the starting points are not listed, nothing is visited twice. -/
theorem Led.nodup {A : Adapter V} {S : Snap V} (hS : ListedOnce A S) {rs ls : List (String × String)} (h : Led S rs ls) (hn : rs.Nodup)
    (ht : ∀ r ∈ rs, r.1 ∈ A.topLevel) : ls.Nodup := by
  have hlisted : ∀ y x, 0 < occ S y x → x ∉ rs := by
    intro y x hy hx
    have := occ_pos hy
    cases hm : S.find y.1 y.2 with
    | none => rw [hm] at this; cases this
    | some m => rw [hm] at this; exact hS.top _ _ _ _ _ hm this (ht x hx)
  have hsum0 : ∀ (x : String × String) (l : List (String × String)), (∀ y, occ S y x = 0) → (l.map (fun y => occ S y x)).sum = 0 := by
    intro x l hy
    induction l with
    | nil => rfl
    | cons a l ih => rw [List.map_cons, List.sum_cons, hy, ih]
  have key : ∀ k r x, r ∈ rs → ListsChain S k r x → ls.count x ≤ 1 := by
    intro k
    induction k with
    | zero =>
      intro r x hr hc
      cases hc
      have h1 := h.count r
      rw [hsum0 r ls (fun y => by
        rcases Nat.eq_zero_or_pos (occ S y r) with h0 | h0
        · exact h0
        · exact absurd hr (hlisted y r h0))] at h1
      exact Nat.le_trans h1 (by simpa using List.nodup_iff_count.1 hn r)
    | succ k ih =>
      intro r x hr hc
      generalize hk : k + 1 = k' at hc
      cases hc with
      | refl => cases hk
      | @step k2 a t u ct v m hc hf hl =>
        cases hk
        have h1 := ih r (t, u) hr hc
        have hpos : 0 < occ S (t, u) (ct, v) := by unfold occ; rw [if_pos (by rw [hf]; exact hl)]; exact Nat.one_pos
        have h2 : rs.count (ct, v) = 0 := List.count_eq_zero.2 (hlisted _ _ hpos)
        have h3 := h.count (ct, v)
        rw [h2] at h3
        have h4 : ∀ l : List (String × String), (l.map (fun y => occ S y (ct, v))).sum ≤ l.count (t, u) := by
          intro l
          induction l with
          | nil => simp
          | cons y l ih =>
            rw [List.map_cons, List.sum_cons, List.count_cons]
            by_cases hy : y = (t, u)
            · subst hy
              have : occ S (t, u) (ct, v) ≤ 1 := by unfold occ; split <;> omega
              simp only [BEq.rfl, if_true]; omega
            · have : occ S y (ct, v) = 0 := by
                rcases Nat.eq_zero_or_pos (occ S y (ct, v)) with h0 | h0
                · exact h0
                · exfalso
                  have h5 := occ_pos h0
                  cases hm : S.find y.1 y.2 with
                  | none => rw [hm] at h5; cases h5
                  | some m' =>
                    rw [hm] at h5
                    obtain ⟨e1, e2⟩ := hS.one _ _ _ _ _ _ _ _ hm hf h5 hl
                    exact hy (Prod.ext e1 e2)
              omega
        have := h4 ls
        omega
  rw [List.nodup_iff_count]
  intro x
  by_cases hx : x ∈ ls
  · obtain ⟨r, hr, k, hc⟩ := h.reach x hx
    exact key k r x hr hc
  · rw [List.count_eq_zero.2 hx]; omega

theorem Led.stored {A : Adapter V} {S : Snap V} (hS : ListedOnce A S) {rs ls : List (String × String)} (h : Led S rs ls)
    (hr : ∀ r ∈ rs, S.find r.1 r.2 ≠ none) : ∀ x ∈ ls, S.find x.1 x.2 ≠ none := by
  intro x hx
  obtain ⟨r, h1, k, h2⟩ := h.reach x hx
  cases h2 with
  | refl => exact hr _ h1
  | step _ hf hl => exact hS.stored _ _ _ _ _ hf hl

end DS
