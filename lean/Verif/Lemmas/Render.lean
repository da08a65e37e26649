import Verif.Model.Render
import Verif.Spec.Render
import Verif.Lemmas.DiffDict
/-! Lemmas about the text of diffs. -/

namespace DS
set_option linter.unusedSectionVars false
variable {V : Type} [PyVal V]

theorem Appears.refl (s : String) : Appears s s := ⟨"", "", by simp⟩
theorem Appears.trans {a b c : String} (h : Appears a b) (h' : Appears b c) : Appears a c := by
  obtain ⟨x, y, rfl⟩ := h
  obtain ⟨u, v, rfl⟩ := h'
  exact ⟨u ++ x, y ++ v, by simp [String.append_assoc]⟩
theorem Appears.left {a b : String} (c : String) (h : Appears a b) : Appears a (b ++ c) := by
  obtain ⟨x, y, rfl⟩ := h
  exact ⟨x, y ++ c, by simp [String.append_assoc]⟩
theorem Appears.right {a b : String} (c : String) (h : Appears a b) : Appears a (c ++ b) := by
  obtain ⟨x, y, rfl⟩ := h
  exact ⟨c ++ x, y, by simp [String.append_assoc]⟩

theorem occurs_joinSep {sep s : String} {l : List String} (h : s ∈ l) : Appears s (joinSep sep l) := by
  induction l with
  | nil => cases h
  | cons a l ih =>
    cases l with
    | nil => simp at h; subst h; exact Appears.refl _
    | cons b l =>
      rcases List.mem_cons.1 h with rfl | h
      · exact (Appears.refl _).left _
      · exact ((ih h).right _).right _

theorem mem_diffLines {f : Elem V → String} {i : Nat} {ks : List (Elem V)} {c : Elem V} (h : c ∈ ks) (hd : c.hasDiffs = true) :
    f c ∈ diffLines f i ks := by
  simp only [diffLines, List.mem_flatMap]
  refine ⟨c.type, mem_groups.2 ⟨c, h, rfl⟩, ?_⟩
  have hm : c ∈ (group ks c.type).filter Elem.hasDiffs := by simp [group, h, hd]
  generalize (group ks c.type).filter Elem.hasDiffs = l at hm
  cases l with
  | nil => cases hm
  | cons x l =>
    rcases List.mem_cons.1 hm with rfl | hm
    · simp
    · simp only [List.mem_cons]
      exact .inr (.inr (List.mem_map_of_mem hm))

theorem diffLines_two {f : Elem V → String} {i : Nat} {ks : List (Elem V)} (h : Elem.hasDiffsL ks = true) :
    ∃ a b l, diffLines f i ks = a :: b :: l := by
  rw [Elem.hasDiffsL_eq, List.any_eq_true] at h
  obtain ⟨c, hc, hd⟩ := h
  have hg := mem_groups.2 ⟨c, hc, rfl⟩
  have hm : c ∈ (group ks c.type).filter Elem.hasDiffs := by simp [group, hc, hd]
  unfold diffLines
  generalize groups ks = gs at hg
  induction gs with
  | nil => cases hg
  | cons g gs ih =>
    simp only [List.flatMap_cons]
    rcases hl : (group ks g).filter Elem.hasDiffs with _ | ⟨x, l⟩
    · rcases List.mem_cons.1 hg with rfl | hg
      · rw [hl] at hm; cases hm
      · simpa using ih hg
    · exact ⟨_, _, _, rfl⟩

theorem diffLines_nil {f : Elem V → String} {i : Nat} {ks : List (Elem V)} (h : Elem.hasDiffsL ks = false) :
    diffLines f i ks = [] := by
  rw [Elem.hasDiffsL_eq, List.any_eq_false] at h
  simp only [diffLines, List.flatMap_eq_nil_iff]
  intro g _
  have : (group ks g).filter Elem.hasDiffs = [] := by
    rw [List.filter_eq_nil_iff]
    intro c hc
    exact h c (List.mem_filter.1 hc).1
  rw [this]

theorem newline_mem_join {a b : String} {l : List String} : '\n' ∈ (joinSep "\n" (a :: b :: l)).toList := by
  simp [joinSep]

theorem diffText_of_diffs {f : Elem V → String} {i : Nat} {ks : List (Elem V)} (h : Elem.hasDiffsL ks = true) :
    diffText f i ks = joinSep "\n" (diffLines f i ks) ∧ '\n' ∈ (diffText f i ks).toList := by
  obtain ⟨a, b, l, hl⟩ := diffLines_two (f := f) (i := i) h
  have hn : '\n' ∈ (joinSep "\n" (diffLines f i ks)).toList := by rw [hl]; exact newline_mem_join
  have hne : joinSep "\n" (diffLines f i ks) ≠ "" := by
    intro h0; rw [h0] at hn; simp at hn
  have : diffText f i ks = joinSep "\n" (diffLines f i ks) := by simp [diffText, hne]
  exact ⟨this, this ▸ hn⟩

theorem diffText_noDiffs {f : Elem V → String} {i : Nat} {ks : List (Elem V)} (h : Elem.hasDiffsL ks = false) :
    diffText f i ks = "(no diffs)" := by
  simp [diffText, diffLines_nil h, joinSep]

theorem diffLines_congr {f g : Elem V → String} {i : Nat} {ks : List (Elem V)} (h : ∀ c ∈ ks, f c = g c) :
    diffLines f i ks = diffLines g i ks := by
  unfold diffLines
  congr 1
  funext t
  have hm : ∀ c ∈ (group ks t).filter Elem.hasDiffs, f c = g c := fun c hc =>
    h c (List.mem_filter.1 (List.mem_filter.1 hc).1).1
  generalize (group ks t).filter Elem.hasDiffs = l at hm
  cases l with
  | nil => rfl
  | cons c cs =>
    simp only [List.cons.injEq, true_and]
    exact ⟨hm c (by simp), List.map_congr_left (fun x hx => hm x (by simp [hx]))⟩

theorem diffText_congr {f g : Elem V → String} {i : Nat} {ks : List (Elem V)} (h : ∀ c ∈ ks, f c = g c) :
    diffText f i ks = diffText g i ks := by
  simp only [diffText, diffLines_congr h]

theorem Elem.strF_stable (n : Nat) : ∀ (i : Nat) (e : Elem V), e.depth ≤ n → Elem.strF n i e = Elem.strF e.depth i e := by
  induction n using Nat.strongRecOn with
  | _ n ih =>
    intro i e h
    rw [Elem.depth_eq] at h
    rw [Elem.depth_eq]
    obtain ⟨m, rfl⟩ : ∃ m, n = m + 1 := ⟨n - 1, by omega⟩
    rw [Nat.add_comm 1]
    simp only [Elem.strF]
    have : diffText (Elem.strF m (i + 4)) (i + 2) e.kids = diffText (Elem.strF (Elem.depthL e.kids) (i + 4)) (i + 2) e.kids := by
      apply diffText_congr
      intro c hc
      have hc' := Elem.depth_le_depthL hc
      rw [ih m (by omega) (i + 4) c (by omega)]
      rw [ih (Elem.depthL e.kids) (by omega) (i + 4) c hc']
    rw [this]

theorem Elem.str_eq (e : Elem V) (i : Nat) :
    e.str i = ownText e i ++
      if Elem.hasDiffsL e.kids then "\n" ++ diffText (fun c => c.str (i + 4)) (i + 2) e.kids
      else if e.src.isNone && e.dst.isNone then " (no diffs)" else "" := by
  unfold Elem.str
  rw [Elem.depth_eq, Nat.add_comm 1]
  simp only [Elem.strF]
  have : diffText (Elem.strF (Elem.depthL e.kids) (i + 4)) (i + 2) e.kids =
      diffText (fun c => Elem.strF c.depth (i + 4) c) (i + 2) e.kids := by
    apply diffText_congr
    intro c hc
    exact Elem.strF_stable _ _ _ (Elem.depth_le_depthL hc)
  rw [this]

theorem InTree.trans {x y : Elem V} {ks : List (Elem V)} (h : InTree x ks) (hy : InTree y x.kids) : InTree y ks := by
  induction h with
  | here hm => exact .under hm hy
  | under hk _ ih => exact .under hk ih

/-- Every element with differences is rendered somewhere in the text. -/
theorem str_occurs {x : Elem V} {ks : List (Elem V)} (h : InTree x ks) (hx : x.hasDiffs = true) (i : Nat) :
    ∃ j, Appears (x.str j) (diffText (fun c => c.str (i + 2)) i ks) := by
  induction h generalizing i with
  | @here ks hm =>
    have hd : Elem.hasDiffsL ks = true := by
      rw [Elem.hasDiffsL_eq, List.any_eq_true]; exact ⟨x, hm, hx⟩
    rw [(diffText_of_diffs hd).1]
    exact ⟨i + 2, occurs_joinSep (mem_diffLines (f := fun c => c.str (i + 2)) hm hx)⟩
  | @under ks k hk hu ih =>
    have hkd : Elem.hasDiffsL k.kids = true := by
      rw [hasDiffsL_iff]
      rcases (hasDiffs_iff x).1 hx with ha | ⟨y, hy, hya⟩
      · exact ⟨x, hu, ha⟩
      · exact ⟨y, InTree.trans hu hy, hya⟩
    have hkk : k.hasDiffs = true := by rw [Elem.hasDiffs_eq, hkd, Bool.or_true]
    have hd : Elem.hasDiffsL ks = true := by
      rw [Elem.hasDiffsL_eq, List.any_eq_true]; exact ⟨k, hk, hkk⟩
    obtain ⟨j, hj⟩ := ih (i + 4)
    refine ⟨j, ?_⟩
    rw [(diffText_of_diffs hd).1]
    refine Appears.trans ?_ (occurs_joinSep (mem_diffLines (f := fun c => c.str (i + 2)) hk hkk))
    rw [Elem.str_eq k, hkd, if_pos rfl]
    exact (hj.right _).right _

theorem join_append_foldl (l : List String) (a : String) : l.foldl (fun r s => r ++ s) a = a ++ l.foldl (fun r s => r ++ s) "" := by
  induction l generalizing a with
  | nil => simp
  | cons x l ih => simp only [List.foldl_cons]; rw [ih (a ++ x), ih ("" ++ x)]; simp [String.append_assoc]

/-- The own part of an element is what the specification reports. -/
theorem ownText_eq (e : Elem V) (i : Nat) : ownText e i = e.report (margin i) := by
  unfold ownText Elem.report
  congr 1
  unfold Elem.action
  rcases hs : e.src with _ | s <;> rcases hd : e.dst with _ | d <;> simp only []
  · by_cases hu : e.attrsKeys.any (Elem.differs s d) = true
    · simp only [hu, if_true]
      congr 1
      apply List.map_congr_left
      rintro ⟨k, v⟩ hk
      simp only [attrLine]
      congr 2
      have hkk : k ∈ e.attrsKeys.filter (Elem.differs s d) := by
        simp only [Elem.plus, hs, hd, Option.getD_some, Elem.pick, List.mem_filterMap] at hk
        obtain ⟨k', hk', he⟩ := hk
        cases hg : Dict.get? s k' with
        | none => simp [hg] at he
        | some y => simp [hg] at he; obtain ⟨rfl, _⟩ := he; exact hk'
      have : Dict.get? (e.minus.getD []) k = e.dstVal k := by
        simp only [Elem.minus, hs, hd, Option.getD_some, Elem.dstVal, Option.bind_some]
        rw [get?_pick]; simp [hkk]
      rw [this]
    · have hn : e.attrsKeys.filter (Elem.differs s d) = [] := by
        rw [List.filter_eq_nil_iff]; intro k hk hk'
        exact hu (List.any_eq_true.2 ⟨k, hk, hk'⟩)
      simp only [hu]
      simp [Elem.plus, hs, hd, hn, Elem.pick, String.join]

end DS
