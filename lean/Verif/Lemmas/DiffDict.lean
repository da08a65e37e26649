import Verif.Lemmas.Diff
/-! Lemmas about `Diff.dict()`. -/
set_option linter.unusedSectionVars false

namespace DS
variable {V : Type} [PyVal V]

theorem get2_setDict2 (r : Dict (Dict (ElemDict V))) (t n t' n' : String) (d : ElemDict V) :
    get2 (setDict2 r t n d) t' n' = if t = t' ∧ n = n' then some d else get2 r t' n' := by
  unfold get2 setDict2
  rw [Dict.get?_set]
  by_cases ht : t = t'
  · subst ht
    simp only [if_pos, Option.bind_some, Dict.get?_set, true_and]
    split
    · rfl
    · cases Dict.get? r t <;> simp
  · simp [ht]

theorem get2_foldl (val : Elem V → ElemDict V) (cs : List (Elem V)) (r : Dict (Dict (ElemDict V))) (t n : String) :
    get2 (cs.foldl (fun r c => setDict2 r c.type c.name (val c)) r) t n =
      ((cs.reverse.find? (fun c => c.type == t && c.name == n)).map val).or (get2 r t n) := by
  induction cs generalizing r with
  | nil => simp
  | cons c cs ih =>
    rw [List.foldl_cons, ih, get2_setDict2, List.reverse_cons, List.find?_append]
    cases h : cs.reverse.find? (fun c => c.type == t && c.name == n) with
    | some x => simp
    | none =>
      by_cases hc : c.type = t ∧ c.name = n
      · simp [hc.1, hc.2]
      · have : (c.type == t && c.name == n) = false := by simpa using hc
        simp [this, hc]

/-- One level of `dict()`. -/
def dictStep (dc : DiffClass V) (sub : List (Elem V) → Dict (Dict (ElemDict V))) (kids : List (Elem V)) :
    Dict (Dict (ElemDict V)) :=
  ((getChildren dc kids).filter Elem.hasDiffs).foldl
    (fun r c => setDict2 r c.type c.name ⟨c.minus, c.plus, sub c.kids⟩) []

theorem foldl_congr' {α β : Type} {f g : β → α → β} (l : List α) (b : β) (h : ∀ a ∈ l, ∀ b, f b a = g b a) :
    l.foldl f b = l.foldl g b := by
  induction l generalizing b with
  | nil => rfl
  | cons a l ih =>
    simp only [List.foldl_cons]
    rw [h a (by simp), ih _ (fun x hx => h x (List.mem_cons_of_mem _ hx))]

theorem filter_hasDiffs_nil {dc : DiffClass V} {ks : List (Elem V)} (h : Elem.hasDiffsL ks = false) :
    (getChildren dc ks).filter Elem.hasDiffs = [] := by
  rw [List.filter_eq_nil_iff]
  intro k hk hd
  rw [Elem.hasDiffsL_eq, List.any_eq_false] at h
  exact h k (mem_getChildren hk) hd

theorem dictF_noDiffs (dc : DiffClass V) (n : Nat) (ks : List (Elem V)) (h : Elem.hasDiffsL ks = false) :
    dictF dc n ks = [] := by
  cases n with
  | zero => rfl
  | succ n => simp only [dictF, filter_hasDiffs_nil h, List.foldl_nil]

theorem dictF_stable (dc : DiffClass V) (n : Nat) (ks : List (Elem V)) (h : Elem.depthL ks ≤ n) :
    dictF dc n ks = dictF dc (Elem.depthL ks) ks := by
  induction n using Nat.strongRecOn generalizing ks with
  | ind n ih =>
    cases n with
    | zero => have : Elem.depthL ks = 0 := by omega
              rw [this]
    | succ n =>
      cases hd : Elem.depthL ks with
      | zero =>
        have : ks = [] := by
          cases ks with
          | nil => rfl
          | cons k ks => simp only [Elem.depthL, Elem.depth_eq] at hd; omega
        subst this; rfl
      | succ m =>
        simp only [dictF]
        apply foldl_congr'
        intro c hc r
        have hck := mem_getChildren (List.mem_filter.1 hc).1
        have hdep := Elem.depth_le_depthL hck
        rw [Elem.depth_eq] at hdep
        rw [ih n (by omega) c.kids (by omega), ih m (by omega) c.kids (by omega)]

theorem Diff.dict_eq (d : Diff V) :
    d.dict = dictStep d.cls (fun ks => ({ cls := d.cls, kids := ks } : Diff V).dict) d.kids := by
  unfold Diff.dict dictStep
  cases hd : Elem.depthL d.kids with
  | zero =>
    have : d.kids = [] := by
      cases hk : d.kids with
      | nil => rfl
      | cons k ks => rw [hk] at hd; simp only [Elem.depthL, Elem.depth_eq] at hd; omega
    rw [this]; rfl
  | succ m =>
    simp only [dictF]
    apply foldl_congr'
    intro c hc r
    have hck := mem_getChildren (List.mem_filter.1 hc).1
    have hdep := Elem.depth_le_depthL hck
    rw [Elem.depth_eq] at hdep
    congr 2
    split
    · exact dictF_stable _ _ _ (by omega)
    · rename_i h; rw [dictF_noDiffs _ _ _ (by simpa using h)]

theorem get2_dict (d : Diff V) (hdc : d.cls.Reorders) (hu : UniqueNames d.kids) (t n : String) (x : ElemDict V) :
    get2 d.dict t n = some x ↔ ∃ c ∈ d.kids, c.type = t ∧ c.name = n ∧ c.hasDiffs = true ∧
      x = ⟨c.minus, c.plus, ({ cls := d.cls, kids := c.kids } : Diff V).dict⟩ := by
  rw [Diff.dict_eq]
  unfold dictStep
  rw [get2_foldl (fun c => ⟨c.minus, c.plus, ({ cls := d.cls, kids := c.kids } : Diff V).dict⟩)]
  have hn : get2 ([] : Dict (Dict (ElemDict V))) t n = none := rfl
  rw [hn, Option.or_none, Option.map_eq_some_iff]
  have hmem : ∀ c, c ∈ ((getChildren d.cls d.kids).filter Elem.hasDiffs).reverse ↔ c ∈ d.kids ∧ c.hasDiffs = true := by
    intro c
    rw [List.mem_reverse, List.mem_filter, (getChildren_perm hdc d.kids).mem_iff]
  constructor
  · rintro ⟨c, hc, rfl⟩
    have h1 := List.find?_some hc
    have h2 := (hmem c).1 (List.mem_of_find?_eq_some hc)
    simp only [Bool.and_eq_true, beq_iff_eq] at h1
    exact ⟨c, h2.1, h1.1, h1.2, h2.2, rfl⟩
  · rintro ⟨c, hc, rfl, rfl, hd, rfl⟩
    cases hf : ((getChildren d.cls d.kids).filter Elem.hasDiffs).reverse.find?
        (fun c' => c'.type == c.type && c'.name == c.name) with
    | none =>
      rw [List.find?_eq_none] at hf
      have := hf c ((hmem c).2 ⟨hc, hd⟩)
      simp at this
    | some c' =>
      have h1 := List.find?_some hf
      have h2 := (hmem c').1 (List.mem_of_find?_eq_some hf)
      simp only [Bool.and_eq_true, beq_iff_eq] at h1
      have : c' = c := UniqueNames.eq hu h2.1 hc h1.1 h1.2
      subst this
      exact ⟨c', rfl, rfl⟩

theorem setDict2_ne_nil (r : Dict (Dict (ElemDict V))) (t n : String) (d : ElemDict V) : setDict2 r t n d ≠ [] := by
  intro h
  have := get2_setDict2 r t n t n d
  rw [h] at this
  simp [get2] at this

theorem foldl_setDict2_ne_nil (val : Elem V → ElemDict V) (cs : List (Elem V)) (r : Dict (Dict (ElemDict V)))
    (h : r ≠ [] ∨ cs ≠ []) : cs.foldl (fun r c => setDict2 r c.type c.name (val c)) r ≠ [] := by
  induction cs generalizing r with
  | nil => simpa using h
  | cons c cs ih => rw [List.foldl_cons]; exact ih _ (Or.inl (setDict2_ne_nil _ _ _ _))

theorem dict_ne_nil_iff (d : Diff V) (hdc : d.cls.Reorders) : d.dict ≠ [] ↔ d.hasDiffs = true := by
  rw [Diff.dict_eq]
  unfold dictStep Diff.hasDiffs
  cases h : Elem.hasDiffsL d.kids with
  | false => simp [filter_hasDiffs_nil h]
  | true =>
    simp only [iff_true]
    apply foldl_setDict2_ne_nil (fun c => ⟨c.minus, c.plus, ({ cls := d.cls, kids := c.kids } : Diff V).dict⟩)
    right
    intro hn
    rw [Elem.hasDiffsL_eq, List.any_eq_true] at h
    obtain ⟨k, hk, hd⟩ := h
    rw [List.filter_eq_nil_iff] at hn
    exact hn k ((getChildren_perm hdc d.kids).mem_iff.2 hk) hd

end DS
