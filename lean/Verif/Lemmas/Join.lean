import Verif.Py.Val
/-! `joinSep "__"` is injective on safe strings of equal number. -/
set_option linter.unusedSectionVars false

namespace DS

/-- A string that cannot be confused with a separator when joined with `"__"`: it does not contain
`"__"` and does not end with `"_"`. -/
def SafeId (s : String) : Prop := ¬ ['_', '_'] <:+: s.toList ∧ s.toList.getLast? ≠ some '_'

theorem append_sep_inj {a b r r' : List Char}
    (ha1 : ¬ ['_', '_'] <:+: a) (ha2 : a.getLast? ≠ some '_')
    (hb1 : ¬ ['_', '_'] <:+: b) (hb2 : b.getLast? ≠ some '_')
    (h : a ++ (['_', '_'] ++ r) = b ++ (['_', '_'] ++ r')) : a = b ∧ r = r' := by
  have key : ∀ {a b r r' c : List Char}, ¬ ['_', '_'] <:+: a → a.getLast? ≠ some '_' → a = b ++ c →
      ['_', '_'] ++ r' = c ++ (['_', '_'] ++ r) → c = [] := by
    intro a b r r' c h1 h2 he hc
    cases c with
    | nil => rfl
    | cons x c =>
      simp only [List.cons_append, List.nil_append, List.cons.injEq] at hc
      cases c with
      | nil =>
        obtain ⟨rfl, _⟩ := hc
        exact absurd (by simp [he]) h2
      | cons y c =>
        simp only [List.cons_append, List.cons.injEq] at hc
        obtain ⟨rfl, rfl, _⟩ := hc
        exact absurd ⟨b, c, by simp [he]⟩ h1
  rcases List.append_eq_append_iff.1 h with ⟨c, h1, h2⟩ | ⟨c, h1, h2⟩
  · have := key hb1 hb2 h1 h2
    subst this
    simp only [List.append_nil] at h1
    subst h1
    exact ⟨rfl, by simpa using h2⟩
  · have := key ha1 ha2 h1 h2
    subst this
    simp only [List.append_nil] at h1
    subst h1
    refine ⟨rfl, ?_⟩
    simp only [List.nil_append, List.append_cancel_left_eq] at h2
    exact h2.symm

theorem joinSep_inj {l l' : List String} (hl : l.length = l'.length) (h1 : ∀ s ∈ l, SafeId s) (h2 : ∀ s ∈ l', SafeId s)
    (h : joinSep "__" l = joinSep "__" l') : l = l' := by
  induction l generalizing l' with
  | nil => cases l' with
    | nil => rfl
    | cons _ _ => simp at hl
  | cons a l ih =>
    cases l' with
    | nil => simp at hl
    | cons b l' =>
      cases l with
      | nil =>
        cases l' with
        | nil => simpa [joinSep] using h
        | cons _ _ => simp at hl
      | cons c l =>
        cases l' with
        | nil => simp at hl
        | cons d l' =>
          simp only [joinSep] at h
          have h' := congrArg String.toList h
          simp only [String.toList_append] at h'
          have e : "__".toList = ['_', '_'] := rfl
          rw [e] at h'
          have ha := h1 a (by simp)
          have hb := h2 b (by simp)
          obtain ⟨hx, hy⟩ := append_sep_inj ha.1 ha.2 hb.1 hb.2 h'
          have : a = b := String.toList_inj.1 hx
          have hr := ih (l' := d :: l') (by simpa using hl) (fun s hs => h1 s (List.mem_cons_of_mem _ hs))
            (fun s hs => h2 s (List.mem_cons_of_mem _ hs)) (String.toList_inj.1 hy)
          rw [this, hr]

end DS
