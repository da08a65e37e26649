import Verif.Props.Validate
import Verif.Model.Concrete
/-! # Instances of the theorems of `Verif.Props.Validate` -/

namespace DS
open Ex

/-- A site and a device with one unique id. -/
theorem C92_ex_type : Mismatch (site "a" []) (device "a" "leaf" []) .typeError := by
  left; exact ⟨by decide, rfl⟩

/-- Two interfaces with one unique id, `"x__y__z"`, and different identifiers. -/
theorem C92_ex_value : Mismatch (interface "x" "y__z" "d") (interface "x__y" "z" "d") .valueError := by
  right; exact ⟨rfl, .inr (by decide +kernel), rfl⟩

/-- They are paired, although another site of that id comes first, and other pairs fit. -/
theorem C92_ex_paired : Paired [device "b" "leaf" [], device "a" "spine" [], site "a" []] [device "b" "spine" [], device "a" "leaf" []]
    (site "a" []) (device "a" "leaf" []) := ⟨"a", rfl, rfl⟩

example (w : World String (List Outcome)) :
    ∃ w', diffList ⟨ad 0, ad 1, 0⟩ 5 [device "b" "leaf" [], device "a" "spine" [], site "a" []] [device "b" "spine" [], device "a" "leaf" []] w =
      (.error .typeError, w') ∧ OnlyProgress w w' := by
  refine C92_list_refused_one C92_ex_paired C92_ex_type ?_ w
  rintro s d ⟨u, h1, h2⟩
  by_cases hb : u = "b"
  · subst hb
    cases h1; cases h2
    exact .inl ⟨rfl, rfl, by decide +kernel⟩
  · by_cases ha : u = "a"
    · subst ha
      cases h1; cases h2
      exact .inr ⟨rfl, rfl⟩
    · rw [lastWithUid, List.filter_eq_nil_iff.2] at h2
      · cases h2
      · intro m hm
        simp only [List.mem_cons, List.not_mem_nil, or_false] at hm
        rcases hm with rfl | rfl
        · simpa using fun h => hb (h.symm.trans (by decide +kernel))
        · simpa using fun h => ha (h.symm.trans (by decide +kernel))

example (w : World String (List Outcome)) :
    ∃ e w', diffList ⟨ad 0, ad 1, 0⟩ 5 [interface "x" "y__z" "d"] [interface "x__y" "z" "d"] w = (.error e, w') ∧ OnlyProgress w w' ∧
      ∃ s' d', Paired [interface "x" "y__z" "d"] [interface "x__y" "z" "d"] s' d' ∧ Mismatch s' d' e :=
  C92_list_refused (s := interface "x" "y__z" "d") (d := interface "x__y" "z" "d") ⟨"x__y__z", rfl, rfl⟩ (fun h => by have := h.identifiers; revert this; decide +kernel) w

/-- Each pair once, the last object of an id, the ids in the order of their first occurrence. -/
example (w : World String (List Outcome)) :
    ∃ w', OnlyProgress w w' ∧ diffList ⟨ad 0, ad 1, 0⟩ 5 [device "b" "leaf" [], device "a" "leaf" [], device "b" "spine" []] [device "c" "leaf" [], device "a" "leaf" []] w =
      diffPairs (diffPair ⟨ad 0, ad 1, 0⟩ (diffList ⟨ad 0, ad 1, 0⟩ 4))
        [(some (device "b" "spine" []), none), (some (device "a" "leaf" []), some (device "a" "leaf" [])), (none, some (device "c" "leaf" []))] w' := by
  refine C92_list_compared (fun s d h => ?_) w
  obtain ⟨u, h1, h2⟩ := h
  have h3 : s ∈ [device "b" "leaf" [], device "a" "leaf" [], device "b" "spine" []] ∧ s.uid = u := by
    have := List.mem_of_getLast? h1; simpa using this
  have h4 : d ∈ [device "c" "leaf" [], device "a" "leaf" []] ∧ d.uid = u := by
    have := List.mem_of_getLast? h2; simpa using this
  have h5 : s.uid = d.uid := h3.2.trans h4.2.symm
  have h6 := h3.1; have h7 := h4.1
  simp only [List.mem_cons, List.not_mem_nil, or_false] at h6 h7
  rcases h6 with rfl | rfl | rfl <;> rcases h7 with rfl | rfl <;> first | (exfalso; revert h5; decide +kernel) | exact ⟨rfl, rfl, by decide +kernel⟩

end DS
