import Verif.Props.StoreSame
/-! # Comparisons of diff elements (C09) -/
namespace DS
variable {V : Type} [PyVal V]

/-- Two dicts have the same keys, and values that are `==` under each. -/
def EqualDicts (d e : Dict V) : Prop :=
  (∀ f, Dict.get? d f = none ↔ Dict.get? e f = none) ∧ ∀ f x y, Dict.get? d f = some x → Dict.get? e f = some y → PyVal.eq x y = true

/-- The same for a side of a diff element that may be missing. -/
def EqualSides : Option (Dict V) → Option (Dict V) → Prop
  | none, none => True
  | some d, some e => EqualDicts d e
  | _, _ => False

/-- The dicts of an element are dicts: no key occurs twice. -/
structure Elem.DictsOK (a : Elem V) : Prop where
  keys : Dict.WF a.keys
  src : ∀ d, a.src = some d → Dict.WF d
  dst : ∀ d, a.dst = some d → Dict.WF d

theorem pyEq_same {d e : Dict V} (hd : Dict.WF d) (he : Dict.WF e) : Dict.pyEq d e = true ↔ EqualDicts d e := by
  unfold Dict.pyEq EqualDicts
  exact pyEqBy_iff hd he

theorem optDictEq_same {d e : Option (Dict V)} (hd : ∀ x, d = some x → Dict.WF x) (he : ∀ x, e = some x → Dict.WF x) : optDictEq d e = true ↔ EqualSides d e := by
  cases d <;> cases e
  · simp [optDictEq, EqualSides]
  · simp [optDictEq, EqualSides]
  · simp [optDictEq, EqualSides]
  · simp only [optDictEq, EqualSides]
    exact pyEq_same (hd _ rfl) (he _ rfl)

/-- **C09** `a == b` compares the type, the name, the keys and the attributes on both sides, and nothing else (not the children). -/
theorem C09_equality {a b : Elem V} (ha : a.DictsOK) (hb : b.DictsOK) :
    a.eq b = true ↔ a.type = b.type ∧ a.name = b.name ∧ EqualDicts a.keys b.keys ∧ EqualSides a.src b.src ∧ EqualSides a.dst b.dst := by
  unfold Elem.eq
  simp only [Bool.and_eq_true, beq_iff_eq, pyEq_same ha.keys hb.keys, optDictEq_same ha.src hb.src, optDictEq_same ha.dst hb.dst, and_assoc]

/-- **C09** Between elements with different type or name, each of the comparison operators is that of the lexicographic order of (type, name). -/
theorem C09_operators {a b : Elem V} (h : ¬ (a.type = b.type ∧ a.name = b.name)) :
    (a.lt b = true ↔ KeyBefore a b) ∧ (a.le b = true ↔ KeyBefore a b) ∧ (a.gt b = true ↔ KeyBefore b a) ∧ (a.ge b = true ↔ KeyBefore b a) ∧ a.eq b = false := by
  have he : a.eq b = false := by
    cases hc : a.eq b with
    | false => rfl
    | true =>
      unfold Elem.eq at hc
      simp only [Bool.and_eq_true, beq_iff_eq] at hc
      exact absurd ⟨hc.1.1.1.1, hc.1.1.1.2⟩ h
  obtain ⟨h1, _, h3, _, h5⟩ := C09_element_order a b a
  have h2 := (C09_element_order b a b).1
  have h4 := (C09_element_order b a b).2.2.1
  have hg : (!a.lt b) = true ↔ KeyBefore b a := by
    rw [← h2]
    constructor
    · intro hn
      rcases h5 h with hx | hx
      · rw [hx] at hn; cases hn
      · exact hx
    · intro hx
      rw [h4 hx]; rfl
  refine ⟨h1, ?_, ?_, ?_, he⟩
  · unfold Elem.le; rw [he, Bool.or_false]; exact h1
  · unfold Elem.gt; rw [he]; simpa using hg
  · unfold Elem.ge; exact hg

namespace Ex

/-- Elements that differ in their keys only, or in their children only. -/
def elK (k : String) (kids : List (Elem String)) : Elem String := { el "d" "a" (some [("role", "x")]) none with keys := [("name", k)], kids := kids }
theorem elK_ok (k : String) (kids : List (Elem String)) : (elK k kids).DictsOK where
  keys := by simp [elK, Dict.WF, Dict.keys]
  src := by intro d h; cases h; unfold Dict.WF; simp [Dict.keys]
  dst := by intro d h; cases h
example : (elK "k" []).eq (elK "l" []) = false ∧ (elK "k" []).eq (elK "k" [elK "l" []]) = true := by decide +kernel
example : ¬ EqualDicts (elK "k" []).keys (elK "l" []).keys := fun h => by
  have := (C09_equality (elK_ok "k" []) (elK_ok "l" [])).2 ⟨rfl, rfl, h, by unfold EqualSides; exact ⟨fun _ => Iff.rfl, fun f x y h1 h2 => by rw [h1] at h2; cases h2; simp [PyVal.eq]⟩, trivial⟩
  revert this; decide +kernel
example : KeyBefore (el "d" "b" none none) (el "e" "a" none none) ∧ (el "d" "b" none none).le (el "e" "a" none none) = true := ⟨.inl (by decide +kernel), by decide +kernel⟩

/-- **C09**, negative part: each of two elements may be `>` the other. -/
theorem C09_both_greater : ∃ a b : Elem String, a.gt b = true ∧ b.gt a = true :=
  ⟨el "d" "a" (some []) none, el "d" "a" none (some []), by decide +kernel⟩

end Ex
end DS
