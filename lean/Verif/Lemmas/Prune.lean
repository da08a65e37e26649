import Verif.Lemmas.DiffErr
/-! Diffs under more global flags are pruned diffs; weights of diffs. -/
set_option linter.unusedSectionVars false

namespace DS
variable {V E : Type} [PyVal V]

theorem Elem.prune_eq (drop : Elem V → Bool) (e : Elem V) : e.prune drop = { e with kids := pruneL drop e.kids } := by
  cases e; rfl

theorem pruneL_append (drop : Elem V → Bool) (a b : List (Elem V)) : pruneL drop (a ++ b) = pruneL drop a ++ pruneL drop b := by
  induction a with
  | nil => rfl
  | cons k ks ih =>
    simp only [List.cons_append, pruneL]
    split
    · exact ih
    · rw [ih]; rfl

theorem pruneL_eq (drop : Elem V → Bool) (l : List (Elem V)) :
    pruneL drop l = (l.filter (fun e => !drop e)).map (Elem.prune drop) := by
  induction l with
  | nil => rfl
  | cons k ks ih =>
    unfold pruneL
    by_cases h : drop k = true <;> simp [h, ih]

theorem unique_prune {drop : Elem V → Bool} {l : List (Elem V)} (h : UniqueNames l) : UniqueNames (pruneL drop l) := by
  rw [pruneL_eq]
  unfold UniqueNames
  rw [List.pairwise_map]
  refine (List.Pairwise.filter _ h).imp ?_
  intro a b hab
  rw [Elem.prune_eq, Elem.prune_eq]
  exact hab

theorem addElems_prune {drop : Elem V → Bool} {a b c : List (Elem V)} (h : addElems a b = .ok c) (hu : UniqueNames a) :
    addElems (pruneL drop a) (pruneL drop b) = .ok (pruneL drop c) := by
  have h1 := addElems_ok h
  have h2 := addElems_unique h hu
  subst h1
  rw [addElems_of_unique, pruneL_append]
  rw [← pruneL_append]
  exact unique_prune h2

section
variable {src dst : Adapter V} {flags flags' : Nat} {S D : Snap V}
variable (h1 : flagOn flags GF.SKIP_UNMATCHED_SRC = true → flagOn flags' GF.SKIP_UNMATCHED_SRC = true)
variable (h2 : flagOn flags GF.SKIP_UNMATCHED_DST = true → flagOn flags' GF.SKIP_UNMATCHED_DST = true)
include h1 h2

theorem Hidden.mono {s d : Option (Model V)} (h : Hidden flags s d) : Hidden flags' s d := by
  cases h with
  | globalSrc s hf => exact .globalSrc s (h1 hf)
  | globalDst s hf => exact .globalDst s (h2 hf)
  | modelSrc s hf => exact .modelSrc s hf
  | modelDst s hf => exact .modelDst s hf
  | ignoreSrc s _ hf => exact .ignoreSrc s _ hf
  | ignoreDst _ s hf => exact .ignoreDst _ s hf

theorem childLoop_prune {rec rec' : List (Model V) → List (Model V) → P (List (Elem V))}
    (hrec : ∀ a b es k, rec a b = .ok (es, k) → ∃ k', rec' a b = .ok (pruneL (skippedBy flags') es, k'))
    (s d : Option (Model V)) (mapping : Dict String) {kids0 kids : List (Elem V)} (hu : UniqueNames kids0) {k : Nat}
    (h : pChildLoop S D rec s d mapping kids0 = .ok (kids, k)) :
    ∃ k', pChildLoop S D rec' s d mapping (pruneL (skippedBy flags') kids0) = .ok (pruneL (skippedBy flags') kids, k') := by
  induction mapping generalizing kids0 k with
  | nil => cases h; exact ⟨0, rfl⟩
  | cons x rest ih =>
    obtain ⟨ct, f⟩ := x
    unfold pChildLoop at h ⊢
    obtain ⟨so, ka, _, g1, h, _⟩ := P.bind_eq_ok.1 h
    obtain ⟨do', kb, _, g2, h, _⟩ := P.bind_eq_ok.1 h
    obtain ⟨es, _, _, g3, h, _⟩ := P.bind_eq_ok.1 h
    obtain ⟨kids', kd, _, g4, h, _⟩ := P.bind_eq_ok.1 h
    obtain ⟨kc, g3'⟩ := hrec _ _ _ _ g3
    have g4 := P.lift_eq_ok.1 g4
    obtain ⟨ke, h'⟩ := ih (addElems_unique g4.1 hu) h
    refine ⟨ka + (kb + (kc + (kd + ke))), ?_⟩
    refine P.bind_eq_ok.2 ⟨so, ka, _, g1, ?_, rfl⟩
    refine P.bind_eq_ok.2 ⟨do', kb, _, g2, ?_, rfl⟩
    refine P.bind_eq_ok.2 ⟨_, kc, _, g3', ?_, rfl⟩
    exact P.bind_eq_ok.2 ⟨_, kd, _, P.lift_eq_ok.2 ⟨addElems_prune g4.1 hu, g4.2⟩, h', rfl⟩

theorem pPair_prune {rec rec' : List (Model V) → List (Model V) → P (List (Elem V))}
    (hrec : ∀ a b es k, rec a b = .ok (es, k) → ∃ k', rec' a b = .ok (pruneL (skippedBy flags') es, k'))
    (s d : Option (Model V)) {r : Option (Elem V)} {k : Nat}
    (h : pPair ⟨src, dst, flags⟩ S D rec s d = .ok (r, k)) :
    ∃ k', pPair ⟨src, dst, flags'⟩ S D rec' s d =
      .ok (match r with | none => none | some e => if skippedBy flags' e then none else some (e.prune (skippedBy flags')), k') := by
  have hs : s ≠ none ∨ d ≠ none := by
    unfold pPair at h
    cases s with
    | some s => simp
    | none => cases d with
      | some d => simp
      | none => cases h
  obtain ⟨m, hm⟩ : ∃ m, s.or d = some m := or_some_of (p := ⟨"", "", s, d⟩) hs
  by_cases hk : skipPair flags s d = true
  · have hk' : skipPair flags' s d = true := (skipPair_iff _ _ _ hs).2 (((skipPair_iff _ _ _ hs).1 hk).mono h1 h2)
    have : r = none := by
      unfold pPair at h
      simp only [hm, hk, if_true] at h
      cases h; rfl
    subst this
    refine ⟨1, ?_⟩
    unfold pPair
    simp only [hm, hk', if_true]
    rfl
  · cases r with
    | none =>
      unfold pPair at h
      simp only [hm] at h
      rw [if_neg hk] at h
      obtain ⟨_, _, _, _, h, _⟩ := P.bind_eq_ok.1 h
      obtain ⟨_, _, _, _, h, _⟩ := P.bind_eq_ok.1 h
      obtain ⟨_, _, _, _, h, _⟩ := P.bind_eq_ok.1 h
      cases h
    | some e =>
      obtain ⟨m', mp, kids, ka, kb, hm', g1, g2, g3, g4, rfl⟩ := pPair_some h
      rw [hm] at hm'
      cases hm'
      by_cases hk' : skipPair flags' s d = true
      · have hh := (skipPair_iff _ _ _ hs).1 hk'
        have hnh : ¬ Hidden flags s d := fun hc => hk ((skipPair_iff _ _ _ hs).2 hc)
        refine ⟨1, ?_⟩
        have : skippedBy flags' { type := m.type, name := m.shortname, keys := m.identifiers, srcName := src.name, dstName := dst.name, src := s.map Model.attrs, dst := d.map Model.attrs, kids := kids : Elem V } = true := by
          cases hh with
          | globalSrc s hf => simp [skippedBy, hf, Elem.srcOnly]
          | globalDst s hf => simp [skippedBy, hf, Elem.dstOnly]
          | modelSrc s hf => exact absurd (.modelSrc s hf) hnh
          | modelDst s hf => exact absurd (.modelDst s hf) hnh
          | ignoreSrc s _ hf => exact absurd (.ignoreSrc s _ hf) hnh
          | ignoreDst _ s hf => exact absurd (.ignoreDst _ s hf) hnh
        simp only [this, if_true]
        unfold pPair
        simp only [hm, hk', if_true]
        rfl
      · have hnh : ¬ Hidden flags' s d := fun hc => hk' ((skipPair_iff _ _ _ hs).2 hc)
        have : skippedBy flags' { type := m.type, name := m.shortname, keys := m.identifiers, srcName := src.name, dstName := dst.name, src := s.map Model.attrs, dst := d.map Model.attrs, kids := kids : Elem V } = false := by
          cases hb : skippedBy flags' { type := m.type, name := m.shortname, keys := m.identifiers, srcName := src.name, dstName := dst.name, src := s.map Model.attrs, dst := d.map Model.attrs, kids := kids : Elem V } with
          | false => rfl
          | true =>
            exfalso
            simp only [skippedBy, Elem.srcOnly, Elem.dstOnly, Bool.or_eq_true, Bool.and_eq_true] at hb
            cases s with
            | none => cases d with
              | none => simp at hs
              | some d => simp at hb; exact hnh (.globalDst d hb)
            | some s => cases d with
              | none => simp at hb; exact hnh (.globalSrc s hb)
              | some d => simp at hb
        obtain ⟨kc, g2'⟩ := childLoop_prune (flags := flags) (flags' := flags') h1 h2 hrec s d mp List.Pairwise.nil g2
        refine ⟨((if s.isSome then 1 else 0) + (if d.isSome then 1 else 0)) + (ka + (kc + 0)), ?_⟩
        simp only [this]
        unfold pPair
        simp only [hm]
        rw [if_neg hk']
        refine P.bind_eq_ok.2 ⟨(), _, _, rfl, ?_, rfl⟩
        refine P.bind_eq_ok.2 ⟨mp, ka, _, g1, ?_, rfl⟩
        refine P.bind_eq_ok.2 ⟨_, kc, _, g2', ?_, rfl⟩
        rw [Elem.prune_eq]
        rfl

theorem pList_prune (n : Nat) (a b : List (Model V)) {es : List (Elem V)} {k : Nat}
    (h : pList ⟨src, dst, flags⟩ S D n a b = .ok (es, k)) :
    ∃ k', pList ⟨src, dst, flags'⟩ S D n a b = .ok (pruneL (skippedBy flags') es, k') := by
  induction n generalizing a b es k with
  | zero => cases h
  | succ n ih =>
    unfold pList at h ⊢
    obtain ⟨x1, k1, _, g1, h, _⟩ := P.bind_eq_ok.1 h
    obtain ⟨x2, k2, _, g2, h, _⟩ := P.bind_eq_ok.1 h
    have key : ∀ (l : List (Option (Model V) × Option (Model V))) es k,
        pPairs (pPair ⟨src, dst, flags⟩ S D (pList ⟨src, dst, flags⟩ S D n)) l = .ok (es, k) →
        ∃ k', pPairs (pPair ⟨src, dst, flags'⟩ S D (pList ⟨src, dst, flags'⟩ S D n)) l = .ok (pruneL (skippedBy flags') es, k') := by
      intro l
      induction l with
      | nil => intro es k h; cases h; exact ⟨0, rfl⟩
      | cons x l ihl =>
        intro es k h
        obtain ⟨s, d⟩ := x
        unfold pPairs at h ⊢
        obtain ⟨r, ka, _, e1, h, _⟩ := P.bind_eq_ok.1 h
        obtain ⟨es', kb, _, e2, h, _⟩ := P.bind_eq_ok.1 h
        obtain ⟨ka', e1'⟩ := pPair_prune (flags := flags) (flags' := flags') h1 h2 (fun a b es k h => ih a b h) s d e1
        obtain ⟨kb', e2'⟩ := ihl _ _ e2
        refine ⟨ka' + (kb' + 0), P.bind_eq_ok.2 ⟨_, ka', _, e1', P.bind_eq_ok.2 ⟨_, kb', _, e2', ?_, rfl⟩, rfl⟩⟩
        cases h
        cases r with
        | none => rfl
        | some e =>
          simp only [pruneL]
          by_cases hsk : skippedBy flags' e = true
          · simp [hsk, P.ret]
          · simp [hsk, P.ret]
    obtain ⟨k3, h'⟩ := key _ _ _ h
    exact ⟨k1 + (k2 + k3), P.bind_eq_ok.2 ⟨x1, k1, _, g1, P.bind_eq_ok.2 ⟨x2, k2, _, g2, h', rfl⟩, rfl⟩⟩

theorem pTypes_prune (n : Nat) (ts : List String) {kids0 es : List (Elem V)} (hu : UniqueNames kids0) {k : Nat}
    (h : pTypes ⟨src, dst, flags⟩ S D n ts kids0 = .ok (es, k)) :
    ∃ k', pTypes ⟨src, dst, flags'⟩ S D n ts (pruneL (skippedBy flags') kids0) = .ok (pruneL (skippedBy flags') es, k') := by
  induction ts generalizing kids0 k with
  | nil => cases h; exact ⟨0, rfl⟩
  | cons t ts ih =>
    unfold pTypes at h ⊢
    obtain ⟨es', _, _, g1, h, _⟩ := P.bind_eq_ok.1 h
    obtain ⟨kids', kb, _, g2, h, _⟩ := P.bind_eq_ok.1 h
    have g2 := P.lift_eq_ok.1 g2
    obtain ⟨ka, g1'⟩ := pList_prune (flags := flags) (flags' := flags') h1 h2 n _ _ g1
    obtain ⟨kc, h'⟩ := ih (addElems_unique g2.1 hu) h
    exact ⟨ka + (kb + kc), P.bind_eq_ok.2 ⟨_, ka, _, g1', P.bind_eq_ok.2 ⟨_, kb, _, P.lift_eq_ok.2 ⟨addElems_prune g2.1 hu, g2.2⟩, h', rfl⟩, rfl⟩⟩

theorem pDiff_prune {n : Nat} {es : List (Elem V)} {k : Nat} (h : pDiff ⟨src, dst, flags⟩ S D n = .ok (es, k)) :
    ∃ k', pDiff ⟨src, dst, flags'⟩ S D n = .ok (pruneL (skippedBy flags') es, k') := by
  unfold pDiff at h ⊢
  obtain ⟨x, ka, _, g1, h, _⟩ := P.bind_eq_ok.1 h
  obtain ⟨kb, h'⟩ := pTypes_prune (flags := flags) (flags' := flags') h1 h2 n _ List.Pairwise.nil h
  exact ⟨ka + kb, P.bind_eq_ok.2 ⟨x, ka, _, g1, h', rfl⟩⟩
end

/-! ## weights -/

/-- Number of sides an element has. -/
def Elem.sides (e : Elem V) : Nat := (if e.src.isSome then 1 else 0) + (if e.dst.isSome then 1 else 0)
/-- Total number of sides of all elements of a forest. -/
def weightL (l : List (Elem V)) : Nat := ((nodesL l).map Elem.sides).sum

theorem nodesL_append (a b : List (Elem V)) : nodesL (a ++ b) = nodesL a ++ nodesL b := by
  rw [nodesL_eq, nodesL_eq, nodesL_eq, List.flatMap_append]

theorem weightL_append (a b : List (Elem V)) : weightL (a ++ b) = weightL a + weightL b := by
  unfold weightL
  rw [nodesL_append, List.map_append, List.sum_append]

theorem weightL_cons (e : Elem V) (l : List (Elem V)) : weightL (e :: l) = e.sides + weightL e.kids + weightL l := by
  have : e :: l = [e] ++ l := rfl
  rw [this, weightL_append]
  congr 1
  unfold weightL
  rw [nodesL, nodesL, Elem.nodes_eq, List.append_nil, List.map_cons, List.sum_cons]

theorem childLoop_weight {S D : Snap V} {rec : List (Model V) → List (Model V) → P (List (Elem V))}
    (hrec : ∀ a b es k, rec a b = .ok (es, k) → weightL es ≤ k) (s d : Option (Model V)) (mapping : Dict String)
    {kids0 kids : List (Elem V)} {k : Nat} (h : pChildLoop S D rec s d mapping kids0 = .ok (kids, k)) :
    weightL kids ≤ weightL kids0 + k := by
  induction mapping generalizing kids0 k with
  | nil => cases h; simp
  | cons x rest ih =>
    obtain ⟨ct, f⟩ := x
    unfold pChildLoop at h
    obtain ⟨so, ka, _, g1, h, hk1⟩ := P.bind_eq_ok.1 h
    obtain ⟨do', kb, _, g2, h, hk2⟩ := P.bind_eq_ok.1 h
    obtain ⟨es, kc, _, g3, h, hk3⟩ := P.bind_eq_ok.1 h
    obtain ⟨kids', kd, _, g4, h, hk4⟩ := P.bind_eq_ok.1 h
    have := ih h
    have g4 := addElems_ok (P.lift_eq_ok.1 g4).1
    subst g4
    rw [weightL_append] at this
    have := hrec _ _ _ _ g3
    omega

theorem pList_weight {C : DiffCtx V} {S D : Snap V} (n : Nat) (a b : List (Model V)) {es : List (Elem V)} {k : Nat}
    (h : pList C S D n a b = .ok (es, k)) : weightL es ≤ k := by
  induction n generalizing a b es k with
  | zero => cases h
  | succ n ih =>
    unfold pList at h
    obtain ⟨x1, k1, _, g1, h, hk5⟩ := P.bind_eq_ok.1 h
    obtain ⟨x2, k2, _, g2, h, hk6⟩ := P.bind_eq_ok.1 h
    have key : ∀ (l : List (Option (Model V) × Option (Model V))) es k,
        pPairs (pPair C S D (pList C S D n)) l = .ok (es, k) → weightL es ≤ k := by
      intro l
      induction l with
      | nil => intro es k h; cases h; simp [weightL, nodesL]
      | cons x l ihl =>
        intro es k h
        obtain ⟨s, d⟩ := x
        unfold pPairs at h
        obtain ⟨r, ka, _, e1, h, hk7⟩ := P.bind_eq_ok.1 h
        obtain ⟨es', kb, _, e2, h, hk8⟩ := P.bind_eq_ok.1 h
        have w2 := ihl _ _ e2
        cases h
        cases r with
        | none => simp only; omega
        | some e =>
          simp only
          obtain ⟨m, mp, kids, ka', kb', hm, f1, f2, f3, f4, rfl⟩ := pPair_some e1
          have := childLoop_weight (fun a b es k h => ih a b h) s d mp f2
          simp only [weightL, nodesL, List.map_nil, List.sum_nil] at this
          rw [weightL_cons]
          simp only [Elem.sides, Option.isSome_map]
          simp only [weightL] at *
          omega
    have := key _ _ _ h
    omega

theorem pDiff_weight {C : DiffCtx V} {S D : Snap V} {n : Nat} {es : List (Elem V)} {k : Nat}
    (h : pDiff C S D n = .ok (es, k)) : weightL es ≤ k := by
  unfold pDiff at h
  obtain ⟨x, ka, _, g1, h, hk9⟩ := P.bind_eq_ok.1 h
  have key : ∀ ts kids0 es k, pTypes C S D n ts kids0 = .ok (es, k) → weightL es ≤ weightL kids0 + k := by
    intro ts
    induction ts with
    | nil => intro kids0 es k h; cases h; simp
    | cons t ts ih =>
      intro kids0 es k h
      unfold pTypes at h
      obtain ⟨es', _, _, g1, h, hk10⟩ := P.bind_eq_ok.1 h
      obtain ⟨kids', kb, _, g2, h, hk11⟩ := P.bind_eq_ok.1 h
      have := ih _ _ _ h
      have g2 := addElems_ok (P.lift_eq_ok.1 g2).1
      subst g2
      rw [weightL_append] at this
      have := pList_weight n _ _ g1
      omega
  have := key _ _ _ _ h
  simp only [weightL, nodesL, List.map_nil, List.sum_nil] at this ⊢
  omega

/-- The summary counts the sides, when every element has one. -/
theorem weightL_summary (l : List (Elem V)) (h : ∀ e, InTree e l → e.src ≠ none ∨ e.dst ≠ none) :
    weightL l = (Summary.ofNodes (nodesL l)).create + 2 * (Summary.ofNodes (nodesL l)).update +
      (Summary.ofNodes (nodesL l)).delete + 2 * (Summary.ofNodes (nodesL l)).noChange := by
  have h' : ∀ e ∈ nodesL l, e.src ≠ none ∨ e.dst ≠ none := fun e he => h e ((mem_nodesL_iff l e).1 he)
  unfold weightL
  revert h'
  generalize nodesL l = ns
  intro h'
  induction ns with
  | nil => simp [Summary.ofNodes]
  | cons e ns ih =>
    rw [Summary.ofNodes_cons, List.map_cons, List.sum_cons, ih (fun x hx => h' x (List.mem_cons_of_mem _ hx))]
    have he := h' e (by simp)
    have : e.sides = (Summary.single e.action).create + 2 * (Summary.single e.action).update +
      (Summary.single e.action).delete + 2 * (Summary.single e.action).noChange := by
      unfold Elem.sides Elem.action
      cases h1 : e.src <;> cases h2 : e.dst <;> simp only [h1, h2] at he ⊢
      · simp at he
      · simp [Summary.single]
      · simp [Summary.single]
      · rename_i s d
        cases hb : e.attrsKeys.any (Elem.differs s d) <;> simp [Summary.single]
    rw [this]
    simp only [Summary.add]
    omega

end DS
