import Verif.Spec.Differ
import Verif.Lemmas.PDiff
import Verif.Lemmas.Diff
/-! The pure differ meets the specification. -/
set_option linter.unusedSectionVars false

namespace DS
variable {V E α β : Type} [PyVal V]

/-! ## dictionaries built from lists -/

theorem Dict.get?_foldl_set_map (us : List String) (g : String → α) (d : Dict α) (x : String) :
    Dict.get? ((us.map (fun u => (u, g u))).foldl (fun d p => Dict.set d p.1 p.2) d) x =
      if x ∈ us then some (g x) else Dict.get? d x := by
  induction us generalizing d with
  | nil => simp
  | cons u us ih =>
    simp only [List.map_cons, List.foldl_cons, ih, Dict.get?_set]
    by_cases h : x ∈ us
    · simp [h]
    · by_cases h2 : u = x
      · subst h2; simp [h]
      · have h3 : ¬ x = u := fun he => h2 he.symm
        simp [h, h2, h3]

theorem Dict.get?_ofList_map (us : List String) (g : String → α) (x : String) :
    Dict.get? (Dict.ofList (us.map (fun u => (u, g u)))) x = if x ∈ us then some (g x) else none := by
  unfold Dict.ofList; rw [Dict.get?_foldl_set_map]; rfl

theorem get?_byUid_foldl (l : List (Model V)) (d : Dict (Model V)) (u : String) (m : Model V)
    (h : Dict.get? ((l.map (fun m => (m.uid, m))).foldl (fun d p => Dict.set d p.1 p.2) d) u = some m) :
    (m ∈ l ∧ m.uid = u) ∨ Dict.get? d u = some m := by
  induction l generalizing d with
  | nil => exact .inr h
  | cons a l ih =>
    simp only [List.map_cons, List.foldl_cons] at h
    rcases ih _ h with h1 | h1
    · exact .inl ⟨List.mem_cons_of_mem _ h1.1, h1.2⟩
    · rw [Dict.get?_set] at h1
      split at h1
      · rename_i he
        cases h1
        exact .inl ⟨by simp, he⟩
      · exact .inr h1

theorem get?_byUid_some {l : List (Model V)} {u : String} {m : Model V} (h : Dict.get? (byUid l) u = some m) :
    m ∈ l ∧ m.uid = u := by
  rcases get?_byUid_foldl l [] u m h with h1 | h1
  · exact h1
  · cases h1

theorem mem_keys_byUid {l : List (Model V)} {u : String} : u ∈ Dict.keys (byUid l) ↔ ∃ m ∈ l, m.uid = u := by
  unfold byUid
  rw [Dict.mem_keys_ofList]
  simp

/-- The objects found under the ids, when each id stands for one object. -/
theorem get?_byUid {l : List (Model V)} (h : ∀ a ∈ l, ∀ b ∈ l, a.uid = b.uid → a = b) {u : String} {m : Model V} :
    Dict.get? (byUid l) u = some m ↔ m ∈ l ∧ m.uid = u := by
  refine ⟨get?_byUid_some, ?_⟩
  rintro ⟨hm, rfl⟩
  obtain ⟨x, hx⟩ := Dict.mem_keys_iff.1 (mem_keys_byUid.2 ⟨m, hm, rfl⟩)
  have := get?_byUid_some hx
  rw [hx, h x this.1 m hm this.2]

theorem combine_wf (src dst : List (Model V)) : Dict.WF (combine src dst) := Dict.wf_ofList _

theorem get?_combine (src dst : List (Model V)) (u : String) :
    Dict.get? (combine src dst) u =
      if u ∈ Dict.keys (byUid src) ∨ u ∈ Dict.keys (byUid dst)
      then some (Dict.get? (byUid src) u, Dict.get? (byUid dst) u) else none := by
  unfold combine
  rw [Dict.get?_ofList_map]
  simp only [List.mem_append]

theorem mem_combine {src dst : List (Model V)} {u : String} {s d : Option (Model V)} :
    (u, (s, d)) ∈ combine src dst ↔
      s = Dict.get? (byUid src) u ∧ d = Dict.get? (byUid dst) u ∧ (s ≠ none ∨ d ≠ none) := by
  rw [Dict.mem_iff_get? (combine_wf src dst), get?_combine]
  constructor
  · intro h
    split at h
    · rename_i hk
      cases h
      refine ⟨rfl, rfl, ?_⟩
      rcases hk with hk | hk
      · obtain ⟨v, hv⟩ := Dict.mem_keys_iff.1 hk
        left; rw [hv]; simp
      · obtain ⟨v, hv⟩ := Dict.mem_keys_iff.1 hk
        right; rw [hv]; simp
    · cases h
  · rintro ⟨rfl, rfl, h⟩
    rw [if_pos]
    rcases h with h | h
    · left
      by_cases hk : u ∈ Dict.keys (byUid src)
      · exact hk
      · exact absurd (Dict.get?_eq_none_iff.2 hk) h
    · right
      by_cases hk : u ∈ Dict.keys (byUid dst)
      · exact hk
      · exact absurd (Dict.get?_eq_none_iff.2 hk) h

/-! ## skipping -/

theorem skipPair_iff (flags : Nat) (s d : Option (Model V)) (h : s ≠ none ∨ d ≠ none) :
    skipPair flags s d = true ↔ Hidden flags s d := by
  unfold skipPair
  cases s with
  | none => cases d with
    | none => simp at h
    | some d =>
      simp only [Option.isNone_some, Option.isNone_none, Bool.and_false, Bool.and_true, Bool.false_or, Bool.or_false,
        Bool.true_and, Bool.or_eq_true]
      constructor
      · rintro ((h1 | h1) | h1)
        · exact .globalDst _ h1
        · exact .modelDst _ h1
        · exact .ignoreDst _ _ h1
      · intro h1
        cases h1 with
        | globalDst _ h => exact .inl (.inl h)
        | modelDst _ h => exact .inl (.inr h)
        | ignoreDst _ _ h => exact .inr h
  | some s => cases d with
    | none =>
      simp only [Option.isNone_some, Option.isNone_none, Bool.and_false, Bool.and_true, Bool.false_or, Bool.or_false,
        Bool.true_and, Bool.or_eq_true]
      constructor
      · rintro ((h1 | h1) | h1)
        · exact .globalSrc _ h1
        · exact .modelSrc _ h1
        · exact .ignoreSrc _ _ h1
      · intro h1
        cases h1 with
        | globalSrc _ h => exact .inl (.inl h)
        | modelSrc _ h => exact .inl (.inr h)
        | ignoreSrc _ _ h => exact .inr h
    | some d =>
      simp only [Option.isNone_some, Bool.and_false, Bool.false_or, Bool.false_and, Bool.or_eq_true]
      constructor
      · rintro (h1 | h1)
        · exact .ignoreSrc _ _ h1
        · exact .ignoreDst _ _ h1
      · intro h1
        cases h1 with
        | ignoreSrc _ _ h => exact .inl h
        | ignoreDst _ _ h => exact .inr h

/-! ## one level of the diff -/

/-- The elements match the list of places one for one. -/
def MatchAll (R : Elem V → Pos V → Prop) (es : List (Elem V)) (ps : List (Pos V)) : Prop :=
  es.length = ps.length ∧ ∀ x ∈ es.zip ps, R x.1 x.2

theorem MatchAll.nil {R : Elem V → Pos V → Prop} : MatchAll R [] [] := ⟨rfl, by simp⟩
theorem MatchAll.cons {R : Elem V → Pos V → Prop} {e : Elem V} {p : Pos V} {es ps} (h : R e p) (hs : MatchAll R es ps) :
    MatchAll R (e :: es) (p :: ps) := by
  refine ⟨by simp [hs.1], ?_⟩
  intro x hx
  rw [List.zip_cons_cons] at hx
  rcases List.mem_cons.1 hx with rfl | hx
  · exact h
  · exact hs.2 x hx
theorem MatchAll.append {R : Elem V → Pos V → Prop} {es es' : List (Elem V)} {ps ps'} (h : MatchAll R es ps)
    (h' : MatchAll R es' ps') : MatchAll R (es ++ es') (ps ++ ps') := by
  refine ⟨by simp [h.1, h'.1], ?_⟩
  intro x hx
  rw [List.zip_append h.1] at hx
  rcases List.mem_append.1 hx with hx | hx
  · exact h.2 x hx
  · exact h'.2 x hx

/-- What is known of the pairs of objects a level compares. -/
def toPos (t : String) (x : String × (Option (Model V) × Option (Model V))) : Pos V := ⟨t, x.1, x.2.1, x.2.2⟩

theorem pPairs_ok {C : DiffCtx V} {S D : Snap V} {rec : List (Model V) → List (Model V) → P (List (Elem V))} {t : String}
    {R : Elem V → Pos V → Prop} (l : Dict (Option (Model V) × Option (Model V)))
    (hs : ∀ x ∈ l, x.2.1 ≠ none ∨ x.2.2 ≠ none)
    (hR : ∀ x ∈ l, ∀ e k, ¬ Hidden C.flags x.2.1 x.2.2 → pPair C S D rec x.2.1 x.2.2 = .ok (some e, k) → R e (toPos t x))
    {es : List (Elem V)} {k : Nat} (h : pPairs (pPair C S D rec) (Dict.values l) = .ok (es, k)) :
    MatchAll R es ((l.filter (fun x => !skipPair C.flags x.2.1 x.2.2)).map (toPos t)) := by
  induction l generalizing es k with
  | nil =>
    simp only [Dict.values, List.map_nil, pPairs, P.ret] at h
    cases h
    exact MatchAll.nil
  | cons x l ih =>
    obtain ⟨u, s, d⟩ := x
    simp only [Dict.values, List.map_cons] at h
    unfold pPairs at h
    obtain ⟨e?, k1, k2, h1, h2, rfl⟩ := P.bind_eq_ok.1 h
    obtain ⟨es', k3, k4, h3, h4, rfl⟩ := P.bind_eq_ok.1 h2
    have ih' := ih (fun x hx => hs x (List.mem_cons_of_mem _ hx)) (fun x hx => hR x (List.mem_cons_of_mem _ hx)) h3
    have hse : s ≠ none ∨ d ≠ none := hs (u, s, d) (by simp)
    have hRe := hR (u, s, d) (by simp)
    simp only [P.ret] at h4
    cases h4
    by_cases hh : skipPair C.flags s d = true
    · rw [List.filter_cons_of_neg (by simp [hh])]
      unfold pPair at h1
      cases hm : s.or d with
      | none => rw [hm] at h1; cases h1
      | some m =>
        rw [hm] at h1
        simp only [hh, if_true] at h1
        cases h1
        exact ih'
    · rw [List.filter_cons_of_pos (by simp [hh])]
      have hv : ¬ Hidden C.flags s d := fun hc => hh ((skipPair_iff _ _ _ hse).2 hc)
      cases e? with
      | none =>
        exfalso
        unfold pPair at h1
        cases hm : s.or d with
        | none => rw [hm] at h1; cases h1
        | some m =>
          rw [hm] at h1
          simp only at h1
          rw [if_neg hh] at h1
          obtain ⟨_, _, _, _, h1, _⟩ := P.bind_eq_ok.1 h1
          obtain ⟨_, _, _, _, h1, _⟩ := P.bind_eq_ok.1 h1
          obtain ⟨_, _, _, _, h1, _⟩ := P.bind_eq_ok.1 h1
          cases h1
      | some e => exact MatchAll.cons (hRe e k1 hv h1) ih'

/-- The places of a level of type `t`, given how unique ids are found on the two sides. -/
theorem level_ok {C : DiffCtx V} {S D : Snap V} {n : Nat} {t : String} {R : Elem V → Pos V → Prop}
    {src dst : List (Model V)} {fs fd : String → Option (Model V)}
    (hfs : ∀ u, Dict.get? (byUid src) u = fs u) (hfd : ∀ u, Dict.get? (byUid dst) u = fd u)
    (hR : ∀ u e k, (fs u ≠ none ∨ fd u ≠ none) → ¬ Hidden C.flags (fs u) (fd u) → validatePair (fs u, fd u) = .ok () →
      pPair C S D (pList C S D n) (fs u) (fd u) = .ok (some e, k) → R e ⟨t, u, fs u, fd u⟩)
    {es : List (Elem V)} {k : Nat} (h : pList C S D (n + 1) src dst = .ok (es, k)) :
    ∃ ps : List (Pos V), MatchAll R es ps ∧ (ps.map Pos.uid).Nodup ∧
      (∀ c, c ∈ ps ↔ c.type = t ∧ c.src = fs c.uid ∧ c.dst = fd c.uid ∧ (c.src ≠ none ∨ c.dst ≠ none) ∧ c.Visible C.flags) ∧
      ∀ u, (fs u ≠ none ∨ fd u ≠ none) → validatePair (fs u, fd u) = .ok () := by
  unfold pList at h
  obtain ⟨_, _, _, _, h, _⟩ := P.bind_eq_ok.1 h
  obtain ⟨_, _, _, hv, h, _⟩ := P.bind_eq_ok.1 h
  have hv := (P.lift_eq_ok.1 hv).1
  have hval : ∀ l : List (Option (Model V) × Option (Model V)), validatePairs l = .ok () → ∀ x ∈ l, validatePair x = .ok () := by
    intro l
    induction l with
    | nil => intro _ x hx; cases hx
    | cons a l ih =>
      intro hl x hx
      unfold validatePairs at hl
      split at hl
      · rename_i ha
        rcases List.mem_cons.1 hx with rfl | hx
        · exact ha
        · exact ih hl x hx
      · cases hl
  have hmem : ∀ x ∈ combine src dst, x.2.1 = fs x.1 ∧ x.2.2 = fd x.1 ∧ (x.2.1 ≠ none ∨ x.2.2 ≠ none) := by
    intro x hx
    obtain ⟨u, s, d⟩ := x
    obtain ⟨h1, h2, h3⟩ := mem_combine.1 hx
    exact ⟨h1.trans (hfs u), h2.trans (hfd u), h3⟩
  refine ⟨_, pPairs_ok (t := t) (R := R) (combine src dst) (fun x hx => (hmem x hx).2.2) ?_ h, ?_, ?_, ?_⟩
  · intro x hx e k hvis hp
    obtain ⟨u, s, d⟩ := x
    obtain ⟨h1, h2, h3⟩ := hmem _ hx
    simp only at h1 h2 h3 hvis hp
    subst h1; subst h2
    have := hval _ hv (fs u, fd u) (List.mem_map.2 ⟨_, hx, rfl⟩)
    exact hR u e k h3 hvis this hp
  · rw [List.map_map]
    have : (Pos.uid ∘ toPos (V := V) t) = Prod.fst := rfl
    rw [this]
    exact List.Nodup.sublist (List.Sublist.map _ List.filter_sublist) (combine_wf src dst)
  · intro c
    rw [List.mem_map]
    constructor
    · rintro ⟨x, hx, rfl⟩
      obtain ⟨hx, hsk⟩ := List.mem_filter.1 hx
      obtain ⟨h1, h2, h3⟩ := hmem _ hx
      refine ⟨rfl, h1, h2, h3, ?_⟩
      intro hh
      rw [(skipPair_iff _ _ _ h3).2 hh] at hsk
      simp at hsk
    · rintro ⟨h1, h2, h3, h4, h5⟩
      refine ⟨(c.uid, c.src, c.dst), List.mem_filter.2 ⟨mem_combine.2 ⟨h2.trans (hfs _).symm, h3.trans (hfd _).symm, h4⟩, ?_⟩, ?_⟩
      · have : ¬ skipPair C.flags c.src c.dst = true := fun hc => h5 ((skipPair_iff _ _ _ h4).1 hc)
        simp [this]
      · cases c; simp only at h1; subst h1; rfl
  · intro u hu
    exact hval _ hv _ (List.mem_map.2 ⟨(u, fs u, fd u), mem_combine.2 ⟨(hfs u).symm, (hfd u).symm, hu⟩, rfl⟩)

/-! ## finding objects -/

theorem Snap.Consistent.all_inj {S : Snap V} (h : S.Consistent) (t : String) :
    ∀ a ∈ S.all t, ∀ b ∈ S.all t, a.uid = b.uid → a = b := by
  intro a ha b hb he
  obtain ⟨u, hu⟩ := (h.all_iff t a).1 ha
  obtain ⟨v, hv⟩ := (h.all_iff t b).1 hb
  have h1 := (h.key_ok _ _ _ hu).2
  have h2 := (h.key_ok _ _ _ hv).2
  rw [← h1, he, h2, hv] at hu
  exact (Option.some.inj hu).symm

theorem get?_byUid_all {S : Snap V} (h : S.Consistent) (t u : String) : Dict.get? (byUid (S.all t)) u = S.find t u := by
  apply Option.ext
  intro m
  rw [get?_byUid (h.all_inj t), h.all_iff]
  constructor
  · rintro ⟨⟨v, hv⟩, rfl⟩
    rwa [(h.key_ok _ _ _ hv).2]
  · intro hm
    exact ⟨⟨u, hm⟩, (h.key_ok _ _ _ hm).2⟩

theorem lookupAll_ok {S : Snap V} {t : String} {us : List String} {ms : List (Model V)} (h : lookupAll S t us = .ok ms) :
    us.map (S.find t) = ms.map some := by
  induction us generalizing ms with
  | nil => cases h; rfl
  | cons u us ih =>
    unfold lookupAll at h
    split at h
    · cases h
    · rename_i m hm
      split at h
      · rename_i ms' hms
        cases h
        simp [hm, ih hms]
      · cases h

theorem lookupAll_error {S : Snap V} {t : String} {us : List String} {e : Err} (h : lookupAll S t us = .error e) :
    e = .objectNotFound ∧ ∃ u ∈ us, S.find t u = none := by
  induction us with
  | nil => cases h
  | cons u us ih =>
    unfold lookupAll at h
    split at h
    · rename_i hu; cases h; exact ⟨rfl, u, by simp, hu⟩
    · split at h
      · cases h
      · rename_i e' he
        cases h
        obtain ⟨h1, x, hx, hf⟩ := ih he
        exact ⟨h1, x, List.mem_cons_of_mem _ hx, hf⟩

theorem get?_byUid_lookupAll {S : Snap V} (hS : S.Consistent) {t : String} {us : List String} {ms : List (Model V)}
    (h : lookupAll S t us = .ok ms) (u : String) :
    Dict.get? (byUid ms) u = if us.contains u then S.find t u else none := by
  have hl := lookupAll_ok h
  have hmem : ∀ m, m ∈ ms ↔ ∃ v ∈ us, S.find t v = some m := by
    intro m
    have : some m ∈ ms.map some ↔ m ∈ ms := by simp
    rw [← this, ← hl, List.mem_map]
  have hinj : ∀ a ∈ ms, ∀ b ∈ ms, a.uid = b.uid → a = b := by
    intro a ha b hb he
    obtain ⟨x, _, hx⟩ := (hmem a).1 ha
    obtain ⟨y, _, hy⟩ := (hmem b).1 hb
    have h1 := (hS.key_ok _ _ _ hx).2
    have h2 := (hS.key_ok _ _ _ hy).2
    rw [← h1, he, h2, hy] at hx
    exact (Option.some.inj hx).symm
  apply Option.ext
  intro m
  rw [get?_byUid hinj, hmem]
  by_cases hu : us.contains u = true
  · rw [if_pos hu]
    constructor
    · rintro ⟨⟨v, _, hv⟩, rfl⟩
      rwa [(hS.key_ok _ _ _ hv).2]
    · intro hm
      exact ⟨⟨u, by simpa using hu, hm⟩, (hS.key_ok _ _ _ hm).2⟩
  · rw [if_neg hu]
    constructor
    · rintro ⟨⟨v, hv, hv'⟩, rfl⟩
      rw [(hS.key_ok _ _ _ hv').2] at hu
      simp [hv] at hu
    · intro h; cases h

/-! ## the child loop -/

/-- The objects of a type found below one side of a place. -/
def below (S : Snap V) (o : Option (Model V)) (ct u : String) : Option (Model V) :=
  if listsO o ct u then S.find ct u else none

theorem pChildModels_ok {S : Snap V} (hS : S.Consistent) {o : Option (Model V)} {ct f : String} {ms : List (Model V)} {k : Nat}
    (hf : ∀ m, o = some m → Dict.get? m.cls.children ct = some f) (h : pChildModels S o ct f = .ok (ms, k)) (u : String) :
    Dict.get? (byUid ms) u = below S o ct u := by
  unfold pChildModels at h
  cases o with
  | none =>
    cases h
    rfl
  | some m =>
    simp only at h
    cases hk : m.kidList f with
    | none => rw [hk] at h; cases h
    | some us =>
      rw [hk] at h
      rw [get?_byUid_lookupAll hS (P.lift_eq_ok.1 h).1 u]
      simp [below, listsO, Model.lists, hf m rfl, hk]

theorem childLoop_ok {C : DiffCtx V} {S D : Snap V} (hS : S.Consistent) (hD : D.Consistent) {n : Nat}
    {R : Elem V → Pos V → Prop} {s d : Option (Model V)} (mapping : Dict String) (hwf : Dict.WF mapping)
    (hms : ∀ ct f, (ct, f) ∈ mapping → ∀ m, s = some m → Dict.get? m.cls.children ct = some f)
    (hmd : ∀ ct f, (ct, f) ∈ mapping → ∀ m, d = some m → Dict.get? m.cls.children ct = some f)
    (hR : ∀ ct u e k, ct ∈ Dict.keys mapping → (below S s ct u ≠ none ∨ below D d ct u ≠ none) →
      ¬ Hidden C.flags (below S s ct u) (below D d ct u) → validatePair (below S s ct u, below D d ct u) = .ok () →
      pPair C S D (pList C S D n) (below S s ct u) (below D d ct u) = .ok (some e, k) →
      R e ⟨ct, u, below S s ct u, below D d ct u⟩)
    {kids0 kids : List (Elem V)} {k : Nat}
    (h : pChildLoop S D (pList C S D (n + 1)) s d mapping kids0 = .ok (kids, k)) :
    ∃ es ps, kids = kids0 ++ es ∧ MatchAll R es ps ∧ DistinctPos ps ∧
      (∀ c, c ∈ ps ↔ c.type ∈ Dict.keys mapping ∧ c.src = below S s c.type c.uid ∧ c.dst = below D d c.type c.uid ∧
        (c.src ≠ none ∨ c.dst ≠ none) ∧ c.Visible C.flags) ∧
      ∀ ct ∈ Dict.keys mapping, ∀ u, (below S s ct u ≠ none ∨ below D d ct u ≠ none) →
        validatePair (below S s ct u, below D d ct u) = .ok () := by
  induction mapping generalizing kids0 k with
  | nil =>
    cases h
    exact ⟨[], [], by simp, MatchAll.nil, List.Pairwise.nil, by simp [Dict.keys], by simp [Dict.keys]⟩
  | cons p rest ih =>
    obtain ⟨ct, f⟩ := p
    unfold pChildLoop at h
    obtain ⟨so, _, _, h1, h, _⟩ := P.bind_eq_ok.1 h
    obtain ⟨do', _, _, h2, h, _⟩ := P.bind_eq_ok.1 h
    obtain ⟨es, _, _, h3, h, _⟩ := P.bind_eq_ok.1 h
    obtain ⟨kids', _, _, h4, h, _⟩ := P.bind_eq_ok.1 h
    have h4 := addElems_ok (P.lift_eq_ok.1 h4).1
    subst h4
    have hwf' : ct ∉ Dict.keys rest ∧ Dict.WF rest := by
      exact List.nodup_cons.1 hwf
    obtain ⟨ps1, m1, n1, i1, v1⟩ := level_ok (t := ct) (R := R)
      (pChildModels_ok hS (hms ct f (by simp)) h1) (pChildModels_ok hD (hmd ct f (by simp)) h2)
      (fun u e k a b c d => hR ct u e k (by simp [Dict.keys]) a b c d) h3
    obtain ⟨es2, ps2, rfl, m2, n2, i2, v2⟩ := ih hwf'.2
      (fun ct' f' hm => hms ct' f' (List.mem_cons_of_mem _ hm)) (fun ct' f' hm => hmd ct' f' (List.mem_cons_of_mem _ hm))
      (fun ct' u e k hk => hR ct' u e k (by simp only [Dict.keys, List.map_cons]; exact List.mem_cons_of_mem _ hk)) h
    refine ⟨es ++ es2, ps1 ++ ps2, by simp, m1.append m2, ?_, ?_, ?_⟩
    · unfold DistinctPos
      rw [List.pairwise_append]
      refine ⟨?_, n2, ?_⟩
      · have := List.pairwise_map.1 n1
        exact this.imp (fun hne hc => hne hc.2)
      · intro a ha b hb hc
        have ha' := ((i1 a).1 ha).1
        have hb' := ((i2 b).1 hb).1
        rw [← hc.1, ha'] at hb'
        exact hwf'.1 hb'
    · intro c
      rw [List.mem_append, i1, i2]
      have hkeys : Dict.keys ((ct, f) :: rest) = ct :: Dict.keys rest := rfl
      rw [hkeys, List.mem_cons]
      constructor
      · rintro (⟨rfl, b⟩ | ⟨a, b⟩)
        · exact ⟨.inl rfl, b⟩
        · exact ⟨.inr a, b⟩
      · rintro ⟨rfl | a, b⟩
        · exact .inl ⟨rfl, b⟩
        · exact .inr ⟨a, b⟩
    · intro ct' hct' u hu
      rcases List.mem_cons.1 (show ct' ∈ ct :: Dict.keys rest from hct') with rfl | hr
      · exact v1 u hu
      · exact v2 ct' hr u hu

/-! ## the whole tree -/

/-- The compared child types and their fields. -/
def mappingOf : Option (Model V) → Option (Model V) → Dict String
  | some s, some d => s.cls.children.filter (fun p => Dict.has d.cls.children p.1)
  | some s, none => s.cls.children
  | none, some d => d.cls.children
  | none, none => []

theorem pMapping_ok {s d : Option (Model V)} {mp : Dict String} {k : Nat} (h : pMapping s d = .ok (mp, k)) :
    mp = mappingOf s d ∧ (s ≠ none ∨ d ≠ none) := by
  unfold pMapping at h
  cases s with
  | none => cases d with
    | none => cases h
    | some d => cases h; exact ⟨rfl, by simp⟩
  | some s => cases d with
    | none => cases h; exact ⟨rfl, by simp⟩
    | some d =>
      obtain ⟨_, _, _, _, h, _⟩ := P.bind_eq_ok.1 h
      obtain ⟨_, _, _, _, h, _⟩ := P.bind_eq_ok.1 h
      cases h; exact ⟨rfl, by simp⟩

/-- Where the objects at a place come from. -/
structure Stored (S D : Snap V) (p : Pos V) : Prop where
  src : ∀ m, p.src = some m → S.find p.type p.uid = some m
  dst : ∀ m, p.dst = some m → D.find p.type p.uid = some m

theorem Stored.below {S D : Snap V} {s d : Option (Model V)} {ct u : String} :
    Stored S D ⟨ct, u, DS.below S s ct u, DS.below D d ct u⟩ := by
  constructor
  · intro m hm
    simp only [DS.below] at hm
    split at hm
    · exact hm
    · cases hm
  · intro m hm
    simp only [DS.below] at hm
    split at hm
    · exact hm
    · cases hm

/-- The mapping consists of the compared child types, with their fields. -/
theorem mapping_spec {S D : Snap V} (hS : S.Consistent) (hD : D.Consistent) (hF : SameFields S D) {p : Pos V}
    (hp : Stored S D p) {mp : Dict String} {k : Nat} (h : pMapping p.src p.dst = .ok (mp, k)) :
    Dict.WF mp ∧ (∀ ct f, (ct, f) ∈ mp → ∀ m, p.src = some m → Dict.get? m.cls.children ct = some f) ∧
    (∀ ct f, (ct, f) ∈ mp → ∀ m, p.dst = some m → Dict.get? m.cls.children ct = some f) ∧
    (∀ ct, ct ∈ Dict.keys mp ↔ comparesType p.src p.dst ct) := by
  obtain ⟨h1, h2⟩ := pMapping_ok h
  obtain ⟨t, u, s, d⟩ := p
  simp only at h1 h2 hp ⊢
  subst h1
  cases s with
  | none => cases d with
    | none => simp at h2
    | some d =>
      have hd := hD.children_nodup _ _ _ (hp.dst d rfl)
      refine ⟨hd, by simp, ?_, ?_⟩
      · rintro ct f hm m hm'; cases hm'; exact Dict.get?_of_mem hd hm
      · intro ct; simp [comparesType, mappingOf]
  | some s =>
    have hs := hS.children_nodup _ _ _ (hp.src s rfl)
    cases d with
    | none =>
      refine ⟨hs, ?_, by simp, ?_⟩
      · rintro ct f hm m hm'; cases hm'; exact Dict.get?_of_mem hs hm
      · intro ct; simp [comparesType, mappingOf]
    | some d =>
      have hd := hD.children_nodup _ _ _ (hp.dst d rfl)
      refine ⟨Dict.wf_filter hs (fun k => Dict.has d.cls.children k), ?_, ?_, ?_⟩
      · rintro ct f hm m hm'; cases hm'; exact Dict.get?_of_mem hs (List.mem_filter.1 hm).1
      · rintro ct f hm m hm'
        cases hm'
        obtain ⟨hm1, hm2⟩ := List.mem_filter.1 hm
        obtain ⟨f', hf'⟩ := Dict.mem_keys_iff.1 (Dict.has_iff.1 hm2)
        rw [hf', hF _ _ _ _ (hp.src s rfl) (hp.dst d rfl) ct f f' (Dict.get?_of_mem hs hm1) hf']
      · intro ct
        rw [mappingOf, Dict.keys_filter (fun k => Dict.has d.cls.children k), List.mem_filter, Dict.has_iff]
        simp [comparesType]

theorem pPair_some {C : DiffCtx V} {S D : Snap V} {rec : List (Model V) → List (Model V) → P (List (Elem V))}
    {s d : Option (Model V)} {e : Elem V} {k : Nat} (h : pPair C S D rec s d = .ok (some e, k)) :
    ∃ m mp kids k1 k2, s.or d = some m ∧ pMapping s d = .ok (mp, k1) ∧ pChildLoop S D rec s d mp [] = .ok (kids, k2) ∧
      k = ((if s.isSome then 1 else 0) + (if d.isSome then 1 else 0)) + (k1 + k2) ∧ skipPair C.flags s d = false ∧
      e = { type := m.type, name := m.shortname, keys := m.identifiers,
                    srcName := C.src.name, dstName := C.dst.name,
                    src := s.map Model.attrs, dst := d.map Model.attrs, kids := kids } := by
  unfold pPair at h
  cases hm : s.or d with
  | none => rw [hm] at h; cases h
  | some m =>
    rw [hm] at h
    simp only at h
    by_cases hh : skipPair C.flags s d = true
    · rw [if_pos hh] at h; cases h
    · rw [if_neg hh] at h
      obtain ⟨_, k0, _, h0, h, hk⟩ := P.bind_eq_ok.1 h
      obtain ⟨mp, k1, _, h1, h, hk'⟩ := P.bind_eq_ok.1 h
      obtain ⟨kids, k2, _, h2, h, hk''⟩ := P.bind_eq_ok.1 h
      cases h0
      cases h
      exact ⟨m, mp, kids, k1, k2, rfl, h1, h2, by rw [hk, hk', hk'', Nat.add_zero], by simpa using hh, rfl⟩

theorem Stored.type_or {S D : Snap V} (hS : S.Consistent) (hD : D.Consistent) {p : Pos V} (hp : Stored S D p) {m : Model V}
    (hm : p.src.or p.dst = some m) : m.type = p.type := by
  cases hs : p.src with
  | some s => rw [hs] at hm; cases hm; exact (hS.key_ok _ _ _ (hp.src _ hs)).1
  | none => rw [hs] at hm; exact (hD.key_ok _ _ _ (hp.dst _ (by simpa using hm))).1

/-- If every listed id is resolved, a place below is listed iff one of its sides is present. -/
theorem below_ne_none {S : Snap V} {o : Option (Model V)} {ct u : String} (h : below S o ct u ≠ none) :
    listsO o ct u = true := by
  unfold below at h
  split at h
  · assumption
  · simp at h

theorem childLoop_resolved {C : DiffCtx V} {S D : Snap V} {n : Nat} {s d : Option (Model V)} (mapping : Dict String)
    (hms : ∀ ct f, (ct, f) ∈ mapping → ∀ m, s = some m → Dict.get? m.cls.children ct = some f)
    (hmd : ∀ ct f, (ct, f) ∈ mapping → ∀ m, d = some m → Dict.get? m.cls.children ct = some f)
    {kids0 kids : List (Elem V)} {k : Nat}
    (h : pChildLoop S D (pList C S D n) s d mapping kids0 = .ok (kids, k)) (ct : String) (hct : ct ∈ Dict.keys mapping) (u : String) :
    (listsO s ct u = true → S.find ct u ≠ none) ∧ (listsO d ct u = true → D.find ct u ≠ none) := by
  have key : ∀ (X : Snap V) (o : Option (Model V)) ct f ms k, (∀ m, o = some m → Dict.get? m.cls.children ct = some f) →
      pChildModels X o ct f = .ok (ms, k) → listsO o ct u = true → X.find ct u ≠ none := by
    intro X o ct f ms k hf h hl
    unfold pChildModels at h
    cases o with
    | none => simp [listsO] at hl
    | some m =>
      simp only at h
      cases hk : m.kidList f with
      | none => rw [hk] at h; cases h
      | some us =>
        rw [hk] at h
        have := lookupAll_ok (P.lift_eq_ok.1 h).1
        simp only [listsO, Model.lists, hf m rfl, hk] at hl
        have hu : X.find ct u ∈ us.map (X.find ct) := List.mem_map.2 ⟨u, by simpa using hl, rfl⟩
        rw [this] at hu
        obtain ⟨m', _, hm'⟩ := List.mem_map.1 hu
        rw [← hm']; simp
  induction mapping generalizing kids0 k with
  | nil => simp [Dict.keys] at hct
  | cons p rest ih =>
    obtain ⟨ct', f⟩ := p
    unfold pChildLoop at h
    obtain ⟨so, _, _, h1, h, _⟩ := P.bind_eq_ok.1 h
    obtain ⟨do', _, _, h2, h, _⟩ := P.bind_eq_ok.1 h
    obtain ⟨es, _, _, h3, h, _⟩ := P.bind_eq_ok.1 h
    obtain ⟨kids', _, _, h4, h, _⟩ := P.bind_eq_ok.1 h
    rcases List.mem_cons.1 (show ct ∈ ct' :: Dict.keys rest from hct) with rfl | hct'
    · exact ⟨key S s ct f so _ (hms ct f (by simp)) h1, key D d ct f do' _ (hmd ct f (by simp)) h2⟩
    · exact ih (fun ct' f' hm => hms ct' f' (List.mem_cons_of_mem _ hm))
        (fun ct' f' hm => hmd ct' f' (List.mem_cons_of_mem _ hm)) h hct'

/-- What holds of every place that ended up in the diff. -/
structure GoodPlace (S D : Snap V) (p : Pos V) : Prop where
  stored : Stored S D p
  some_side : p.src ≠ none ∨ p.dst ≠ none
  validated : validatePair (p.src, p.dst) = .ok ()
  resolved : ∀ ct u, comparesType p.src p.dst ct →
    (listsO p.src ct u = true → S.find ct u ≠ none) ∧ (listsO p.dst ct u = true → D.find ct u ≠ none)

/-- `Describes` together with `GoodPlace` everywhere in the tree. -/
inductive DescribesG (src dst : Adapter V) (flags : Nat) (S D : Snap V) : Elem V → Pos V → Prop where
  | mk {e : Elem V} {p : Pos V} (ps : List (Pos V)) :
      GoodPlace S D p →
      Header src dst e p →
      DistinctPos ps →
      (∀ c, c ∈ ps ↔ IsChild S D p c ∧ c.Visible flags) →
      (∀ c, IsChild S D p c → validatePair (c.src, c.dst) = .ok ()) →
      UniqueNames e.kids →
      e.kids.length = ps.length →
      (∀ x ∈ e.kids.zip ps, DescribesG src dst flags S D x.1 x.2) →
      DescribesG src dst flags S D e p

theorem DescribesG.describes {src dst : Adapter V} {flags : Nat} {S D : Snap V} {e : Elem V} {p : Pos V}
    (h : DescribesG src dst flags S D e p) : Describes src dst flags S D e p := by
  induction h with
  | mk ps _ h1 h2 h3 _ _ h4 _ ih => exact .mk ps h1 h2 h3 h4 ih

theorem DescribesG.good {src dst : Adapter V} {flags : Nat} {S D : Snap V} {e : Elem V} {p : Pos V}
    (h : DescribesG src dst flags S D e p) : GoodPlace S D p := by
  cases h; assumption

theorem addElems_nil_unique {es ks : List (Elem V)} (h : addElems [] es = .ok ks) : UniqueNames ks :=
  addElems_unique h List.Pairwise.nil

theorem childLoop_unique {C : DiffCtx V} {S D : Snap V} {n : Nat} {s d : Option (Model V)} (mapping : Dict String)
    {kids0 kids : List (Elem V)} {k : Nat} (hu : UniqueNames kids0)
    (h : pChildLoop S D (pList C S D n) s d mapping kids0 = .ok (kids, k)) : UniqueNames kids := by
  induction mapping generalizing kids0 k with
  | nil => cases h; exact hu
  | cons p rest ih =>
    obtain ⟨ct', f⟩ := p
    unfold pChildLoop at h
    obtain ⟨so, _, _, h1, h, _⟩ := P.bind_eq_ok.1 h
    obtain ⟨do', _, _, h2, h, _⟩ := P.bind_eq_ok.1 h
    obtain ⟨es, _, _, h3, h, _⟩ := P.bind_eq_ok.1 h
    obtain ⟨kids', _, _, h4, h, _⟩ := P.bind_eq_ok.1 h
    exact ih (addElems_unique (P.lift_eq_ok.1 h4).1 hu) h

theorem pPair_describes {C : DiffCtx V} {S D : Snap V} (hS : S.Consistent) (hD : D.Consistent) (hF : SameFields S D) (n : Nat)
    {p : Pos V} (hp : Stored S D p) (hv : validatePair (p.src, p.dst) = .ok ()) {e : Elem V} {k : Nat}
    (h : pPair C S D (pList C S D n) p.src p.dst = .ok (some e, k)) :
    DescribesG C.src C.dst C.flags S D e p := by
  induction n generalizing p e k with
  | zero =>
    obtain ⟨m, mp, kids, k1, k2, hm, hmp, hl, _, _, rfl⟩ := pPair_some h
    obtain ⟨w1, w2, w3, w4⟩ := mapping_spec hS hD hF hp hmp
    have hnil : mp = [] := by
      cases mp with
      | nil => rfl
      | cons x rest =>
        obtain ⟨ct, f⟩ := x
        unfold pChildLoop at hl
        obtain ⟨so, _, _, h1, hl, _⟩ := P.bind_eq_ok.1 hl
        obtain ⟨do', _, _, h2, hl, _⟩ := P.bind_eq_ok.1 hl
        obtain ⟨es, _, _, h3, hl, _⟩ := P.bind_eq_ok.1 hl
        cases h3
    subst hnil
    cases hl
    have hno : ∀ ct, ¬ comparesType p.src p.dst ct := fun ct hc => by
      have := (w4 ct).2 hc; simp [Dict.keys] at this
    refine .mk [] ⟨hp, (pMapping_ok hmp).2, hv, fun ct u hc => absurd hc (hno ct)⟩
      ⟨Stored.type_or hS hD hp hm, rfl, rfl, ?_, rfl, rfl⟩ List.Pairwise.nil ?_ ?_ List.Pairwise.nil rfl (by simp)
    · intro m' hm'; rw [hm] at hm'; cases hm'; exact ⟨rfl, rfl⟩
    · intro c
      constructor
      · intro hc; cases hc
      · rintro ⟨hc, _⟩; exact absurd hc.compared (hno _)
    · intro c hc; exact absurd hc.compared (hno _)
  | succ n ih =>
    obtain ⟨m, mp, kids, k1, k2, hm, hmp, hl, _, _, rfl⟩ := pPair_some h
    obtain ⟨w1, w2, w3, w4⟩ := mapping_spec hS hD hF hp hmp
    have hu := childLoop_unique mp (List.Pairwise.nil) hl
    have hres := fun ct hct => childLoop_resolved mp w2 w3 hl ct hct
    obtain ⟨es, ps, hk, hM, hd, hi, hvs⟩ := childLoop_ok hS hD (R := DescribesG C.src C.dst C.flags S D) mp w1 w2 w3
      (fun ct u e k _ _ _ hv hpp => ih (p := ⟨ct, u, below S p.src ct u, below D p.dst ct u⟩) Stored.below hv hpp) hl
    rw [List.nil_append] at hk
    subst hk
    refine .mk ps ⟨hp, (pMapping_ok hmp).2, hv, fun ct u hc => hres ct ((w4 ct).2 hc) u⟩
      ⟨Stored.type_or hS hD hp hm, rfl, rfl, ?_, rfl, rfl⟩ hd ?_ ?_ hu hM.1 hM.2
    · intro m' hm'; rw [hm] at hm'; cases hm'; exact ⟨rfl, rfl⟩
    · intro c
      rw [hi]
      constructor
      · rintro ⟨a, b, c', d', v⟩
        refine ⟨⟨(w4 _).1 a, ?_, b, c'⟩, v⟩
        rcases d' with d' | d'
        · left; rw [b] at d'; exact below_ne_none d'
        · right; rw [c'] at d'; exact below_ne_none d'
      · rintro ⟨hc, v⟩
        have hr := hres c.type ((w4 _).2 hc.compared) c.uid
        refine ⟨(w4 _).2 hc.compared, hc.src_eq, hc.dst_eq, ?_, v⟩
        rcases hc.listed with hl' | hl'
        · left; rw [hc.src_eq, if_pos hl']; exact hr.1 hl'
        · right; rw [hc.dst_eq, if_pos hl']; exact hr.2 hl'
    · intro c hc
      have hr := hres c.type ((w4 _).2 hc.compared) c.uid
      rw [hc.src_eq, hc.dst_eq]
      refine hvs c.type ((w4 _).2 hc.compared) c.uid ?_
      rcases hc.listed with hl' | hl'
      · left; rw [below, if_pos hl']; exact hr.1 hl'
      · right; rw [below, if_pos hl']; exact hr.2 hl'

theorem pTypes_describes {C : DiffCtx V} {S D : Snap V} (hS : S.Consistent) (hD : D.Consistent) (hF : SameFields S D) (n : Nat)
    (ts : List String) (hts : ts.Nodup) {kids0 es : List (Elem V)} {k : Nat} (h : pTypes C S D n ts kids0 = .ok (es, k)) :
    ∃ es' ps, es = kids0 ++ es' ∧ MatchAll (DescribesG C.src C.dst C.flags S D) es' ps ∧ DistinctPos ps ∧
      (∀ c, c ∈ ps ↔ c.type ∈ ts ∧ c.src = S.find c.type c.uid ∧ c.dst = D.find c.type c.uid ∧
        (c.src ≠ none ∨ c.dst ≠ none) ∧ c.Visible C.flags) ∧
      ∀ t ∈ ts, ∀ u, (S.find t u ≠ none ∨ D.find t u ≠ none) → validatePair (S.find t u, D.find t u) = .ok () := by
  induction ts generalizing kids0 k with
  | nil => cases h; exact ⟨[], [], by simp, MatchAll.nil, List.Pairwise.nil, by simp, by simp⟩
  | cons t ts ih =>
    unfold pTypes at h
    obtain ⟨es1, _, _, h1, h, _⟩ := P.bind_eq_ok.1 h
    obtain ⟨kids', _, _, h2, h, _⟩ := P.bind_eq_ok.1 h
    have h2 := addElems_ok (P.lift_eq_ok.1 h2).1
    subst h2
    obtain ⟨es2, ps2, rfl, m2, n2, i2, v2⟩ := ih (List.nodup_cons.1 hts).2 h
    cases n with
    | zero => cases h1
    | succ n =>
      obtain ⟨ps1, m1, n1, i1, v1⟩ := level_ok (t := t) (R := DescribesG C.src C.dst C.flags S D)
        (get?_byUid_all hS t) (get?_byUid_all hD t)
        (fun u e k _ _ hv hp => pPair_describes hS hD hF n (p := ⟨t, u, S.find t u, D.find t u⟩)
          ⟨fun m hm => hm, fun m hm => hm⟩ hv hp) h1
      refine ⟨es1 ++ es2, ps1 ++ ps2, by simp, m1.append m2, ?_, ?_, ?_⟩
      · unfold DistinctPos
        rw [List.pairwise_append]
        refine ⟨(List.pairwise_map.1 n1).imp (fun hne hc => hne hc.2), n2, ?_⟩
        intro a ha b hb hc
        have ha' := ((i1 a).1 ha).1
        have hb' := ((i2 b).1 hb).1
        rw [← hc.1, ha'] at hb'
        exact (List.nodup_cons.1 hts).1 hb'
      · intro c
        rw [List.mem_append, i1, i2, List.mem_cons]
        constructor
        · rintro (⟨rfl, b⟩ | ⟨a, b⟩)
          · exact ⟨.inl rfl, b⟩
          · exact ⟨.inr a, b⟩
        · rintro ⟨rfl | a, b⟩
          · exact .inl ⟨rfl, b⟩
          · exact .inr ⟨a, b⟩
      · intro t' ht' u hu
        rcases List.mem_cons.1 ht' with rfl | ht'
        · exact v1 u hu
        · exact v2 t' ht' u hu

/-- `DescribesTop` with `GoodPlace` everywhere. -/
def DescribesTopG (src dst : Adapter V) (flags : Nat) (S D : Snap V) (es : List (Elem V)) : Prop :=
  UniqueNames es ∧ (∀ c, IsTop src dst S D c → validatePair (c.src, c.dst) = .ok ()) ∧
    ∃ ps : List (Pos V), DistinctPos ps ∧ (∀ c, c ∈ ps ↔ IsTop src dst S D c ∧ c.Visible flags) ∧
    es.length = ps.length ∧ ∀ x ∈ es.zip ps, DescribesG src dst flags S D x.1 x.2

theorem pTypes_unique {C : DiffCtx V} {S D : Snap V} {n : Nat} {ts : List String} {kids es : List (Elem V)} {k : Nat}
    (h : pTypes C S D n ts kids = .ok (es, k)) (hu : UniqueNames kids) : UniqueNames es := by
  induction ts generalizing kids k with
  | nil => cases h; exact hu
  | cons t ts ih =>
    unfold pTypes at h
    obtain ⟨es1, _, _, h1, h, _⟩ := P.bind_eq_ok.1 h
    obtain ⟨kids', _, _, h2, h, _⟩ := P.bind_eq_ok.1 h
    exact ih h (addElems_unique (P.lift_eq_ok.1 h2).1 hu)

theorem intersection_nodup {l1 l2 : List String} (h : l1.Nodup) : (intersection l1 l2).Nodup := by
  unfold intersection; exact List.Pairwise.filter _ h

theorem pDiff_describes {C : DiffCtx V} {S D : Snap V} (hS : S.Consistent) (hD : D.Consistent) (hF : SameFields S D) {n : Nat}
    (ht : C.dst.topLevel.Nodup) {es : List (Elem V)} {k : Nat} (h : pDiff C S D n = .ok (es, k)) :
    DescribesTopG C.src C.dst C.flags S D es := by
  unfold pDiff at h
  obtain ⟨_, _, _, _, h, _⟩ := P.bind_eq_ok.1 h
  have hu := pTypes_unique h List.Pairwise.nil
  obtain ⟨es', ps, he, m, hd, hi, hvs⟩ := pTypes_describes hS hD hF n _ (intersection_nodup ht) h
  rw [List.nil_append] at he
  subst he
  refine ⟨hu, ?_, ps, hd, ?_, m.1, m.2⟩
  · intro c hc
    have hs := hc.some_side
    rw [hc.src_eq, hc.dst_eq] at hs ⊢
    exact hvs c.type (mem_intersection.2 ⟨hc.dst_top, hc.src_top⟩) c.uid hs
  intro c
  rw [hi, mem_intersection]
  constructor
  · rintro ⟨⟨a1, a2⟩, b, c', d, v⟩
    exact ⟨⟨a2, a1, b, c', d⟩, v⟩
  · rintro ⟨⟨a2, a1, b, c', d⟩, v⟩
    exact ⟨⟨a1, a2⟩, b, c', d, v⟩

end DS
