import Verif.Lemmas.Compared
/-! Why a diff raises. -/
set_option linter.unusedSectionVars false

namespace DS
variable {V E : Type} [PyVal V]

theorem ComparedAt.compared {src dst : Adapter V} {flags : Nat} {S D : Snap V} {k : Nat} {p : Pos V}
    (h : ComparedAt src dst flags S D k p) : Compared src dst flags S D p := by
  induction h with
  | top h => exact .top h
  | child _ hv hc ih => exact .child ih hv hc

theorem Compared.at {src dst : Adapter V} {flags : Nat} {S D : Snap V} {p : Pos V}
    (h : Compared src dst flags S D p) : ∃ k, ComparedAt src dst flags S D k p := by
  induction h with
  | top h => exact ⟨0, .top h⟩
  | child _ hv hc ih =>
    obtain ⟨k, hk⟩ := ih
    exact ⟨k + 1, .child hk hv hc⟩

theorem addElems_of_unique (ks es : List (Elem V)) (h : UniqueNames (ks ++ es)) : addElems ks es = .ok (ks ++ es) := by
  induction es generalizing ks with
  | nil => simp [addElems]
  | cons e es ih =>
    have hno : ks.any (fun k => k.type == e.type && k.name == e.name) = false := by
      rw [List.any_eq_false]
      intro k hk hc
      simp only [Bool.and_eq_true, beq_iff_eq] at hc
      unfold UniqueNames at h
      rw [List.pairwise_append] at h
      exact h.2.2 k hk e (by simp) hc
    have hadd : addElem ks e = .ok (ks ++ [e]) := by unfold addElem; rw [hno]; rfl
    unfold addElems
    rw [hadd]
    simp only
    rw [ih (ks ++ [e]) (by simpa using h)]
    simp

theorem addElems_error {ks es : List (Elem V)} {e : Err} (h : addElems ks es = .error e) :
    e = .objectAlreadyExists ∧ ¬ UniqueNames (ks ++ es) := by
  constructor
  · induction es generalizing ks with
    | nil => cases h
    | cons a es ih =>
      unfold addElems at h
      split at h
      · exact ih h
      · rename_i e' he
        cases h
        exact (addElem_error he).1
  · intro hu
    rw [addElems_of_unique ks es hu] at h
    cases h

theorem validatePairs_error {l : List (Option (Model V) × Option (Model V))} {e : Err} (h : validatePairs l = .error e) :
    ∃ x ∈ l, validatePair x = .error e := by
  induction l with
  | nil => cases h
  | cons a l ih =>
    unfold validatePairs at h
    split at h
    · obtain ⟨x, hx, hv⟩ := ih h
      exact ⟨x, List.mem_cons_of_mem _ hx, hv⟩
    · rename_i e' he
      cases h
      exact ⟨a, by simp, he⟩

theorem pPairs_error {f : Option (Model V) → Option (Model V) → P (Option (Elem V))}
    {l : List (Option (Model V) × Option (Model V))} {e : Err} (h : pPairs f l = .error e) :
    ∃ x ∈ l, f x.1 x.2 = .error e := by
  induction l with
  | nil => cases h
  | cons a l ih =>
    obtain ⟨s, d⟩ := a
    unfold pPairs at h
    rcases P.bind_eq_error.1 h with h | ⟨_, _, _, h⟩
    · exact ⟨(s, d), by simp, h⟩
    · rcases P.bind_eq_error.1 h with h | ⟨_, _, _, h⟩
      · obtain ⟨x, hx, hv⟩ := ih h
        exact ⟨x, List.mem_cons_of_mem _ hx, hv⟩
      · cases h

theorem level_error {C : DiffCtx V} {S D : Snap V} {n : Nat}
    {src dst : List (Model V)} {fs fd : String → Option (Model V)}
    (hfs : ∀ u, Dict.get? (byUid src) u = fs u) (hfd : ∀ u, Dict.get? (byUid dst) u = fd u)
    {e : Err} (h : pList C S D (n + 1) src dst = .error e) :
    ∃ u, (fs u ≠ none ∨ fd u ≠ none) ∧ (validatePair (fs u, fd u) = .error e ∨
      (¬ Hidden C.flags (fs u) (fd u) ∧ pPair C S D (pList C S D n) (fs u) (fd u) = .error e)) := by
  have hmem : ∀ x ∈ combine src dst, x.2.1 = fs x.1 ∧ x.2.2 = fd x.1 ∧ (x.2.1 ≠ none ∨ x.2.2 ≠ none) := by
    intro x hx
    obtain ⟨u, s, d⟩ := x
    obtain ⟨h1, h2, h3⟩ := mem_combine.1 hx
    exact ⟨h1.trans (hfs u), h2.trans (hfd u), h3⟩
  unfold pList at h
  rcases P.bind_eq_error.1 h with h | ⟨_, _, _, h⟩
  · cases h
  · rcases P.bind_eq_error.1 h with h | ⟨_, _, _, h⟩
    · obtain ⟨x, hx, hv⟩ := validatePairs_error (P.lift_eq_error.1 h)
      obtain ⟨⟨u, s, d⟩, hy, rfl⟩ := List.mem_map.1 hx
      obtain ⟨h1, h2, h3⟩ := hmem _ hy
      simp only at h1 h2 h3 hv
      subst h1; subst h2
      exact ⟨u, h3, .inl hv⟩
    · obtain ⟨x, hx, hv⟩ := pPairs_error h
      obtain ⟨⟨u, s, d⟩, hy, rfl⟩ := List.mem_map.1 hx
      obtain ⟨h1, h2, h3⟩ := hmem _ hy
      simp only at h1 h2 h3 hv
      subst h1; subst h2
      refine ⟨u, h3, .inr ⟨?_, hv⟩⟩
      intro hh
      have := (skipPair_iff _ _ _ h3).2 hh
      unfold pPair at hv
      cases hm : (fs u).or (fd u) with
      | none => rcases h3 with h3 | h3 <;> (cases hs : fs u <;> cases hd : fd u <;> simp_all)
      | some m =>
        rw [hm] at hv
        simp only [this, if_true] at hv
        cases hv

theorem validatePair_error {p : Pos V} {e : Err} (h : validatePair (p.src, p.dst) = .error e)
    (ht : ∀ s d, p.src = some s → p.dst = some d → s.type = d.type) : e = .valueError ∧ p.Unlike := by
  unfold validatePair at h
  split at h
  · rename_i s d heq
    have h1 : p.src = some s := congrArg Prod.fst heq
    have h2 : p.dst = some d := congrArg Prod.snd heq
    have hty := ht s d h1 h2
    rw [if_neg (by simp [hty])] at h
    split at h
    · rename_i hsn
      cases h
      exact ⟨rfl, s, d, h1, h2, .inr (.inl hsn)⟩
    · split at h
      · cases h
      · rename_i hid
        cases h
        exact ⟨rfl, s, d, h1, h2, .inr (.inr (by simpa using hid))⟩
  · cases h

/-- Two elements of a level with the same name stand at different unique ids. -/
theorem clash_of_not_unique {R : Elem V → Pos V → Prop} (hR : ∀ e p, R e p → e.type = p.type ∧ (∀ m, p.src.or p.dst = some m → e.name = m.shortname) ∧
      ∃ m, p.src.or p.dst = some m)
    {es : List (Elem V)} {ps : List (Pos V)} (hM : MatchAll R es ps) (hd : (ps.map Pos.uid).Nodup) (hn : ¬ UniqueNames es) :
    ∃ c ∈ ps, ∃ c' ∈ ps, Clash c c' := by
  induction es generalizing ps with
  | nil => exact absurd List.Pairwise.nil hn
  | cons e es ih =>
    obtain ⟨hl, hz⟩ := hM
    cases ps with
    | nil => simp at hl
    | cons p ps =>
      have hM' : MatchAll R es ps := ⟨by simpa using hl, fun x hx => hz x (by rw [List.zip_cons_cons]; exact List.mem_cons_of_mem _ hx)⟩
      have hd' : p.uid ∉ ps.map Pos.uid ∧ (ps.map Pos.uid).Nodup := List.nodup_cons.1 hd
      by_cases hu : UniqueNames es
      · have : ¬ ∀ b ∈ es, ¬ (e.type = b.type ∧ e.name = b.name) := fun hall => hn (List.Pairwise.cons hall hu)
        have : ∃ b ∈ es, e.type = b.type ∧ e.name = b.name := by
          apply Classical.byContradiction
          intro hno
          exact this (fun b hb hc => hno ⟨b, hb, hc⟩)
        obtain ⟨b, hb, h1, h2⟩ := this
        obtain ⟨q, hq, hbq⟩ := zip_mem_left hM'.1 hb
        have r1 := hR e p (hz (e, p) (by rw [List.zip_cons_cons]; simp))
        have r2 := hR b q (hM'.2 _ hbq)
        refine ⟨p, by simp, q, List.mem_cons_of_mem _ hq, ?_, ?_, ?_⟩
        · rw [← r1.1, ← r2.1, h1]
        · intro he
          exact hd'.1 (List.mem_map.2 ⟨q, hq, he.symm⟩)
        · obtain ⟨m, hm⟩ := r1.2.2
          obtain ⟨m', hm'⟩ := r2.2.2
          exact ⟨m, m', hm, hm', by rw [← r1.2.1 m hm, ← r2.2.1 m' hm', h2]⟩
      · obtain ⟨c, hc, c', hc', h⟩ := ih hM' hd'.2 hu
        exact ⟨c, List.mem_cons_of_mem _ hc, c', List.mem_cons_of_mem _ hc', h⟩

theorem or_some_of {p : Pos V} (h : p.src ≠ none ∨ p.dst ≠ none) : ∃ m, p.src.or p.dst = some m := by
  cases hs : p.src with
  | some s => exact ⟨s, rfl⟩
  | none =>
    rw [hs] at h
    cases hd : p.dst with
    | none => rw [hd] at h; simp at h
    | some d => exact ⟨d, rfl⟩

/-- What `Header` says about names, as needed by `clash_of_not_unique`. -/
def NamedAt (e : Elem V) (p : Pos V) : Prop :=
  e.type = p.type ∧ (∀ m, p.src.or p.dst = some m → e.name = m.shortname) ∧ ∃ m, p.src.or p.dst = some m

theorem pPair_named {C : DiffCtx V} {S D : Snap V} (hS : S.Consistent) (hD : D.Consistent)
    {rec : List (Model V) → List (Model V) → P (List (Elem V))} {p : Pos V} (hp : Stored S D p)
    (hs : p.src ≠ none ∨ p.dst ≠ none) {e : Elem V} {k : Nat}
    (h : pPair C S D rec p.src p.dst = .ok (some e, k)) : NamedAt e p := by
  obtain ⟨m, mp, kids, k1, k2, hm, _, _, _, _, rfl⟩ := pPair_some h
  refine ⟨Stored.type_or hS hD hp hm, ?_, m, hm⟩
  intro m' hm'
  rw [hm] at hm'; cases hm'; rfl

section
variable {C : DiffCtx V} {S D : Snap V} (hS : S.Consistent) (hD : D.Consistent) (hF : SameFields S D)
include hS hD hF

theorem Stored.same_type {p : Pos V} (hp : Stored S D p) (s d : Model V) (h1 : p.src = some s) (h2 : p.dst = some d) :
    s.type = d.type := by
  rw [(hS.key_ok _ _ _ (hp.src s h1)).1, (hD.key_ok _ _ _ (hp.dst d h2)).1]

omit hS hD hF in
theorem pChildModels_error {X : Snap V} {o : Option (Model V)} {ct f : String} {e : Err}
    (hf : ∀ m, o = some m → Dict.get? m.cls.children ct = some f) (h : pChildModels X o ct f = .error e) :
    (e = .attributeError ∧ ∃ m, o = some m ∧ Dict.get? m.cls.children ct = some f ∧ m.kidList f = none) ∨
    (e = .objectNotFound ∧ ∃ u, listsO o ct u = true ∧ X.find ct u = none) := by
  unfold pChildModels at h
  cases o with
  | none => cases h
  | some m =>
    simp only at h
    cases hk : m.kidList f with
    | none => rw [hk] at h; cases h; exact .inl ⟨rfl, m, rfl, hf m rfl, hk⟩
    | some us =>
      rw [hk] at h
      obtain ⟨h1, u, hu, hx⟩ := lookupAll_error (P.lift_eq_error.1 h)
      refine .inr ⟨h1, u, ?_, hx⟩
      simp [listsO, Model.lists, hf m rfl, hk, hu]

/-- A place found below a compared place. -/
theorem isChild_of_below {p : Pos V} {ct u : String} (hct : comparesType p.src p.dst ct)
    (hs : below S p.src ct u ≠ none ∨ below D p.dst ct u ≠ none) :
    IsChild S D p ⟨ct, u, below S p.src ct u, below D p.dst ct u⟩ := by
  refine ⟨hct, ?_, rfl, rfl⟩
  rcases hs with h | h
  · exact .inl (below_ne_none h)
  · exact .inr (below_ne_none h)

theorem childLoop_error {N n k : Nat} {p : Pos V} (hp : Stored S D p)
    (hc : ComparedAt C.src C.dst C.flags S D k p) (hv : p.Visible C.flags) (hs : p.src ≠ none ∨ p.dst ≠ none) (hN : N = k + 1 + n)
    (ih : ∀ (m : Nat) (q : Pos V), n = m + 1 → Stored S D q → ComparedAt C.src C.dst C.flags S D (k + 1) q →
      q.Visible C.flags → (q.src ≠ none ∨ q.dst ≠ none) → ∀ e, pPair C S D (pList C S D m) q.src q.dst = .error e → DiffProblem C.src C.dst C.flags S D N e)
    (mapping : Dict String) (hwf : Dict.WF mapping)
    (hms : ∀ ct f, (ct, f) ∈ mapping → ∀ m, p.src = some m → Dict.get? m.cls.children ct = some f)
    (hmd : ∀ ct f, (ct, f) ∈ mapping → ∀ m, p.dst = some m → Dict.get? m.cls.children ct = some f)
    (hmc : ∀ ct, ct ∈ Dict.keys mapping → comparesType p.src p.dst ct)
    {kids0 : List (Elem V)} (hu0 : UniqueNames kids0) (ht0 : ∀ a ∈ kids0, a.type ∉ Dict.keys mapping)
    {e : Err} (h : pChildLoop S D (pList C S D n) p.src p.dst mapping kids0 = .error e) :
    DiffProblem C.src C.dst C.flags S D N e := by
  induction mapping generalizing kids0 with
  | nil => cases h
  | cons x rest ih' =>
    obtain ⟨ct, f⟩ := x
    have hct : comparesType p.src p.dst ct := hmc ct (by simp [Dict.keys])
    have hwf' : ct ∉ Dict.keys rest ∧ Dict.WF rest := List.nodup_cons.1 hwf
    unfold pChildLoop at h
    rcases P.bind_eq_error.1 h with h | ⟨so, _, h1, h⟩
    · rcases pChildModels_error (hms ct f (by simp)) h with ⟨rfl, m, h1, h2, h3⟩ | ⟨rfl, u, h1, h2⟩
      · exact ⟨p, hc.compared, hv, ct, f, m, hct, .inl h1, h2, h3⟩
      · exact ⟨p, hc.compared, hv, ct, u, hct, .inl ⟨h1, h2⟩⟩
    rcases P.bind_eq_error.1 h with h | ⟨do', _, h2, h⟩
    · rcases pChildModels_error (hmd ct f (by simp)) h with ⟨rfl, m, h1, h2, h3⟩ | ⟨rfl, u, h1, h2⟩
      · exact ⟨p, hc.compared, hv, ct, f, m, hct, .inr h1, h2, h3⟩
      · exact ⟨p, hc.compared, hv, ct, u, hct, .inr ⟨h1, h2⟩⟩
    have hfs := pChildModels_ok hS (hms ct f (by simp)) h1
    have hfd := pChildModels_ok hD (hmd ct f (by simp)) h2
    rcases P.bind_eq_error.1 h with h | ⟨es, _, h3, h⟩
    · cases n with
      | zero =>
        cases h
        exact .inr ⟨k, p, hN, hc, hv, hs, ct, hct⟩
      | succ n =>
        obtain ⟨u, hs, hcase⟩ := level_error hfs hfd h
        have hch := isChild_of_below hS hD hF hct hs
        rcases hcase with hval | ⟨hvis, hpp⟩
        · obtain ⟨rfl, hun⟩ := validatePair_error (p := ⟨ct, u, below S p.src ct u, below D p.dst ct u⟩) hval
            (Stored.same_type hS hD hF Stored.below)
          exact ⟨_, .child hc.compared hv hch, hun⟩
        · exact ih n _ rfl Stored.below (.child hc hv hch) hvis hs e hpp
    cases n with
    | zero => cases h3
    | succ n =>
      obtain ⟨ps, hM, hnd, hi, _⟩ := level_ok (t := ct) (R := NamedAt) hfs hfd
        (fun u e k hs _ _ hp => pPair_named hS hD (p := ⟨ct, u, below S p.src ct u, below D p.dst ct u⟩) Stored.below hs hp) h3
      have htes : ∀ a ∈ es, a.type = ct := by
        intro a ha
        obtain ⟨q, hq, haq⟩ := zip_mem_left hM.1 ha
        rw [(hM.2 _ haq).1]
        exact ((hi q).1 hq).1
      rcases P.bind_eq_error.1 h with h | ⟨kids', _, h4, h⟩
      · obtain ⟨rfl, hnu⟩ := addElems_error (P.lift_eq_error.1 h)
        have hnes : ¬ UniqueNames es := by
          intro hu
          apply hnu
          unfold UniqueNames
          rw [List.pairwise_append]
          refine ⟨hu0, hu, ?_⟩
          intro a ha b hb hab
          have := ht0 a ha
          rw [hab.1, htes b hb] at this
          simp [Dict.keys] at this
        obtain ⟨c, hcm, c', hcm', hcl⟩ := clash_of_not_unique (fun _ _ h => h) hM hnd hnes
        have g : ∀ c ∈ ps, IsChild S D p c ∧ c.Visible C.flags := by
          intro c hcm
          obtain ⟨g1, g2, g3, g4, g5⟩ := (hi c).1 hcm
          obtain ⟨t, u, s, d⟩ := c
          simp only at g1 g2 g3 g4
          subst g1; subst g2; subst g3
          exact ⟨isChild_of_below hS hD hF hct g4, g5⟩
        exact ⟨c, c', (g c hcm).2, (g c' hcm').2, hcl, .inr ⟨p, hc.compared, hv, (g c hcm).1, (g c' hcm').1⟩⟩
      · have h4 := (P.lift_eq_ok.1 h4).1
        have hk' := addElems_ok h4
        subst hk'
        refine ih' hwf'.2 (fun ct' f' hm => hms ct' f' (List.mem_cons_of_mem _ hm))
          (fun ct' f' hm => hmd ct' f' (List.mem_cons_of_mem _ hm))
          (fun ct' hk => hmc ct' (List.mem_cons_of_mem _ hk)) (addElems_unique h4 hu0) ?_ h
        intro a ha
        rcases List.mem_append.1 ha with ha | ha
        · intro hk; exact ht0 a ha (List.mem_cons_of_mem _ hk)
        · rw [htes a ha]; exact hwf'.1

omit hS hD hF in
theorem pMapping_error {s d : Option (Model V)} (hs : s ≠ none ∨ d ≠ none) {e : Err} : pMapping s d ≠ .error e := by
  intro h
  have key : ∀ (g : String × String → P Unit), (∀ x e, g x ≠ .error e) → ∀ l e, P.forEach g l ≠ .error e := by
    intro g hg l
    induction l with
    | nil => intro e h; cases h
    | cons a l ih =>
      intro e h
      rcases P.bind_eq_error.1 h with h | ⟨_, _, _, h⟩
      · exact hg _ _ h
      · exact ih _ h
  unfold pMapping at h
  split at h
  · rcases P.bind_eq_error.1 h with h | ⟨_, _, _, h⟩
    · refine key _ (fun x e he => ?_) _ _ h
      split at he <;> cases he
    rcases P.bind_eq_error.1 h with h | ⟨_, _, _, h⟩
    · refine key _ (fun x e he => ?_) _ _ h
      split at he <;> cases he
    · cases h
  · cases h
  · cases h
  · simp at hs

theorem pPair_error {N : Nat} (n : Nat) : ∀ (k : Nat) (p : Pos V), Stored S D p →
    ComparedAt C.src C.dst C.flags S D k p → p.Visible C.flags → (p.src ≠ none ∨ p.dst ≠ none) → N = k + 1 + n → ∀ e,
    pPair C S D (pList C S D n) p.src p.dst = .error e → DiffProblem C.src C.dst C.flags S D N e := by
  induction n using Nat.strongRecOn with
  | ind n ih =>
    intro k p hp hc hv hs hN e h
    obtain ⟨m, hm⟩ := or_some_of hs
    unfold pPair at h
    rw [hm] at h
    simp only at h
    rw [if_neg (fun hk => hv ((skipPair_iff _ _ _ hs).1 hk))] at h
    rcases P.bind_eq_error.1 h with h | ⟨_, _, _, h⟩
    · cases h
    rcases P.bind_eq_error.1 h with h | ⟨mp, _, hmp, h⟩
    · exact absurd h (pMapping_error hs)
    rcases P.bind_eq_error.1 h with h | ⟨_, _, _, h⟩
    · obtain ⟨w1, w2, w3, w4⟩ := mapping_spec hS hD hF hp hmp
      refine childLoop_error hS hD hF hp hc hv hs hN (fun m q hm hq hcq hvq hsq e he => ?_) mp w1 w2 w3 (fun ct => (w4 ct).1)
        List.Pairwise.nil (by simp) h
      exact ih m (by omega) (k + 1) q hq hcq hvq hsq (by omega) e he
    · cases h

theorem isTop_of_find {t u : String} (h1 : t ∈ C.src.topLevel) (h2 : t ∈ C.dst.topLevel)
    (hs : S.find t u ≠ none ∨ D.find t u ≠ none) : IsTop C.src C.dst S D ⟨t, u, S.find t u, D.find t u⟩ :=
  ⟨h1, h2, rfl, rfl, hs⟩

theorem pTypes_error {n : Nat} (ts : List String) (hnd : ts.Nodup)
    (h1 : ∀ t ∈ ts, t ∈ C.src.topLevel) (h2 : ∀ t ∈ ts, t ∈ C.dst.topLevel)
    {kids0 : List (Elem V)} (hu0 : UniqueNames kids0) (ht0 : ∀ a ∈ kids0, a.type ∉ ts)
    {e : Err} (h : pTypes C S D n ts kids0 = .error e) :
    DiffProblem C.src C.dst C.flags S D n e := by
  induction ts generalizing kids0 with
  | nil => cases h
  | cons t rest ih' =>
    have hnd' := List.nodup_cons.1 hnd
    unfold pTypes at h
    rcases P.bind_eq_error.1 h with h | ⟨es, _, h3, h⟩
    · cases n with
      | zero => cases h; exact .inl ⟨rfl, t, h1 t (by simp), h2 t (by simp)⟩
      | succ n =>
        obtain ⟨u, hs, hcase⟩ := level_error (get?_byUid_all hS t) (get?_byUid_all hD t) h
        have hch := isTop_of_find (C := C) hS hD hF (h1 t (by simp)) (h2 t (by simp)) hs
        have hst : Stored S D ⟨t, u, S.find t u, D.find t u⟩ := ⟨fun _ h => h, fun _ h => h⟩
        rcases hcase with hval | ⟨hvis, hpp⟩
        · obtain ⟨rfl, hun⟩ := validatePair_error (p := ⟨t, u, S.find t u, D.find t u⟩) hval
            (Stored.same_type hS hD hF hst)
          exact ⟨_, .top hch, hun⟩
        · exact pPair_error hS hD hF n 0 _ hst (.top hch) hvis hs (by omega) e hpp
    cases n with
    | zero => cases h3
    | succ n =>
      obtain ⟨ps, hM, hnd2, hi, _⟩ := level_ok (t := t) (R := NamedAt) (get?_byUid_all hS t) (get?_byUid_all hD t)
        (fun u e k hs _ _ hp => pPair_named hS hD (p := ⟨t, u, S.find t u, D.find t u⟩) ⟨fun _ h => h, fun _ h => h⟩ hs hp) h3
      have htes : ∀ a ∈ es, a.type = t := by
        intro a ha
        obtain ⟨q, hq, haq⟩ := zip_mem_left hM.1 ha
        rw [(hM.2 _ haq).1]
        exact ((hi q).1 hq).1
      rcases P.bind_eq_error.1 h with h | ⟨kids', _, h4, h⟩
      · obtain ⟨rfl, hnu⟩ := addElems_error (P.lift_eq_error.1 h)
        have hnes : ¬ UniqueNames es := by
          intro hu
          apply hnu
          unfold UniqueNames
          rw [List.pairwise_append]
          refine ⟨hu0, hu, ?_⟩
          intro a ha b hb hab
          have := ht0 a ha
          rw [hab.1, htes b hb] at this
          simp at this
        obtain ⟨c, hcm, c', hcm', hcl⟩ := clash_of_not_unique (fun _ _ h => h) hM hnd2 hnes
        have g : ∀ c ∈ ps, IsTop C.src C.dst S D c ∧ c.Visible C.flags := by
          intro c hcm
          obtain ⟨g1, g2, g3, g4, g5⟩ := (hi c).1 hcm
          obtain ⟨t, u, s, d⟩ := c
          simp only at g1 g2 g3 g4
          subst g1; subst g2; subst g3
          exact ⟨isTop_of_find hS hD hF (h1 t (by simp)) (h2 t (by simp)) g4, g5⟩
        exact ⟨c, c', (g c hcm).2, (g c' hcm').2, hcl, .inl ⟨(g c hcm).1, (g c' hcm').1⟩⟩
      · have h4 := (P.lift_eq_ok.1 h4).1
        have hk' := addElems_ok h4
        subst hk'
        refine ih' hnd'.2 (fun t' hm => h1 t' (List.mem_cons_of_mem _ hm))
          (fun t' hm => h2 t' (List.mem_cons_of_mem _ hm)) (addElems_unique h4 hu0) ?_ h
        intro a ha
        rcases List.mem_append.1 ha with ha | ha
        · intro hk; exact ht0 a ha (List.mem_cons_of_mem _ hk)
        · rw [htes a ha]; exact hnd'.1
end

end DS

namespace DS
variable {V E : Type} [PyVal V]

theorem pDiff_error {C : DiffCtx V} {S D : Snap V} (hS : S.Consistent) (hD : D.Consistent) (hF : SameFields S D) {n : Nat}
    (ht : C.dst.topLevel.Nodup) {e : Err} (h : pDiff C S D n = .error e) : DiffProblem C.src C.dst C.flags S D n e := by
  unfold pDiff at h
  rcases P.bind_eq_error.1 h with h | ⟨_, _, _, h⟩
  · exfalso
    revert h
    generalize symmetricDifference C.dst.topLevel C.src.topLevel = l
    intro h
    induction l with
    | nil => cases h
    | cons a l ih =>
      rcases P.bind_eq_error.1 h with h | ⟨_, _, _, h⟩
      · unfold pSkipped at h
        split at h
        · cases h
        · split at h <;> cases h
      · exact ih h
  · exact pTypes_error hS hD hF _ (intersection_nodup ht) (fun t hm => (mem_intersection.1 hm).2)
      (fun t hm => (mem_intersection.1 hm).1) List.Pairwise.nil (by simp) h

/-- When `diff_from` raises, there is a reason. -/
theorem diffFrom_problem {n : Nat} {dst src : Adapter V} {dc : DiffClass V} {flags : Nat} {w w' : World V E} {e : Err}
    (hw : w.OK) (hS : (snap src w).Consistent) (hD : (snap dst w).Consistent) (hF : SameFields (snap src w) (snap dst w))
    (hs : Serves src (snap src w)) (hd : Serves dst (snap dst w)) (ht : dst.topLevel.Nodup)
    (h : diffFrom n dst src dc flags w = (.error e, w')) :
    DiffProblem src dst flags (snap src w) (snap dst w) n e := by
  obtain ⟨_, h2⟩ := diffFrom_spec n dst src dc flags w hw.refs_lt hw.tbl_wf hs hd
  cases hp : pDiff ⟨src, dst, flags⟩ (snap src w) (snap dst w) n with
  | error e' =>
    rw [hp, h] at h2
    cases h2
    exact pDiff_error (C := ⟨src, dst, flags⟩) hS hD hF ht hp
  | ok r =>
    obtain ⟨es, k⟩ := r
    rw [hp, h] at h2
    obtain ⟨h2, h3⟩ := h2
    cases h2

end DS
