import Verif.Lemmas.LedgerRun
import Verif.Spec.SkipCount
/-! The number of models the differ processes, beyond those that its elements represent. -/
set_option linter.unusedSectionVars false

namespace DS
variable {V E : Type} [PyVal V]

/-- The sides of an element and of everything below, if there is one. -/
def weightO : Option (Elem V) → Nat
  | none => 0
  | some e => weightL [e]

theorem pPairs_count {C : DiffCtx V} {S D : Snap V} {rec : List (Model V) → List (Model V) → P (List (Elem V))} {t : String}
    {T : Pos V → Nat → Prop} (l : Dict (Option (Model V) × Option (Model V)))
    (hT : ∀ x ∈ l, ∀ r k, pPair C S D rec x.2.1 x.2.2 = .ok (r, k) → ∃ j, T (toPos t x) j ∧ k = weightO r + j)
    {es : List (Elem V)} {k : Nat} (h : pPairs (pPair C S D rec) (Dict.values l) = .ok (es, k)) :
    ∃ qs : List (Pos V × Nat), qs.map Prod.fst = l.map (toPos t) ∧ (∀ x ∈ qs, T x.1 x.2) ∧
      k = weightL es + (qs.map Prod.snd).sum := by
  induction l generalizing es k with
  | nil =>
    simp only [Dict.values, List.map_nil, pPairs, P.ret] at h
    cases h
    exact ⟨[], rfl, by simp, by simp [weightL, nodesL]⟩
  | cons x l ih =>
    obtain ⟨u, s, d⟩ := x
    simp only [Dict.values, List.map_cons] at h
    unfold pPairs at h
    obtain ⟨e?, k1, k2, h1, h2, rfl⟩ := P.bind_eq_ok.1 h
    obtain ⟨es', k3, k4, h3, h4, rfl⟩ := P.bind_eq_ok.1 h2
    obtain ⟨qs, q1, q2, q3⟩ := ih (fun x hx => hT x (List.mem_cons_of_mem _ hx)) h3
    obtain ⟨j, j1, j2⟩ := hT (u, s, d) (by simp) _ _ h1
    simp only [P.ret] at h4
    cases h4
    refine ⟨(toPos t (u, s, d), j) :: qs, by simp [q1], ?_, ?_⟩
    · intro x hx
      rcases List.mem_cons.1 hx with rfl | hx
      · exact j1
      · exact q2 x hx
    · rw [List.map_cons, List.sum_cons]
      cases e? with
      | none => simp only [weightO] at j2 ⊢; omega
      | some e =>
        simp only [weightO, weightL_cons] at j2
        simp only [weightL_cons]
        have : weightL ([] : List (Elem V)) = 0 := by simp [weightL, nodesL]
        omega

theorem level_count {C : DiffCtx V} {S D : Snap V} {n : Nat} {t : String} {T : Pos V → Nat → Prop}
    {src dst : List (Model V)} {fs fd : String → Option (Model V)}
    (hfs : ∀ u, Dict.get? (byUid src) u = fs u) (hfd : ∀ u, Dict.get? (byUid dst) u = fd u)
    (hT : ∀ u r k, (fs u ≠ none ∨ fd u ≠ none) →
      pPair C S D (pList C S D n) (fs u) (fd u) = .ok (r, k) → ∃ j, T ⟨t, u, fs u, fd u⟩ j ∧ k = weightO r + j)
    {es : List (Elem V)} {k : Nat} (h : pList C S D (n + 1) src dst = .ok (es, k)) :
    ∃ qs : List (Pos V × Nat), ((qs.map Prod.fst).map Pos.uid).Nodup ∧
      (∀ c, c ∈ qs.map Prod.fst ↔ c.type = t ∧ c.src = fs c.uid ∧ c.dst = fd c.uid ∧ (c.src ≠ none ∨ c.dst ≠ none)) ∧
      (∀ x ∈ qs, T x.1 x.2) ∧ qs.length = (combine src dst).length ∧
      k = weightL es + ((src.length - qs.length) + (dst.length - qs.length)) + (qs.map Prod.snd).sum := by
  unfold pList at h
  obtain ⟨_, k1, k2, h1, h, hk⟩ := P.bind_eq_ok.1 h
  obtain ⟨_, k3, k4, h2, h, hk'⟩ := P.bind_eq_ok.1 h
  have h2 := (P.lift_eq_ok.1 h2).2
  cases h1
  have hmem : ∀ x ∈ combine src dst, x.2.1 = fs x.1 ∧ x.2.2 = fd x.1 ∧ (x.2.1 ≠ none ∨ x.2.2 ≠ none) := by
    intro x hx
    obtain ⟨u, s, d⟩ := x
    obtain ⟨h1, h2, h3⟩ := mem_combine.1 hx
    exact ⟨h1.trans (hfs u), h2.trans (hfd u), h3⟩
  obtain ⟨qs, q1, q2, q3⟩ := pPairs_count (t := t) (T := T) (combine src dst) (by
    intro x hx r k hp
    obtain ⟨u, s, d⟩ := x
    obtain ⟨h1, h2, h3⟩ := hmem _ hx
    simp only at h1 h2 h3 hp
    subst h1; subst h2
    exact hT u r k h3 hp) h
  have hlen : qs.length = (combine src dst).length := by
    have := congrArg List.length q1
    simpa using this
  refine ⟨qs, ?_, ?_, q2, hlen, ?_⟩
  · rw [q1, List.map_map]
    have : (Pos.uid ∘ toPos (V := V) t) = Prod.fst := rfl
    rw [this]
    exact combine_wf src dst
  · intro c
    rw [q1, List.mem_map]
    constructor
    · rintro ⟨x, hx, rfl⟩
      obtain ⟨h1, h2, h3⟩ := hmem _ hx
      exact ⟨rfl, h1, h2, h3⟩
    · rintro ⟨h1, h2, h3, h4⟩
      refine ⟨(c.uid, c.src, c.dst), mem_combine.2 ⟨h2.trans (hfs _).symm, h3.trans (hfd _).symm, h4⟩, ?_⟩
      cases c; simp only at h1; subst h1; rfl
  · rw [hlen]; omega

theorem pChildModels_length {S : Snap V} {o : Option (Model V)} {ct f : String} {ms : List (Model V)} {k : Nat}
    (hf : ∀ m, o = some m → Dict.get? m.cls.children ct = some f) (h : pChildModels S o ct f = .ok (ms, k)) :
    ms.length = (idsListed o ct).length ∧ k = 0 := by
  unfold pChildModels at h
  cases o with
  | none => cases h; exact ⟨rfl, rfl⟩
  | some m =>
    simp only at h
    cases hk : m.kidList f with
    | none => rw [hk] at h; cases h
    | some us =>
      rw [hk] at h
      obtain ⟨h1, h2⟩ := P.lift_eq_ok.1 h
      have := congrArg List.length (lookupAll_ok h1)
      simp only [List.length_map] at this
      simp only [idsListed, hf m rfl, hk, Option.getD_some]
      exact ⟨this.symm, h2⟩

theorem placesOf_append (a b : List (Pos V)) (ct : String) : placesOf (a ++ b) ct = placesOf a ct + placesOf b ct := by
  simp [placesOf]

theorem placesOf_all {a : List (Pos V)} {ct : String} (h : ∀ c ∈ a, c.type = ct) : placesOf a ct = a.length := by
  unfold placesOf
  rw [List.filter_eq_self.2]
  intro c hc
  simpa using h c hc

theorem placesOf_none {a : List (Pos V)} {ct : String} (h : ∀ c ∈ a, c.type ≠ ct) : placesOf a ct = 0 := by
  unfold placesOf
  rw [List.filter_eq_nil_iff.2]
  · rfl
  · intro c hc
    simpa using h c hc

theorem childLoop_count {C : DiffCtx V} {S D : Snap V} (hS : S.Consistent) (hD : D.Consistent) {n : Nat}
    {T : Pos V → Nat → Prop} {p : Pos V} (mapping : Dict String) (hwf : Dict.WF mapping)
    (hms : ∀ ct f, (ct, f) ∈ mapping → ∀ m, p.src = some m → Dict.get? m.cls.children ct = some f)
    (hmd : ∀ ct f, (ct, f) ∈ mapping → ∀ m, p.dst = some m → Dict.get? m.cls.children ct = some f)
    (hT : ∀ ct u r k, ct ∈ Dict.keys mapping → (below S p.src ct u ≠ none ∨ below D p.dst ct u ≠ none) →
      pPair C S D (pList C S D n) (below S p.src ct u) (below D p.dst ct u) = .ok (r, k) →
      ∃ j, T ⟨ct, u, below S p.src ct u, below D p.dst ct u⟩ j ∧ k = weightO r + j)
    {kids0 kids : List (Elem V)} {k : Nat}
    (h : pChildLoop S D (pList C S D (n + 1)) p.src p.dst mapping kids0 = .ok (kids, k)) :
    ∃ qs : List (Pos V × Nat), DistinctPos (qs.map Prod.fst) ∧
      (∀ c, c ∈ qs.map Prod.fst ↔ c.type ∈ Dict.keys mapping ∧ c.src = below S p.src c.type c.uid ∧
        c.dst = below D p.dst c.type c.uid ∧ (c.src ≠ none ∨ c.dst ≠ none)) ∧
      (∀ x ∈ qs, T x.1 x.2) ∧
      weightL kids0 + k = weightL kids + ((Dict.keys mapping).map (p.repeats (qs.map Prod.fst))).sum + (qs.map Prod.snd).sum := by
  induction mapping generalizing kids0 k with
  | nil =>
    cases h
    exact ⟨[], List.Pairwise.nil, by simp [Dict.keys], by simp, by simp [Dict.keys]⟩
  | cons q rest ih =>
    obtain ⟨ct, f⟩ := q
    unfold pChildLoop at h
    obtain ⟨so, k1, _, h1, h, hk1⟩ := P.bind_eq_ok.1 h
    obtain ⟨do', k2, _, h2, h, hk2⟩ := P.bind_eq_ok.1 h
    obtain ⟨es, k3, _, h3, h, hk3⟩ := P.bind_eq_ok.1 h
    obtain ⟨kids', k4, k5, h4, h, hk5⟩ := P.bind_eq_ok.1 h
    have hk4 := (P.lift_eq_ok.1 h4).2
    have h4 := addElems_ok (P.lift_eq_ok.1 h4).1
    subst h4
    have hwf' : ct ∉ Dict.keys rest ∧ Dict.WF rest := List.nodup_cons.1 hwf
    obtain ⟨l1, z1⟩ := pChildModels_length (hms ct f (by simp)) h1
    obtain ⟨l2, z2⟩ := pChildModels_length (hmd ct f (by simp)) h2
    obtain ⟨qs1, n1, i1, t1, e1, s1⟩ := level_count (t := ct) (T := T)
      (pChildModels_ok hS (hms ct f (by simp)) h1) (pChildModels_ok hD (hmd ct f (by simp)) h2)
      (fun u r k a b => hT ct u r k (by simp [Dict.keys]) a b) h3
    obtain ⟨qs2, n2, i2, t2, s2⟩ := ih hwf'.2
      (fun ct' f' hm => hms ct' f' (List.mem_cons_of_mem _ hm)) (fun ct' f' hm => hmd ct' f' (List.mem_cons_of_mem _ hm))
      (fun ct' u e k hk => hT ct' u e k (by simp only [Dict.keys, List.map_cons]; exact List.mem_cons_of_mem _ hk)) h
    have hkeys : Dict.keys ((ct, f) :: rest) = ct :: Dict.keys rest := rfl
    refine ⟨qs1 ++ qs2, ?_, ?_, ?_, ?_⟩
    · rw [List.map_append]
      unfold DistinctPos
      rw [List.pairwise_append]
      refine ⟨?_, n2, ?_⟩
      · have := List.pairwise_map.1 n1
        exact this.imp (fun hne hc => hne hc.2)
      · intro a ha b hb hc
        have ha' := ((i1 a).1 ha).1
        have hb' := ((i2 b).1 hb).1
        rw [← hc.1, ha'] at hb'
        exact hwf'.1 hb'
    · intro c
      rw [List.map_append, List.mem_append, i1, i2, hkeys, List.mem_cons]
      constructor
      · rintro (⟨rfl, b⟩ | ⟨a, b⟩)
        · exact ⟨.inl rfl, b⟩
        · exact ⟨.inr a, b⟩
      · rintro ⟨rfl | a, b⟩
        · exact .inl ⟨rfl, b⟩
        · exact .inr ⟨a, b⟩
    · intro x hx
      rcases List.mem_append.1 hx with hx | hx
      · exact t1 x hx
      · exact t2 x hx
    · rw [hkeys, List.map_cons, List.sum_cons, List.map_append, List.map_append, List.sum_append]
      have r1 : p.repeats (qs1.map Prod.fst ++ qs2.map Prod.fst) ct =
          (so.length - qs1.length) + (do'.length - qs1.length) := by
        unfold Pos.repeats
        rw [placesOf_append, placesOf_all (fun c hc => ((i1 c).1 hc).1),
          placesOf_none (a := qs2.map Prod.fst) (ct := ct) (fun c hc he => hwf'.1 (he ▸ ((i2 c).1 hc).1)), l1, l2]
        simp
      have r2 : ((Dict.keys rest).map (p.repeats (qs1.map Prod.fst ++ qs2.map Prod.fst))) =
          ((Dict.keys rest).map (p.repeats (qs2.map Prod.fst))) := by
        apply List.map_congr_left
        intro ct' hct'
        unfold Pos.repeats
        rw [placesOf_append, placesOf_none (a := qs1.map Prod.fst) (ct := ct') (fun c hc he => by
          rw [((i1 c).1 hc).1] at he
          exact hwf'.1 (he ▸ hct')), Nat.zero_add]
      rw [r1, r2]
      rw [weightL_append] at s2
      omega

theorem forEach_count {α : Type} {f : α → P Unit} {g : α → Nat} (l : List α) (hf : ∀ a ∈ l, f a = .ok ((), g a)) :
    P.forEach f l = .ok ((), (l.map g).sum) := by
  induction l with
  | nil => rfl
  | cons a l ih =>
    unfold P.forEach
    rw [hf a (by simp), ih (fun x hx => hf x (List.mem_cons_of_mem _ hx))]
    simp [P.bind]

theorem undeclared_eq {m o : Model V} (hm : (Dict.keys m.cls.children).Nodup) :
    undeclared m o = (m.cls.children.map (fun p => if Dict.has o.cls.children p.1 then 0 else kidCount m p.2)).sum := by
  have key : ∀ l : Dict String, (∀ ct f, (ct, f) ∈ l → Dict.get? m.cls.children ct = some f) →
      (((Dict.keys l).filter (fun ct => !(Dict.keys o.cls.children).contains ct)).map
        (fun ct => (idsListed (some m) ct).length)).sum =
      (l.map (fun p => if Dict.has o.cls.children p.1 then 0 else kidCount m p.2)).sum := by
    intro l
    induction l with
    | nil => intro _; rfl
    | cons p l ih =>
      obtain ⟨ct, f⟩ := p
      intro hl
      have ih := ih (fun ct' f' h => hl ct' f' (List.mem_cons_of_mem _ h))
      have hk : Dict.keys ((ct, f) :: l) = ct :: Dict.keys l := rfl
      rw [hk, List.map_cons, List.sum_cons]
      by_cases hh : Dict.has o.cls.children ct = true
      · have : (Dict.keys o.cls.children).contains ct = true := by simpa using Dict.has_iff.1 hh
        rw [List.filter_cons_of_neg (by rw [this]; simp), ih, if_pos hh, Nat.zero_add]
      · have : (Dict.keys o.cls.children).contains ct = false := by
          cases hc : (Dict.keys o.cls.children).contains ct with
          | false => rfl
          | true => exact absurd (Dict.has_iff.2 (by simpa using hc)) hh
        rw [List.filter_cons_of_pos (by rw [this]; rfl), List.map_cons, List.sum_cons, ih, if_neg hh]
        simp only [idsListed, hl ct f (by simp), kidCount]
  exact key _ (fun ct f h => Dict.get?_of_mem hm h)

theorem pMapping_count {S D : Snap V} (hS : S.Consistent) (hD : D.Consistent) {p : Pos V} (hp : Stored S D p)
    {mp : Dict String} {k : Nat} (h : pMapping p.src p.dst = .ok (mp, k)) : k = p.oneSided := by
  obtain ⟨t, u, s, d⟩ := p
  simp only at h hp
  unfold pMapping at h
  cases s with
  | none => cases d with
    | none => cases h
    | some d => cases h; rfl
  | some s => cases d with
    | none => cases h; rfl
    | some d =>
      have hs := hS.children_nodup _ _ _ (hp.src s rfl)
      have hd := hD.children_nodup _ _ _ (hp.dst d rfl)
      simp only at h
      rw [forEach_count (g := fun p => if Dict.has d.cls.children p.1 then 0 else kidCount s p.2) _ (by
          intro a _; split <;> rfl),
        forEach_count (g := fun p => if Dict.has s.cls.children p.1 then 0 else kidCount d p.2) _ (by
          intro a _; split <;> rfl)] at h
      simp only [P.bind, P.ret] at h
      cases h
      simp only [Pos.oneSided, undeclared_eq hs, undeclared_eq hd, Nat.add_zero]

theorem pPair_passed {C : DiffCtx V} {S D : Snap V} (hS : S.Consistent) (hD : D.Consistent) (hF : SameFields S D) (n : Nat)
    {p : Pos V} (hp : Stored S D p) (hs : p.src ≠ none ∨ p.dst ≠ none) {r : Option (Elem V)} {k : Nat}
    (h : pPair C S D (pList C S D n) p.src p.dst = .ok (r, k)) :
    ∃ j, PassedOver C.flags S D p j ∧ k = weightO r + j := by
  induction n generalizing p r k with
  | zero =>
    cases r with
    | none =>
      have hh : skipPair C.flags p.src p.dst = true ∧ k = 1 := by
        unfold pPair at h
        cases hm : p.src.or p.dst with
        | none => rw [hm] at h; cases h
        | some m =>
          rw [hm] at h
          simp only at h
          split at h
          · rename_i hh; cases h; exact ⟨hh, rfl⟩
          · obtain ⟨_, _, _, _, h, _⟩ := P.bind_eq_ok.1 h
            obtain ⟨_, _, _, _, h, _⟩ := P.bind_eq_ok.1 h
            obtain ⟨_, _, _, _, h, _⟩ := P.bind_eq_ok.1 h
            cases h
      exact ⟨1, .excluded ((skipPair_iff _ _ _ hs).1 hh.1), by simp [weightO, hh.2]⟩
    | some e =>
      obtain ⟨m, mp, kids, k1, k2, hm, hmp, hl, hk, hsk, rfl⟩ := pPair_some h
      obtain ⟨w1, w2, w3, w4⟩ := mapping_spec hS hD hF hp hmp
      have hc := pMapping_count hS hD hp hmp
      have hnil : mp = [] := by
        cases mp with
        | nil => rfl
        | cons x rest =>
          obtain ⟨ct, f⟩ := x
          unfold pChildLoop at hl
          obtain ⟨so, _, _, h1, hl, _⟩ := P.bind_eq_ok.1 hl
          obtain ⟨do', _, _, h2, hl, _⟩ := P.bind_eq_ok.1 hl
          obtain ⟨es, _, _, h3, hl, _⟩ := P.bind_eq_ok.1 hl
          cases h3
      subst hnil
      cases hl
      have hno : ∀ ct, ¬ comparesType p.src p.dst ct := fun ct hc => by
        have := (w4 ct).2 hc; simp [Dict.keys] at this
      have hv : p.Visible C.flags := fun hh => by rw [(skipPair_iff _ _ _ hs).2 hh] at hsk; cases hsk
      refine ⟨_, .shown [] [] hv List.nodup_nil (fun ct => ⟨(fun h => by cases h), fun h => absurd h (hno ct)⟩)
        List.Pairwise.nil (fun c => ⟨(fun h => by cases h), fun h => absurd h.compared (hno _)⟩) (fun _ h => by cases h), ?_⟩
      simp only [weightO, weightL_cons, Elem.sides, Option.isSome_map]
      simp [weightL, nodesL]
      omega
  | succ n ih =>
    cases r with
    | none =>
      have hh : skipPair C.flags p.src p.dst = true ∧ k = 1 := by
        unfold pPair at h
        cases hm : p.src.or p.dst with
        | none => rw [hm] at h; cases h
        | some m =>
          rw [hm] at h
          simp only at h
          split at h
          · rename_i hh; cases h; exact ⟨hh, rfl⟩
          · obtain ⟨_, _, _, _, h, _⟩ := P.bind_eq_ok.1 h
            obtain ⟨_, _, _, _, h, _⟩ := P.bind_eq_ok.1 h
            obtain ⟨_, _, _, _, h, _⟩ := P.bind_eq_ok.1 h
            cases h
      exact ⟨1, .excluded ((skipPair_iff _ _ _ hs).1 hh.1), by simp [weightO, hh.2]⟩
    | some e =>
      obtain ⟨m, mp, kids, k1, k2, hm, hmp, hl, hk, hsk, rfl⟩ := pPair_some h
      obtain ⟨w1, w2, w3, w4⟩ := mapping_spec hS hD hF hp hmp
      have hc := pMapping_count hS hD hp hmp
      have hres := fun ct hct => childLoop_resolved mp w2 w3 hl ct hct
      obtain ⟨qs, q1, q2, q3, q4⟩ := childLoop_count hS hD (T := PassedOver C.flags S D) (p := p) mp w1 w2 w3
        (fun ct u r k _ hs' hpp => ih (p := ⟨ct, u, below S p.src ct u, below D p.dst ct u⟩) Stored.below hs' hpp) hl
      have hv : p.Visible C.flags := fun hh => by rw [(skipPair_iff _ _ _ hs).2 hh] at hsk; cases hsk
      refine ⟨_, .shown (Dict.keys mp) qs hv w1 w4 q1 ?_ q3, ?_⟩
      · intro c
        rw [q2]
        constructor
        · rintro ⟨a, b, c', d'⟩
          refine ⟨(w4 _).1 a, ?_, b, c'⟩
          rcases d' with d' | d'
          · left; rw [b] at d'; exact below_ne_none d'
          · right; rw [c'] at d'; exact below_ne_none d'
        · intro hc
          have hr := hres c.type ((w4 _).2 hc.compared) c.uid
          refine ⟨(w4 _).2 hc.compared, hc.src_eq, hc.dst_eq, ?_⟩
          rcases hc.listed with hl' | hl'
          · left; rw [hc.src_eq, if_pos hl']; exact hr.1 hl'
          · right; rw [hc.dst_eq, if_pos hl']; exact hr.2 hl'
      · have h0 : weightL ([] : List (Elem V)) = 0 := by simp [weightL, nodesL]
        simp only [weightO, weightL_cons, Elem.sides, Option.isSome_map]
        omega

theorem pTypes_passed {C : DiffCtx V} {S D : Snap V} (hS : S.Consistent) (hD : D.Consistent) (hF : SameFields S D) (n : Nat)
    (ts : List String) (hts : ts.Nodup) {kids0 es : List (Elem V)} {k : Nat} (h : pTypes C S D n ts kids0 = .ok (es, k)) :
    ∃ qs : List (Pos V × Nat), DistinctPos (qs.map Prod.fst) ∧
      (∀ c, c ∈ qs.map Prod.fst ↔ c.type ∈ ts ∧ c.src = S.find c.type c.uid ∧ c.dst = D.find c.type c.uid ∧
        (c.src ≠ none ∨ c.dst ≠ none)) ∧
      (∀ x ∈ qs, PassedOver C.flags S D x.1 x.2) ∧ weightL kids0 + k = weightL es + (qs.map Prod.snd).sum := by
  induction ts generalizing kids0 k with
  | nil => cases h; exact ⟨[], List.Pairwise.nil, by simp, by simp, by simp⟩
  | cons t ts ih =>
    unfold pTypes at h
    obtain ⟨es1, k1, _, h1, h, hk⟩ := P.bind_eq_ok.1 h
    obtain ⟨kids', k2, k3, h2, h, hk'⟩ := P.bind_eq_ok.1 h
    have hk2 := (P.lift_eq_ok.1 h2).2
    have h2 := addElems_ok (P.lift_eq_ok.1 h2).1
    subst h2
    obtain ⟨qs2, n2, i2, t2, s2⟩ := ih (List.nodup_cons.1 hts).2 h
    cases n with
    | zero => cases h1
    | succ n =>
      obtain ⟨qs1, n1, i1, t1, e1, s1⟩ := level_count (t := t) (T := PassedOver C.flags S D)
        (get?_byUid_all hS t) (get?_byUid_all hD t)
        (fun u r k hs hp => pPair_passed hS hD hF n (p := ⟨t, u, S.find t u, D.find t u⟩)
          ⟨fun m hm => hm, fun m hm => hm⟩ hs hp) h1
      refine ⟨qs1 ++ qs2, ?_, ?_, ?_, ?_⟩
      · rw [List.map_append]
        unfold DistinctPos
        rw [List.pairwise_append]
        refine ⟨(List.pairwise_map.1 n1).imp (fun hne hc => hne hc.2), n2, ?_⟩
        intro a ha b hb hc
        have ha' := ((i1 a).1 ha).1
        have hb' := ((i2 b).1 hb).1
        rw [← hc.1, ha'] at hb'
        exact (List.nodup_cons.1 hts).1 hb'
      · intro c
        rw [List.map_append, List.mem_append, i1, i2, List.mem_cons]
        constructor
        · rintro (⟨rfl, b⟩ | ⟨a, b⟩)
          · exact ⟨.inl rfl, b⟩
          · exact ⟨.inr a, b⟩
        · rintro ⟨rfl | a, b⟩
          · exact .inl ⟨rfl, b⟩
          · exact .inr ⟨a, b⟩
      · intro x hx
        rcases List.mem_append.1 hx with hx | hx
        · exact t1 x hx
        · exact t2 x hx
      · have a1 := combine_length_src (b := D.all t) (hS.all_nodup t)
        have a2 := combine_length_dst (a := S.all t) (hD.all_nodup t)
        rw [weightL_append] at s2
        rw [List.map_append, List.sum_append]
        omega

theorem pDiff_passed {C : DiffCtx V} {S D : Snap V} (hS : S.Consistent) (hD : D.Consistent) (hF : SameFields S D) {n : Nat}
    (ht : C.dst.topLevel.Nodup) {es : List (Elem V)} {k : Nat} (h : pDiff C S D n = .ok (es, k)) :
    ∃ qs : List (Pos V × Nat), DistinctPos (qs.map Prod.fst) ∧ (∀ c, c ∈ qs.map Prod.fst ↔ IsTop C.src C.dst S D c) ∧
      (∀ x ∈ qs, PassedOver C.flags S D x.1 x.2) ∧
      k = weightL es + topOnly C.dst S D (symmetricDifference C.dst.topLevel C.src.topLevel) + (qs.map Prod.snd).sum := by
  unfold pDiff at h
  obtain ⟨_, k1, k2, h1, h, hk⟩ := P.bind_eq_ok.1 h
  rw [forEach_count (g := fun t => if t ∈ C.dst.topLevel then (D.all t).length else (S.all t).length) _ (by
    intro t ht
    unfold pSkipped
    rcases mem_symmDiff.1 ht with ⟨a, b⟩ | ⟨a, b⟩
    · rw [if_pos (by simpa using a), if_pos a]; rfl
    · rw [if_neg (by simpa using b), if_neg b, if_pos (by simpa using a)]; rfl)] at h1
  cases h1
  obtain ⟨qs, q1, q2, q3, q4⟩ := pTypes_passed hS hD hF n _ (intersection_nodup ht) h
  refine ⟨qs, q1, ?_, q3, ?_⟩
  · intro c
    rw [q2, mem_intersection]
    constructor
    · rintro ⟨⟨a1, a2⟩, b, c', d⟩
      exact ⟨a2, a1, b, c', d⟩
    · rintro ⟨a2, a1, b, c', d⟩
      exact ⟨⟨a1, a2⟩, b, c', d⟩
  · have h0 : weightL ([] : List (Elem V)) = 0 := by simp [weightL, nodesL]
    unfold topOnly
    omega

end DS
