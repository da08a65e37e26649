import Verif.Lemmas.Mirror
/-! What must hold when a diff returns: none of the `DiffProblem`s. -/
set_option linter.unusedSectionVars false

namespace DS
variable {V E : Type} [PyVal V]

theorem pChildModels_complete {X : Snap V} {o : Option (Model V)} {ct f : String} {ms : List (Model V)} {k : Nat}
    (h : pChildModels X o ct f = .ok (ms, k)) : ∀ m, o = some m → m.kidList f ≠ none := by
  rintro m rfl hn
  unfold pChildModels at h
  simp only [hn] at h
  cases h

theorem childLoop_complete {S D : Snap V} {rec : List (Model V) → List (Model V) → P (List (Elem V))}
    {s d : Option (Model V)} {mapping : Dict String} {kids0 kids : List (Elem V)} {k : Nat}
    (h : pChildLoop S D rec s d mapping kids0 = .ok (kids, k)) :
    ∀ ct f, (ct, f) ∈ mapping → (∀ m, s = some m → m.kidList f ≠ none) ∧ (∀ m, d = some m → m.kidList f ≠ none) := by
  induction mapping generalizing kids0 k with
  | nil => simp
  | cons x rest ih =>
    obtain ⟨ct', f'⟩ := x
    unfold pChildLoop at h
    obtain ⟨so, _, _, h1, h, _⟩ := P.bind_eq_ok.1 h
    obtain ⟨do', _, _, h2, h, _⟩ := P.bind_eq_ok.1 h
    obtain ⟨es, _, _, h3, h, _⟩ := P.bind_eq_ok.1 h
    obtain ⟨kids', _, _, h4, h, _⟩ := P.bind_eq_ok.1 h
    intro ct f hm
    rcases List.mem_cons.1 hm with heq | hm
    · cases heq
      exact ⟨pChildModels_complete h1, pChildModels_complete h2⟩
    · exact ih h ct f hm

section
variable {C : DiffCtx V} {S D : Snap V} (hS : S.Consistent) (hD : D.Consistent) (hF : SameFields S D)
include hS hD hF

theorem pPair_inv {n : Nat} {p : Pos V} (hp : Stored S D p) {x : Elem V} {k : Nat}
    (h : pPair C S D (pList C S D n) p.src p.dst = .ok (some x, k)) :
    ¬ p.Incomplete ∧ (∀ ct, comparesType p.src p.dst ct → n ≠ 0) ∧
    (∀ c, IsChild S D p c → c.Visible C.flags → (c.src ≠ none ∨ c.dst ≠ none) →
      ∃ n' x' k', n = n' + 1 ∧ pPair C S D (pList C S D n') c.src c.dst = .ok (some x', k')) := by
  have hside : p.src ≠ none ∨ p.dst ≠ none := by
    unfold pPair at h
    cases hs : p.src with
    | some s => simp
    | none => cases hd : p.dst with
      | some d => simp
      | none => rw [hs, hd] at h; cases h
  obtain ⟨m, mp, kids, k1, k2, hm, h1, h2, _, _, _⟩ := pPair_some h
  obtain ⟨w1, w2, w3, w4⟩ := mapping_spec hS hD hF hp h1
  have hcomp := childLoop_complete h2
  have hkey : ∀ ct, comparesType p.src p.dst ct → ct ∈ Dict.keys mp := fun ct hct => (w4 ct).2 hct
  refine ⟨?_, ?_, ?_⟩
  · rintro ⟨ct, f, m', hct, hside', hf, hk⟩
    obtain ⟨f', hf'⟩ := Dict.mem_keys_iff.1 (hkey ct hct)
    have hmem : (ct, f') ∈ mp := Dict.mem_of_get? hf'
    rcases hside' with hs | hs
    · have := w2 ct f' hmem m' hs
      rw [hf] at this; cases this
      exact (hcomp ct f hmem).1 m' hs hk
    · have := w3 ct f' hmem m' hs
      rw [hf] at this; cases this
      exact (hcomp ct f hmem).2 m' hs hk
  · rintro ct hct rfl
    have := hkey ct hct
    cases mp with
    | nil => simp [Dict.keys] at this
    | cons a mp =>
      obtain ⟨ct', f'⟩ := a
      unfold pChildLoop at h2
      obtain ⟨so, _, _, _, h2, _⟩ := P.bind_eq_ok.1 h2
      obtain ⟨do', _, _, _, h2, _⟩ := P.bind_eq_ok.1 h2
      obtain ⟨es, _, _, h3, _, _⟩ := P.bind_eq_ok.1 h2
      cases h3
  · intro c hc hv hs
    have hcm := hkey c.type hc.compared
    cases n with
    | zero =>
      exfalso
      cases mp with
      | nil => simp [Dict.keys] at hcm
      | cons a mp =>
        obtain ⟨ct', f'⟩ := a
        unfold pChildLoop at h2
        obtain ⟨so, _, _, _, h2, _⟩ := P.bind_eq_ok.1 h2
        obtain ⟨do', _, _, _, h2, _⟩ := P.bind_eq_ok.1 h2
        obtain ⟨es, _, _, h3, _, _⟩ := P.bind_eq_ok.1 h2
        cases h3
    | succ n =>
      obtain ⟨es, ps, _, hM, _, hi, _⟩ := childLoop_ok hS hD
        (R := fun e q => ∃ k, pPair C S D (pList C S D n) q.src q.dst = .ok (some e, k)) mp w1 w2 w3
        (fun ct u e k _ _ _ _ h => ⟨k, h⟩) h2
      obtain ⟨x', _, hx⟩ := zip_mem_right hM.1 ((hi c).2 ⟨hcm, hc.src_eq, hc.dst_eq, hs, hv⟩)
      obtain ⟨k', hk'⟩ := hM.2 _ hx
      exact ⟨n, x', k', rfl, hk'⟩

theorem pTypes_inv {n : Nat} {ts : List String} {kids0 es : List (Elem V)} {k : Nat}
    (h : pTypes C S D n ts kids0 = .ok (es, k)) {c : Pos V} (hc : c.type ∈ ts) (h1 : c.src = S.find c.type c.uid)
    (h2 : c.dst = D.find c.type c.uid) (hs : c.src ≠ none ∨ c.dst ≠ none) (hv : c.Visible C.flags) :
    ∃ n' x k, n = n' + 1 ∧ pPair C S D (pList C S D n') c.src c.dst = .ok (some x, k) := by
  induction ts generalizing kids0 k with
  | nil => simp at hc
  | cons t ts ih =>
    unfold pTypes at h
    obtain ⟨es', _, _, g1, h, _⟩ := P.bind_eq_ok.1 h
    obtain ⟨kids', _, _, g2, h, _⟩ := P.bind_eq_ok.1 h
    rcases List.mem_cons.1 hc with rfl | hc
    · cases n with
      | zero => cases g1
      | succ n =>
        obtain ⟨ps, hM, _, hi, _⟩ := level_ok (t := c.type)
          (R := fun e q => ∃ k, pPair C S D (pList C S D n) q.src q.dst = .ok (some e, k))
          (get?_byUid_all hS c.type) (get?_byUid_all hD c.type) (fun u e k _ _ _ h => ⟨k, h⟩) g1
        obtain ⟨x', _, hx⟩ := zip_mem_right hM.1 ((hi c).2 ⟨rfl, h1, h2, hs, hv⟩)
        obtain ⟨k', hk'⟩ := hM.2 _ hx
        exact ⟨n, x', k', rfl, hk'⟩
    · exact ih h hc

theorem pDiff_places {N : Nat} {es : List (Elem V)} {k : Nat} (h : pDiff C S D N = .ok (es, k)) {j : Nat} {p : Pos V}
    (hp : ComparedAt C.src C.dst C.flags S D j p) : p.Visible C.flags → (p.src ≠ none ∨ p.dst ≠ none) →
    ∃ n' x k, N = n' + 1 + j ∧ pPair C S D (pList C S D n') p.src p.dst = .ok (some x, k) := by
  induction hp with
  | @top c ht =>
    intro hv hs
    unfold pDiff at h
    obtain ⟨_, _, _, _, h, _⟩ := P.bind_eq_ok.1 h
    obtain ⟨n', x, k, e1, e2⟩ := pTypes_inv hS hD hF h (mem_intersection.2 ⟨ht.dst_top, ht.src_top⟩) ht.src_eq ht.dst_eq hs hv
    exact ⟨n', x, k, by omega, e2⟩
  | @child j p c hp hv hc ih =>
    intro hvc hs
    have hsp : p.src ≠ none ∨ p.dst ≠ none := by
      rcases hc.listed with hl | hl
      · left; intro he; rw [he] at hl; simp [listsO] at hl
      · right; intro he; rw [he] at hl; simp [listsO] at hl
    obtain ⟨n', x, k, e1, e2⟩ := ih hv hsp
    have hst : Stored S D p := by
      cases hp with
      | top ht => exact isTop_stored ht
      | child _ _ hc => exact isChild_stored hc
    obtain ⟨n'', x', k', e3, e4⟩ := (pPair_inv hS hD hF hst e2).2.2 c hc hvc hs
    exact ⟨n'', x', k', by omega, e4⟩

/-- A diff that returns has none of the problems. -/
theorem pDiff_no_problem {N : Nat} {es : List (Elem V)} {k : Nat} (ht : C.dst.topLevel.Nodup) (h : pDiff C S D N = .ok (es, k)) (e : Err) :
    ¬ DiffProblem C.src C.dst C.flags S D N e := by
  intro hp
  have hd := pDiff_describes hS hD hF ht h
  have hstored : ∀ {j p}, ComparedAt C.src C.dst C.flags S D j p → Stored S D p := by
    intro j p hp
    cases hp with
    | top ht => exact isTop_stored ht
    | child _ _ hc => exact isChild_stored hc
  cases e with
  | objectNotFound =>
    obtain ⟨p, hp, hv, ct, u, hct, hl⟩ := hp
    obtain ⟨x, _, hx⟩ := hd.complete hp hv
    obtain ⟨r1, r2⟩ := hx.good.resolved ct u hct
    rcases hl with ⟨a, b⟩ | ⟨a, b⟩
    · exact r1 a b
    · exact r2 a b
  | valueError =>
    obtain ⟨p, hp, s, d, hs, hdd, hu⟩ := hp
    have hv := hd.validated hp
    rw [hs, hdd] at hv
    unfold validatePair at hv
    simp only at hv
    split at hv
    · cases hv
    · split at hv
      · cases hv
      · split at hv
        · rename_i g1 g2 g3
          rcases hu with hu | hu | hu
          · exact g1 (by simpa using hu)
          · exact g2 (by simpa using hu)
          · rw [g3] at hu; cases hu
        · cases hv
  | objectAlreadyExists =>
    obtain ⟨c, c', hv, hv', ⟨ht1, hu, m, m', hm, hm', hsn⟩, hwhere⟩ := hp
    have key : ∀ (es : List (Elem V)) (ps : List (Pos V)), UniqueNames es → es.length = ps.length →
        (∀ x ∈ es.zip ps, DescribesG C.src C.dst C.flags S D x.1 x.2) → DistinctPos ps → c ∈ ps → c' ∈ ps → False := by
      intro es ps hun hl hz hdp hc hc'
      induction es generalizing ps with
      | nil => cases ps <;> simp_all
      | cons e es ih =>
        match ps, hl, hz, hdp, hc, hc' with
        | p :: ps, hl, hz, hdp, hc, hc' =>
          obtain ⟨u1, u2⟩ := List.pairwise_cons.1 hun
          obtain ⟨d1, d2⟩ := List.pairwise_cons.1 hdp
          have hz0 := hz (e, p) (by simp)
          have hzr : ∀ x ∈ es.zip ps, DescribesG C.src C.dst C.flags S D x.1 x.2 :=
            fun x hx => hz x (by rw [List.zip_cons_cons]; exact List.mem_cons_of_mem _ hx)
          have clash : ∀ (a b : Pos V) (ma mb : Model V), a = p → b ∈ ps → a.type = b.type → a.src.or a.dst = some ma →
              b.src.or b.dst = some mb → ma.shortname = mb.shortname → False := by
            intro a b ma mb ha hb htab hma hmb hsn
            subst ha
            obtain ⟨y, hy, hyb⟩ := zip_mem_right (by simpa using hl) hb
            have hyh := (hzr _ hyb).header
            refine u1 y hy ⟨?_, ?_⟩
            · exact hz0.header.type_eq.trans (htab.trans hyh.type_eq.symm)
            · exact (hz0.header.name_eq ma hma).1.trans (hsn.trans (hyh.name_eq mb hmb).1.symm)
          rcases List.mem_cons.1 hc with h1 | h1
          · rcases List.mem_cons.1 hc' with h2 | h2
            · exact hu (by rw [h1, h2])
            · exact clash c c' m m' h1 h2 ht1 hm hm' hsn
          · rcases List.mem_cons.1 hc' with h2 | h2
            · exact clash c' c m' m h2 h1 ht1.symm hm' hm hsn.symm
            · exact ih ps u2 (by simpa using hl) hzr d2 h1 h2
    rcases hwhere with ⟨h1, h2⟩ | ⟨p, hp, hvp, h1, h2⟩
    · obtain ⟨hun, _, ps, hdp, hps, hl, hz⟩ := hd
      exact key es ps hun hl hz hdp ((hps c).2 ⟨h1, hv⟩) ((hps c').2 ⟨h2, hv'⟩)
    · obtain ⟨x, _, hx⟩ := hd.complete hp hvp
      cases hx with
      | mk ps _ _ hdp hps _ hun hl hz =>
        exact key x.kids ps hun hl hz hdp ((hps c).2 ⟨h1, hv⟩) ((hps c').2 ⟨h2, hv'⟩)
  | attributeError =>
    obtain ⟨p, hp, hv, hinc⟩ := hp
    obtain ⟨j, hj⟩ := hp.at
    have hs : p.src ≠ none ∨ p.dst ≠ none := by
      obtain ⟨_, _, m, _, h1 | h1, _⟩ := hinc
      · left; rw [h1]; simp
      · right; rw [h1]; simp
    obtain ⟨n', x, k, _, e2⟩ := pDiff_places hS hD hF h hj hv hs
    exact (pPair_inv hS hD hF (hstored hj) e2).1 hinc
  | recursionError =>
    rcases hp with ⟨h0, t, t1, t2⟩ | ⟨j, p, hj, hp, hv, hs, ct, hct⟩
    · subst h0
      unfold pDiff at h
      obtain ⟨_, _, _, _, h, _⟩ := P.bind_eq_ok.1 h
      have hm : t ∈ intersection C.dst.topLevel C.src.topLevel := mem_intersection.2 ⟨t2, t1⟩
      revert h hm
      generalize intersection C.dst.topLevel C.src.topLevel = ts
      intro h hm
      cases ts with
      | nil => simp at hm
      | cons a ts =>
        unfold pTypes at h
        obtain ⟨_, _, _, h, _, _⟩ := P.bind_eq_ok.1 h
        cases h
    · obtain ⟨n', x, k, e1, e2⟩ := pDiff_places hS hD hF h hp hv hs
      exact (pPair_inv hS hD hF (hstored hp) e2).2.1 ct hct (by omega)
  | _ => exact hp
end

end DS
