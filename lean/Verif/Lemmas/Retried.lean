import Verif.Props.Along
/-! # Contents after attempts: what takes no part, and what a successful attempt makes of the rest -/
set_option linter.unusedSectionVars false

namespace DS
variable {V E : Type} [PyVal V]
variable {src dst : Adapter V} {n flags : Nat} {S D D1 D2 T T1 : Snap V}

/-- What attempts leave of the objects that take no part. -/
structure Bystand (src dst : Adapter V) (flags : Nat) (S D D1 : Snap V) : Prop where
  gone : ∀ k : Key, ¬ Shown src dst flags S D k → D.find k.1 k.2 ≠ none → D1.find k.1 k.2 = none → BelowDeleted src dst flags S D k
  same : ∀ (k : Key) m0 m, ¬ Shown src dst flags S D k → D.find k.1 k.2 = some m0 → D1.find k.1 k.2 = some m →
    m.cls = m0.cls ∧ m.flags = m0.flags ∧ m.vals = m0.vals ∧ ∀ ct u, m.lists ct u = m0.lists ct u

theorem Bystand.refl : Bystand src dst flags S D D where
  gone _ _ h h' := absurd h' h
  same k m0 m _ h h' := by rw [h] at h'; cases h'; exact ⟨rfl, rfl, rfl, fun _ _ => rfl⟩

/-- One attempt. -/
theorem CanConverge.bystand {rl sid : Nat} {dc : DiffClass V} {hooks : Hooks V E} {w w' : World V E} {res : Except Err (Diff V)} (h : CanConverge n src dst sid w) (hrl : n ≤ rl)
    (hs : syncFrom n rl hooks dst src dc flags none w = (res, w')) :
    Bystand src dst flags (snap src w) (snap dst w) (snap dst w') := by
  have hP : Partly src dst flags (snap src w) (snap dst w) (snap dst w') := h.attempt hrl hs
  have hdel : ∀ {k0}, Did dst (newEvents w w') .delete k0 → ToDelete src dst flags (snap src w) (snap dst w) k0 := fun hd => C98_deletes h hrl hs hd
  obtain ⟨d, ⟨w1, hd⟩, h2, hcls, h4, h5, _⟩ := h.sync hrl hs
  have ha : After src dst n sid flags w w' d.kids := ⟨h, h2, h4, h5⟩
  have hgone : ∀ {c : Key}, ¬ Shown src dst flags (snap src w) (snap dst w) c → (snap dst w).find c.1 c.2 ≠ none → (snap dst w').find c.1 c.2 = none →
      ∃ k0, Did dst (newEvents w w') .delete k0 ∧ TakesAlong (snap dst w) k0 ∧ ListedBelow (snap dst w) k0 c := by
    intro c hc hDc hn
    have hn' : fr sid w' c = none := by
      rw [show (snap dst w').find c.1 c.2 = (snap dst w').at c from rfl, snap_at h.ready.store] at hn
      simpa using hn
    obtain ⟨k0, g1, out, g2, g3⟩ := (h.whole hrl hs).gone c hDc hn'
    have hdid : Did dst (newEvents w w') .delete k0 := ⟨_, out, g2, rfl, rfl, .inr ⟨by simp [CrudCall.act], g3⟩⟩
    rcases g1 with rfl | ⟨g1, g4⟩
    · exact absurd (hdel hdid).1 hc
    · exact ⟨k0, hdid, g1, g4.listed⟩
  refine ⟨fun k hk hD hn => ?_, fun k m0 m hk hD hm => ?_⟩
  · obtain ⟨k0, g1, g2, g3⟩ := hgone hk hD hn
    exact ⟨k0, hdel g1, g2, g3⟩
  have up : ∀ {c : Key}, Linked (snap src w) (snap dst w) k c → ¬ Shown src dst flags (snap src w) (snap dst w) c := by
    intro c hkc hc
    obtain ⟨e, e', he, he', h1, _⟩ := ha.edge_of hkc (ha.shown_iff.1 hc)
    exact hk (ha.shown_iff.2 ⟨e, he, h1⟩)
  obtain ⟨c1, c2, _⟩ := hP.kept k m0 m hD hm
  refine ⟨c1, c2, ?_, fun ct u => ?_⟩
  · refine Classical.byContradiction (fun hne => ?_)
    rcases (C28_only_success_changes_contents h.ready.dst h.applicable hs k.1 k.2).2.2 (by rw [hD]; simp) m0 m hD hm hne with ⟨ids, attrs, out, i1, _, i3⟩ | ⟨attrs, out, i1, _⟩
    · exact hk (h.call_about hrl hs i1 i3).1
    · exact hk (h.call_about (k := k) hrl hs i1 rfl).1
  have e := hP.lists k (ct, u)
  rw [hm] at e
  have e : m.lists ct u = true ↔ some m ≠ none ∧ (snap dst w').find ct u ≠ none ∧ Linked (snap src w) (snap dst w) k (ct, u) := e
  refine Bool.eq_iff_iff.2 (e.trans ⟨?_, ?_⟩)
  · rintro ⟨_, i1, i2⟩
    have hc := up i2
    have hx : listsO ((snap dst w).find k.1 k.2) ct u = true := by
      rcases i2 with i2 | i2
      · refine h.reconcilable.src_place k (ct, u) i2 (fun hn => ?_)
        obtain ⟨m', hm'⟩ := Option.ne_none_iff_exists'.1 i1
        exact hc (hP.new (ct, u) m' hn hm').1
      · exact i2
    rw [hD] at hx
    exact hx
  · intro hx
    have hx : listsO ((snap dst w).find k.1 k.2) ct u = true := by rw [hD]; exact hx
    refine ⟨by simp, fun hn => ?_, .inr hx⟩
    obtain ⟨k0, g1, g2, g3⟩ := hgone (up (.inr hx)) (h.reconcilable.dst_stored k (ct, u) hx) hn
    cases g3 with
    | child hl' =>
      cases h.reconcilable.one_parent _ _ _ (.inr hl') (.inr hx)
      exact hk (hdel g1).1
    | step hb hl' =>
      cases h.reconcilable.one_parent _ _ _ (.inr hl') (.inr hx)
      rcases C98_subtree h hrl hs (hdel g1).2.1 g2 with q | q
      · exact q (ct, u) (.inr (.step hb hl')) hn
      · rw [q k (.inr hb)] at hm; cases hm

section
variable (R : Reconcilable src dst n S D) (hi : InstOf dst D) (P : Partly src dst flags S D D1) (R1 : Reconcilable src dst n S D1) (hi1 : InstOf dst D1)
include R hi P R1 hi1

theorem Partly.shown {k : Key} (h : Shown src dst flags S D1 k) : Shown src dst flags S D k :=
  (shown_iff_reached R hi).2 (P.back R hi ((shown_iff_reached R1 hi1).1 h))

/-- Attempts after attempts. -/
theorem Bystand.trans (A : Bystand src dst flags S D D1) (A1 : Bystand src dst flags S D1 D2) (P1 : Partly src dst flags S D1 D2) : Bystand src dst flags S D D2 := by
  have sh : ∀ {k}, Shown src dst flags S D1 k → Shown src dst flags S D k := fun h => P.shown R hi R1 hi1 h
  refine ⟨fun k hk hD hn => ?_, fun k m0 m hk hD hm => ?_⟩
  · by_cases h1 : D1.find k.1 k.2 = none
    · exact A.gone k hk hD h1
    · obtain ⟨k0, ⟨g1, g2, g3⟩, ⟨m1, g4, g5⟩, g6⟩ := A1.gone k (fun h => hk (sh h)) h1 hn
      cases h0 : D.find k0.1 k0.2 with
      | none =>
        obtain ⟨_, s, _, i1, _⟩ := P.new k0 m1 h0 g4
        rw [g2] at i1; cases i1
      | some m0 =>
        exact ⟨k0, ⟨sh g1, g2, by rw [h0]; simp⟩, ⟨m0, h0, by rw [← (P.kept k0 m0 m1 h0 g4).2.1]; exact g5⟩, P.listedBelow R hi g6 hD h1⟩
  · cases h1 : D1.find k.1 k.2 with
    | none =>
      obtain ⟨g, _⟩ := P1.new k m h1 hm
      exact absurd (sh g) hk
    | some m1 =>
      obtain ⟨a1, a2, a3, a4⟩ := A.same k m0 m1 hk hD h1
      obtain ⟨b1, b2, b3, b4⟩ := A1.same k m1 m (fun h => hk (sh h)) h1 hm
      exact ⟨b1.trans a1, b2.trans a2, b3.trans a3, fun ct u => (b4 ct u).trans (a4 ct u)⟩
end

/-- Any number of attempts. -/
theorem Attempts.bystand {rl sid : Nat} {w w1 : World V E} (h : CanConverge n src dst sid w) (hkeep : KeepsValuesOf dst (snap src w)) (hrl : n ≤ rl)
    (hs : Attempts n rl src dst flags w w1) : Bystand src dst flags (snap src w) (snap dst w) (snap dst w1) := by
  induction hs with
  | nil => exact .refl
  | @sync w1 w' hooks dc res h1 h2 ih =>
    obtain ⟨i1, i2, P⟩ := h1.partly h hkeep hrl
    have B := i1.bystand hrl h2
    have P1 := i1.attempt hrl h2
    have R1 := i1.reconcilable
    rw [i2] at B P1 R1
    exact ih.trans h.reconcilable h.ready.instOf P R1 i1.ready.instOf B P1

/-- What is below an object that the source does not have is not in the source either. -/
theorem Reconcilable.below_absent (R : Reconcilable src dst n S D) {k0 k : Key} (hb : ListedBelow D k0 k) (hS : S.find k0.1 k0.2 = none) : S.find k.1 k.2 = none := by
  induction hb with
  | child hl => exact Classical.byContradiction (fun h => listsO_some (R.dst_place _ _ hl h) hS)
  | step _ hl ih => exact Classical.byContradiction (fun h => listsO_some (R.dst_place _ _ hl h) ih)

/-- What goes along with an object stays as a whole or goes as a whole. -/
theorem Attempts.whole {rl sid : Nat} {w w1 : World V E} (h : CanConverge n src dst sid w) (hkeep : KeepsValuesOf dst (snap src w)) (hrl : n ≤ rl)
    (ha : Attempts n rl src dst flags w w1) {k0 : Key} (hS : (snap src w).find k0.1 k0.2 = none) (hf : TakesAlong (snap dst w) k0) :
    (∀ k, k = k0 ∨ ListedBelow (snap dst w) k0 k → (snap dst w1).find k.1 k.2 ≠ none) ∨ (∀ k, k = k0 ∨ ListedBelow (snap dst w) k0 k → (snap dst w1).find k.1 k.2 = none) := by
  have hSb : ∀ k, k = k0 ∨ ListedBelow (snap dst w) k0 k → (snap src w).find k.1 k.2 = none := by
    rintro k (rfl | hb)
    · exact hS
    · exact h.reconcilable.below_absent hb hS
  induction ha with
  | nil =>
    refine .inl ?_
    rintro k (rfl | hb)
    · obtain ⟨m, hm, _⟩ := hf
      rw [hm]; simp
    · cases hb with
      | child hl => exact h.reconcilable.dst_stored _ k hl
      | step _ hl => exact h.reconcilable.dst_stored _ k hl
  | @sync w1 w' hooks dc res ha hs ih =>
    obtain ⟨i1, i2, P⟩ := ha.partly h hkeep hrl
    rcases ih with g | g
    · have hf1 : TakesAlong (snap dst w1) k0 := by
        obtain ⟨m0, h0, hfl⟩ := hf
        obtain ⟨m, hm⟩ := Option.ne_none_iff_exists'.1 (g k0 (.inl rfl))
        exact ⟨m, hm, by rw [(P.kept k0 m0 m h0 hm).2.1]; exact hfl⟩
      have hb1 : ∀ {k}, ListedBelow (snap dst w) k0 k → ListedBelow (snap dst w1) k0 k := by
        intro k hb
        induction hb with
        | @child c hl => exact .child ((P.lists k0 c).2 ⟨g k0 (.inl rfl), g c (.inr (.child hl)), .inr hl⟩)
        | @step c c' hb hl ih => exact .step ih ((P.lists c c').2 ⟨g c (.inr hb), g c' (.inr (.step hb hl)), .inr hl⟩)
      exact (C98_subtree i1 hrl hs (by rw [i2]; exact hS) hf1).imp (fun q k hk => q k (hk.imp id hb1)) (fun q k hk => q k (hk.imp id hb1))
    · refine .inr (fun k hk => ?_)
      refine Classical.byContradiction (fun hne => ?_)
      obtain ⟨m, hm⟩ := Option.ne_none_iff_exists'.1 hne
      obtain ⟨_, s, _, g1, _⟩ := (i1.attempt hrl hs).new k m (g k hk) hm
      rw [i2, hSb k hk] at g1; cases g1

theorem sameO_of {m m' : Model V} (sm : Sound m) (sm' : Sound m') (g1 : m'.cls = m.cls) (g2 : m'.flags = m.flags) (g3 : ∀ f ∈ m.cls.fieldNames, Dict.get? m'.vals f = Dict.get? m.vals f)
    (hl : ∀ ct x, m'.lists ct x = true ↔ m.lists ct x = true) : SameO (some m) (some m') := by
  have ei : ∀ f ∈ m.cls.identifiers, Dict.get? m'.vals f = Dict.get? m.vals f := fun f hf => g3 f (sm.valid.ids_fields f hf)
  refine .both ⟨g1, g2, identifiers_congr g1 sm'.vals sm ei,
    shortname_congr (by rw [g1]) (uid_of_vals g1 ei) (fun f hf => strField_congr (g3 f (sm.valid.short_fields f hf))),
    attrs_congr g1 sm sm' (fun f hf => g3 f (sm.valid.attrs_fields f hf)), fun ct f hf => ?_⟩
  obtain ⟨l, hl1, hl2⟩ := sm.lists ct f hf
  obtain ⟨l', hl1', hl2'⟩ := sm'.lists ct f (by rw [g1]; exact hf)
  rw [hl1, hl1']
  refine (List.perm_ext_iff_of_nodup hl2 hl2').2 (fun x => ?_)
  have := hl ct x
  unfold Model.lists at this
  rw [g1, hf] at this
  simp only [hl1, hl1', List.contains_iff_mem] at this
  exact this.symm

section
variable (R : Reconcilable src dst n S D) (hi : InstOf dst D) (P : Partly src dst flags S D D1) (R1 : Reconcilable src dst n S D1) (hi1 : InstOf dst D1) (hc : Steady dst) (hkeep : KeepsValuesOf dst S)
  (Y : Synced src dst flags S D T) (Y1 : Synced src dst flags S D1 T1) (PT : Partly src dst flags S D T) (P1 : Partly src dst flags S D1 T1) (P2 : Partly src dst flags S D T1)
  (BT : Bystand src dst flags S D T) (B2 : Bystand src dst flags S D T1)
  (hBD : ∀ k : Key, BelowDeleted src dst flags S D k → T.find k.1 k.2 = none)
  (hW : ∀ k0 k : Key, S.find k0.1 k0.2 = none → TakesAlong D k0 → ListedBelow D k0 k → T1.find k.1 k.2 ≠ none → T1.find k0.1 k0.2 ≠ none)
include R hi P R1 hi1 hc hkeep Y Y1 PT P1 P2 BT B2 hBD hW

theorem retried_cases (k : Key) : (T.find k.1 k.2 = none ∧ T1.find k.1 k.2 = none) ∨
    (¬ Shown src dst flags S D k ∧ ∃ m0 m m', D.find k.1 k.2 = some m0 ∧ T.find k.1 k.2 = some m ∧ T1.find k.1 k.2 = some m') ∨
    (Shown src dst flags S D k ∧ S.find k.1 k.2 ≠ none ∧ ∃ m m', T.find k.1 k.2 = some m ∧ T1.find k.1 k.2 = some m' ∧ m'.cls = m.cls ∧ m'.flags = m.flags ∧ ∀ f ∈ m.cls.fieldNames, Dict.get? m'.vals f = Dict.get? m.vals f) ∨
    (T.find k.1 k.2 = none ∧ S.find k.1 k.2 = none ∧ (Shown src dst flags S D k ∧ ¬ Shown src dst flags S D1 k ∨ BelowDeleted src dst flags S D k ∧ ¬ Shown src dst flags S D k) ∧
      ∃ m0 m, D.find k.1 k.2 = some m0 ∧ T1.find k.1 k.2 = some m) := by
  have hb : Shown src dst flags S D1 k → Shown src dst flags S D k := fun h =>
    (shown_iff_reached R hi).2 (P.back R hi ((shown_iff_reached R1 hi1).1 h))
  by_cases hk : Shown src dst flags S D k
  · cases hs : S.find k.1 k.2 with
    | none =>
      by_cases hk1 : Shown src dst flags S D1 k
      · exact .inl ⟨Y.deleted k hk hs, Y1.deleted k hk1 hs⟩
      · cases h1 : T1.find k.1 k.2 with
        | none => exact .inl ⟨Y.deleted k hk hs, rfl⟩
        | some m1 =>
          cases h0 : D.find k.1 k.2 with
          | none =>
            obtain ⟨_, s, _, g1, _⟩ := P2.new k m1 h0 h1
            rw [hs] at g1; cases g1
          | some m0 => exact .inr (.inr (.inr ⟨Y.deleted k hk hs, rfl, .inl ⟨hk, hk1⟩, m0, m1, rfl, rfl⟩))
    | some s =>
      have hk1 : Shown src dst flags S D1 k := (shown_iff_reached R1 hi1).2 (P.forth R hi hc.made ((shown_iff_reached R hi).1 hk) (by rw [hs]; simp))
      have hss := R.sound k s (.inl hs)
      refine .inr (.inr (.inl ⟨hk, by simp, ?_⟩))
      cases h0 : D.find k.1 k.2 with
      | none =>
        obtain ⟨c, m, g1, g2, g3, g4, g5⟩ := Y.created k s hk hs h0
        cases h1 : D1.find k.1 k.2 with
        | none =>
          obtain ⟨c', m', g1', g2', g3', g4', g5'⟩ := Y1.created k s hk1 hs h1
          cases g1.symm.trans g1'
          refine ⟨m, m', g2, g2', by rw [g3, g3'], by rw [g4, g4'], fun f hf => ?_⟩
          rw [g3] at hf
          obtain ⟨⟨f', d⟩, hfd, rfl⟩ := List.mem_map.1 hf
          rw [g5 f' d hfd, g5' f' d hfd]
        | some m1 =>
          obtain ⟨_, s', c', i1, i2, i3, i4, i5⟩ := P.new k m1 h0 h1
          cases hs.symm.trans i1
          cases g1.symm.trans i2
          obtain ⟨m', j1, j2, j3, _, j5⟩ := Y1.updated k s m1 hk1 hs h1
          refine ⟨m, m', g2, j1, by rw [j2, i3, g3], by rw [j3, i4, g4], fun f hf => ?_⟩
          rw [g3] at hf
          obtain ⟨⟨f', d⟩, hfd, rfl⟩ := List.mem_map.1 hf
          rw [j5 f' (new_no_differs hss (hkeep k s c hs g1) (R1.sound k m1 (.inr h1)) i3 i5 f'), i5 f' d hfd, g5 f' d hfd]
      | some m0 =>
        obtain ⟨m, g1, g2, g3, g4, g5⟩ := Y.updated k s m0 hk hs h0
        cases h1 : D1.find k.1 k.2 with
        | none => rw [P.gone k (by rw [h0]; simp) h1] at hs; cases hs
        | some m1 =>
          obtain ⟨i1, i2, i3⟩ := P.kept k m0 m1 h0 h1
          obtain ⟨m', j1, j2, j3, j4, j5⟩ := Y1.updated k s m1 hk1 hs h1
          have i3' : ∀ f, Dict.get? m1.vals f = Dict.get? m0.vals f ∨ ∃ a, Differs s m0 f a ∧ Dict.get? m1.vals f = some a := by
            intro f
            rcases i3 f with h | ⟨s', a, g1, g2, g3⟩
            · exact .inl h
            · cases hs.symm.trans g1; exact .inr ⟨a, g2, g3⟩
          refine ⟨m, m', g1, j1, by rw [j2, i1, g2], by rw [j3, i2, g3], fun f _ => ?_⟩
          by_cases hx : ∃ a, Differs s m0 f a
          · obtain ⟨a, ha⟩ := hx
            rw [g4 f a ha]
            by_cases hy : ∃ a', Differs s m1 f a'
            · obtain ⟨a', ha'⟩ := hy
              rw [j4 f a' ha']
              exact ha'.1.symm.trans ha.1
            · rw [j5 f (fun a' h' => hy ⟨a', h'⟩)]
              rcases i3' f with h | ⟨a'', h, h'⟩
              · exfalso
                obtain ⟨q1, b, q2, q3⟩ := ha
                exact hy ⟨a, q1, b, by rw [attrs_get i1 h]; exact q2, q3⟩
              · rw [h']; exact h.1.symm.trans ha.1
          · rw [g5 f (fun a h => hx ⟨a, h⟩), j5 f (fun a h => hx ⟨a, differs_back i1 (i3' f) h⟩)]
            rcases i3' f with h | ⟨a, h, _⟩
            · exact h
            · exact absurd ⟨a, h⟩ hx
  · cases h0 : D.find k.1 k.2 with
    | none =>
      refine .inl ⟨?_, ?_⟩
      · exact Classical.byContradiction (fun h => by obtain ⟨m, hm⟩ := Option.ne_none_iff_exists'.1 h; exact hk (PT.new k m h0 hm).1)
      · exact Classical.byContradiction (fun h => by obtain ⟨m, hm⟩ := Option.ne_none_iff_exists'.1 h; exact hk (P2.new k m h0 hm).1)
    | some m0 =>
      cases ht : T.find k.1 k.2 with
      | none =>
        cases h1 : T1.find k.1 k.2 with
        | none => exact .inl ⟨rfl, rfl⟩
        | some m =>
          have hbd := BT.gone k hk (by rw [h0]; simp) ht
          have ⟨k0, ⟨_, g2, _⟩, _, g4⟩ := hbd
          exact .inr (.inr (.inr ⟨rfl, R.below_absent g4 g2, .inr ⟨hbd, hk⟩, m0, m, rfl, rfl⟩))
      | some m =>
        cases h1 : T1.find k.1 k.2 with
        | none =>
          rw [hBD k (B2.gone k hk (by rw [h0]; simp) h1)] at ht
          cases ht
        | some m' => exact .inr (.inl ⟨hk, m0, m, m', rfl, rfl, rfl⟩)

theorem retried (R2 : Reconcilable src dst n S T1) (hi2 : InstOf dst T1) (k : Key) :
    SameO (T.find k.1 k.2) (T1.find k.1 k.2) ∨ (Stranded src dst flags S D T1 k ∧ T.find k.1 k.2 = none) := by
  rcases retried_cases R hi P R1 hi1 hc hkeep Y Y1 PT P1 P2 BT B2 hBD hW k with ⟨a, b⟩ | ⟨hk, m0, m, m', h0, a, b⟩ | ⟨hk, hs, m, m', a, b, g1, g2, g3⟩ | ⟨a, hs, hk, m0, m, h0, h1⟩
  · rw [a, b]; exact .inl .absent
  · obtain ⟨a1, a2, a3, a4⟩ := BT.same k m0 m hk h0 a
    obtain ⟨b1, b2, b3, b4⟩ := B2.same k m0 m' hk h0 b
    rw [a, b]
    exact .inl (sameO_of (Y.sound _ m a) (Y1.sound _ m' b) (b1.trans a1.symm) (b2.trans a2.symm) (fun f _ => by rw [a3, b3]) (fun ct x => by rw [a4, b4]))
  · left
    have sm := Y.sound _ m a
    have sm' := Y1.sound _ m' b
    have hl : ∀ ct x, m'.lists ct x = true ↔ m.lists ct x = true := by
      intro ct x
      have e := Y.lists k (ct, x)
      have e' := Y1.lists k (ct, x)
      rw [a] at e
      rw [b] at e'
      simp only [listsO] at e e'
      rw [e, e']
      have hpr : Linked S D k (ct, x) → (T1.find ct x ≠ none → T.find ct x ≠ none) := by
        intro hlk hx hn
        rcases retried_cases R hi P R1 hi1 hc hkeep Y Y1 PT P1 P2 BT B2 hBD hW (ct, x) with ⟨_, b⟩ | ⟨_, _, _, _, _, a, _⟩ | ⟨_, _, _, _, a, _⟩ | ⟨_, cs, ck | ⟨⟨k0, ck, _, ck2⟩, _⟩, m0, m, h0, h1⟩
        · exact hx b
        · simp only at a; rw [a] at hn; cases hn
        · simp only at a; rw [a] at hn; cases hn
        · obtain ⟨ck, ck1⟩ := ck
          have hrc := (shown_iff_reached R hi).1 ck
          have hrk := P.forth R hi hc.made ((shown_iff_reached R hi).1 hk) hs
          have hd : D1.find (ct, x).1 (ct, x).2 ≠ none := by
            intro hn1
            obtain ⟨_, s, _, i1, _⟩ := P1.new (ct, x) m hn1 h1
            rw [cs] at i1; cases i1
          obtain ⟨y1, hy1⟩ := Option.ne_none_iff_exists'.1 hd
          have hk1 : D1.find k.1 k.2 ≠ none := by
            intro hn1
            rcases hlk with hlk | hlk
            · exact absurd cs (R.src_stored k (ct, x) hlk)
            · exact hs (P.gone k (listsO_some hlk) hn1)
          refine ck1 ((shown_iff_reached R1 hi1).2 ?_)
          generalize hcx : ((ct, x) : Key) = c at *
          cases hrc with
          | top t1 t2 _ _ => exact absurd ⟨t1, t2⟩ (R.not_top k c hlk)
          | @child p _ _ hl' hc' hv =>
            cases R.one_parent p k c hl' hlk
            refine .child hrk (.inr ((P.lists k c).2 ⟨hk1, hd, hlk⟩)) ⟨hc'.1, fun y hy => ?_⟩ ?_
            · cases h0' : D.find k.1 k.2 with
              | some m0 => rw [(P.kept k m0 y h0' hy).1]; exact hc'.2 m0 h0'
              | none =>
                rcases hlk with hlk | hlk
                · exact absurd cs (R.src_stored k c hlk)
                · exact absurd h0' (listsO_some hlk)
            · intro hh
              rw [hy1] at hh
              rw [h0] at hv
              exact hv (hidden_flags (P.kept c _ _ h0 hy1).2.1.symm hh)
        · have hlD : listsO (D.find k.1 k.2) ct x = true := hlk.resolve_left (fun g => R.src_stored k (ct, x) g cs)
          cases ck2 with
          | child hl' =>
            cases R.one_parent _ _ _ (.inr hl') (.inr hlD)
            exact hs ck.2.1
          | step hb hl' =>
            cases R.one_parent _ _ _ (.inr hl') (.inr hlD)
            exact hs (R.below_absent hb ck.2.1)
      have hpr' : T.find ct x ≠ none → T1.find ct x ≠ none := by
        intro hx hn
        rcases retried_cases R hi P R1 hi1 hc hkeep Y Y1 PT P1 P2 BT B2 hBD hW (ct, x) with ⟨a, _⟩ | ⟨_, _, _, _, _, _, b⟩ | ⟨_, _, _, _, _, b, _⟩ | ⟨a, _⟩
        · exact hx a
        · simp only at b; rw [b] at hn; cases hn
        · simp only at b; rw [b] at hn; cases hn
        · exact hx a
      constructor
      · rintro ⟨_, q2, q3⟩
        have q := P.linked R hi q3
        exact ⟨by simp, hpr q q2, q⟩
      · rintro ⟨_, q2, q3⟩
        refine ⟨by simp, hpr' q2, ?_⟩
        rcases q3 with q | q
        · exact .inl q
        · refine .inr ((P.lists k (ct, x)).2 ⟨fun hn => hs (P.gone k (listsO_some q) hn), fun hn => ?_, .inr q⟩)
          obtain ⟨y, hy⟩ := Option.ne_none_iff_exists'.1 (hpr' q2)
          obtain ⟨_, s, _, i1, _⟩ := P1.new (ct, x) y hn hy
          rw [P.gone (ct, x) (R.dst_stored k (ct, x) q) hn] at i1
          cases i1
    rw [a, b]
    exact sameO_of sm sm' g1 g2 g3 hl
  · have hD1 : ∀ {x : Key} {y}, S.find x.1 x.2 = none → T1.find x.1 x.2 = some y → D1.find x.1 x.2 ≠ none := by
      intro x y hx hy hn
      obtain ⟨_, s, _, i1, _⟩ := P1.new x y hn hy
      rw [hx] at i1; cases i1
    have lone : ∀ {x : Key} {y}, Shown src dst flags S D x → ¬ Shown src dst flags S D1 x → S.find x.1 x.2 = none → T1.find x.1 x.2 = some y →
        ∃ a, ListedBelow D a x ∧ S.find a.1 a.2 = none ∧ T1.find a.1 a.2 = none := by
      intro x y hx hx1 hxs hxt
      obtain ⟨a, g1, g2, g3, g4⟩ := P.orphan R hi hc.made ((shown_iff_reached R hi).1 hx) hxs (hD1 hxs hxt) (fun h => hx1 ((shown_iff_reached R1 hi1).2 h))
      refine ⟨a, g1, g2, ?_⟩
      cases ht : T1.find a.1 a.2 with
      | none => rfl
      | some y => exact absurd g4 (hD1 g2 ht)
    obtain ⟨i1, i2, i3⟩ := P2.kept k m0 m h0 h1
    have hstill : ∃ m0 m, D.find k.1 k.2 = some m0 ∧ T1.find k.1 k.2 = some m ∧ m.cls = m0.cls ∧ m.flags = m0.flags ∧ ∀ f, Dict.get? m.vals f = Dict.get? m0.vals f := by
      refine ⟨m0, m, h0, h1, i1, i2, fun f => ?_⟩
      rcases i3 f with h | ⟨s, _, g, _⟩
      · exact h
      · rw [hs] at g; cases g
    right
    rcases hk with ⟨hk, hk1⟩ | ⟨⟨k0, ⟨g1, g2, g3⟩, g4, g5⟩, hk⟩
    · exact ⟨⟨hs, .inl hk, hstill, fun h => hk1 (P1.shown R1 hi1 R2 hi2 h), lone hk hk1 hs h1⟩, a⟩
    · refine ⟨⟨hs, .inr ⟨k0, g1, g2, g4, g5⟩, hstill, fun h => hk (P2.shown R hi R2 hi2 h), ?_⟩, a⟩
      obtain ⟨y, hy⟩ := Option.ne_none_iff_exists'.1 (hW k0 k g2 g4 g5 (by rw [h1]; simp))
      obtain ⟨x, j1, j2, j3⟩ := lone g1 (fun h => by rw [Y1.deleted k0 h g2] at hy; cases hy) g2 hy
      exact ⟨x, j1.trans g5, j2, j3⟩
end

end DS
