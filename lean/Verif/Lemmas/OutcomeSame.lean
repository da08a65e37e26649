import Verif.Lemmas.Outcome
import Verif.Lemmas.SameContents
/-! # Results of syncs of the same contents -/
set_option linter.unusedSectionVars false

namespace DS
variable {V E : Type} [PyVal V]
variable {src dst src' dst' : Adapter V} {n flags : Nat} {S S' D D' T T' : Snap V}

theorem Shown.placed (R : Reconcilable src dst n S D) (hi : InstOf dst D) {k : Key} (h : Shown src dst flags S D k) :
    Compared src dst flags S D (posAt S D k) ∧ (posAt S D k).Visible flags ∧ (S.find k.1 k.2 ≠ none ∨ D.find k.1 k.2 ≠ none) := by
  obtain ⟨p, hp, hv, rfl⟩ := h
  obtain ⟨j, pl⟩ := hp.placed R hi
  have e : p = posAt S D (p.type, p.uid) := by
    have h1 := pl.src_eq
    have h2 := pl.dst_eq
    obtain ⟨t, u, s, d⟩ := p
    simp only at h1 h2
    subst h1; subst h2
    rfl
  refine ⟨e ▸ hp, e ▸ hv, ?_⟩
  have := pl.some_side
  rw [pl.src_eq, pl.dst_eq] at this
  exact this

/-- When no object is excluded by its flags below one that takes them along, all of them take part themselves. -/
theorem goesAlong_shown (R : Reconcilable src dst n S D) (hi : InstOf dst D) (hn : D.NoneGoesAlong dst) {k : Key}
    (h : GoesAlong src dst flags S D k) : Shown src dst flags S D k ∧ S.find k.1 k.2 = none := by
  obtain ⟨k0, hs, h0, hsk, hb⟩ := h
  have hg : ∀ d0, D.find k0.1 k0.2 = some d0 → flagOn flags GF.SKIP_UNMATCHED_DST ≠ true := by
    intro d0 hd hf
    obtain ⟨_, hv, _⟩ := hs.placed R hi
    apply hv
    show Hidden flags (S.find k0.1 k0.2) (D.find k0.1 k0.2)
    rw [h0, hd]
    exact .globalDst _ hf
  have step : ∀ k c : Key, Shown src dst flags S D k → S.find k.1 k.2 = none → ListedBelow D k0 c → flagOn flags GF.SKIP_UNMATCHED_DST ≠ true →
      listsO (D.find k.1 k.2) c.1 c.2 = true → Shown src dst flags S D c ∧ S.find c.1 c.2 = none := by
    intro k c hk hSk hbc hgf hl
    have hSc : S.find c.1 c.2 = none := by
      cases hc : S.find c.1 c.2 with
      | none => rfl
      | some m =>
        have := R.dst_place k c hl (by rw [hc]; simp)
        rw [hSk] at this
        cases this
    obtain ⟨m, hm⟩ := Option.ne_none_iff_exists'.1 (R.dst_stored k c hl)
    obtain ⟨f1, f2⟩ := hn k0 c m hsk hbc hm
    obtain ⟨hp, hv, _⟩ := hk.placed R hi
    refine ⟨⟨posAt S D c, .child hp hv (R.child (.inr hl) ⟨fun x hx => ?_, fun x hx => ?_⟩), ?_, rfl⟩, hSc⟩
    · rw [show S.at k = none from hSk] at hx; cases hx
    · have hx : D.find k.1 k.2 = some x := hx
      rw [hx] at hl
      have hl : x.lists c.1 c.2 = true := hl
      unfold Model.lists at hl
      cases hc : Dict.get? x.cls.children c.1 with
      | none => rw [hc] at hl; cases hl
      | some f => exact Dict.mem_keys_iff.2 ⟨f, hc⟩
    · show ¬ Hidden flags (S.find c.1 c.2) (D.find c.1 c.2)
      rw [hSc, hm]
      intro hh
      cases hh with
      | globalDst _ h => exact hgf h
      | modelDst _ h => rw [f2] at h; cases h
      | ignoreDst _ _ h => rw [f1] at h; cases h
  have hk0 : ∀ c : Key, listsO (D.find k0.1 k0.2) c.1 c.2 = true → flagOn flags GF.SKIP_UNMATCHED_DST ≠ true := by
    intro c hl
    cases hd : D.find k0.1 k0.2 with
    | none => rw [hd] at hl; cases hl
    | some d0 => exact hg d0 hd
  have all : flagOn flags GF.SKIP_UNMATCHED_DST ≠ true ∧ Shown src dst flags S D k ∧ S.find k.1 k.2 = none := by
    induction hb with
    | @child c hl => exact ⟨hk0 c hl, step k0 c hs h0 (.child hl) (hk0 c hl) hl⟩
    | @step c c' hb hl ih => exact ⟨ih.1, step c c' ih.2.1 ih.2.2 (.step hb hl) ih.1 hl⟩
  exact all.2

section
variable (hS : SameContents S S') (hD : SameContents D D')
include hS hD

theorem shown_same (h1 : SameTops src src') (h2 : SameTops dst dst') {k : Key} (h : Shown src dst flags S D k) : Shown src' dst' flags S' D' k := by
  obtain ⟨p, hp, hv, rfl⟩ := h
  obtain ⟨h3, h4⟩ := compared_recast hS hD h1 h2 hp
  exact ⟨_, h3, (recast_same hS hD h4).visible.2 hv, rfl⟩

theorem linked_same {k c : Key} : Linked S' D' k c ↔ Linked S D k c := by
  unfold Linked
  rw [(hS k.1 k.2).listsO, (hD k.1 k.2).listsO]
end

theorem listedBelow_same (hD : SameContents D D') {k c : Key} (h : ListedBelow D' k c) : ListedBelow D k c := by
  induction h with
  | child hl => exact .child (by rw [← (hD _ _).listsO]; exact hl)
  | step _ hl ih => exact .step ih (by rw [← (hD _ _).listsO]; exact hl)

theorem noneGoesAlong_same (hD : SameContents D D') (hc : dst'.classes = dst.classes) (h : D.NoneGoesAlong dst) : D'.NoneGoesAlong dst' := by
  intro k0 k m' hs hb hm
  have hk := hD k.1 k.2
  rw [hm] at hk
  cases hk' : D.find k.1 k.2 with
  | none => rw [hk'] at hk; cases hk
  | some m =>
    rw [hk'] at hk
    cases hk with
    | both hmm =>
      rw [hmm.flags]
      refine h k0 k m ?_ (listedBelow_same hD hb) hk'
      rcases hs with ⟨x', hx, hf⟩ | ⟨c, hx, hf⟩
      · have h0 := hD k0.1 k0.2
        rw [hx] at h0
        cases h0' : D.find k0.1 k0.2 with
        | none => rw [h0'] at h0; cases h0
        | some x =>
          rw [h0'] at h0
          cases h0 with
          | both hxx => exact .inl ⟨x, h0', by rw [← hxx.flags]; exact hf⟩
      · exact .inr ⟨c, by rw [← hc]; exact hx, hf⟩

/-- Objects of one class with the same values are the same but for their child lists. -/
theorem attrs_congr {m m' : Model V} (hc : m'.cls = m.cls) (hs : Sound m) (hs' : Sound m')
    (h : ∀ f ∈ m.cls.attributes, Dict.get? m'.vals f = Dict.get? m.vals f) : m'.attrs = m.attrs := by
  have hv : Dict.WF m'.vals := by unfold Dict.WF; rw [hs'.vals, hc]; exact hs.valid.fields_nodup
  apply Dict.ext_of_keys
  · unfold Dict.WF Model.attrs Dict.keys at *
    exact (List.filter_sublist.map _).nodup hv
  · unfold Model.attrs
    rw [Dict.keys_filter (fun k => m'.cls.attributes.contains k), Dict.keys_filter (fun k => m.cls.attributes.contains k), hs'.vals, hs.vals, hc]
  · intro k
    rw [Model.get?_attrs, Model.get?_attrs, hc]
    split
    · rename_i hk; exact h k hk
    · rfl

theorem shortname_congr {m m' : Model V} (hc : m'.cls.shortname = m.cls.shortname) (hu : m'.uid = m.uid)
    (h : ∀ f ∈ m.cls.shortname, m'.strField f = m.strField f) : m'.shortname = m.shortname := by
  unfold Model.shortname
  rw [hc]
  split
  · exact hu
  · congr 1
    exact List.map_congr_left h

theorem uid_of_vals {m m' : Model V} (hc : m'.cls = m.cls) (h : ∀ f ∈ m.cls.identifiers, Dict.get? m'.vals f = Dict.get? m.vals f) : m'.uid = m.uid := by
  unfold Model.uid
  rw [hc]
  congr 1
  exact List.map_congr_left (fun f hf => strField_congr (h f hf))

/-- What an object of both sides has become has the same identifiers and the same short name. -/
theorem updated_names {s m0 m : Model V} (hf : Fits s m0) (h0 : Sound m0) (hm : Sound m) (hc : m.cls = m0.cls)
    (hd : ∀ f a, Differs s m0 f a → Dict.get? m.vals f = some a)
    (hn : ∀ f, (∀ a, ¬ Differs s m0 f a) → Dict.get? m.vals f = Dict.get? m0.vals f) :
    m.identifiers = m0.identifiers ∧ m.shortname = m0.shortname := by
  have hid : ∀ f ∈ m0.cls.identifiers, Dict.get? m.vals f = Dict.get? m0.vals f := by
    intro f hf
    apply hn
    rintro a ⟨_, b, hb, _⟩
    rw [Model.get?_attrs, if_neg (h0.valid.ids_attrs f hf)] at hb
    cases hb
  refine ⟨identifiers_congr hc hm.vals h0 hid, shortname_congr (by rw [hc]) (uid_of_vals hc hid) (fun f hfm => ?_)⟩
  by_cases h : ∃ a, Differs s m0 f a
  · obtain ⟨a, ha⟩ := h
    rw [← hf.names f (by rw [← hf.short]; exact hfm)]
    exact strField_congr ((hd f a ha).trans (attrs_vals ha.1).symm)
  · exact strField_congr (hn f (fun a ha => h ⟨a, ha⟩))

/-- How the two results compare at an object, child lists aside. -/
def SyncedAt (D D' T T' : Snap V) (k : Key) : Prop :=
  (T.find k.1 k.2 = none ∧ T'.find k.1 k.2 = none) ∨ (T.find k.1 k.2 = D.find k.1 k.2 ∧ T'.find k.1 k.2 = D'.find k.1 k.2) ∨
    ∃ m m', T.find k.1 k.2 = some m ∧ T'.find k.1 k.2 = some m' ∧ m'.cls = m.cls ∧ m'.flags = m.flags ∧ m'.identifiers = m.identifiers ∧
      m'.shortname = m.shortname ∧ m'.attrs = m.attrs

section
variable (hS : SameContents S S') (hD : SameContents D D') (h1 : SameTops src src') (h2 : SameTops dst dst') (hcl : dst'.classes = dst.classes)
  (R : Reconcilable src dst n S D) (hi : InstOf dst D) {n' : Nat} (R' : Reconcilable src' dst' n' S' D') (hi' : InstOf dst' D')
  (ho : ∀ k, ¬ Shown src dst flags S D k → SyncedAt D D' T T' k) (Y : Synced src dst flags S D T) (Y' : Synced src' dst' flags S' D' T')
include hS hD h1 h2 hcl R hi R' hi' ho Y Y'

/-- The objects of the two results, child lists aside. -/
theorem synced_cases (k : Key) : SyncedAt D D' T T' k := by
  by_cases hk : Shown src dst flags S D k
  · have hk' := shown_same hS hD h1 h2 hk
    have eS := hS k.1 k.2
    have eD := hD k.1 k.2
    cases hs : S.find k.1 k.2 with
    | none => exact .inl ⟨Y.deleted k hk hs, Y'.deleted k hk' (eS.isNone.2 hs)⟩
    | some s =>
      rw [hs] at eS
      cases hs' : S'.find k.1 k.2 with
      | none => rw [hs'] at eS; cases eS
      | some s' =>
        rw [hs'] at eS
        cases eS with
        | both es =>
          refine .inr (.inr ?_)
          cases hd : D.find k.1 k.2 with
          | none =>
            obtain ⟨c, m, g1, g2, g3, g4, g5⟩ := Y.created k s hk hs hd
            obtain ⟨c', m', g1', g2', g3', g4', g5'⟩ := Y'.created k s' hk' hs' (eD.isNone.2 hd)
            rw [hcl, g1] at g1'
            cases g1'
            have ec : m'.cls = m.cls := by rw [g3, g3']
            have sm := Y.sound k m g2
            have sm' := Y'.sound k m' g2'
            have ev : ∀ f ∈ m.cls.fieldNames, Dict.get? m'.vals f = Dict.get? m.vals f := by
              intro f hf
              rw [g3] at hf
              obtain ⟨⟨f', d⟩, hfd, rfl⟩ := List.mem_map.1 hf
              rw [g5 f' d hfd, g5' f' d hfd, es.ids, es.attrs]
            have ei : ∀ f ∈ m.cls.identifiers, Dict.get? m'.vals f = Dict.get? m.vals f := fun f hf => ev f (sm.valid.ids_fields f hf)
            exact ⟨m, m', g2, g2', ec, by rw [g4, g4'], identifiers_congr ec sm'.vals sm ei,
              shortname_congr (by rw [ec]) (uid_of_vals ec ei) (fun f hf => strField_congr (ev f (sm.valid.short_fields f hf))),
              attrs_congr ec sm sm' (fun f hf => ev f (sm.valid.attrs_fields f hf))⟩
          | some m0 =>
            rw [hd] at eD
            cases hd' : D'.find k.1 k.2 with
            | none => rw [hd'] at eD; cases eD
            | some m0' =>
              rw [hd'] at eD
              cases eD with
              | both em =>
                obtain ⟨m, g1, g2, g3, g4, g5⟩ := Y.updated k s m0 hk hs hd
                obtain ⟨m', g1', g2', g3', g4', g5'⟩ := Y'.updated k s' m0' hk' hs' hd'
                have s0 := R.sound k m0 (.inr hd)
                have s0' := R'.sound k m0' (.inr hd')
                have sm := Y.sound k m g1
                have sm' := Y'.sound k m' g1'
                obtain ⟨n1, n2⟩ := updated_names (R.pairs k s m0 hs hd) s0 sm g2 g4 g5
                obtain ⟨n1', n2'⟩ := updated_names (R'.pairs k s' m0' hs' hd') s0' sm' g2' g4' g5'
                have ec : m'.cls = m.cls := by rw [g2, g2', em.cls]
                refine ⟨m, m', g1, g1', ec, by rw [g3, g3', em.flags], by rw [n1, n1', em.ids], by rw [n2, n2', em.short],
                  attrs_congr ec sm sm' (fun f hf => ?_)⟩
                have ed : ∀ a, Differs s' m0' f a ↔ Differs s m0 f a := by
                  intro a
                  unfold Differs
                  rw [es.attrs, em.attrs]
                by_cases hx : ∃ a, Differs s m0 f a
                · obtain ⟨a, ha⟩ := hx
                  rw [g4 f a ha, g4' f a ((ed a).2 ha)]
                · rw [g5 f (fun a ha => hx ⟨a, ha⟩), g5' f (fun a ha => hx ⟨a, (ed a).1 ha⟩)]
                  rw [g2] at hf
                  have q := congrArg (fun d => Dict.get? d f) em.attrs
                  simp only [Model.get?_attrs] at q
                  rw [em.cls, if_pos hf, if_pos hf] at q
                  exact q
  · exact ho k hk

theorem synced_present (k : Key) : T'.find k.1 k.2 = none ↔ T.find k.1 k.2 = none := by
  rcases synced_cases hS hD h1 h2 hcl R hi R' hi' ho Y Y' k with ⟨a, b⟩ | ⟨a, b⟩ | ⟨m, m', a, b, _⟩
  · rw [a, b]
  · rw [a, b]; exact (hD _ _).isNone
  · rw [a, b]; simp

theorem synced_same_of : SameContents T T' := by
  intro t u
  rcases synced_cases hS hD h1 h2 hcl R hi R' hi' ho Y Y' (t, u) with ⟨a, b⟩ | ⟨a, b⟩ | ⟨m, m', a, b, g1, g2, g3, g4, g5⟩
  · simp only at a b; rw [a, b]; exact .absent
  · simp only at a b; rw [a, b]; exact hD t u
  · have sm := Y.sound _ m a
    have sm' := Y'.sound _ m' b
    have hl : ∀ ct x, m'.lists ct x = true ↔ m.lists ct x = true := by
      intro ct x
      have e := Y.lists (t, u) (ct, x)
      have e' := Y'.lists (t, u) (ct, x)
      rw [Ne, Ne, synced_present hS hD h1 h2 hcl R hi R' hi' ho Y Y' (t, u), synced_present hS hD h1 h2 hcl R hi R' hi' ho Y Y' (ct, x), linked_same hS hD] at e'
      have e2 := e'.trans e.symm
      simp only at a b e2
      rw [a, b] at e2
      exact e2
    simp only at a b
    rw [a, b]
    refine .both ⟨g1, g2, g3, g4, g5, fun ct f hf => ?_⟩
    obtain ⟨l, hl1, hl2⟩ := sm.lists ct f hf
    obtain ⟨l', hl1', hl2'⟩ := sm'.lists ct f (by rw [g1]; exact hf)
    rw [hl1, hl1']
    refine (List.perm_ext_iff_of_nodup hl2 hl2').2 (fun x => ?_)
    have := hl ct x
    unfold Model.lists at this
    rw [g1, hf] at this
    simp only [hl1, hl1', List.contains_iff_mem] at this
    exact this.symm
end

theorem synced_same (hS : SameContents S S') (hD : SameContents D D') (h1 : SameTops src src') (h2 : SameTops dst dst') (hcl : dst'.classes = dst.classes)
    (R : Reconcilable src dst n S D) (hi : InstOf dst D) {n' : Nat} (R' : Reconcilable src' dst' n' S' D') (hi' : InstOf dst' D')
    (hn : D.NoneGoesAlong dst) (Y : Synced src dst flags S D T) (Y' : Synced src' dst' flags S' D' T') : SameContents T T' := by
  refine synced_same_of hS hD h1 h2 hcl R hi R' hi' (fun k hk => ?_) Y Y'
  have hk' : ¬ Shown src' dst' flags S' D' k := fun h =>
    hk (shown_same hS.symm hD.symm (fun t => (h1 t).symm) (fun t => (h2 t).symm) h)
  exact .inr (.inl ⟨Y.others k hk (fun h => hk (goesAlong_shown R hi hn h).1),
    Y'.others k hk' (fun h => hk' (goesAlong_shown R' hi' (noneGoesAlong_same hD hcl hn) h).1)⟩)

end DS
