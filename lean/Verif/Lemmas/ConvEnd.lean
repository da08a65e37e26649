import Verif.Lemmas.ConvTree
/-! A whole sync of adapters that can be reconciled, and what the destination is like afterwards. -/
set_option linter.unusedSectionVars false

namespace DS
variable {V E : Type} [PyVal V]

theorem snap_at {A : Adapter V} {sid : Nat} (hA : A.ref.store = .local sid) (w : World V E) (k : Key) :
    (snap A w).at k = (fr sid w k).map (fun r => (w.heap r).m) := snap_local_find hA w k.1 k.2

theorem Sound.fullKids {m : Model V} (h : Sound m) : FullKids m := ⟨h.valid.children_nodup, h.lists⟩

section
variable {src dst : Adapter V} {n sid : Nat} {w w' : World V E} {es : List (Elem V)}

/-- The invariant holds at the start. -/
theorem J.start {S : Snap V} (hr : SyncReady dst sid w) (R : Reconcilable src dst n S (snap dst w)) (hc : CEnv dst S.at (snap dst w).at es) :
    J dst S.at (snap dst w).at es sid (fun _ => none) w := by
  have hat : ∀ k r, fr sid w k = some r → (snap dst w).at k = some (w.heap r).m := by
    intro k r h; rw [snap_at hr.store, h]; rfl
  have hnone : ∀ k, (snap dst w).at k = none ↔ fr sid w k = none := by
    intro k; rw [snap_at hr.store]; simp
  have htr : ∀ {k r}, Trk sid (fun _ => none) w k r → fr sid w k = some r := by
    intro k r h
    rcases h with h | ⟨_, h⟩
    · exact h
    · cases h
  refine ⟨⟨hr.ok, hr.inst, fun _ _ _ _ _ _ => trivial, fun _ _ _ _ _ => trivial⟩, fun _ _ h => (by cases h), ?_, ?_, ?_, ?_, ?_, ?_, ?_⟩
  · intro k h1 h2; exact absurd ((hnone k).2 h2) h1
  · intro k r m0 h1 h2
    rw [hat k r h1] at h2
    cases h2
    exact ⟨rfl, rfl, fun _ _ => rfl, fun h => h, fun _ => .inl rfl⟩
  · intro k r h1 h2; rw [hat k r h1] at h2; cases h2
  · intro k r h1; exact (R.sound k _ (.inr (hat k r (htr h1)))).fullKids
  · intro k r h1 c
    have h2 := hat k r (htr h1)
    have h3 : (w.heap r).m.lists c.1 c.2 = listsO ((snap dst w).at k) c.1 c.2 := by rw [h2]; rfl
    rw [h3]
    constructor
    · intro hl
      by_cases hke : KE dst es k c
      · exact .inl ⟨hke, fun hn => R.dst_stored k c hl ((hnone c).2 hn)⟩
      · exact .inr ⟨hke, hl⟩
    · rintro (⟨hke, hn⟩ | ⟨_, hl⟩)
      · rcases hc.edge _ _ hke with hl | hl
        · exact R.src_place k c hl (fun h => hn ((hnone c).1 h))
        · exact hl
      · exact hl
  · intro k c r _ _ hl hn; exact R.dst_stored k c hl ((hnone c).2 hn)
  · intro k c h1 h2; exact absurd ((hnone c).1 h1) h2

theorem Done.still {A : Adapter V} {e : Elem V} (h : Done A sid e w) (hs : Still w w') (hw : RefsLt w) : Done A sid e w' := by
  intro x k hx hk
  have := h x k hx hk
  unfold DoneAt at *
  rw [hs.fr_eq]
  split at this
  · trivial
  · exact this
  · exact this
  · obtain ⟨r, h1, h2⟩ := this
    exact ⟨r, h1, by rw [hs.heap_m r (hw _ _ _ _ h1)]; exact h2⟩

/-- The diff that a sync computes. -/
theorem CanConverge.diff (h : CanConverge n src dst sid w) (dc : DiffClass V) (flags : Nat) : ∃ d w1, diffFrom n dst src dc flags w = (.ok d, w1) := by
  obtain ⟨d, hd⟩ := (diff_returns_iff (n := n) (dc := dc) (flags := flags) h.comparable).2 (h.reconcilable.no_problem h.ready.instOf h.comparable.src_ok h.comparable.dst_ok flags)
  exact ⟨d, (diffFrom n dst src dc flags w).2, by rw [← hd]⟩

theorem CanConverge.keepsIds (h : CanConverge n src dst sid w) : KeepsIdsOf dst (snap src w) :=
  fun t u s c hs hc => (h.reconcilable.source (t, u) s c hs hc).keeps

/-- A whole sync: the invariant holds afterwards, and when all calls succeeded, everything has been done. -/
theorem CanConverge.sync (h : CanConverge n src dst sid w) {rl : Nat} (hrl : n ≤ rl) {hooks : Hooks V E} {dc : DiffClass V} {flags : Nat} {res : Except Err (Diff V)}
    (hs : syncFrom n rl hooks dst src dc flags none w = (res, w')) :
    ∃ d, (∃ w1, diffFrom n dst src dc flags w = (.ok d, w1)) ∧ DescribesTopG src dst flags (snap src w) (snap dst w) d.kids ∧ d.cls = dc ∧
      CEnv dst (snap src w).at (snap dst w).at d.kids ∧ J dst (snap src w).at (snap dst w).at d.kids sid (fun _ => none) w' ∧
      (dc.Reorders → AllSucceed (newEvents w w') → res = .ok d ∧ ∀ e ∈ d.kids, Done dst sid e w') := by
  obtain ⟨d, wd, hd⟩ := h.diff dc flags
  obtain ⟨hdes, hcls⟩ := diffFrom_describes h.comparable.ok h.comparable.src_ok h.comparable.dst_ok h.comparable.fields h.comparable.src_types h.comparable.dst_types h.comparable.top_nodup hd
  have hc := hdes.cenv h.reconcilable h.ready.instOf h.comparable.src_ok h.comparable.dst_ok h.ready.valid (computed_good h.comparable h.ready.dst h.keepsIds hd)
  refine ⟨d, ⟨wd, hd⟩, hdes, hcls, hc, ?_⟩
  rcases syncFrom_cases n rl hooks dst src dc flags none w h.ready.ok.refs_lt h.ready.ok.tbl_wf with ⟨x, w1, h1, h2, h3, h4⟩ | ⟨d', w0, evs0, y, w1, h1, h2, h3, h4, h5, h6, hcl, h7, h8⟩
  · rcases h4 with ⟨_, h4, _⟩ | ⟨_, h4⟩
    · cases h4
    · rw [hd] at h4; cases h4
  · have hdd : d' = d := by
      rcases h1 with ⟨h1, _⟩ | ⟨_, h1⟩
      · cases h1
      · rw [hd] at h1; cases h1; rfl
    subst hdd
    have st : Still w (startSync d' w0) := h2.trans (startSync_still d' w0)
    have hj0 := (J.start h.ready h.reconcilable hc).still st
    have hX : (⟨src, dst, flags, d'.cls, hooks, rl⟩ : SyncCtx V E).dst.ref.store = .local sid := h.ready.store
    have hw0 := hj0.sinv.ok.refs_lt
    have hk := syncElem_list (S := ⟨src, dst, flags, d'.cls, hooks, rl⟩) n (getChildren d'.cls d'.kids) false (startSync d' w0) hw0
    rw [h7] at hk
    obtain ⟨a1, _, a3, a4⟩ := kids_conv (X := ⟨src, dst, flags, d'.cls, hooks, rl⟩) hk (fun x hx => .here (mem_getChildren hx)) (fun x hx wa wb r hr hj => ⟨by
      refine syncElem_conv hX hc n x none _ wa wb r hr (.here (mem_getChildren hx)) hj (.inl ⟨rfl, mem_getChildren hx⟩) (fun k hk => absurd rfl hk) ?_
      intro k hk j y hdn
      obtain ⟨_, _, ps, hdp, hi', hl, hz⟩ := hdes
      obtain ⟨p, hp, hep⟩ := zip_mem_left hl (mem_getChildren hx)
      have ht := ((hi' p).1 hp).1
      have pl := Placed.of_top h.reconcilable ht
      cases pl.key_of h.reconcilable h.ready.instOf h.comparable.src_ok h.comparable.dst_ok (hz _ hep).header hk
      have := h.reconcilable.depth _ _ (pl.top.down' hdn)
      exact ⟨by omega, by dsimp only; omega⟩, syncElem_ext n _ _ _ _ _ hj.sinv.ok.refs_lt hr⟩) hj0
    have stC : Still w1 w' ∧ TrExt w1 w' := by
      rw [hs] at h8
      cases y with
      | error x => cases h8; exact ⟨.refl _, .refl _⟩
      | ok ch =>
        cases h8
        unfold World.complete
        cases ch
        · exact ⟨.refl _, .refl _⟩
        · exact ⟨Still.emit _ _, ⟨_, rfl⟩⟩
    refine ⟨a1.still stC.1, fun hre hall => ?_⟩
    have hre' : d'.cls.Reorders := by rw [hcls]; exact hre
    have hperm := getChildren_perm hre' d'.kids
    have hev : NewIn GoodEv (startSync d' w0) w1 := by
      obtain ⟨evs1, e1⟩ := a3
      obtain ⟨evs2, e2⟩ := stC.2
      have e0 : (startSync d' w0).trace = w.trace ++ evs0 := h4
      have htr : w'.trace = w.trace ++ (evs0 ++ (evs1 ++ evs2)) := by rw [e2, e1, e0]; simp
      intro evs he ev hev
      have : evs = evs1 := List.append_cancel_left (he.symm.trans e1)
      subst this
      cases ev with
      | call c out =>
        simp only [GoodEv]
        exact hall c out (by unfold newEvents; rw [htr, List.drop_left]; simp [hev])
      | _ => trivial
    obtain ⟨⟨b, hb⟩, hdone⟩ := a4 hre' (hc.dist.perm hperm.symm) (by
      intro x hx y k hy hk
      have hyt : InTree y d'.kids := inTree_single (mem_getChildren hx) hy
      constructor
      · intro ha hn
        have := (hc.delete y k hyt hk ha).2
        rw [st.fr_eq] at hn
        exact this (by rw [snap_at h.ready.store, hn]; rfl)
      · intro ha
        have := (hc.create y k hyt hk ha).2
        rw [snap_at h.ready.store] at this
        rw [st.fr_eq]
        simpa using this) hev
    subst hb
    rw [hs] at h8
    cases h8
    exact ⟨rfl, fun e he => (hdone e (hperm.mem_iff.2 he)).still stC.1 a1.sinv.ok.refs_lt⟩

end

/-! ## afterwards -/

theorem plus_source {e : Elem V} {a : Dict V} (hs : e.src = some a) {f : String} {v : V} (h : Dict.get? (e.plus.getD []) f = some v) : Dict.get? a f = some v := by
  unfold Elem.plus at h
  rw [hs] at h
  cases hd : e.dst <;> rw [hd] at h <;> dsimp only at h <;> rw [Option.getD_some, get?_pick] at h <;> split at h
  · exact h
  · cases h
  · exact h
  · cases h

theorem strField_congr {m m' : Model V} {f : String} (h : Dict.get? m.vals f = Dict.get? m'.vals f) : m.strField f = m'.strField f := by
  unfold Model.strField; rw [h]

theorem attrs_vals {m : Model V} {f : String} {v : V} (h : Dict.get? m.attrs f = some v) : Dict.get? m.vals f = some v := by
  rw [Model.get?_attrs] at h
  split at h
  · exact h
  · cases h

theorem identifiers_congr {m m' : Model V} (hc : m'.cls = m.cls) (hk : Dict.keys m'.vals = m'.cls.fieldNames) (hs : Sound m)
    (h : ∀ f ∈ m.cls.identifiers, Dict.get? m'.vals f = Dict.get? m.vals f) : m'.identifiers = m.identifiers := by
  have hv : Dict.WF m'.vals := by unfold Dict.WF; rw [hk, hc]; exact hs.valid.fields_nodup
  apply Dict.ext_of_keys
  · unfold Dict.WF Model.identifiers Dict.keys at *
    exact (List.filter_sublist.map _).nodup hv
  · unfold Model.identifiers
    rw [Dict.keys_filter (fun k => m'.cls.identifiers.contains k), Dict.keys_filter (fun k => m.cls.identifiers.contains k), hk, hs.vals, hc]
  · intro k
    rw [Model.get?_identifiers, Model.get?_identifiers, hc]
    split
    · rename_i hk; exact h k hk
    · rfl

theorem KidsOnly.identifiers {m m' : Model V} (h : KidsOnly m m') : m'.identifiers = m.identifiers := by
  unfold Model.identifiers; rw [h.cls_eq, h.vals_eq]

theorem Fits.kidsOnly {s m m' : Model V} (h : Fits s m) (hk : KidsOnly m m') : Fits s m' where
  ids := by rw [hk.identifiers]; exact h.ids
  short := by rw [hk.cls_eq]; exact h.short
  names f hf := by rw [h.names f hf]; exact strField_congr (by rw [hk.vals_eq])

section
variable {src dst : Adapter V} {n sid flags : Nat} {w w' : World V E} {es : List (Elem V)}

/-- What is known after a sync. -/
structure After (src dst : Adapter V) (n sid flags : Nat) (w w' : World V E) (es : List (Elem V)) : Prop where
  can : CanConverge n src dst sid w
  des : DescribesTopG src dst flags (snap src w) (snap dst w) es
  env : CEnv dst (snap src w).at (snap dst w).at es
  inv : J dst (snap src w).at (snap dst w).at es sid (fun _ => none) w'

namespace After
variable (h : After src dst n sid flags w w' es)
include h

theorem find {k : Key} {m : Model V} : (snap dst w').at k = some m ↔ ∃ r, fr sid w' k = some r ∧ (w'.heap r).m = m := by
  rw [snap_at h.can.ready.store]; simp

theorem find_none {k : Key} : (snap dst w').at k = none ↔ fr sid w' k = none := by
  rw [snap_at h.can.ready.store]; simp

theorem sides {e : Elem V} {k : Key} (he : InTree e es) (hk : ElemKey dst e k) :
    e.src = ((snap src w).at k).map Model.attrs ∧ e.dst = ((snap dst w).at k).map Model.attrs ∧
      (∀ m, ((snap src w).at k).or ((snap dst w).at k) = some m → e.keys = m.identifiers) ∧ ((snap src w).at k ≠ none ∨ (snap dst w).at k ≠ none) :=
  h.des.sides h.can.reconcilable h.can.ready.instOf h.can.comparable.src_ok h.can.comparable.dst_ok he hk

theorem lists {k c : Key} : listsO ((snap dst w').at k) c.1 c.2 = true ↔
    fr sid w' k ≠ none ∧ ((KE dst es k c ∧ fr sid w' c ≠ none) ∨ (¬ KE dst es k c ∧ listsO ((snap dst w).at k) c.1 c.2 = true)) := by
  cases hf : fr sid w' k with
  | none => rw [h.find_none.2 hf]; simp [listsO]
  | some r =>
    rw [h.find.2 ⟨r, hf, rfl⟩]
    exact (h.inv.lists k r (.inl hf) c).trans (by simp)

theorem linked {k c : Key} (hl : Linked (snap src w) (snap dst w') k c) : Linked (snap src w) (snap dst w) k c := by
  rcases hl with hl | hl
  · exact .inl hl
  · rcases (h.lists.1 hl).2 with ⟨h1, _⟩ | ⟨_, h1⟩
    · exact h.env.edge _ _ h1
    · exact .inr h1

/-- A new object is that which the source's data make. -/
theorem made {k : Key} {m : Model V} (hm : (snap dst w').at k = some m) (hn : (snap dst w).at k = none) :
    ∃ s c m1, (snap src w).at k = some s ∧ Dict.get? dst.classes k.1 = some c ∧ SourceFit c s ∧ c.construct s.identifiers s.attrs = .ok m1 ∧ KidsOnly m1 m ∧ Fits s m := by
  obtain ⟨r, h1, rfl⟩ := h.find.1 hm
  obtain ⟨e, c, m1, he, hk, ha, hc, hcon, hko⟩ := h.inv.made k r h1 hn
  obtain ⟨s1, s2, s3, _⟩ := h.sides he hk
  cases hs : (snap src w).at k with
  | none => exact absurd hs (h.env.create e k he hk ha).1
  | some s =>
    have sf := h.can.reconcilable.source k s c hs hc
    have hcon' : c.construct s.identifiers s.attrs = .ok m1 := by
      rw [← hcon, s3 s (by rw [hs]; rfl)]
      exact (construct_congr (plus_create (a := s.attrs) (by rw [s1, hs]; rfl) (by rw [s2, hn]; rfl))).symm
    obtain ⟨m2, g1, g2⟩ := sf.builds
    rw [hcon'] at g1
    cases g1
    exact ⟨s, c, m1, rfl, hc, sf, hcon', hko, g2.kidsOnly hko⟩

theorem evolved {k : Key} {m m0 : Model V} (hm : (snap dst w').at k = some m) (hn : (snap dst w).at k = some m0) : Evolved dst es k m0 m := by
  obtain ⟨r, h1, rfl⟩ := h.find.1 hm
  exact h.inv.orig k r m0 h1 hn

theorem pairs {k : Key} {s d : Model V} (hs : (snap src w).at k = some s) (hd : (snap dst w').at k = some d) : Fits s d := by
  cases hn : (snap dst w).at k with
  | none =>
    obtain ⟨s', _, _, h1, _, _, _, _, h2⟩ := h.made hd hn
    rw [hs] at h1; cases h1; exact h2
  | some m0 =>
    have ev := h.evolved hd hn
    have hf := h.can.reconcilable.pairs k s m0 hs hn
    have hso := h.can.reconcilable.sound k m0 (.inr hn)
    refine ⟨?_, by rw [ev.cls_eq]; exact hf.short, fun f hfs => ?_⟩
    · rw [identifiers_congr ev.cls_eq (ev.keys_eq hso.vals) hso ev.ids_eq]; exact hf.ids
    · rcases ev.vals f with hv | ⟨e, v, he, hk, _, hp, hv⟩
      · rw [hf.names f hfs]; exact (strField_congr hv).symm
      · apply strField_congr
        rw [hv]
        exact attrs_vals (plus_source (by rw [(h.sides he hk).1, hs]; rfl) hp)

theorem sound {k : Key} {m : Model V} (hm : (snap dst w').at k = some m) : Sound m := by
  obtain ⟨r, h1, h2⟩ := h.find.1 hm
  have hfull := h.inv.full k r (.inl h1)
  rw [h2] at hfull
  cases hn : (snap dst w).at k with
  | none =>
    obtain ⟨s, c, m1, _, hc, _, hcon, hko, _⟩ := h.made hm hn
    have hi := instantiate_ok (construct_ok hcon)
    exact ⟨by rw [hko.cls_eq, hi.1]; exact h.can.ready.valid.valid _ _ hc, by rw [hko.vals_eq, hko.cls_eq, hi.1, hi.2.1], hfull.list⟩
  | some m0 =>
    have ev := h.evolved hm hn
    have hso := h.can.reconcilable.sound k m0 (.inr hn)
    exact ⟨by rw [ev.cls_eq]; exact hso.valid, ev.keys_eq hso.vals, hfull.list⟩

theorem consistent : (snap dst w').Consistent :=
  consistent_stored h.inv.sinv.ok h.can.ready.store (fun t u r hr => (h.sound (k := (t, u)) (h.find.2 ⟨r, hr, rfl⟩)).valid.children_nodup)

theorem shortname {k : Key} {m : Model V} (hm : (snap dst w').at k = some m) :
    ∃ m0, ((snap src w).at k = some m0 ∨ (snap dst w).at k = some m0) ∧ m0.shortname = m.shortname := by
  cases hs : (snap src w).at k with
  | some s =>
    refine ⟨s, .inl rfl, (h.pairs hs hm).shortname ?_⟩
    rw [(h.can.comparable.src_ok.key_ok _ _ _ hs).2, (h.consistent.key_ok _ _ _ hm).2]
  | none =>
    cases hn : (snap dst w).at k with
    | none => obtain ⟨s, _, _, h1, _⟩ := h.made hm hn; rw [hs] at h1; cases h1
    | some m0 =>
      have ev := h.evolved hm hn
      have hv : ∀ f, m0.strField f = m.strField f := by
        intro f
        rcases ev.vals f with hv | ⟨e, v, he, hk, ha, _, _⟩
        · exact (strField_congr hv).symm
        · exact absurd hs (h.env.update e k he hk ha).1
      refine ⟨m0, .inr rfl, ?_⟩
      unfold Model.shortname Model.uid
      rw [ev.cls_eq, show m0.strField = m.strField from funext hv]

theorem reconcilable : Reconcilable src dst n (snap src w) (snap dst w') := by
  have R := h.can.reconcilable
  refine ⟨?_, ?_, ?_, R.src_stored, ?_, ?_, ?_, R.top_known, R.kids_known, ?_, R.source, fun k s d => h.pairs, ?_⟩
  · intro k k' c h1 h2; exact R.one_parent k k' c (h.linked h1) (h.linked h2)
  · intro k c h1; exact R.not_top k c (h.linked h1)
  · intro j k ht
    refine R.depth j k ?_
    induction ht with
    | top h1 h2 => exact .top h1 h2
    | down _ h2 ih => exact .down ih (h.linked h2)
  · intro k c hl hn
    obtain ⟨h1, h2⟩ := h.lists.1 hl
    rcases h2 with ⟨_, h2⟩ | ⟨h2, h3⟩
    · exact h2 (h.find_none.1 hn)
    · obtain ⟨r, hr⟩ := Option.ne_none_iff_exists'.1 h1
      exact h.inv.nodang k c r hr h2 h3 (h.find_none.1 hn)
  · intro k c hl hn
    apply h.lists.2
    have hSk := listsO_some hl
    have hn' : fr sid w' c ≠ none := fun h1 => hn (h.find_none.2 h1)
    cases hc : (snap dst w).at c with
    | some m =>
      have hl' := R.src_place k c hl (fun hh => by cases hc.symm.trans hh)
      refine ⟨fun hk => hSk (h.inv.keep k (listsO_some hl') hk), ?_⟩
      by_cases hke : KE dst es k c
      · exact .inl ⟨hke, hn'⟩
      · exact .inr ⟨hke, hl'⟩
    | none =>
      obtain ⟨r, hr⟩ := Option.ne_none_iff_exists'.1 hn'
      obtain ⟨e, _, _, he, hk, _⟩ := h.inv.made c r hr hc
      rcases inTree_parent he with h1 | ⟨y, h1, h2⟩
      · exact absurd (.inl hl) (h.env.root e c h1 hk k)
      · obtain ⟨ky, hky⟩ := h.env.keyed y h1
        have hke : KE dst es ky c := ⟨y, e, h1, h2, hky, hk⟩
        have := h.env.parent ky k c (h.env.edge _ _ hke) (.inl hl)
        subst this
        exact ⟨h.inv.up _ _ hc hn' hke, .inl ⟨hke, hn'⟩⟩
  · intro k c hl hn
    rcases h.linked (.inr hl) with h1 | h1
    · exact h1
    · exact R.dst_place k c h1 hn
  · intro k m hm
    rcases hm with hm | hm
    · exact R.sound k m (.inl hm)
    · exact h.sound hm
  · intro k k' m m' hsib hne hm hm'
    have g : ∀ {k : Key} {m : Model V}, ((snap src w).at k = some m ∨ (snap dst w').at k = some m) →
        ∃ m0, ((snap src w).at k = some m0 ∨ (snap dst w).at k = some m0) ∧ m0.shortname = m.shortname := by
      intro k m hm
      rcases hm with hm | hm
      · exact ⟨m, .inl hm, rfl⟩
      · exact h.shortname hm
    obtain ⟨m0, g1, g2⟩ := g hm
    obtain ⟨m0', g1', g2'⟩ := g hm'
    rw [← g2, ← g2']
    refine R.names k k' m0 m0' ⟨hsib.1, ?_⟩ hne g1 g1'
    rcases hsib.2 with h1 | ⟨p, h1, h2⟩
    · exact .inl h1
    · exact .inr ⟨p, h.linked h1, h.linked h2⟩

theorem ready : SyncReady dst sid w' where
  store := h.can.ready.store
  valid := h.can.ready.valid
  ok := h.inv.sinv.ok
  inst := h.inv.sinv.inst
  children t u m hm := (h.sound (k := (t, u)) hm).valid.children_nodup

theorem comparable (hsrc : snap src w' = snap src w) : Comparable src dst w' where
  ok := h.inv.sinv.ok
  src_ok := by rw [hsrc]; exact h.can.comparable.src_ok
  dst_ok := h.consistent
  src_types := by rw [hsrc]; exact h.can.comparable.src_types
  dst_types := serves_local h.can.ready.store _
  fields := by
    rw [hsrc]
    intro t u s d hs hd ct f f' hf hf'
    cases hn : (snap dst w).at (t, u) with
    | none =>
      obtain ⟨s', c, m1, g1, _, g2, g3, g4, _⟩ := h.made (k := (t, u)) hd hn
      cases hs.symm.trans g1
      have := g2.children ct f hf
      rw [g4.cls_eq, (instantiate_ok (construct_ok g3)).1, this] at hf'
      exact Option.some.inj hf'
    | some m0 =>
      rw [(h.evolved (k := (t, u)) hd hn).cls_eq] at hf'
      exact h.can.comparable.fields t u s m0 hs hn ct f f' hf hf'
  top_nodup := h.can.comparable.top_nodup
end After
end

section
variable {src dst : Adapter V} {n sid : Nat} {w w' : World V E}

theorem CanConverge.src_same (h : CanConverge n src dst sid w) {rl : Nat} {hooks : Hooks V E} {dc : DiffClass V} {flags : Nat} {res : Except Err (Diff V)}
    (hs : syncFrom n rl hooks dst src dc flags none w = (res, w')) : snap src w' = snap src w :=
  C23_other_adapters_untouched h.ready.dst (applicable_computed h.comparable h.ready.dst h.keepsIds) hs h.separate

theorem CanConverge.separate' (h : CanConverge n src dst sid w) {rl : Nat} {hooks : Hooks V E} {dc : DiffClass V} {flags : Nat} {res : Except Err (Diff V)}
    (hs : syncFrom n rl hooks dst src dc flags none w = (res, w')) : Separate src dst w' := by
  have hsep := h.separate
  unfold Separate at hsep ⊢
  rw [h.ready.store] at hsep ⊢
  cases hst : src.ref.store with
  | redis s => trivial
  | «local» s =>
    rw [hst] at hsep
    dsimp only at hsep ⊢
    obtain ⟨h1, h2⟩ := hsep
    refine ⟨h1, fun t u t' u' r g1 g2 => ?_⟩
    rcases sync_master h.ready.dst (applicable_computed h.comparable h.ready.dst h.keepsIds) hs with ⟨x, _, _, hst, _⟩ | ⟨d, evs0, evs, p, y, hu, hran⟩
    · rw [hst.tbl_eq.findRef] at g1 g2
      exact h2 t u t' u' r g1 g2
    · have hf := (GFrame.local h.ready.store).1 hran.frame
      have g1' : findRef w s t u = some r := by
        unfold findRef at g1 ⊢; rw [← hf.others s t h1]; exact g1
      rcases hf.come t' u' r g2 with g3 | ⟨g3, _⟩
      · exact h2 t u t' u' r g1' g3
      · exact absurd (h.ready.ok.refs_lt _ _ _ _ g1') (Nat.not_lt.2 g3)

/-- Whatever happens in a sync, source and destination can be reconciled afterwards. -/
theorem CanConverge.again (h : CanConverge n src dst sid w) {rl : Nat} (hrl : n ≤ rl) {hooks : Hooks V E} {dc : DiffClass V} {flags : Nat} {res : Except Err (Diff V)}
    (hs : syncFrom n rl hooks dst src dc flags none w = (res, w')) : CanConverge n src dst sid w' := by
  obtain ⟨d, _, h2, _, h4, h5, _⟩ := h.sync hrl hs
  have ha : After src dst n sid flags w w' d.kids := ⟨h, h2, h4, h5⟩
  have hsrc := h.src_same hs
  exact ⟨ha.comparable hsrc, ha.ready, h.separate' hs, by rw [hsrc]; exact ha.reconcilable⟩

end


/-! ## agreement -/

theorem Hidden.flags_eq {flags : Nat} {s : Option (Model V)} {m m' : Model V} (h : Hidden flags s (some m)) (he : m'.flags = m.flags) : Hidden flags s (some m') := by
  generalize hd : some m = d at h
  cases h with
  | globalSrc => cases hd
  | globalDst _ h => cases hd; exact .globalDst _ h
  | modelSrc => cases hd
  | modelDst _ h => cases hd; exact .modelDst _ (by rw [he]; exact h)
  | ignoreSrc s d h => exact .ignoreSrc s _ h
  | ignoreDst _ _ h => cases hd; exact .ignoreDst _ _ (by rw [he]; exact h)

/-- The place with a key. -/
def posAt (S D : Snap V) (k : Key) : Pos V := ⟨k.1, k.2, S.at k, D.at k⟩

theorem Reconcilable.child {src dst : Adapter V} {n : Nat} {S D : Snap V} (R : Reconcilable src dst n S D) {k c : Key} (hl : Linked S D k c)
    (hc : comparesType (S.at k) (D.at k) c.1) : IsChild S D (posAt S D k) (posAt S D c) where
  compared := hc
  listed := hl
  src_eq := by
    show S.at c = if listsO (S.at k) c.1 c.2 = true then S.at c else none
    split
    · rfl
    · rename_i hn
      rcases hl with h | h
      · exact absurd h hn
      · cases hf : S.at c with
        | none => rfl
        | some m => exact absurd (R.dst_place k c h (fun hh => by cases hf.symm.trans hh)) hn
  dst_eq := by
    show D.at c = if listsO (D.at k) c.1 c.2 = true then D.at c else none
    split
    · rfl
    · rename_i hn
      rcases hl with h | h
      · cases hf : D.at c with
        | none => rfl
        | some m => exact absurd (R.src_place k c h (fun hh => by cases hf.symm.trans hh)) hn
      · exact absurd h hn

theorem plus_has {e : Elem V} {a' b' : Dict V} (hs : e.src = some a') (hd : e.dst = some b') {f : String} {a b : V} (ha : Dict.get? a' f = some a)
    (hb : Dict.get? b' f = some b) (hne : PyVal.eq a b = false) : Dict.get? (e.plus.getD []) f = some a := by
  have hp : e.plus = some (Elem.pick a' (e.attrsKeys.filter (Elem.differs a' b'))) := by unfold Elem.plus; rw [hs, hd]
  rw [hp, Option.getD_some, get?_pick, if_pos, ha]
  rw [List.mem_filter]
  constructor
  · unfold Elem.attrsKeys
    rw [hs, hd]
    exact mem_intersection.2 ⟨Dict.mem_keys_iff.2 ⟨_, hb⟩, Dict.mem_keys_iff.2 ⟨_, ha⟩⟩
  · unfold Elem.differs; rw [ha, hb]; simp [hne]

section
variable {src dst : Adapter V} {n sid flags : Nat} {w w' : World V E} {es : List (Elem V)}
namespace After
variable (h : After src dst n sid flags w w' es)
include h

theorem place {e : Elem V} (he : InTree e es) {k : Key} (hk : ElemKey dst e k) : (posAt (snap src w) (snap dst w) k).Visible flags := by
  obtain ⟨q, j, _, hv, pl, _, hk'⟩ := h.des.place h.can.reconcilable h.can.ready.instOf h.can.comparable.src_ok h.can.comparable.dst_ok he
  cases elemKey_unique hk hk'
  unfold Pos.Visible at hv ⊢
  rw [pl.src_eq, pl.dst_eq] at hv
  exact hv

/-- The sides before, of a place that is there afterwards. -/
theorem before {k : Key} (hs : (snap src w).at k ≠ none ∨ (snap dst w').at k ≠ none) :
    ((snap src w).at k ≠ none ∨ (snap dst w).at k ≠ none) ∧ ((snap dst w).at k ≠ none → (snap dst w').at k ≠ none) := by
  constructor
  · by_cases h1 : (snap src w).at k = none
    · right
      intro hn
      rcases hs with hs | hs
      · exact hs h1
      · obtain ⟨m, hm⟩ := Option.ne_none_iff_exists'.1 hs
        obtain ⟨s, _, _, g, _⟩ := h.made hm hn
        rw [h1] at g; cases g
    · exact .inl h1
  · intro hd hn
    rcases hs with hs | hs
    · exact hs (h.inv.keep k hd (h.find_none.1 hn))
    · exact hs hn

theorem visible {k : Key} (hs : (snap src w).at k ≠ none ∨ (snap dst w').at k ≠ none) (hv : (posAt (snap src w) (snap dst w') k).Visible flags) :
    (posAt (snap src w) (snap dst w) k).Visible flags := by
  intro hh
  have hno : ∀ e, InTree e es → ¬ ElemKey dst e k := fun e he hk => h.place he hk hh
  apply hv
  have hh' : Hidden flags ((snap src w).at k) ((snap dst w).at k) := hh
  show Hidden flags ((snap src w).at k) ((snap dst w').at k)
  cases hd : (snap dst w).at k with
  | none =>
    cases hd' : (snap dst w').at k with
    | none => rw [hd] at hh'; exact hh'
    | some m =>
      obtain ⟨r, h1, rfl⟩ := h.find.1 hd'
      obtain ⟨e, _, _, he, hk, _⟩ := h.inv.made k r h1 hd
      exact absurd hk (hno e he)
  | some m0 =>
    cases hd' : (snap dst w').at k with
    | none => exact absurd hd' ((h.before hs).2 (by rw [hd]; simp))
    | some m => rw [hd] at hh'; exact hh'.flags_eq (h.evolved hd' hd).flags_eq

theorem compared {p : Pos V} (hp : Compared src dst flags (snap src w) (snap dst w') p) :
    Compared src dst flags (snap src w) (snap dst w) (posAt (snap src w) (snap dst w) (p.type, p.uid)) := by
  have R' := h.reconcilable
  have hi' := h.ready.instOf
  induction hp with
  | @top c ht =>
    have hs := ht.some_side
    rw [ht.src_eq, ht.dst_eq] at hs
    exact .top ⟨ht.src_top, ht.dst_top, rfl, rfl, (h.before (k := (c.type, c.uid)) hs).1⟩
  | @child p c hp hv hc ih =>
    obtain ⟨j, pl⟩ := hp.placed R' hi'
    have hs := pl.some_side
    have hv' : (posAt (snap src w) (snap dst w') (p.type, p.uid)).Visible flags := by
      unfold Pos.Visible at hv ⊢
      rw [pl.src_eq, pl.dst_eq] at hv
      exact hv
    rw [pl.src_eq, pl.dst_eq] at hs
    have hs' : (snap src w).at (p.type, p.uid) ≠ none ∨ (snap dst w').at (p.type, p.uid) ≠ none := hs
    refine .child ih (h.visible hs' hv') (h.can.reconcilable.child (k := (p.type, p.uid)) (c := (c.type, c.uid)) (h.linked (pl.linked hc)) ?_)
    have hcmp := hc.compared
    rw [pl.src_eq, pl.dst_eq] at hcmp
    refine ⟨hcmp.1, fun m0 hm0 => ?_⟩
    obtain ⟨m, hm⟩ := Option.ne_none_iff_exists'.1 ((h.before hs').2 (by rw [hm0]; simp))
    rw [← (h.evolved hm hm0).cls_eq]
    exact hcmp.2 m hm

/-- When everything has been done, source and destination agree. -/
theorem agree (hdone : ∀ e ∈ es, Done dst sid e w') (hself : SelfEqual (snap src w))
    (hkeep : KeepsNew src dst flags (snap src w) (snap dst w)) {p : Pos V} (hp : Compared src dst flags (snap src w) (snap dst w') p)
    (hv : p.Visible flags) : p.Agrees := by
  obtain ⟨j, pl⟩ := hp.placed h.reconcilable h.ready.instOf
  have hc := h.compared hp
  generalize hk : ((p.type, p.uid) : Key) = k at hc
  have es1 : p.src = (snap src w).at k := by rw [← hk]; exact pl.src_eq
  have es2 : p.dst = (snap dst w').at k := by rw [← hk]; exact pl.dst_eq
  have hs := pl.some_side
  rw [es1, es2] at hs
  have hv' : (posAt (snap src w) (snap dst w') k).Visible flags := by
    unfold Pos.Visible at hv ⊢
    rw [es1, es2] at hv
    exact hv
  obtain ⟨x, hx, hd⟩ := h.des.complete hc (h.visible hs hv')
  have hxk : ElemKey dst x k := by
    obtain ⟨q, _, _, _, pl', hg', hkq⟩ := h.des.place h.can.reconcilable h.can.ready.instOf h.can.comparable.src_ok h.can.comparable.dst_ok hx
    obtain ⟨j0, pl0⟩ := hc.placed h.can.reconcilable h.can.ready.instOf
    exact pl0.elemKey h.can.reconcilable h.can.ready.instOf h.can.comparable.src_ok h.can.comparable.dst_ok hd.header
  obtain ⟨e, he, hxe⟩ := inTree_root hx
  have hdn := hdone e he x k hxe hxk
  obtain ⟨s1, s2, _, _⟩ := h.sides hx hxk
  -- both present before
  have both : ∀ s m0, (snap src w).at k = some s → (snap dst w).at k = some m0 →
      (x.action = none ∨ ∀ d, (snap dst w').at k = some d → ∀ f v, Dict.get? (x.plus.getD []) f = some v → Dict.get? d.vals f = some v) → p.Agrees := by
    intro s m0 hS hD hor
    obtain ⟨d, hd'⟩ := Option.ne_none_iff_exists'.1 ((h.before hs).2 (by rw [hD]; simp))
    refine ⟨s, d, by rw [es1, hS], by rw [es2, hd'], fun f a b ha hb => ?_⟩
    have ev := h.evolved hd' hD
    have hbv := attrs_vals hb
    rcases ev.vals f with hv0 | ⟨e', v, he', hk', _, hp', hv0⟩
    · have hb0 : Dict.get? m0.attrs f = some b := by
        rw [Model.get?_attrs] at hb ⊢
        rw [ev.cls_eq, hv0] at hb
        exact hb
      rcases hor with hno | hset
      · obtain ⟨s', d', g1, g2, g3⟩ := (header_action hd.header hd.good.some_side).1 hno
        cases hS.symm.trans g1
        cases hD.symm.trans g2
        exact g3 f a b ha hb0
      · cases heq : PyVal.eq a b with
        | true => rfl
        | false =>
          have := hset d hd' f a (plus_has (by rw [s1, hS]; rfl) (by rw [s2, hD]; rfl) ha hb0 heq)
          rw [hbv] at this
          cases this
          rw [hself k s f _ hS ha] at heq
          cases heq
    · have := plus_source (by rw [(h.sides he' hk').1, hS]; rfl) hp'
      rw [ha] at this
      cases this
      rw [hbv] at hv0
      cases hv0
      exact hself k s f _ hS ha
  unfold DoneAt at hdn
  cases hact : x.action with
  | none =>
    obtain ⟨q1, q2⟩ := h.env.quiet x k hx hxk hact
    obtain ⟨s, hS⟩ := Option.ne_none_iff_exists'.1 q1
    obtain ⟨m0, hD⟩ := Option.ne_none_iff_exists'.1 q2
    exact both s m0 hS hD (.inl hact)
  | some a =>
    cases a with
    | delete =>
      rw [hact] at hdn
      dsimp only at hdn
      rcases hs with hs | hs
      · exact absurd (h.env.delete x k hx hxk hact).1 hs
      · exact absurd (h.find_none.2 hdn) hs
    | update =>
      rw [hact] at hdn
      dsimp only at hdn
      obtain ⟨q1, q2⟩ := h.env.update x k hx hxk hact
      obtain ⟨s, hS⟩ := Option.ne_none_iff_exists'.1 q1
      obtain ⟨m0, hD⟩ := Option.ne_none_iff_exists'.1 q2
      refine both s m0 hS hD (.inr fun d hd' => ?_)
      obtain ⟨r, r1, r2⟩ := hdn
      obtain ⟨r', r3, r4⟩ := h.find.1 hd'
      rw [r1] at r3
      cases r3
      rw [← r4]
      exact r2
    | create =>
      rw [hact] at hdn
      dsimp only at hdn
      obtain ⟨d, hd'⟩ := Option.ne_none_iff_exists'.1 (fun hn => hdn (h.find_none.1 hn))
      obtain ⟨s, c, m1, g1, g2, _, g4, g5, _⟩ := h.made hd' (h.env.create x k hx hxk hact).2
      refine ⟨s, d, by rw [es1, g1], by rw [es2, hd'], fun f a b ha hb => ?_⟩
      have hcon := construct_ok g4
      have hcl := (instantiate_ok hcon).1
      have hval := h.can.ready.valid.valid _ _ g2
      have hbv := attrs_vals hb
      have hfa : f ∈ c.attributes := by
        rw [Model.get?_attrs] at hb
        split at hb
        · rename_i hf; rw [g5.cls_eq, hcl] at hf; exact hf
        · cases hb
      obtain ⟨⟨f', dflt⟩, hf1, rfl⟩ := List.mem_map.1 (hval.attrs_fields f hfa)
      rw [g5.vals_eq, construct_get? hval g4 hf1] at hbv
      have hid : Dict.get? s.identifiers f' = none := by
        rw [Model.get?_identifiers, if_neg]
        intro hid
        rw [Model.get?_attrs] at ha
        split at ha
        · rename_i hf; exact (h.can.reconcilable.sound k s (.inl g1)).valid.ids_attrs _ hid hf
        · cases ha
      dsimp only at ha
      unfold ModelClass.newValue at hbv
      rw [hid, ha] at hbv
      exact hkeep k s c ⟨_, hc, h.visible hs hv', rfl⟩ g1 (h.env.create x k hx hxk hact).2 g2 f' a b ha hbv
end After
end

end DS
