import Verif.Lemmas.Outcome
import Verif.Props.EscapeRedis
import Verif.Props.SyncAnyOrder
/-! # Syncs with a diff that was computed before -/
set_option linter.unusedSectionVars false

namespace DS
variable {V E : Type} [PyVal V]

section
variable {n : Nat} {src dst : Adapter V} {sid : Nat} {w w' : World V E}

/-- `CanConverge.sync` with the diff given. -/
theorem CanConverge.sync_kept (h : CanConverge n src dst sid w) {rl : Nat} (hrl : n ≤ rl) {hooks : Hooks V E} {dc dc0 : DiffClass V} {flags fl : Nat} {res : Except Err (Diff V)} {d : Diff V} {wd : World V E}
    (hd : diffFrom n dst src dc0 flags w = (.ok d, wd)) (hl : d.len ≠ 0) (hb : dc0.bases.contains dc.id = true) 
    (hs : syncFrom n rl hooks dst src dc fl (some d) w = (res, w')) :
    DescribesTopG src dst flags (snap src w) (snap dst w) d.kids ∧
      CEnv dst (snap src w).at (snap dst w).at d.kids ∧ J dst (snap src w).at (snap dst w).at d.kids sid (fun _ => none) w' ∧
      (dc0.Reorders → AllSucceed (newEvents w w') → res = .ok d ∧ ∀ e ∈ d.kids, Done dst sid e w') := by
  obtain ⟨hdes, hcls⟩ := diffFrom_describes h.comparable.ok h.comparable.src_ok h.comparable.dst_ok h.comparable.fields h.comparable.src_types h.comparable.dst_types h.comparable.top_nodup hd
  have hc := hdes.cenv h.reconcilable h.ready.instOf h.comparable.src_ok h.comparable.dst_ok h.ready.valid (computed_good h.comparable h.ready.dst h.keepsIds hd)
  refine ⟨hdes, hc, ?_⟩
  rcases syncFrom_cases n rl hooks dst src dc fl (some d) w h.ready.ok.refs_lt h.ready.ok.tbl_wf with ⟨x, w1, h1, h2, h3, h4⟩ | ⟨d', w0, evs0, y, w1, h1, h2, h3, h4, h5, h6, hcl, h7, h8⟩
  · rcases h4 with ⟨d', h4, _, hx, _⟩ | ⟨h4, _⟩
    · cases h4; rw [hcls, hb] at hx; cases hx
    · exact absurd (h4 d rfl) hl
  · have hdd : d' = d := by
      rcases h1 with ⟨h1, _⟩ | ⟨h1, _⟩
      · cases h1; rfl
      · exact absurd (h1 d rfl) hl
    subst hdd
    have st : Still w (startSync d' w0) := h2.trans (startSync_still d' w0)
    have hj0 := (J.start h.ready h.reconcilable hc).still st
    have hX : (⟨src, dst, fl, d'.cls, hooks, rl⟩ : SyncCtx V E).dst.ref.store = .local sid := h.ready.store
    have hw0 := hj0.sinv.ok.refs_lt
    have hk := syncElem_list (S := ⟨src, dst, fl, d'.cls, hooks, rl⟩) n (getChildren d'.cls d'.kids) false (startSync d' w0) hw0
    rw [h7] at hk
    obtain ⟨a1, _, a3, a4⟩ := kids_conv (X := ⟨src, dst, fl, d'.cls, hooks, rl⟩) hk (fun x hx => .here (mem_getChildren hx)) (fun x hx wa wb r hr hj => ⟨by
      refine syncElem_conv hX hc n x none _ wa wb r hr (.here (mem_getChildren hx)) hj (.inl ⟨rfl, mem_getChildren hx⟩) (fun k hk => absurd rfl hk) ?_
      intro k hk j y hdn
      obtain ⟨_, _, ps, hdp, hi', hl, hz⟩ := hdes
      obtain ⟨p, hp, hep⟩ := zip_mem_left hl (mem_getChildren hx)
      have ht := ((hi' p).1 hp).1
      have pl := Placed.of_top h.reconcilable ht
      cases pl.key_of h.reconcilable h.ready.instOf h.comparable.src_ok h.comparable.dst_ok (hz _ hep).header hk
      have := h.reconcilable.depth _ _ (pl.top.down' hdn)
      exact ⟨by omega, by dsimp only; omega⟩, syncElem_ext n _ _ _ _ _ hj.sinv.ok.refs_lt hr⟩) hj0
    have stC : Still w1 w' ∧ TrExt w1 w' := by
      rw [hs] at h8
      cases y with
      | error x => cases h8; exact ⟨.refl _, .refl _⟩
      | ok ch =>
        cases h8
        unfold World.complete
        cases ch
        · exact ⟨.refl _, .refl _⟩
        · exact ⟨Still.emit _ _, ⟨_, rfl⟩⟩
    refine ⟨a1.still stC.1, fun hre hall => ?_⟩
    have hre' : d'.cls.Reorders := by rw [hcls]; exact hre
    have hperm := getChildren_perm hre' d'.kids
    have hev : NewIn GoodEv (startSync d' w0) w1 := by
      obtain ⟨evs1, e1⟩ := a3
      obtain ⟨evs2, e2⟩ := stC.2
      have e0 : (startSync d' w0).trace = w.trace ++ evs0 := h4
      have htr : w'.trace = w.trace ++ (evs0 ++ (evs1 ++ evs2)) := by rw [e2, e1, e0]; simp
      intro evs he ev hev
      have : evs = evs1 := List.append_cancel_left (he.symm.trans e1)
      subst this
      cases ev with
      | call c out =>
        simp only [GoodEv]
        exact hall c out (by unfold newEvents; rw [htr, List.drop_left]; simp [hev])
      | _ => trivial
    obtain ⟨⟨b, hb⟩, hdone⟩ := a4 hre' (hc.dist.perm hperm.symm) (by
      intro x hx y k hy hk
      have hyt : InTree y d'.kids := inTree_single (mem_getChildren hx) hy
      constructor
      · intro ha hn
        have := (hc.delete y k hyt hk ha).2
        rw [st.fr_eq] at hn
        exact this (by rw [snap_at h.ready.store, hn]; rfl)
      · intro ha
        have := (hc.create y k hyt hk ha).2
        rw [snap_at h.ready.store] at this
        rw [st.fr_eq]
        simpa using this) hev
    subst hb
    rw [hs] at h8
    cases h8
    exact ⟨rfl, fun e he => (hdone e (hperm.mem_iff.2 he)).still stC.1 a1.sinv.ok.refs_lt⟩

/-- `CanConverge.clean` with the diff given. -/
theorem CanConverge.clean_kept (h : CanConverge n src dst sid w) {rl : Nat} (hrl : n ≤ rl) {hooks : Hooks V E} {dc dc0 : DiffClass V} {flags fl : Nat} {res : Except Err (Diff V)} {d : Diff V} {wd : World V E}
    (hd : diffFrom n dst src dc0 flags w = (.ok d, wd)) (hl : d.len ≠ 0) (hb : dc0.bases.contains dc.id = true) (hre : dc0.Reorders)
    (hs : syncFrom n rl hooks dst src dc fl (some d) w = (res, w')) :
    NoRef (newEvents w w') ∧ Miss (newEvents w w') ∧ ((∃ x, res = .error x ∧ ErrBy fl (newEvents w w') x) ∨ res = .ok d) := by
  obtain ⟨hdes, hcls⟩ := diffFrom_describes h.comparable.ok h.comparable.src_ok h.comparable.dst_ok h.comparable.fields h.comparable.src_types h.comparable.dst_types h.comparable.top_nodup hd
  have hc := hdes.cenv h.reconcilable h.ready.instOf h.comparable.src_ok h.comparable.dst_ok h.ready.valid (computed_good h.comparable h.ready.dst h.keepsIds hd)
  rcases syncFrom_cases n rl hooks dst src dc fl (some d) w h.ready.ok.refs_lt h.ready.ok.tbl_wf with ⟨x, w1, h1, h2, h3, h4⟩ | ⟨d', w0, evs0, y, w1, h1, h2, h3, h4, h5, h6, hcl, h7, h8⟩
  · rcases h4 with ⟨d', h4, _, hx, _⟩ | ⟨h4, _⟩
    · cases h4; rw [hcls, hb] at hx; cases hx
    · exact absurd (h4 d rfl) hl
  · have hdd : d' = d := by
      rcases h1 with ⟨h1, _⟩ | ⟨h1, _⟩
      · cases h1; rfl
      · exact absurd (h1 d rfl) hl
    subst hdd
    have st : Still w (startSync d' w0) := h2.trans (startSync_still d' w0)
    have hj0 := (J.start h.ready h.reconcilable hc).still st
    have hX : (⟨src, dst, fl, d'.cls, hooks, rl⟩ : SyncCtx V E).dst.ref.store = .local sid := h.ready.store
    have hw0 := hj0.sinv.ok.refs_lt
    have hk := syncElem_list (S := ⟨src, dst, fl, d'.cls, hooks, rl⟩) n (getChildren d'.cls d'.kids) false (startSync d' w0) hw0
    rw [h7] at hk
    have hre' : d'.cls.Reorders := by rw [hcls]; exact hre
    have hperm := getChildren_perm hre' d'.kids
    have hdeep : ∀ {x}, x ∈ d'.kids → Deep dst (snap src w).at (snap dst w).at n rl x := by
      intro x hx k hk j y hdn
      obtain ⟨_, _, ps, hdp, hi', hl, hz⟩ := hdes
      obtain ⟨p, hp, hep⟩ := zip_mem_left hl hx
      have ht := ((hi' p).1 hp).1
      have pl := Placed.of_top h.reconcilable ht
      cases pl.key_of h.reconcilable h.ready.instOf h.comparable.src_ok h.comparable.dst_ok (hz _ hep).header hk
      have := h.reconcilable.depth _ _ (pl.top.down' hdn)
      exact ⟨by omega, by omega⟩
    have hcl : Clean fl (startSync d' w0) w1 y := by
      refine kids_clean (X := ⟨src, dst, fl, d'.cls, hooks, rl⟩) (T := fun _ => none) hk (fun x hx => .here (mem_getChildren hx)) (fun x hx wa wb r hr hj => ?_) hj0 (hc.dist.perm hperm.symm) ?_
      · have hx' := mem_getChildren hx
        have hpar : Par dst d'.kids (fun _ => none) none x := .inl ⟨rfl, hx'⟩
        have hout : Out dst d'.kids (fun _ => none) x := fun k hk => absurd rfl hk
        obtain ⟨g1, g2, _⟩ := syncElem_conv hX hc n x none _ wa wb r hr (.here hx') hj hpar hout (hdeep hx')
        exact ⟨g1, g2, syncElem_clean hX hc hre' n x none _ wa wb r hr (.here hx') hj hpar hout (hdeep hx')⟩
      · intro x hx y k hy hk
        have hyt : InTree y d'.kids := inTree_single (mem_getChildren hx) hy
        constructor
        · intro ha hn
          have := (hc.delete y k hyt hk ha).2
          rw [st.fr_eq] at hn
          exact this (by rw [snap_at h.ready.store, hn]; rfl)
        · intro ha
          have := (hc.create y k hyt hk ha).2
          rw [snap_at h.ready.store] at this
          rw [st.fr_eq]
          simpa using this
    have hn0 : NoRef evs0 := .of_none (fun lv ctx st hm => by
      obtain ⟨_, _, h⟩ := h5 _ hm
      cases h)
    have hm0 : NoMissing evs0 := fun ctx hm => by
      obtain ⟨_, _, h⟩ := h5 _ hm
      cases h
    obtain ⟨evs, e1, e2, e3, e4⟩ := hcl.after (w := w) h4 hn0 hm0.miss
    rw [hs] at h8
    cases y with
    | error x =>
      cases h8
      have : newEvents w w' = evs := by unfold newEvents; rw [e1, List.drop_left]
      rw [this]
      exact ⟨e2, e4, .inl ⟨x, rfl, e3 x rfl⟩⟩
    | ok ch =>
      cases h8
      refine and_assoc.1 ⟨?_, .inr rfl⟩
      unfold World.complete
      cases ch
      · have : newEvents w w1 = evs := by unfold newEvents; rw [e1, List.drop_left]
        exact this ▸ ⟨e2, e4⟩
      · have : newEvents w { w1 with trace := w1.trace ++ [.syncComplete dst.ref.id src.ref.id] } = evs ++ [.syncComplete dst.ref.id src.ref.id] := by
          unfold newEvents
          dsimp only
          rw [e1, List.append_assoc, List.drop_left]
        exact this ▸ ⟨e2.append (.of_none (by simp)), e4.append (NoMissing.miss (by simp [NoMissing]))⟩
end

/-- `RedisPair.clean` with the diff given. -/
theorem RedisPair.clean_kept {n : Nat} {src dst : Adapter V} {sid : String} {w w' : World V E} (h : RedisPair n src dst sid w) {rl : Nat} (hrl : n ≤ rl) {hooks : Hooks V E} {dc dc0 : DiffClass V} {flags fl : Nat} {res : Except Err (Diff V)} {d : Diff V} {wd : World V E}
    (hd : diffFrom n dst src dc0 flags w = (.ok d, wd)) (hl : d.len ≠ 0) (hb : dc0.bases.contains dc.id = true) (hre : dc0.Reorders)
    (hs : syncFrom n rl hooks dst src dc fl (some d) w = (res, w')) :
    NoRef (newEvents w w') ∧ Miss (newEvents w w') ∧ ((∃ x, res = .error x ∧ ErrBy fl (newEvents w w') x) ∨ res = .ok d) := by
  obtain ⟨hdes, hcls⟩ := diffFrom_describes h.comparable.ok h.comparable.src_ok h.comparable.dst_ok h.comparable.fields h.comparable.src_types h.comparable.dst_types h.comparable.top_nodup hd
  have hc := hdes.cenv h.reconcilable h.instOf h.comparable.src_ok h.comparable.dst_ok h.ready.valid (computed_good h.comparable h.ready h.keepsIds hd)
  rcases syncFrom_cases n rl hooks dst src dc fl (some d) w h.ready.ok.refs_lt h.ready.ok.tbl_wf with ⟨x, w1, h1, h2, h3, h4⟩ | ⟨d', w0, evs0, y, w1, h1, h2, h3, h4, h5, h6, hcl, h7, h8⟩
  · rcases h4 with ⟨d', h4, _, hx, _⟩ | ⟨h4, _⟩
    · cases h4; rw [hcls, hb] at hx; cases hx
    · exact absurd (h4 d rfl) hl
  · have hdd : d' = d := by
      rcases h1 with ⟨h1, _⟩ | ⟨h1, _⟩
      · cases h1; rfl
      · exact absurd (h1 d rfl) hl
    subst hdd
    have st : Still w (startSync d' w0) := h2.trans (startSync_still d' w0)
    have hi0 := st.rinv (RInv.start h)
    have hX : (⟨src, dst, fl, d'.cls, hooks, rl⟩ : SyncCtx V E).dst.ref.store = .redis sid := h.store
    have hk := syncElem_list (S := ⟨src, dst, fl, d'.cls, hooks, rl⟩) n (getChildren d'.cls d'.kids) false (startSync d' w0) hi0.refs
    rw [h7] at hk
    have hre' : d'.cls.Reorders := by rw [hcls]; exact hre
    have hperm := getChildren_perm hre' d'.kids
    have hdeep : ∀ {x}, x ∈ d'.kids → Deep dst (snap src w).at (snap dst w).at n rl x := by
      intro x hx k hk j y hdn
      obtain ⟨_, _, ps, hdp, hi', hl, hz⟩ := hdes
      obtain ⟨p, hp, hep⟩ := zip_mem_left hl hx
      have ht := ((hi' p).1 hp).1
      have pl := Placed.of_top h.reconcilable ht
      cases pl.key_of h.reconcilable h.instOf h.comparable.src_ok h.comparable.dst_ok (hz _ hep).header hk
      have := h.reconcilable.depth _ _ (pl.top.down' hdn)
      exact ⟨by omega, by omega⟩
    have hcl : CleanR fl (startSync d' w0) w1 y := by
      have hfull : ∀ k m, (snap dst w).at k = some m → FullKids m := fun k m hm => (h.reconcilable.sound k m (.inr hm)).fullKids
      refine (kids_cleanR (A := dst) (sid := sid) (S := (snap src w).at) (D := (snap dst w).at) (es := d'.kids) (parent := none) hk (fun x hx => .here (mem_getChildren hx)) (fun x hx wa wb r hr hia haa hpa => ?_)
        hi0 (hc.dist.perm hperm.symm) (fun x hx k hk => ?_) (fun x hx p hp => by cases hp)).1
      · have hx' := mem_getChildren hx
        exact syncElem_cleanR hX hc hre' hfull n x none wa wb r hr (.here hx') hia haa hpa (hdeep hx')
      · exact (st.rpart (K := fun _ => False) (parent := none) h.store (RInv.start h)).pres k (by
          obtain ⟨z, hz, hzk⟩ := hk
          exact ⟨z, inTree_single (mem_getChildren hx) hz, hzk⟩) (fun h => h)
    have hn0 : NoRef evs0 := .of_none (fun lv ctx st hm => by
      obtain ⟨_, _, h⟩ := h5 _ hm
      cases h)
    have hm0 : NoMissing evs0 := fun ctx hm => by
      obtain ⟨_, _, h⟩ := h5 _ hm
      cases h
    obtain ⟨evs, e1, e2, e3, e4⟩ := hcl.after (w := w) h4 hn0 hm0.miss
    rw [hs] at h8
    cases y with
    | error x =>
      cases h8
      have : newEvents w w' = evs := by unfold newEvents; rw [e1, List.drop_left]
      rw [this]
      exact ⟨e2, e4, .inl ⟨x, rfl, e3 x rfl⟩⟩
    | ok ch =>
      cases h8
      unfold World.complete
      cases ch
      · have : newEvents w w1 = evs := by unfold newEvents; rw [e1, List.drop_left]
        exact ⟨this ▸ e2, this ▸ e4, .inr rfl⟩
      · have : newEvents w { w1 with trace := w1.trace ++ [.syncComplete dst.ref.id src.ref.id] } = evs ++ [.syncComplete dst.ref.id src.ref.id] := by
          unfold newEvents
          dsimp only
          rw [e1, List.append_assoc, List.drop_left]
        exact ⟨this ▸ e2.append (.of_none (by simp)), this ▸ e4.append (NoMissing.miss fun ctx hm => by simp at hm), .inr rfl⟩

end DS
