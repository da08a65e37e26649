import Verif.Lemmas.RedisErrStep
import Verif.Props.RedisNext
/-! # What a sync into a Redis store raises -/
set_option linter.unusedSectionVars false

namespace DS
variable {V E : Type} [PyVal V] {n rl : Nat} {sid : String} {src dst : Adapter V} {dc : DiffClass V} {flags : Nat} {hooks : Hooks V E} {w w' : World V E}
  {res : Except Err (Diff V)}

theorem RInv.start (h : RedisPair n src dst sid w) : RInv dst sid (UE (snap src w).at (snap dst w).at) (fun _ => True) w := by
  obtain ⟨h1, h2⟩ := h.ready.redis sid h.store
  have hf : ∀ t u o, Plain t → Dict.get? w.redis (redisKey sid t u) = some o → (snap dst w).find t u = some o.m :=
    fun t u o hp ho => (redis_find h.store).2 ⟨hp, o, ho, rfl⟩
  refine ⟨h.ready.ok.refs_lt, h1, h2, fun t u o c hp ho hc => h.ready.inst t u _ c (hf t u o hp ho) hc, fun t u o hp ho c hc => ?_, fun _ _ _ _ _ _ => trivial⟩
  have hs := hf t u o hp ho
  refine .inr ?_
  unfold Snap.at
  rw [hs]
  exact (mem_childRefs (h.ready.children _ _ _ hs) c.1 c.2).1 hc

/-- A whole sync. -/
theorem RedisPair.clean (h : RedisPair n src dst sid w) (hrl : n ≤ rl) (hre : dc.Reorders) (hs : syncFrom n rl hooks dst src dc flags none w = (res, w')) :
    ∃ d, (∃ w1, diffFrom n dst src dc flags w = (.ok d, w1)) ∧ NoRef (newEvents w w') ∧ Miss (newEvents w w') ∧
      ((∃ x, res = .error x ∧ ErrBy flags (newEvents w w') x) ∨ res = .ok d) := by
  obtain ⟨d, hd⟩ := (diff_returns_iff (n := n) (dc := dc) (flags := flags) h.comparable).2 (h.reconcilable.no_problem h.instOf h.comparable.src_ok h.comparable.dst_ok flags)
  have hd : diffFrom n dst src dc flags w = (.ok d, (diffFrom n dst src dc flags w).2) := by rw [← hd]
  generalize (diffFrom n dst src dc flags w).2 = wd at hd
  obtain ⟨hdes, hcls⟩ := diffFrom_describes h.comparable.ok h.comparable.src_ok h.comparable.dst_ok h.comparable.fields h.comparable.src_types h.comparable.dst_types h.comparable.top_nodup hd
  have hc := hdes.cenv h.reconcilable h.instOf h.comparable.src_ok h.comparable.dst_ok h.ready.valid (computed_good h.comparable h.ready h.keepsIds hd)
  refine ⟨d, ⟨wd, hd⟩, ?_⟩
  rcases syncFrom_cases n rl hooks dst src dc flags none w h.ready.ok.refs_lt h.ready.ok.tbl_wf with ⟨x, w1, h1, h2, h3, h4⟩ | ⟨d', w0, evs0, y, w1, h1, h2, h3, h4, h5, h6, hcl, h7, h8⟩
  · rcases h4 with ⟨_, h4, _⟩ | ⟨_, h4⟩
    · cases h4
    · rw [hd] at h4; cases h4
  · have hdd : d' = d := by
      rcases h1 with ⟨h1, _⟩ | ⟨_, h1⟩
      · cases h1
      · rw [hd] at h1; cases h1; rfl
    subst hdd
    have st : Still w (startSync d' w0) := h2.trans (startSync_still d' w0)
    have hi0 := st.rinv (RInv.start h)
    have hX : (⟨src, dst, flags, d'.cls, hooks, rl⟩ : SyncCtx V E).dst.ref.store = .redis sid := h.store
    have hk := syncElem_list (S := ⟨src, dst, flags, d'.cls, hooks, rl⟩) n (getChildren d'.cls d'.kids) false (startSync d' w0) hi0.refs
    rw [h7] at hk
    have hre' : d'.cls.Reorders := by rw [hcls]; exact hre
    have hperm := getChildren_perm hre' d'.kids
    have hdeep : ∀ {x}, x ∈ d'.kids → Deep dst (snap src w).at (snap dst w).at n rl x := by
      intro x hx k hk j y hdn
      obtain ⟨_, _, ps, hdp, hi', hl, hz⟩ := hdes
      obtain ⟨p, hp, hep⟩ := zip_mem_left hl hx
      have ht := ((hi' p).1 hp).1
      have pl := Placed.of_top h.reconcilable ht
      cases pl.key_of h.reconcilable h.instOf h.comparable.src_ok h.comparable.dst_ok (hz _ hep).header hk
      have := h.reconcilable.depth _ _ (pl.top.down' hdn)
      exact ⟨by omega, by omega⟩
    have hcl : CleanR flags (startSync d' w0) w1 y := by
      have hfull : ∀ k m, (snap dst w).at k = some m → FullKids m := fun k m hm => (h.reconcilable.sound k m (.inr hm)).fullKids
      refine (kids_cleanR (A := dst) (sid := sid) (S := (snap src w).at) (D := (snap dst w).at) (es := d'.kids) (parent := none) hk (fun x hx => .here (mem_getChildren hx)) (fun x hx wa wb r hr hia haa hpa => ?_)
        hi0 (hc.dist.perm hperm.symm) (fun x hx k hk => ?_) (fun x hx p hp => by cases hp)).1
      · have hx' := mem_getChildren hx
        exact syncElem_cleanR hX hc hre' hfull n x none wa wb r hr (.here hx') hia haa hpa (hdeep hx')
      · exact (st.rpart (K := fun _ => False) (parent := none) h.store (RInv.start h)).pres k (by
          obtain ⟨z, hz, hzk⟩ := hk
          exact ⟨z, inTree_single (mem_getChildren hx) hz, hzk⟩) (fun h => h)
    have hn0 : NoRef evs0 := .of_none (fun lv ctx st hm => by
      obtain ⟨_, _, h⟩ := h5 _ hm
      cases h)
    have hm0 : NoMissing evs0 := fun ctx hm => by
      obtain ⟨_, _, h⟩ := h5 _ hm
      cases h
    obtain ⟨evs, e1, e2, e3, e4⟩ := hcl.after (w := w) h4 hn0 hm0.miss
    rw [hs] at h8
    cases y with
    | error x =>
      cases h8
      have : newEvents w w' = evs := by unfold newEvents; rw [e1, List.drop_left]
      rw [this]
      exact ⟨e2, e4, .inl ⟨x, rfl, e3 x rfl⟩⟩
    | ok ch =>
      cases h8
      unfold World.complete
      cases ch
      · have : newEvents w w1 = evs := by unfold newEvents; rw [e1, List.drop_left]
        exact ⟨this ▸ e2, this ▸ e4, .inr rfl⟩
      · have : newEvents w { w1 with trace := w1.trace ++ [.syncComplete dst.ref.id src.ref.id] } = evs ++ [.syncComplete dst.ref.id src.ref.id] := by
          unfold newEvents
          dsimp only
          rw [e1, List.append_assoc, List.drop_left]
        exact ⟨this ▸ e2.append (.of_none (by simp)), this ▸ e4.append (NoMissing.miss fun ctx hm => by simp at hm), .inr rfl⟩

/-- **C77** A sync into a Redis store, between adapters that can be reconciled, passes on what the user's own method raised and raises nothing else; that
method's call was the last one, and under CONTINUE_ON_FAILURE the exception is none of those announced for failed actions. -/
theorem C77_redis_raises_only_user_exceptions (h : RedisPair n src dst sid w) (hR : dc.Reorders) (hrl : n ≤ rl)
    (hs : syncFrom n rl hooks dst src dc flags none w = (res, w')) {x : Err} (hx : res = .error x) :
    ∃ L c out R, newEvents w w' = L ++ .call c out :: R ∧ callsOf R = [] ∧ out.result = .raises x ∧
      (flagOn flags GF.CONTINUE_ON_FAILURE = true → x.isCrud = false) := by
  obtain ⟨d, _, _, _, ⟨y, h1, h2⟩ | h1⟩ := h.clean hrl hR hs
  · rw [h1] at hx; cases hx; exact h2
  · rw [h1] at hx; cases hx

/-- **C77** The same of `sync_to`. -/
theorem C77_redis_raises_only_user_exceptions_to (h : RedisPair n src dst sid w) (hR : dc.Reorders) (hrl : n ≤ rl)
    (hs : syncTo n rl hooks src dst dc flags none w = (res, w')) {x : Err} (hx : res = .error x) :
    ∃ L c out R, newEvents w w' = L ++ .call c out :: R ∧ callsOf R = [] ∧ out.result = .raises x ∧
      (flagOn flags GF.CONTINUE_ON_FAILURE = true → x.isCrud = false) :=
  C77_redis_raises_only_user_exceptions h hR hrl hs hx

/-- **C77** So a sync into a Redis store returns the diff whenever no method raises, or, under CONTINUE_ON_FAILURE, when they raise nothing but the
exceptions announced for failed actions. -/
theorem C77_redis_returns (h : RedisPair n src dst sid w) (hR : dc.Reorders) (hrl : n ≤ rl)
    (hs : syncFrom n rl hooks dst src dc flags none w = (res, w'))
    (hq : ∀ c out x, Event.call c out ∈ newEvents w w' → out.result = .raises x → flagOn flags GF.CONTINUE_ON_FAILURE = true ∧ x.isCrud = true) :
    ∃ d w1, res = .ok d ∧ diffFrom n dst src dc flags w = (.ok d, w1) := by
  obtain ⟨d, ⟨w1, hd⟩, _, _, ⟨y, h1, L, c, out, R, h2, _, h3, h4⟩ | h1⟩ := h.clean hrl hR hs
  · obtain ⟨g1, g2⟩ := hq c out y (by rw [h2]; simp) h3
    rw [h4 g1] at g2; cases g2
  · exact ⟨d, w1, h1, hd⟩

/-- **C77** And no action on a Redis store is refused: every record of an attempt follows at once the call it is about. -/
theorem C77_redis_nothing_refused (h : RedisPair n src dst sid w) (hR : dc.Reorders) (hrl : n ≤ rl)
    (hs : syncFrom n rl hooks dst src dc flags none w = (res, w')) {L R : List (Event V)} {lv : Level} {ctx : LogCtx} {st : Status}
    (hl : newEvents w w' = L ++ .log lv ctx st :: R) (hlv : lv ≠ .debug) : ∃ L' c out, L = L' ++ [.call c out] := by
  obtain ⟨_, _, h1, _⟩ := h.clean hrl hR hs
  exact h1 _ _ _ _ _ hl hlv

/-- **C91** When all calls succeed, a sync into a Redis store returns, and finds the object of every element. -/
theorem C91_goes_through (h : RedisPair n src dst sid w) (hR : dc.Reorders) (hrl : n ≤ rl)
    (hs : syncFrom n rl hooks dst src dc flags none w = (res, w')) (ha : AllSucceed (newEvents w w'))
    (hn : NoneTakesAlong src dst flags (snap src w) (snap dst w)) : ∃ d, res = .ok d ∧ WentThrough n rl hooks src dst dc flags w d w' := by
  obtain ⟨d, _, _, hm, ⟨y, h1, L, c, out, R, h2, _, h3, _⟩ | h1⟩ := h.clean hrl hR hs
  · have := (ha c out (by rw [h2]; simp)).1
    rw [h3] at this; cases this
  · exact ⟨d, h1, ⟨by rw [hs, h1], hR, hm.found ha, ha, hn⟩⟩

end DS
