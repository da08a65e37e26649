import Verif.Lemmas.RedisNext
import Verif.Props.SyncRedis
import Verif.Props.SyncConc
/-! # C91: what a sync leaves in a Redis store, and what the next diff shows -/
set_option linter.unusedSectionVars false

namespace DS
variable {V E : Type} [PyVal V]

/-- What a client stores it has sent. -/
theorem solo_sets {α : Type} {P : Cmd V → Prop} {x y : Proc V α × Dict (Obj V)} (h : Solo x y) : Sends P x.1 →
    ∀ key o, Dict.get? y.2 key = some o → Dict.get? x.2 key = some o ∨ P (.set key o) := by
  induction h with
  | done x => exact fun _ _ _ h => .inl h
  | @cmd c k d x hc h ih =>
    intro hp key o ho
    cases hp with
    | cmd h1 hk =>
      rcases ih (hk _ (possible_exec hc _)) key o ho with h2 | h2
      · cases c with
        | set key' o' =>
          rw [show (Cmd.exec (.set key' o') d).2 = Dict.set d key' o' from rfl] at h2
          by_cases he : key = key'
          · subst he
            rw [Dict.get?_set_self] at h2
            cases h2
            exact .inr h1
          · rw [Dict.get?_set_ne _ (fun h => he h.symm)] at h2
            exact .inl h2
        | del key' =>
          rw [show (Cmd.exec (.del key') d).2 = Dict.erase d key' from rfl] at h2
          rw [Dict.get?_erase] at h2
          split at h2
          · cases h2
          · exact .inl h2
        | get => exact .inl h2
        | exist => exact .inl h2
        | scan => exact .inl h2
      · exact .inr h2
  | scan ks hk h ih =>
    intro hp key o ho
    cases hp with
    | cmd h1 hk' => exact ih (hk' _ (fun y hy => ((hk y).1 hy).2)) key o ho

section
variable {n rl : Nat} {hooks : Hooks V E} {src dst : Adapter V} {dc : DiffClass V} {flags : Nat} {w w' : World V E} {d : Diff V} {sid : String}

theorem RedisPair.instOf (h : RedisPair n src dst sid w) : InstOf dst (snap dst w) := h.ready.inst

theorem RedisPair.keepsIds (h : RedisPair n src dst sid w) : KeepsIdsOf dst (snap src w) :=
  fun t u s c hs hc => (h.reconcilable.source (t, u) s c hs hc).keeps

/-- What a sync stores, it has made for an element. -/
theorem sync_stores (hA : dst.ref.store = .redis sid) (hw : w.OK) (hs : syncFrom n rl hooks dst src dc flags none w = (.ok d, w')) {key : String} {o : Obj V}
    (ho : Dict.get? w'.redis key = some o) (hn : Dict.get? w.redis key = none) :
    ∃ e u, InTree e d.kids ∧ CreatesAs dst e o.m ∧ ElemKey dst e (e.type, u) ∧ key = redisKey sid o.m.type o.m.uid := by
  rcases syncFrom_cases n rl hooks dst src dc flags none w hw.refs_lt hw.tbl_wf with ⟨x, w1, h1, _⟩ | ⟨d', w0, evs0, y, w1, h1, h2, h3, h4, h5, h6, hcl, h7, h8⟩
  · rw [hs] at h1; cases h1
  · rw [hs] at h8
    have h9 : performSync ⟨src, dst, flags, d'.cls, hooks, rl⟩ n d' w0 = (y, w1) := by
      unfold performSync
      rw [M.modify_bind]
      exact h7
    cases y with
    | error x => cases h8
    | ok ch =>
      cases h8
      have hred : (w1.complete ch dst src).redis = w1.redis := by unfold World.complete; split <;> rfl
      rw [hred] at ho
      have hS : (⟨src, dst, flags, d.cls, hooks, rl⟩ : SyncCtx V E).dst.ref.store = .redis sid := hA
      obtain ⟨res, w2, e1, e2, _⟩ := C86_alone hS (n := n) (diff := d) (w := w0)
      rw [h9] at e1
      cases e1
      have hsend : Sends (fun c : Cmd V => ∀ key o, c = .set key o → ∃ e u, InTree e d.kids ∧ CreatesAs dst e o.m ∧ ElemKey dst e (e.type, u) ∧ key = redisKey sid o.m.type o.m.uid)
          (cPerformSync ⟨src, dst, flags, d.cls, hooks, rl⟩ sid n d w0) := by
        refine Talks.sends (ClT.performSync (g := False) hS (fun h => h.elim) (fun h => h.elim) (fun h => h.elim) ?_ n w0)
        refine ⟨fun _ _ _ _ h => (by cases h), fun _ _ _ _ h => (by cases h), fun _ _ h => (by cases h), fun _ _ _ _ _ _ h => (by cases h), fun o _ hc _ key o' h => ?_, fun _ _ _ _ _ h => (by cases h)⟩
        cases h
        obtain ⟨e, u, c1, c2, c3⟩ := hc
        exact ⟨e, u, c1, c2, c3, rfl⟩
      rcases solo_sets e2 hsend key o ho with h | h
      · rw [show (cPerformSync ⟨src, dst, flags, d.cls, hooks, rl⟩ sid n d w0, w0.redis).2 = w0.redis from rfl, h2.redis_eq, hn] at h
        cases h
      · exact h key o rfl

theorem RedisPair.computed (h : RedisPair n src dst sid w) (hr : WentThrough n rl hooks src dst dc flags w d w') : ∃ w1, diffFrom n dst src dc flags w = (.ok d, w1) := by
  rcases syncFrom_cases n rl hooks dst src dc flags none w h.ready.ok.refs_lt h.ready.ok.tbl_wf with ⟨x, w1, h1, _⟩ | ⟨d', w0, evs0, y, w1, h1, h2, h3, h4, h5, h6, hcl, h7, h8⟩
  · rw [hr.run] at h1; cases h1
  · rw [hr.run] at h8
    cases y with
    | error x => cases h8
    | ok ch =>
      cases h8
      rcases h1 with ⟨h1, _⟩ | ⟨_, h1⟩
      · cases h1
      · exact ⟨(diffFrom n dst src dc flags w).2, by rw [← h1]⟩

theorem RedisPair.described (h : RedisPair n src dst sid w) (hr : WentThrough n rl hooks src dst dc flags w d w') :
    DescribesTopG src dst flags (snap src w) (snap dst w) d.kids ∧ d.cls = dc ∧ CEnv dst (snap src w).at (snap dst w).at d.kids ∧
      SyncRun n rl hooks dst src dc flags none w d (.ok d) w' := by
  obtain ⟨w1, hd⟩ := h.computed hr
  have hc := h.comparable
  obtain ⟨hdes, hcls⟩ := diffFrom_describes hc.ok hc.src_ok hc.dst_ok hc.fields hc.src_types hc.dst_types hc.top_nodup hd
  exact ⟨hdes, hcls, hdes.cenv h.reconcilable h.instOf hc.src_ok hc.dst_ok h.ready.valid (computed_good hc h.ready h.keepsIds hd),
    SyncRun.of_computed hc h.ready h.keepsIds hd hr.run⟩

/-- The elements are the shown objects. -/
theorem RedisPair.shown_iff (h : RedisPair n src dst sid w) (hr : WentThrough n rl hooks src dst dc flags w d w') {k : Key} :
    Shown src dst flags (snap src w) (snap dst w) k ↔ ∃ e, InTree e d.kids ∧ ElemKey dst e k := by
  obtain ⟨hdes, _, _, _⟩ := h.described hr
  constructor
  · rintro ⟨p, h1, h2, rfl⟩
    obtain ⟨x, x1, x2⟩ := hdes.complete h1 h2
    obtain ⟨j, pl⟩ := h1.placed h.reconcilable h.instOf
    exact ⟨x, x1, pl.elemKey h.reconcilable h.instOf h.comparable.src_ok h.comparable.dst_ok x2.header⟩
  · rintro ⟨e, h1, h2⟩
    obtain ⟨q, j, q1, q2, _, _, hk⟩ := hdes.place h.reconcilable h.instOf h.comparable.src_ok h.comparable.dst_ok h1
    cases elemKey_unique h2 hk
    exact ⟨q, q1, q2, rfl⟩

structure LeftBy (src dst : Adapter V) (sid : String) (flags : Nat) (w w' : World V E) : Prop where
  del : ∀ k : Key, Shown src dst flags (snap src w) (snap dst w) k → (snap src w).find k.1 k.2 = none → (snap dst w').find k.1 k.2 = none
  made : ∀ (k : Key) s, Shown src dst flags (snap src w) (snap dst w) k → (snap src w).find k.1 k.2 = some s → (snap dst w).find k.1 k.2 = none →
    ∃ c m, Dict.get? dst.classes k.1 = some c ∧ (snap dst w').find k.1 k.2 = some m ∧ c.construct s.identifiers s.attrs = .ok m
  others : ∀ k : Key, ¬ (Shown src dst flags (snap src w) (snap dst w) k ∧ ((snap src w).find k.1 k.2 = none ∨ (snap dst w).find k.1 k.2 = none)) →
    (snap dst w').find k.1 k.2 = (snap dst w).find k.1 k.2
  store : RedisStoreOK sid w'
  ok : w'.OK
  src_same : snap src w' = snap src w

theorem RedisPair.left (h : RedisPair n src dst sid w) (hr : WentThrough n rl hooks src dst dc flags w d w') : LeftBy src dst sid flags w w' := by
  obtain ⟨hdes, hcls, henv, hrun⟩ := h.described hr
  have hre : d.cls.Reorders := by rw [hcls]; exact hr.reorders
  have hsh := fun k => h.shown_iff hr (k := k)
  have hsides := fun {e : Elem V} (he : InTree e d.kids) {k : Key} (hk : ElemKey dst e k) => hdes.sides h.reconcilable h.instOf h.comparable.src_ok h.comparable.dst_ok he hk
  obtain ⟨c1, c2, c3⟩ := C42_redis_contents_partial hrun h.store ⟨hre, henv.dist⟩ henv.keyed hr.found hr.succeed
    (fun e k he hk ha => hr.alone k ((hsh k).2 ⟨e, he, hk⟩) (henv.delete e k he hk ha).1)
  have hstore : RedisStoreOK sid w' ∧ w'.OK := by
    rcases hrun.cases with ⟨hh, _⟩ | ⟨evs0, evs, p, y, hran⟩
    · cases hh
    · have f := (GFrame.redis h.store).1 hran.frame
      have i := (GInv.redis h.store).1 hran.inv
      refine ⟨i.store, fun s => f.loc_wf s (h.ready.ok.loc_wf s), fun s t => by rw [f.tbl_eq s t]; exact h.ready.ok.tbl_wf s t, i.refs, fun s t u r hr => ?_⟩
      rw [f.tbl_eq.findRef] at hr
      rw [f.same r (h.ready.ok.refs_lt _ _ _ _ hr)]
      exact h.ready.ok.key_ok _ _ _ _ hr
  refine ⟨fun k hk hs => ?_, fun k s hk hs hd => ?_, fun k hk => ?_, hstore.1, hstore.2,
    C23_other_adapters_untouched h.ready (applicable_computed h.comparable h.ready h.keepsIds) hr.run h.separate⟩
  · obtain ⟨e, he, hek⟩ := (hsh k).1 hk
    refine c2 e k.1 k.2 he ?_ hek
    obtain ⟨s1, s2, _, s4⟩ := hsides he hek
    rw [action_delete_iff, s1, s2]
    have hs' : (snap src w).at k = none := hs
    rw [hs'] at s4 ⊢
    simpa using s4
  · obtain ⟨e, he, hek⟩ := (hsh k).1 hk
    have hs' : (snap src w).at k = some s := hs
    have hd' : (snap dst w).at k = none := hd
    have ha : e.action = some .create := by
      obtain ⟨s1, s2, _, _⟩ := hsides he hek
      rw [action_create_iff, s1, s2, hs', hd']
      simp
    obtain ⟨c, u, m, g1, g2, g3, _⟩ := c1 e he ha
    have hk' : k = (e.type, u) := elemKey_unique hek ⟨c, u, g1, g2, rfl⟩
    subst hk'
    refine ⟨c, m, g1, g3, ?_⟩
    obtain ⟨hpl, o, ho, rfl⟩ := (redis_find h.store).1 g3
    have hno : Dict.get? w.redis (redisKey sid e.type u) = none := by
      cases hh : Dict.get? w.redis (redisKey sid e.type u) with
      | none => rfl
      | some o' => rw [(redis_find h.store).2 ⟨hpl, o', hh, rfl⟩] at hd; cases hd
    obtain ⟨x, u', x1, ⟨x2, cl, x3, x4⟩, x5, _⟩ := sync_stores h.store h.ready.ok hr.run ho hno
    obtain ⟨o1, o2⟩ := hstore.1.key_ok _ _ _ hpl ho
    have hcl := (instantiate_ok (construct_ok x4)).1
    have ht : x.type = e.type := by
      rw [← o1]
      unfold Model.type
      rw [hcl]
      exact (h.ready.valid.names _ _ x3).symm
    obtain ⟨cl', u'', y1, y2, y3⟩ := x5
    cases y3
    rw [x3] at y1
    cases y1
    have hu : u = u' := by
      rw [← o2]
      exact construct_uid (h.ready.valid.valid _ _ x3) x4 (henv.ids x x1 x2 cl x3) y2
    subst hu
    have hxk : ElemKey dst x (e.type, u) := ⟨cl, u, x3, y2, by rw [ht]⟩
    obtain ⟨s1, s2, s3, _⟩ := hsides x1 hxk
    rw [ht, g1] at x3
    cases x3
    rw [← x4, s3 s (by rw [hs']; rfl)]
    exact (construct_congr (plus_create (a := s.attrs) (by rw [s1, hs']; rfl) (by rw [s2, hd']; rfl))).symm
  · refine c3 k.1 k.2 fun e he hek => ?_
    have hh := (hsh k).2 ⟨e, he, hek⟩
    cases ha : e.action with
    | none => exact .inl rfl
    | some a =>
      cases a with
      | update => exact .inr rfl
      | create => exact absurd ⟨hh, .inr (henv.create e k he hek ha).2⟩ hk
      | delete => exact absurd ⟨hh, .inl (henv.delete e k he hek ha).1⟩ hk

theorem RedisPair.consistent (h : RedisPair n src dst sid w) (hl : LeftBy src dst sid flags w w') :
    (snap dst w').Consistent ∧ Comparable src dst w' := by
  have was : ∀ t u m, (snap dst w').find t u = some m → (snap dst w).find t u = some m ∨
      ∃ s c, (snap src w).find t u = some s ∧ Dict.get? dst.classes t = some c ∧ m.cls = c := by
    intro t u m hm
    by_cases hk : Shown src dst flags (snap src w) (snap dst w) (t, u) ∧ ((snap src w).find t u = none ∨ (snap dst w).find t u = none)
    · cases hs : (snap src w).find t u with
      | none => have := hl.del (t, u) hk.1 hs; rw [hm] at this; cases this
      | some s =>
        have hd : (snap dst w).find t u = none := by
          rcases hk.2 with h1 | h1
          · rw [hs] at h1; cases h1
          · exact h1
        obtain ⟨c, m', g1, g2, g3⟩ := hl.made (t, u) s hk.1 hs hd
        cases hm.symm.trans g2
        exact .inr ⟨s, c, rfl, g1, (instantiate_ok (construct_ok g3)).1⟩
    · exact .inl ((hl.others (t, u) hk).symm.trans hm)
  have hnd : ∀ t u m, (snap dst w').find t u = some m → (Dict.keys m.cls.children).Nodup := by
    intro t u m hm
    rcases was t u m hm with h1 | ⟨s, c, _, h2, h3⟩
    · exact h.ready.children t u m h1
    · rw [h3]; exact (h.ready.valid.valid _ _ h2).children_nodup
  have hcon := consistent_redis h.store hl.store hnd
  refine ⟨hcon, hl.ok, by rw [hl.src_same]; exact h.comparable.src_ok, hcon, by rw [hl.src_same]; exact h.comparable.src_types, ?_, ?_, h.comparable.top_nodup⟩
  · have htk : ∀ t, dst.Takes t → Plain t := fun t ht => by unfold Adapter.Takes at ht; rw [h.store] at ht; exact ht
    refine serves_redis h.store hl.store (fun t ht => htk t (h.comparable.dst_types.top t ht)) hnd fun t u m hm ct hct => ?_
    rcases was t u m hm with h1 | ⟨s, c, _, h2, h3⟩
    · exact htk ct (h.comparable.dst_types.find t u m h1 ct hct)
    · rw [h3] at hct
      obtain ⟨c', hc'⟩ := Option.ne_none_iff_exists'.1 (h.reconcilable.kids_known t c ct h2 hct)
      exact (h.ready.redis sid h.store).2 ct c' hc'
  · rw [hl.src_same]
    intro t u s m hs hm ct f f' hf hf'
    rcases was t u m hm with h1 | ⟨s', c, g1, g2, g3⟩
    · exact h.comparable.fields t u s m hs h1 ct f f' hf hf'
    · have := (h.reconcilable.source (t, u) s c hs g2).children ct f hf
      rw [g3, this] at hf'
      exact Option.some.inj hf'

theorem RedisPair.next (h : RedisPair n src dst sid w) (hl : LeftBy src dst sid flags w w') (hq : NotIgnored dst) : Next src dst n flags (snap src w) (snap dst w) (snap dst w') :=
  ⟨h.reconcilable, h.instOf, h.comparable.src_ok, h.comparable.dst_ok, (h.consistent hl).1, h.ready.valid, hq, hl.del, hl.made, hl.others⟩

/-! ## The theorems -/

/-- **C91** What a sync into a Redis store leaves when it returns, all its calls succeeded, every element had its object and no object that it deleted takes along what
is below it: objects that only the destination had are gone; objects that only the source had are there, built from the source's data, but
without children; everything else is exactly as it was, child lists and objects that were to be updated included.  The source is as it was. -/
theorem C91_outcome (h : RedisPair n src dst sid w) (hr : WentThrough n rl hooks src dst dc flags w d w') :
    SyncedRedis src dst flags (snap src w) (snap dst w) (snap dst w') ∧ snap src w' = snap src w := by
  have hl := h.left hr
  refine ⟨⟨hl.del, fun k s hk hs hd => ?_, hl.others⟩, hl.src_same⟩
  obtain ⟨c, m, g1, g2, g3⟩ := hl.made k s hk hs hd
  have hi := instantiate_ok (construct_ok g3)
  exact ⟨c, m, g1, g2, hi.1, hi.2.2.2.1, fun f d hf => construct_get? (h.ready.valid.valid _ _ g1) g3 hf, fun ct f hf => construct_kidList g3 hf⟩

/-- **C91** After such a sync the same diff (with whatever diff class) returns, unless the sync deleted an object below one that the source has: then the child list of that
one still has the deleted object, and the diff raises `ObjectNotFound`. -/
theorem C91_next_returns (h : RedisPair n src dst sid w) (hr : WentThrough n rl hooks src dst dc flags w d w') (hq : NotIgnored dst) (dc2 : DiffClass V) :
    ((∃ d2, (diffFrom n dst src dc2 flags w').1 = .ok d2) ↔ ¬ DeletesBelowKept src dst flags (snap src w) (snap dst w)) := by
  have hl := h.left hr
  have hx := h.next hl hq
  rw [diff_returns_iff (h.consistent hl).2, hl.src_same]
  exact ⟨fun h1 h2 => h1 _ (hx.problem h2), fun h1 e => hx.no_problem h1 e⟩

/-- **C91** When the next diff returns, it plans exactly what the first one planned, except for deletions and for creations of objects at the top: the objects
to update are to be updated again, with the same attributes, and the objects created below others are to be created again. -/
theorem C91_next_plan (h : RedisPair n src dst sid w) (hr : WentThrough n rl hooks src dst dc flags w d w') (hq : NotIgnored dst)
    (hkeep : KeepsNew src dst flags (snap src w) (snap dst w)) {dc2 : DiffClass V} {d2 : Diff V} {w2 : World V E} (hd2 : diffFrom n dst src dc2 flags w' = (.ok d2, w2)) :
    (∀ a k, Plans dst d2 a k ↔ Plans dst d a k ∧ (a = .update ∨ a = .create ∧ ¬ AtTop src dst k)) ∧
    ∀ e e2 k, InTree e d.kids → InTree e2 d2.kids → ElemKey dst e k → ElemKey dst e2 k → e2.action ≠ none → e2.src = e.src ∧ e2.dst = e.dst := by
  have hl := h.left hr
  have hx := h.next hl hq
  obtain ⟨hcon, hcmp⟩ := h.consistent hl
  have hn := (C91_next_returns h hr hq dc2).1 ⟨d2, by rw [hd2]⟩
  obtain ⟨hdes, _, henv, _⟩ := h.described hr
  obtain ⟨hdes2, _⟩ := diffFrom_describes hcmp.ok hcmp.src_ok hcmp.dst_ok hcmp.fields hcmp.src_types hcmp.dst_types hcmp.top_nodup hd2
  rw [hl.src_same] at hdes2
  obtain ⟨p1, p2⟩ := hx.plans hn hkeep hdes hdes2
  constructor
  · intro a k
    constructor
    · rintro ⟨e2, h1, h2, h3⟩
      obtain ⟨e, q1, q2, q3, q4, q5, q6⟩ := p1 e2 k h1 h2 (by rw [h3]; simp)
      have ha : e.action = some a := (action_congr_sides q3 q4).trans h3
      refine ⟨⟨e, q1, q2, ha⟩, ?_⟩
      cases a with
      | update => exact .inl rfl
      | create => exact .inr ⟨rfl, fun ht => q6 ht ha⟩
      | delete => exact absurd ha q5
    · rintro ⟨⟨e, h1, h2, h3⟩, h4⟩
      obtain ⟨e2, q1, q2, q3, q4⟩ := p2 e k h1 h2 (by
        rcases h4 with rfl | ⟨rfl, h4⟩
        · exact .inl h3
        · exact .inr ⟨h3, h4⟩)
      exact ⟨e2, q1, q2, (action_congr_sides q3 q4).trans h3⟩
  · intro e e2 k h1 h2 h3 h4 h5
    obtain ⟨e', q1, q2, q3, q4, _⟩ := p1 e2 k h2 h4 h5
    obtain ⟨s1, s2, _⟩ := hdes.sides h.reconcilable h.instOf h.comparable.src_ok h.comparable.dst_ok h1 h3
    obtain ⟨t1, t2, _⟩ := hdes.sides h.reconcilable h.instOf h.comparable.src_ok h.comparable.dst_ok q1 q2
    exact ⟨q3.symm.trans (t1.trans s1.symm), q4.symm.trans (t2.trans s2.symm)⟩

/-- **C91** (and C42, exactly when it holds)  Such a sync into a Redis store converges, that is, the next diff returns and shows no differences, if and only if the first diff planned
no updates, created objects only at the top and deleted no object below one that the source has. -/
theorem C91_converges_iff (h : RedisPair n src dst sid w) (hr : WentThrough n rl hooks src dst dc flags w d w') (hq : NotIgnored dst)
    (hkeep : KeepsNew src dst flags (snap src w) (snap dst w)) (dc2 : DiffClass V) :
    (∃ d2, (diffFrom n dst src dc2 flags w').1 = .ok d2 ∧ d2.hasDiffs = false) ↔
      (∀ k, ¬ Plans dst d .update k) ∧ (∀ k, Plans dst d .create k → AtTop src dst k) ∧ ¬ DeletesBelowKept src dst flags (snap src w) (snap dst w) := by
  have hl := h.left hr
  obtain ⟨hcon, hcmp⟩ := h.consistent hl
  constructor
  · rintro ⟨d2, h1, h2⟩
    obtain ⟨p1, _⟩ := C91_next_plan h hr hq hkeep (dc2 := dc2) (d2 := d2) (w2 := (diffFrom n dst src dc2 flags w').2) (by rw [← h1])
    have hno : ∀ a k, ¬ Plans dst d2 a k := by
      rintro a k ⟨e, e1, _, e3⟩
      have : d2.hasDiffs = true := (hasDiffsL_iff d2.kids).2 ⟨e, e1, by rw [e3]; simp⟩
      rw [h2] at this
      cases this
    refine ⟨fun k hk => hno .update k ((p1 _ _).2 ⟨hk, .inl rfl⟩), fun k hk => ?_, (C91_next_returns h hr hq dc2).1 ⟨d2, h1⟩⟩
    exact Classical.byContradiction fun ht => hno .create k ((p1 _ _).2 ⟨hk, .inr ⟨rfl, ht⟩⟩)
  · rintro ⟨h1, h2, h3⟩
    obtain ⟨d2, hd2⟩ := (C91_next_returns h hr hq dc2).2 h3
    refine ⟨d2, hd2, ?_⟩
    have hd2' : diffFrom n dst src dc2 flags w' = (.ok d2, (diffFrom n dst src dc2 flags w').2) := by rw [← hd2]
    obtain ⟨p1, _⟩ := C91_next_plan h hr hq hkeep hd2'
    obtain ⟨hdes2, _⟩ := diffFrom_describes hcmp.ok hcmp.src_ok hcmp.dst_ok hcmp.fields hcmp.src_types hcmp.dst_types hcmp.top_nodup hd2'
    rw [hl.src_same] at hdes2
    rw [← Bool.not_eq_true]
    intro hh
    obtain ⟨e, e1, e2⟩ := (hasDiffsL_iff d2.kids).1 hh
    obtain ⟨a, ha⟩ := Option.ne_none_iff_exists'.1 e2
    obtain ⟨k, hk⟩ : ∃ k, ElemKey dst e k := by
      obtain ⟨q, q1, q2, q3⟩ := hdes2.inTree e1
      exact (h.next hl hq).keyed h3 q1 q3.header
    obtain ⟨b1, b2⟩ := (p1 a k).1 ⟨e, e1, hk, ha⟩
    rcases b2 with rfl | ⟨rfl, b2⟩
    · exact h1 k b1
    · exact b2 (h2 k b1)

end

end DS
