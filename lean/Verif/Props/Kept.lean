import Verif.Spec.Kept
import Verif.Lemmas.Kept
import Verif.Lemmas.DifferOpen
/-! # C97: syncs with a diff that was computed before -/
set_option linter.unusedSectionVars false

namespace DS
variable {V E : Type} [PyVal V]

section
variable {n rl : Nat} {hooks : Hooks V E} {src dst : Adapter V} {dc dc0 : DiffClass V} {flags fl : Nat} {w w' : World V E} {d : Diff V} {res : Except Err (Diff V)}

/-- Computing it again gives the same. -/
theorem KeptDiff.again (hk : KeptDiff n src dst dc0 flags w d) (h : Comparable src dst w) : ∃ w1, diffFrom n dst src dc0 flags w = (.ok d, w1) := by
  obtain ⟨v, v1, hv, hd, hS, hD⟩ := hk
  obtain ⟨_, g⟩ := diffFrom_spec n dst src dc0 flags v hv.ok.refs_lt hv.ok.tbl_wf hv.src_types hv.dst_types
  obtain ⟨_, g'⟩ := diffFrom_spec n dst src dc0 flags w h.ok.refs_lt h.ok.tbl_wf h.src_types h.dst_types
  rw [hS, hD] at g
  refine ⟨(diffFrom n dst src dc0 flags w).2, ?_⟩
  cases hp : pDiff ⟨src, dst, flags⟩ (snap src w) (snap dst w) n with
  | error x => rw [hp, hd] at g; cases g
  | ok r =>
    obtain ⟨es, k⟩ := r
    rw [hp, hd] at g
    rw [hp] at g'
    have e : (diffFrom n dst src dc0 flags w).1 = .ok d := g'.1.trans g.1.symm
    rw [← e]

theorem SyncRun.of_kept (h : Comparable src dst w) (hr : DstReady dst w) (hk : KeepsIdsOf dst (snap src w)) {w1 : World V E} (hd : diffFrom n dst src dc0 flags w = (.ok d, w1))
    (hl : d.len ≠ 0) (hs : syncFrom n rl hooks dst src dc fl (some d) w = (res, w')) : SyncRun n rl hooks dst src dc fl (some d) w d res w' :=
  ⟨hr, .inl ⟨rfl, hl⟩, computed_good h hr hk hd, hs⟩

theorem kept_in_order (h : Comparable src dst w) (hr : DstReady dst w) (hrec : Reconcilable src dst n (snap src w) (snap dst w)) (hi : InstOf dst (snap dst w))
    (hk : KeepsIdsOf dst (snap src w)) (hdc : ∀ g l, dc0.order g l = l) {w1 : World V E} (hd : diffFrom n dst src dc0 flags w = (.ok d, w1)) (hl : d.len ≠ 0)
    (hs : syncFrom n rl hooks dst src dc fl (some d) w = (res, w')) (hn : NoRef (newEvents w w')) (hm : NoLost (newEvents w w')) :
    ∃ rest, RunFor flags (snap src w) (snap dst w) (visible flags (topPlaces src dst (snap src w) (snap dst w)))
      (callsOf (newEvents w w') ++ rest) ∧ ((∃ d', res = .ok d') → rest = []) := by
  have hrun := SyncRun.of_kept h hr hk hd hl hs
  obtain ⟨hdes, hcls⟩ := diffFrom_describes h.ok h.src_ok h.dst_ok h.fields h.src_types h.dst_types h.top_nodup hd
  have hc := hdes.cenv hrec hi h.src_ok h.dst_ok hr.valid (computed_good h hr hk hd)
  have hre : d.cls.Reorders := by
    rw [hcls]
    intro g l
    rw [hdc]
  obtain ⟨rest, h1, h2⟩ := hrun.runs ⟨hre, hc.dist⟩ hc.keyed hn hm
  refine ⟨rest, ?_, h2⟩
  rw [hcls, (C93_get_children h hd hdc).1] at h1
  exact h1.places hrec hi h.src_ok h.dst_ok hdc (C93_diff_in_order h hd)
    (fun p hp => ⟨0, Placed.of_top hrec (isTop_of_topPlaces h.src_ok h.dst_ok (List.mem_filter.1 hp).1)⟩)

theorem kept_in_some_order (h : Comparable src dst w) (hr : DstReady dst w) (hrec : Reconcilable src dst n (snap src w) (snap dst w)) (hi : InstOf dst (snap dst w))
    (hk : KeepsIdsOf dst (snap src w)) (hdc : dc0.Reorders) {w1 : World V E} (hd : diffFrom n dst src dc0 flags w = (.ok d, w1)) (hl : d.len ≠ 0)
    (hs : syncFrom n rl hooks dst src dc fl (some d) w = (res, w')) (hn : NoRef (newEvents w w')) (hm : NoLost (newEvents w w')) :
    ∃ q rest, Arranged (visible flags (topPlaces src dst (snap src w) (snap dst w))) q ∧ RunAny flags (snap src w) (snap dst w) q (callsOf (newEvents w w') ++ rest) ∧
      ((∃ d', res = .ok d') → rest = []) := by
  have hrun := SyncRun.of_kept h hr hk hd hl hs
  obtain ⟨hdes, hcls⟩ := diffFrom_describes h.ok h.src_ok h.dst_ok h.fields h.src_types h.dst_types h.top_nodup hd
  have hc := hdes.cenv hrec hi h.src_ok h.dst_ok hr.valid (computed_good h hr hk hd)
  obtain ⟨rest, h1, h2⟩ := hrun.runs ⟨by rw [hcls]; exact hdc, hc.dist⟩ hc.keyed hn hm
  rw [hcls] at h1
  obtain ⟨q, q1, q2⟩ := arranged_children hdc (grouped_top h hd) (C93_diff_in_order h hd)
  refine ⟨q, rest, q1, ?_, h2⟩
  exact h1.any_places hrec hi h.src_ok h.dst_ok hdc q2
    (fun p hp => ⟨0, Placed.of_top hrec (isTop_of_topPlaces h.src_ok h.dst_ok (List.mem_filter.1 (q1.1.subset hp)).1)⟩)

/-- **C97** A sync that is given a diff computed before, between adapters that can be reconciled and have the contents again that they had then, makes the calls
that can be read off these contents, all of them when it returns and the first ones when it raises: with the flags that the diff was computed with, whatever the flags
and the diff class of the sync and whatever the calls return or raise. -/
theorem C97_run {sid : Nat} (h : CanConverge n src dst sid w) (hrl : n ≤ rl) (hkd : KeptDiff n src dst dc0 flags w d) (hl : d.len ≠ 0)
    (hb : dc0.bases.contains dc.id = true) (hdc : ∀ g l, dc0.order g l = l) (hs : syncFrom n rl hooks dst src dc fl (some d) w = (res, w')) :
    ∃ rest, RunFor flags (snap src w) (snap dst w) (visible flags (topPlaces src dst (snap src w) (snap dst w)))
      (callsOf (newEvents w w') ++ rest) ∧ ((∃ d', res = .ok d') → rest = []) := by
  obtain ⟨w1, hd⟩ := hkd.again h.comparable
  obtain ⟨hn, hm, _⟩ := h.clean_kept hrl hd hl hb (fun g l => by rw [hdc]) hs
  exact kept_in_order h.comparable h.ready.dst h.reconcilable h.ready.instOf h.keepsIds hdc hd hl hs hn hm.acts

/-- **C97** The same of a sync into a Redis store. -/
theorem C97_redis_run {sid : String} (h : RedisPair n src dst sid w) (hrl : n ≤ rl) (hkd : KeptDiff n src dst dc0 flags w d) (hl : d.len ≠ 0)
    (hb : dc0.bases.contains dc.id = true) (hdc : ∀ g l, dc0.order g l = l) (hs : syncFrom n rl hooks dst src dc fl (some d) w = (res, w')) :
    ∃ rest, RunFor flags (snap src w) (snap dst w) (visible flags (topPlaces src dst (snap src w) (snap dst w)))
      (callsOf (newEvents w w') ++ rest) ∧ ((∃ d', res = .ok d') → rest = []) := by
  obtain ⟨w1, hd⟩ := hkd.again h.comparable
  obtain ⟨hn, hm, _⟩ := h.clean_kept hrl hd hl hb (fun g l => by rw [hdc]) hs
  exact kept_in_order h.comparable h.ready h.reconcilable h.instOf h.keepsIds hdc hd hl hs hn hm.acts

/-- **C97** With a diff class whose order methods reorder: up to the order of the places of one type. -/
theorem C97_any_order {sid : Nat} (h : CanConverge n src dst sid w) (hrl : n ≤ rl) (hkd : KeptDiff n src dst dc0 flags w d) (hl : d.len ≠ 0)
    (hb : dc0.bases.contains dc.id = true) (hdc : dc0.Reorders) (hs : syncFrom n rl hooks dst src dc fl (some d) w = (res, w')) :
    ∃ q rest, Arranged (visible flags (topPlaces src dst (snap src w) (snap dst w))) q ∧ RunAny flags (snap src w) (snap dst w) q (callsOf (newEvents w w') ++ rest) ∧
      ((∃ d', res = .ok d') → rest = []) := by
  obtain ⟨w1, hd⟩ := hkd.again h.comparable
  obtain ⟨hn, hm, _⟩ := h.clean_kept hrl hd hl hb hdc hs
  exact kept_in_some_order h.comparable h.ready.dst h.reconcilable h.ready.instOf h.keepsIds hdc hd hl hs hn hm.acts

/-- **C97** The same of a sync into a Redis store. -/
theorem C97_redis_any_order {sid : String} (h : RedisPair n src dst sid w) (hrl : n ≤ rl) (hkd : KeptDiff n src dst dc0 flags w d) (hl : d.len ≠ 0)
    (hb : dc0.bases.contains dc.id = true) (hdc : dc0.Reorders) (hs : syncFrom n rl hooks dst src dc fl (some d) w = (res, w')) :
    ∃ q rest, Arranged (visible flags (topPlaces src dst (snap src w) (snap dst w))) q ∧ RunAny flags (snap src w) (snap dst w) q (callsOf (newEvents w w') ++ rest) ∧
      ((∃ d', res = .ok d') → rest = []) := by
  obtain ⟨w1, hd⟩ := hkd.again h.comparable
  obtain ⟨hn, hm, _⟩ := h.clean_kept hrl hd hl hb hdc hs
  exact kept_in_some_order h.comparable h.ready h.reconcilable h.instOf h.keepsIds hdc hd hl hs hn hm.acts

/-- **C97** It returns that diff, or passes on what the user's method of its last call raised; under CONTINUE_ON_FAILURE of the sync, none of the exceptions
announced for failed actions. -/
theorem C97_result {sid : Nat} (h : CanConverge n src dst sid w) (hrl : n ≤ rl) (hkd : KeptDiff n src dst dc0 flags w d) (hl : d.len ≠ 0)
    (hb : dc0.bases.contains dc.id = true) (hdc : dc0.Reorders) (hs : syncFrom n rl hooks dst src dc fl (some d) w = (res, w')) :
    res = .ok d ∨ ∃ x, res = .error x ∧ ∃ L c out R, newEvents w w' = L ++ .call c out :: R ∧ callsOf R = [] ∧ out.result = .raises x ∧
      (flagOn fl GF.CONTINUE_ON_FAILURE = true → x.isCrud = false) := by
  obtain ⟨w1, hd⟩ := hkd.again h.comparable
  obtain ⟨_, _, h1 | h1⟩ := h.clean_kept hrl hd hl hb hdc hs
  · exact .inr h1
  · exact .inl h1

/-- **C97** The same of a sync into a Redis store. -/
theorem C97_redis_result {sid : String} (h : RedisPair n src dst sid w) (hrl : n ≤ rl) (hkd : KeptDiff n src dst dc0 flags w d) (hl : d.len ≠ 0)
    (hb : dc0.bases.contains dc.id = true) (hdc : dc0.Reorders) (hs : syncFrom n rl hooks dst src dc fl (some d) w = (res, w')) :
    res = .ok d ∨ ∃ x, res = .error x ∧ ∃ L c out R, newEvents w w' = L ++ .call c out :: R ∧ callsOf R = [] ∧ out.result = .raises x ∧
      (flagOn fl GF.CONTINUE_ON_FAILURE = true → x.isCrud = false) := by
  obtain ⟨w1, hd⟩ := hkd.again h.comparable
  obtain ⟨_, _, h1 | h1⟩ := h.clean_kept hrl hd hl hb hdc hs
  · exact .inr h1
  · exact .inl h1

/-- **C97** When all calls succeed, it leaves in a local store what a sync that computes its diff with the flags of that diff leaves. -/
theorem C97_outcome {sid : Nat} (h : CanConverge n src dst sid w) (hrl : n ≤ rl) (hkd : KeptDiff n src dst dc0 flags w d) (hl : d.len ≠ 0)
    (hb : dc0.bases.contains dc.id = true) (hdc : dc0.Reorders) (hs : syncFrom n rl hooks dst src dc fl (some d) w = (res, w')) (hall : AllSucceed (newEvents w w')) :
    res = .ok d ∧ Synced src dst flags (snap src w) (snap dst w) (snap dst w') := by
  obtain ⟨w1, hd⟩ := hkd.again h.comparable
  obtain ⟨h2, h4, h5, h6⟩ := h.sync_kept hrl hd hl hb hs
  obtain ⟨h7, h8⟩ := h6 hdc hall
  have ha : After src dst n sid flags w w' d.kids := ⟨h, h2, h4, h5⟩
  have hu : ∀ d', UsedDiff n dst src dc fl (some d) w d' → d' = d := by
    rintro d' (⟨hu, _⟩ | ⟨hu, _⟩)
    · cases hu; rfl
    · exact absurd (hu d rfl) hl
  refine ⟨h7, ha.outcome (fun d' hd' => ?_) hs h8 (fun d' hd' => by rw [hu d' hd'])⟩
  rw [hu d' hd']
  exact computed_good h.comparable h.ready.dst h.keepsIds hd

/-- **C97** The calls are those of a sync that computes its diff with these flags, as long as the outcomes are the same. -/
theorem C97_same_calls {E' : Type} {n' rl' sid sid' : Nat} {hooks' : Hooks V E'} {dc' : DiffClass V} {v v' : World V E'} {res' : Except Err (Diff V)}
    (h : CanConverge n src dst sid w) (h' : CanConverge n' src dst sid' v) (hrl : n ≤ rl) (hrl' : n' ≤ rl') (hkd : KeptDiff n src dst dc0 flags w d) (hl : d.len ≠ 0)
    (hb : dc0.bases.contains dc.id = true) (hdc : ∀ g l, dc0.order g l = l) (hdc' : ∀ g l, dc'.order g l = l) (hS : snap src w = snap src v) (hD : snap dst w = snap dst v)
    (hs : syncFrom n rl hooks dst src dc fl (some d) w = (res, w')) (hs' : syncFrom n' rl' hooks' dst src dc' flags none v = (res', v')) :
    ((callsOf (newEvents w w')).map Prod.snd <+: (callsOf (newEvents v v')).map Prod.snd → callsOf (newEvents w w') <+: callsOf (newEvents v v')) ∧
    ((callsOf (newEvents v v')).map Prod.snd <+: (callsOf (newEvents w w')).map Prod.snd → callsOf (newEvents v v') <+: callsOf (newEvents w w')) := by
  obtain ⟨r, h1, _⟩ := C97_run h hrl hkd hl hb hdc hs
  obtain ⟨r', h3, _⟩ := C95_run h' hrl' hdc' hs'
  rw [← hS, ← hD] at h3
  exact ⟨prefix_of_outcomes (h1.same_or_split h3) (List.prefix_append _ _) (List.prefix_append _ _),
    prefix_of_outcomes (h3.same_or_split h1) (List.prefix_append _ _) (List.prefix_append _ _)⟩

/-- **C97** An empty diff is not used: the sync computes its own. -/
theorem C97_empty (hl : d.len = 0) : syncFrom n rl hooks dst src dc fl (some d) w = syncFrom n rl hooks dst src dc fl none w := by
  have ht : d.truthy = false := by unfold Diff.truthy; simp [hl]
  unfold syncFrom checkDiffClass chooseDiff
  simp only [ht]
  rfl

/-- **C97** Right after the diff was computed, a sync that is given it does to the last detail what a sync that computes it does. -/
theorem C97_at_once {w1 : World V E} (hd : diffFrom n dst src dc flags w = (.ok d, w1)) (hl : d.len ≠ 0) (hb : dc.bases.contains dc.id = true) :
    syncFrom n rl hooks dst src dc flags (some d) w1 = syncFrom n rl hooks dst src dc flags none w := by
  have hcls : d.cls = dc := by
    rw [diffFrom_loops] at hd
    cases hl : cLoops ⟨src, dst, flags⟩ n (startDiff dst src w) with
    | mk r w1 =>
      cases r with
      | error e => rw [M.bind_err hl] at hd; cases hd
      | ok kids => rw [M.bind_ok hl] at hd; cases hd; rfl
  have ht : d.truthy = true := d.truthy_iff.2 hl
  have e1 : (checkDiffClass dc (some d) : M V E Unit) = pure () := by
    simp only [checkDiffClass, ht, hcls, hb]; rfl
  have e2 : (chooseDiff n dst src dc flags (some d) : M V E (Diff V)) = pure d := by
    simp only [chooseDiff, ht]; rfl
  unfold syncFrom
  rw [e1, e2, M.pure_bind', M.pure_bind']
  rw [show (checkDiffClass dc none : M V E Unit) = pure () from rfl, M.pure_bind', show (chooseDiff n dst src dc flags none : M V E (Diff V)) = diffFrom n dst src dc flags from rfl, M.bind_ok hd]
end

end DS
