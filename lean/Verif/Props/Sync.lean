import Verif.Lemmas.SyncOwn
import Verif.Props.Differ
/-! # What a sync changes, calls and reports -/
set_option linter.unusedSectionVars false

namespace DS
variable {V E : Type} [PyVal V]

section
variable {n rl : Nat} {hooks : Hooks V E} {dst src : Adapter V} {dc : DiffClass V} {flags : Nat} {diff : Option (Diff V)}
  {w w' : World V E} {d : Diff V} {res : Except Err (Diff V)}

/-- A diff that the sync computes itself is fit to be applied. -/
theorem applicable_computed (h : Comparable src dst w) (hr : DstReady dst w) (hk : KeepsIdsOf dst (snap src w)) : Applicable n dst src dc flags none w := by
  rintro d (⟨h1, _⟩ | ⟨_, h2⟩)
  · cases h1
  · cases hd : diffFrom n dst src dc flags w with
    | mk r w1 => rw [hd] at h2; dsimp only at h2; subst h2; exact computed_good h hr hk hd

theorem SyncRun.of_computed (h : Comparable src dst w) (hr : DstReady dst w) (hk : KeepsIdsOf dst (snap src w)) {w1 : World V E} (hd : diffFrom n dst src dc flags w = (.ok d, w1))
    (hs : syncFrom n rl hooks dst src dc flags none w = (res, w')) : SyncRun n rl hooks dst src dc flags none w d res w' :=
  ⟨hr, .inr ⟨fun _ h => (by cases h), (by rw [hd])⟩, computed_good h hr hk hd, hs⟩

theorem TakenAlong.mono {A : Adapter V} {D : Snap V} {es : List (Elem V)} {evs evs' : List (Event V)} (hs : ∀ ev ∈ evs, ev ∈ evs') {k : Key}
    (h : TakenAlong A D es evs k) : TakenAlong A D es evs' k := by
  induction h with
  | root h1 h2 h3 h4 h5 => obtain ⟨out, h6, h7⟩ := h5; exact .root h1 h2 h3 h4 ⟨out, hs _ h6, h7⟩
  | down _ h2 ih => exact .down ih h2

theorem Ran.taken {D : Prop} {evs0 evs : List (Event V)} {p : Nat} {y : Except Err Bool} (h : Ran n rl hooks dst src flags D d w w' res evs0 evs p y) {k : Key}
    (hk : TakenAlong dst (snap dst w) d.kids evs k) : TakenAlong dst (snap dst w) d.kids (newEvents w w') k :=
  hk.mono (fun ev hev => by rw [h.new]; simp [hev])

/-! ## C23 -/

/-- **C23** Whatever the user's methods do, and wherever the sync stops: when what the destination holds under a type and unique
id changes (an object added, removed or altered), then that object occurs in the diff used, or is one of those that go with a
successfully deleted object flagged SKIP_CHILDREN_ON_DELETE. -/
theorem C23_only_diffed_objects_change (hr : DstReady dst w) (hg : Applicable n dst src dc flags diff w)
    (h : syncFrom n rl hooks dst src dc flags diff w = (res, w')) {t u : String} (hc : (snap dst w').find t u ≠ (snap dst w).find t u) :
    ∃ d, UsedDiff n dst src dc flags diff w d ∧
      ((∃ e, InTree e d.kids ∧ ElemKey dst e (t, u)) ∨ TakenAlong dst (snap dst w) d.kids (newEvents w w') (t, u)) := by
  rcases sync_master hr hg h with ⟨x, _, _, hs, _⟩ | ⟨d, evs0, evs, p, y, hu, hran⟩
  · exact absurd (by rw [hs.snap_eq hr.ok]) hc
  · refine ⟨d, hu, ?_⟩
    have f := hran.frame.effects hr.ok
    cases h1 : (snap dst w).find t u with
    | none =>
      rw [h1] at hc
      obtain ⟨⟨e, he, _, hk⟩, _⟩ := f.added t u h1 hc
      exact .inl ⟨e, he, hk⟩
    | some m =>
      cases h2 : (snap dst w').find t u with
      | none =>
        rcases f.removed t u (by rw [h1]; simp) h2 with ⟨⟨e, he, _, hk⟩, _⟩ | h3
        · exact .inl ⟨e, he, hk⟩
        · exact .inr (hran.taken h3)
      | some m' =>
        rcases f.kept t u m m' h1 h2 with rfl | ⟨a, _, e, he, _, hk⟩ | h3
        · rw [h1, h2] at hc; exact absurd rfl hc
        · exact .inl ⟨e, he, hk⟩
        · exact .inr (hran.taken h3)

/-- **C23** No other adapter changes: neither the source nor any other that uses another store. -/
theorem C23_other_adapters_untouched (hr : DstReady dst w) (hg : Applicable n dst src dc flags diff w)
    (h : syncFrom n rl hooks dst src dc flags diff w = (res, w')) {A : Adapter V} (hA : Separate A dst w) : snap A w' = snap A w := by
  rcases sync_master hr hg h with ⟨x, _, _, hs, _⟩ | ⟨d, evs0, evs, p, y, hu, hran⟩
  · exact hs.snap_eq hr.ok A
  · have localSame : ∀ s, (∀ t, tbl w' s t = tbl w s t) → (∀ t u r, findRef w s t u = some r → (w'.heap r).m = (w.heap r).m) → A.ref.store = .local s →
        snap A w' = snap A w := by
      intro s ht hm hs
      unfold snap
      simp only [hs]
      congr 1
      · funext t
        rw [ht t]
        apply List.map_congr_left
        intro r hr'
        obtain ⟨u, hu⟩ := mem_values_findRef hr.ok.tbl_wf hr'
        exact hm t u r hu
      · funext t u
        unfold findRef
        rw [ht t]
        cases hf : Dict.get? (tbl w s t) u with
        | none => rfl
        | some r => simp only [Option.map_some]; rw [hm t u r hf]
    unfold Separate at hA
    cases hd : dst.ref.store with
    | «local» sid =>
      have f := (GFrame.local hd).1 hran.frame
      cases hs : A.ref.store with
      | redis s => unfold snap; simp only [hs, f.redis_eq]
      | «local» s =>
        rw [hs, hd] at hA
        obtain ⟨hne, hsh⟩ := hA
        exact localSame s (fun t => f.others s t hne) (fun t u r hf => f.same r (hr.ok.refs_lt _ _ _ _ hf) (fun h => h) (fun t' u' hf' => absurd hf' (hsh t u t' u' r hf))) hs
    | redis sid =>
      have f := (GFrame.redis hd).1 hran.frame
      cases hs : A.ref.store with
      | «local» s => exact localSame s (fun t => f.tbl_eq s t) (fun t u r hf => f.same r (hr.ok.refs_lt _ _ _ _ hf)) hs
      | redis s =>
        rw [hs, hd] at hA
        obtain ⟨hne, hp⟩ := hA
        exact f.other hs hp (hr.redis sid hd).1.sid_ok hne

/-! ## C24 -/

/-- **C24** With SKIP_UNMATCHED_SRC nothing is added to the destination and nothing is created; with SKIP_UNMATCHED_DST nothing
is removed and nothing is deleted; whatever fails. -/
theorem C24_skip_unmatched (h : Comparable src dst w) (hr : DstReady dst w) (hk : KeepsIdsOf dst (snap src w))
    (hs : syncFrom n rl hooks dst src dc flags none w = (res, w')) :
    (flagOn flags GF.SKIP_UNMATCHED_SRC = true →
      (∀ t u, (snap dst w).find t u = none → (snap dst w').find t u = none) ∧ ∀ t ids attrs out, Event.call (.create t ids attrs) out ∉ newEvents w w') ∧
    (flagOn flags GF.SKIP_UNMATCHED_DST = true →
      (∀ t u, (snap dst w).find t u ≠ none → (snap dst w').find t u ≠ none) ∧ ∀ t u out, Event.call (.delete t u) out ∉ newEvents w w') := by
  rcases sync_master hr (applicable_computed h hr hk) hs with ⟨x, _, _, hst, ⟨evs, htr, ho⟩, _⟩ | ⟨d, evs0, evs, p, y, hu, hran⟩
  · have hcalls : ∀ c out, Event.call c out ∉ newEvents w w' := by
      intro c out hc
      rw [newEvents_eq htr] at hc
      obtain ⟨_, _, h⟩ := ho _ hc; cases h
    rw [hst.snap_eq hr.ok]
    exact ⟨fun _ => ⟨fun _ _ h => h, fun _ _ _ _ => hcalls _ _⟩, fun _ => ⟨fun _ _ h => h, fun _ _ _ => hcalls _ _⟩⟩
  · have hun : ∀ e, InTree e d.kids → (flagOn flags GF.SKIP_UNMATCHED_SRC = true → e.action ≠ some .create) ∧
        (flagOn flags GF.SKIP_UNMATCHED_DST = true → e.action ≠ some .delete) := by
      rcases hu with ⟨h1, _⟩ | ⟨_, h2⟩
      · cases h1
      · cases hd : diffFrom n dst src dc flags w with
        | mk r w1 => rw [hd] at h2; dsimp only at h2; subst h2; exact fun e he => C14_no_unmatched h hd e he
    have hcall : ∀ c out, Event.call c out ∈ newEvents w w' → ∃ e, InTree e d.kids ∧ Prescribes dst e c := by
      intro c out hc
      obtain ⟨e, he, hp, _⟩ := hran.tr.mem_call c out (hran.mem_call.1 hc)
      exact ⟨e, hran.inTree he, hp⟩
    refine ⟨fun hf => ⟨fun t u hn => ?_, fun t ids attrs out hc => ?_⟩, fun hf => ⟨fun t u hn => ?_, fun t u out hc => ?_⟩⟩
    · refine Classical.byContradiction fun h1 => ?_
      obtain ⟨⟨e, he, ha, _⟩, _⟩ := (hran.frame.effects hr.ok).added t u hn h1
      exact absurd ha ((hun e he).1 hf)
    · obtain ⟨e, he, hp⟩ := hcall _ _ hc
      obtain ⟨u, _, hm⟩ := hp
      have := (hun e he).1 hf
      cases ha : e.action with
      | none => rw [ha] at hm; cases hm
      | some a => rw [ha] at hm this; cases a <;> simp at hm this
    · intro h1
      rcases (hran.frame.effects hr.ok).removed t u hn h1 with ⟨⟨e, he, ha, _⟩, _⟩ | h3
      · exact absurd ha ((hun e he).2 hf)
      · have : ∀ k, ¬ TakenAlong dst (snap dst w) d.kids evs k := by
          intro k hk
          induction hk with
          | root he ha _ _ _ => exact (hun _ he).2 hf ha
          | down _ _ ih => exact ih
        exact this _ h3
    · obtain ⟨e, he, hp⟩ := hcall _ _ hc
      obtain ⟨u, _, hm⟩ := hp
      have := (hun e he).2 hf
      cases ha : e.action with
      | none => rw [ha] at hm; cases hm
      | some a => rw [ha] at hm this; cases a <;> simp at hm this

/-! ## C26, C27 -/

theorem SyncRun.plan (h : SyncRun n rl hooks dst src dc flags diff w d res w') (ht : Tidy dst d) (hk : Keyed dst d.kids) (hm : NoMissing (newEvents w w')) :
    ∃ rest, CallPlan dst d.cls (snap dst w).flagsAt (getChildren d.cls d.kids) ((callsOf (newEvents w w')).map Prod.fst ++ rest) ∧
      ((∃ d', res = .ok d') → rest = []) := by
  rcases h.cases with ⟨hres, rfl, _⟩ | ⟨evs0, evs, p, y, hran⟩
  · have : newEvents w' w' = [] := by simp [newEvents]
    obtain ⟨cs, hcs⟩ := CallPlan.exists (A := dst) (dc := d.cls) (N := (snap dst w').flagsAt) (getChildren d.cls d.kids) (fun e he => hk e (he.mono (fun _ h => mem_of_getChildren h)))
    refine ⟨cs, by rw [this]; exact hcs, ?_⟩
    rintro ⟨d', rfl⟩; cases hres
  · have hN : FlagsKnown (trOf ⟨src, dst, flags, d.cls, hooks, rl⟩ (Tidy dst d) (snap dst w).flagsAt (TakenAlong dst (snap dst w) d.kids evs) (SkipsChildren dst (snap dst w)) d.len)
        (snap dst w).flagsAt := fun e o k hF hek fl ho => ((hF.2 k hek).2 ht).1 fl ho
    obtain ⟨rest, h1, h2⟩ := hran.tr.plan hN (fun e he => hk e (hran.inTree he)) (hran.mem_noObject.1 hm)
    refine ⟨rest, by rw [hran.calls]; exact h1, fun ⟨d', hd'⟩ => h2 ?_⟩
    rw [hran.res_eq] at hd'
    cases y with
    | ok b => exact ⟨b, rfl⟩
    | error x => cases hd'

/-- **C26** When a sync returns and no element is left without an object, its calls are exactly those of the documented
order. -/
theorem C26_call_order {d' : Diff V} (h : SyncRun n rl hooks dst src dc flags diff w d (.ok d') w') (ht : Tidy dst d) (hk : Keyed dst d.kids)
    (hm : NoMissing (newEvents w w')) :
    CallPlan dst d.cls (snap dst w).flagsAt (getChildren d.cls d.kids) ((callsOf (newEvents w w')).map Prod.fst) := by
  obtain ⟨rest, h1, h2⟩ := h.plan ht hk hm
  rw [h2 ⟨d', rfl⟩, List.append_nil] at h1
  exact h1

/-- **C26** The documented order is one: there are no two plans for the same elements. -/
theorem C26_order_unique {A : Adapter V} {dc : DiffClass V} {flagsAt : Key → Option Nat} {l : List (Elem V)} {cs cs' : List (CrudCall V)}
    (h : CallPlan A dc flagsAt l cs) (h' : CallPlan A dc flagsAt l cs') : cs = cs' := h.unique h'

/-- **C27** The calls of a sync, in order, are calls prescribed by elements of the diff, each element being used at most once;
whatever the calls return or raise. -/
theorem C27_one_call_per_element (h : SyncRun n rl hooks dst src dc flags diff w d res w') (hR : d.cls.Reorders) :
    ∃ ps : List (Elem V × CrudCall V), SubPerm (ps.map Prod.fst) (nodesL d.kids) ∧ (callsOf (newEvents w w')).map Prod.fst = ps.map Prod.snd ∧
      ∀ q ∈ ps, Prescribes dst q.1 q.2 := by
  rcases h.cases with ⟨_, rfl, _⟩ | ⟨evs0, evs, p, y, hran⟩
  · exact ⟨[], ⟨[], .nil, List.nil_sublist _⟩, by simp [newEvents], fun _ h => by cases h⟩
  · obtain ⟨ps, h1, h2, h3⟩ := hran.tr.pairs hR
    have hp : (nodesL (getChildren d.cls d.kids)).Perm (nodesL d.kids) := by
      rw [nodesL_eq, nodesL_eq]; exact (getChildren_perm hR _).flatMap_right _
    refine ⟨ps, ?_, by rw [hran.calls]; exact h2, h3⟩
    obtain ⟨l, hl1, hl2⟩ := h1
    obtain ⟨l', hl3, hl4⟩ := List.exists_perm_sublist hl2 hp
    exact ⟨l', hl1.trans hl3.symm, hl4⟩

/-- **C27** In particular there are no more calls than elements. -/
theorem C27_number_of_calls (h : SyncRun n rl hooks dst src dc flags diff w d res w') (hR : d.cls.Reorders) :
    (callsOf (newEvents w w')).length ≤ d.len := by
  obtain ⟨ps, ⟨l, h1, h2⟩, h3, _⟩ := C27_one_call_per_element h hR
  have e1 := congrArg List.length h3
  have e2 := h1.length_eq
  have e3 := h2.length_le
  rw [Diff.len_eq_nodes _ hR]
  simp only [List.length_map] at e1 e2
  omega

/-! ## C29 -/

/-- **C29** Without CONTINUE_ON_FAILURE, an ObjectCrudException raised by a call is what the sync raises, no call comes after it,
and `sync_complete` is not invoked. -/
theorem C29_first_failure_aborts (h : SyncRun n rl hooks dst src dc flags diff w d res w') (hf : flagOn flags GF.CONTINUE_ON_FAILURE = false)
    {L R : List (Event V)} {c : CrudCall V} {out : Outcome} {x : Err} (hs : newEvents w w' = L ++ .call c out :: R) (ho : out.result = .raises x)
    (_hx : x.isCrud = true) : res = .error x ∧ callsOf R = [] ∧ ∀ a b, Event.syncComplete a b ∉ newEvents w w' := by
  rcases h.cases with ⟨_, rfl, _⟩ | ⟨evs0, evs, p, y, hran⟩
  · rw [show newEvents w' w' = [] by simp [newEvents]] at hs; exact (not_split_nil hs).elim
  · obtain ⟨L', R', h1, _, h3⟩ := hran.split hs
    obtain ⟨h4, h5⟩ := hran.tr.stopsAt L' c out R' x h1 ho (fun _ => hf)
    refine ⟨by rw [hran.res_eq, h5]; rfl, by rw [h3, callsOf_append, h4, callsOf_done]; rfl, fun a b hm => ?_⟩
    rw [hran.new, h5] at hm
    rcases List.mem_append.1 hm with hm | hm
    · obtain ⟨_, _, h⟩ := hran.only _ hm; cases h
    · rcases List.mem_append.1 hm with hm | hm
      · exact hran.tr.kinds a b hm
      · cases hm

/-- **C29** The calls made are a prefix of those of the documented order, however the sync ends (as long as no earlier element
was left without an object, so that what is below it was passed over). -/
theorem C29_calls_are_a_prefix (h : SyncRun n rl hooks dst src dc flags diff w d res w') (ht : Tidy dst d) (hk : Keyed dst d.kids)
    (hm : NoMissing (newEvents w w')) :
    ∃ rest, CallPlan dst d.cls (snap dst w).flagsAt (getChildren d.cls d.kids) ((callsOf (newEvents w w')).map Prod.fst ++ rest) := by
  obtain ⟨rest, h1, _⟩ := h.plan ht hk hm
  exact ⟨rest, h1⟩

/-! ## C32, C33 -/

/-- **C32** `sync_complete` is invoked exactly once, after everything else, when the sync returns and something was attempted;
otherwise it is not invoked. -/
theorem C32_sync_complete (h : SyncRun n rl hooks dst src dc flags diff w d res w') :
    (((∃ d', res = .ok d') ∧ ∃ ev ∈ newEvents w w', Attempt ev) →
      ∃ evs, newEvents w w' = evs ++ [.syncComplete dst.ref.id src.ref.id] ∧ ∀ a b, Event.syncComplete a b ∉ evs) ∧
    (¬ ((∃ d', res = .ok d') ∧ ∃ ev ∈ newEvents w w', Attempt ev) → ∀ a b, Event.syncComplete a b ∉ newEvents w w') := by
  rcases h.cases with ⟨_, rfl, _⟩ | ⟨evs0, evs, p, y, hran⟩
  · have : newEvents w' w' = [] := by simp [newEvents]
    rw [this]
    exact ⟨fun ⟨_, _, h, _⟩ => (by cases h), fun _ _ _ h => by cases h⟩
  · have hno : ∀ a b, Event.syncComplete a b ∉ evs0 ++ evs := by
      intro a b hm
      rcases List.mem_append.1 hm with hm | hm
      · obtain ⟨_, _, h⟩ := hran.only _ hm; cases h
      · exact hran.tr.kinds a b hm
    have hatt : (∃ ev ∈ newEvents w w', Attempt ev) ↔ ∃ ev ∈ evs, Attempt ev := by
      rw [hran.new]
      constructor
      · rintro ⟨ev, hm, ha⟩
        rcases List.mem_append.1 hm with hm | hm
        · obtain ⟨_, _, rfl⟩ := hran.only _ hm; cases ha
        · rcases List.mem_append.1 hm with hm | hm
          · exact ⟨ev, hm, ha⟩
          · split at hm
            · rw [List.mem_singleton] at hm; subst hm; cases ha
            · cases hm
      · rintro ⟨ev, hm, ha⟩
        exact ⟨ev, by simp [hm], ha⟩
    have hy : ((∃ d', res = .ok d') ∧ ∃ ev ∈ newEvents w w', Attempt ev) ↔ y = .ok true := by
      rw [hatt, hran.res_eq]
      constructor
      · rintro ⟨⟨d', hd'⟩, ha⟩
        cases y with
        | error x => cases hd'
        | ok b => rw [(hran.tr.changed b rfl).2 ha]
      · rintro rfl
        exact ⟨⟨d, rfl⟩, (hran.tr.changed true rfl).1 rfl⟩
    rw [hy, hran.new]
    refine ⟨fun h => ⟨evs0 ++ evs, by rw [if_pos h, List.append_assoc], hno⟩, fun h => ?_⟩
    rw [if_neg h, List.append_nil]
    exact hno

/-- **C32** A sync whose diff has nothing to do attempts nothing. -/
theorem C32_nothing_to_do (h : SyncRun n rl hooks dst src dc flags diff w d res w') (hn : d.hasDiffs = false) :
    callsOf (newEvents w w') = [] ∧ ∀ a b, Event.syncComplete a b ∉ newEvents w w' := by
  have hno : ∀ e, InTree e d.kids → e.action = none := by
    intro e he
    refine Classical.byContradiction fun ha => ?_
    have : d.hasDiffs = true := (hasDiffsL_iff d.kids).2 ⟨e, he, ha⟩
    rw [hn] at this; cases this
  have hc : callsOf (newEvents w w') = [] := by
    rcases h.cases with ⟨_, rfl, _⟩ | ⟨evs0, evs, p, y, hran⟩
    · simp [newEvents]
    · rw [hran.calls]
      cases he : callsOf evs with
      | nil => rfl
      | cons a l =>
        obtain ⟨e, h1, ⟨u, _, h2⟩, _⟩ := hran.tr.mem_call a.1 a.2 (mem_callsOf.1 (by rw [he]; simp))
        rw [hno e (hran.inTree h1)] at h2; cases h2
  refine ⟨hc, (C32_sync_complete h).2 ?_⟩
  rintro ⟨⟨d', rfl⟩, ev, hev, ha⟩
  rcases h.cases with ⟨h1, _⟩ | ⟨evs0, evs, p, y, hran⟩
  · cases h1
  · have hm : ev ∈ evs := by
      rw [hran.new] at hev
      rcases List.mem_append.1 hev with hm | hm
      · obtain ⟨_, _, rfl⟩ := hran.only _ hm; cases ha
      · rcases List.mem_append.1 hm with hm | hm
        · exact hm
        · split at hm
          · rw [List.mem_singleton] at hm; subst hm; cases ha
          · cases hm
    obtain ⟨e, he, h2⟩ := hran.tr.mem_attempt ⟨ev, hm, ha⟩
    exact h2 (hno e (hran.inTree he))

/-- **C33** The progress callback of a sync is called with `current` = 1, 2, …, k and `total` = `len(diff)`; k is at most the
total, and equal to it when the sync returns, no element is left without an object and none to be deleted is flagged
SKIP_CHILDREN_ON_DELETE. -/
theorem C33_progress (h : SyncRun n rl hooks dst src dc flags diff w d res w') (hR : d.cls.Reorders) :
    ∃ k, progressOf (newEvents w w') = countUp d.len 0 k ∧ k ≤ d.len ∧
      ((∃ d', res = .ok d') → NoMissing (newEvents w w') →
        (∀ e k, InTree e d.kids → e.action = some .delete → ElemKey dst e k → ¬ SkipsChildren dst (snap dst w) k) → k = d.len) := by
  rcases h.cases with ⟨rfl, rfl, _⟩ | ⟨evs0, evs, p, y, hran⟩
  · exact ⟨0, by simp [newEvents, progressOf, countUp], Nat.zero_le _, fun ⟨_, h⟩ => by cases h⟩
  · obtain ⟨k, h1, h2⟩ := hran.tr.progress
    obtain ⟨h3, h4⟩ := hran.tr.progress_le hR
    have hp : (nodesL (getChildren d.cls d.kids)).length = d.len := by
      rw [Diff.len_eq_nodes _ hR, nodesL_eq, nodesL_eq]; exact ((getChildren_perm hR _).flatMap_right _).length_eq
    refine ⟨k, ?_, by omega, fun ⟨d', hd'⟩ hm hs => ?_⟩
    · rw [hran.new, progressOf_append, progressOf_append, progressOf_only hran.only, progressOf_done, h2]; simp [trOf]
    · have := h4 ?_ (hran.mem_noObject.1 hm) ?_
      · omega
      · rw [hran.res_eq] at hd'
        cases y with
        | error x => cases hd'
        | ok b => exact ⟨b, rfl⟩
      · rintro e o ctx he hF ⟨u, hk, _⟩ ⟨ha, hsc⟩
        exact hs e _ (hran.inTree he) ha hk ((hF.2 _ hk).1 hsc)
end

end DS
