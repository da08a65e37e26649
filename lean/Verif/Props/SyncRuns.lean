import Verif.Props.SyncOrder
import Verif.Lemmas.RunPlan
/-! # C95: the calls of a sync and their outcomes, whatever these are -/
set_option linter.unusedSectionVars false

namespace DS
variable {V E : Type} [PyVal V]

section
variable {src dst : Adapter V} {S D : Snap V} {n flags : Nat} {dc : DiffClass V}

/-- The call of an element is the one for its place. -/
theorem call_at (h : Reconcilable src dst n S D) (hi : InstOf dst D) (hS : S.Consistent) (hD : D.Consistent) {e : Elem V} {p : Pos V} {j : Nat}
    (ho : InOrder src dst flags S D e p) (pl : Placed src dst S D j p) :
    (e.action = none → callAt p = none) ∧ (∀ c, Prescribes dst e c → callAt p = some c) ∧
      ∀ k b, ElemKey dst e k → ((e.action = some .delete ∧ Flagged D.flagsAt k b) ↔ DeletesWith b p) := by
  have h1 := ho.header.src_eq; have h2 := ho.header.dst_eq
  have ht := ho.header.type_eq
  have key : ∀ {u}, ElemKey dst e (e.type, u) → u = p.uid := fun hu => congrArg Prod.snd (pl.key_of h hi hS hD ho.header hu)
  cases hs : p.src with
  | some s =>
    have nd : ∀ b, ¬ DeletesWith b p := fun b hb => by have := hb.1; rw [hs] at this; cases this
    cases hd : p.dst with
    | none =>
      have ha : e.action = some .create := by rw [hs] at h1; rw [hd] at h2; unfold Elem.action; rw [h1, h2]; rfl
      refine ⟨fun h => (by rw [ha] at h; cases h), ?_, fun k b _ => ⟨fun h => (by rw [ha] at h; cases h.1), fun h => absurd h (nd b)⟩⟩
      rintro c ⟨u, hu, hc⟩
      rw [ha] at hc
      simp only at hc
      have hsd := (h.sound (p.type, p.uid) s (.inl (by rw [← pl.src_eq, hs]))).attrs_wf
      have hpl' : e.plus.getD [] = s.attrs := by
        rw [hs] at h1; rw [hd] at h2
        unfold Elem.plus Elem.attrsKeys
        rw [h1, h2]
        exact pick_self hsd
      have hids := (ho.header.name_eq s (by rw [hs]; rfl)).2
      rw [hc, hpl', hids, ht]
      simp only [callAt, hs, hd]
    | some d =>
      rw [hs] at h1; rw [hd] at h2
      have ha := action_changes h1 h2
      have hnd : e.action ≠ some .delete := by rw [ha]; split <;> simp
      refine ⟨fun h => ?_, ?_, fun k b _ => ⟨fun h => absurd h.1 hnd, fun h => absurd h (nd b)⟩⟩
      · rw [h] at ha
        simp only [callAt, hs, hd]
        cases hc : changes s d with
        | nil => rfl
        | cons x r => rw [hc] at ha; cases ha
      · rintro c ⟨u, hu, hc⟩
        cases hch : changes s d with
        | nil => rw [hch] at ha; rw [ha] at hc; cases hc
        | cons x r =>
          rw [hch] at ha
          have ha : e.action = some .update := ha
          rw [ha] at hc
          simp only at hc
          rw [hc, key hu, plus_changes h1 h2, ht]
          simp only [callAt, hs, hd, hch]
          rfl
  | none =>
    cases hd : p.dst with
    | none =>
      rcases pl.some_side with h | h
      · exact absurd hs h
      · exact absurd hd h
    | some d =>
      have ha : e.action = some .delete := by rw [hs] at h1; rw [hd] at h2; unfold Elem.action; rw [h1, h2]; rfl
      have hf : D.flagsAt (p.type, p.uid) = some d.flags := by unfold Snap.flagsAt; rw [← pl.dst_eq, hd]; rfl
      refine ⟨fun h => (by rw [ha] at h; cases h), ?_, fun k b hk => ?_⟩
      · rintro c ⟨u, hu, hc⟩
        rw [ha] at hc
        simp only at hc
        rw [hc, key hu, ht]
        simp only [callAt, hs, hd]
      · cases pl.key_of h hi hS hD ho.header hk
        constructor
        · rintro ⟨_, fl, h3, h4⟩
          rw [hf] at h3; cases h3
          exact ⟨hs, d, hd, h4⟩
        · rintro ⟨_, d', h3, h4⟩
          rw [hd] at h3; cases h3
          exact ⟨ha, _, hf, h4⟩

/-- The calls for elements in order are those for their places. -/
theorem RunPlan.places (h : Reconcilable src dst n S D) (hi : InstOf dst D) (hS : S.Consistent) (hD : D.Consistent) (hdc : ∀ g l, dc.order g l = l)
    {es : List (Elem V)} {cs : List (CrudCall V × Outcome)} (hp : RunPlan dst dc D.flagsAt es cs) : ∀ {ps : List (Pos V)}, MatchAll (InOrder src dst flags S D) es ps →
    (∀ p ∈ ps, ∃ j, Placed src dst S D j p) → RunFor flags S D ps cs := by
  have hg : ∀ ks : List (Elem V), getChildren dc ks = (groups ks).flatMap (group ks) := by
    intro ks
    unfold getChildren
    simp only [hdc]
  have hst : ∀ {j p}, Placed src dst S D j p → Stored S D p := fun hp => ⟨fun m hm => by rw [← hp.src_eq, hm], fun m hm => by rw [← hp.dst_eq, hm]⟩
  have split : ∀ {e : Elem V} {l : List (Elem V)} {ps : List (Pos V)}, MatchAll (InOrder src dst flags S D) (e :: l) ps → (∀ p ∈ ps, ∃ j, Placed src dst S D j p) →
      ∃ p qs, ps = p :: qs ∧ ((e.action = none → callAt p = none) ∧ (∀ c, Prescribes dst e c → callAt p = some c) ∧
          ∀ k b, ElemKey dst e k → ((e.action = some .delete ∧ Flagged D.flagsAt k b) ↔ DeletesWith b p)) ∧
        (MatchAll (InOrder src dst flags S D) (getChildren dc e.kids) (visible flags (childPlaces S D p)) ∧
          ∀ c ∈ visible flags (childPlaces S D p), ∃ j, Placed src dst S D j c) ∧
        MatchAll (InOrder src dst flags S D) l qs ∧ (∀ p ∈ qs, ∃ j, Placed src dst S D j p) := by
    intro e l ps hm hpl
    cases ps with
    | nil => cases hm.1
    | cons p qs =>
      have ho : InOrder src dst flags S D e p := hm.2 (e, p) (by simp)
      obtain ⟨j, pl⟩ := hpl p (by simp)
      refine ⟨p, qs, rfl, call_at h hi hS hD ho pl, ?_, ⟨by simpa using hm.1, fun x hx => hm.2 x (by simp [hx])⟩, fun q hq => hpl q (by simp [hq])⟩
      rw [hg, ho.grouped hS hD (hst pl)]
      obtain ⟨_, h2, h3⟩ := ho
      exact ⟨⟨h2, h3⟩, fun c hc => ⟨j + 1, pl.of_child h hi (isChild_of_childPlaces (List.mem_filter.1 hc).1)⟩⟩
  induction hp with
  | nil =>
    intro ps hm _
    cases ps with
    | nil => exact .nil
    | cons p qs => cases hm.1
  | nothing ha _ _ ih1 ih2 =>
    intro ps hm hpl
    obtain ⟨p, qs, rfl, ⟨c1, c2, c3⟩, ⟨k1, k2⟩, m1, m2⟩ := split hm hpl
    exact .same (c1 ha) (ih1 k1 k2) (ih2 m1 m2)
  | call hpr hk hns hnn hob _ _ ih1 ih2 =>
    intro ps hm hpl
    obtain ⟨p, qs, rfl, ⟨c1, c2, c3⟩, ⟨k1, k2⟩, m1, m2⟩ := split hm hpl
    exact .call (c2 _ hpr) (fun h => hns ((c3 _ _ hk).2 h)) (fun h => hnn ((c3 _ _ hk).2 h)) hob (ih1 k1 k2) (ih2 m1 m2)
  | failed hpr hk hns hnn hob _ ih2 =>
    intro ps hm hpl
    obtain ⟨p, qs, rfl, ⟨c1, c2, c3⟩, _, m1, m2⟩ := split hm hpl
    exact .failed (c2 _ hpr) (fun h => hns ((c3 _ _ hk).2 h)) (fun h => hnn ((c3 _ _ hk).2 h)) hob (ih2 m1 m2)
  | last hpr hk hns hnn _ _ ih1 ih2 =>
    intro ps hm hpl
    obtain ⟨p, qs, rfl, ⟨c1, c2, c3⟩, ⟨k1, k2⟩, m1, m2⟩ := split hm hpl
    exact .last (c2 _ hpr) (fun h => hns ((c3 _ _ hk).2 h)) ((c3 _ _ hk).1 hnn) (ih1 k1 k2) (ih2 m1 m2)
  | alone hpr hk hsk _ ih2 =>
    intro ps hm hpl
    obtain ⟨p, qs, rfl, ⟨c1, c2, c3⟩, _, m1, m2⟩ := split hm hpl
    exact .alone (c2 _ hpr) ((c3 _ _ hk).1 hsk) (ih2 m1 m2)
end

section
variable {n rl : Nat} {hooks : Hooks V E} {dst src : Adapter V} {dc : DiffClass V} {flags : Nat} {diff : Option (Diff V)} {w w' : World V E} {res : Except Err (Diff V)} {d : Diff V}

theorem SyncRun.runs (h : SyncRun n rl hooks dst src dc flags diff w d res w') (ht : Tidy dst d) (hk : Keyed dst d.kids) (hr : NoRef (newEvents w w'))
    (hm : NoLost (newEvents w w')) :
    ∃ rest, RunPlan dst d.cls (snap dst w).flagsAt (getChildren d.cls d.kids) (callsOf (newEvents w w') ++ rest) ∧ ((∃ d', res = .ok d') → rest = []) := by
  rcases h.cases with ⟨hres, rfl, _⟩ | ⟨evs0, evs, p, y, hran⟩
  · have : newEvents w' w' = [] := by simp [newEvents]
    obtain ⟨cs, hcs⟩ := RunPlan.exists (A := dst) (dc := d.cls) (N := (snap dst w').flagsAt) (getChildren d.cls d.kids) (fun e he => hk e (he.mono (fun _ h => mem_of_getChildren h)))
    refine ⟨cs, by rw [this]; exact hcs, ?_⟩
    rintro ⟨d', rfl⟩; cases hres
  · have hN : FlagsKnown (trOf ⟨src, dst, flags, d.cls, hooks, rl⟩ (Tidy dst d) (snap dst w).flagsAt (TakenAlong dst (snap dst w) d.kids evs) (SkipsChildren dst (snap dst w)) d.len)
        (snap dst w).flagsAt := fun e o k hF hek fl ho => ((hF.2 k hek).2 ht).1 fl ho
    rw [hran.new] at hr hm
    have hr' : NoRef evs := by
      refine (NoRef.right hr ?_).left
      rintro ⟨L, c, out, he⟩
      obtain ⟨a, b, hx⟩ := hran.only (.call c out) (by rw [he]; simp)
      cases hx
    obtain ⟨rest, h1, h2⟩ := hran.tr.runs hN (fun e he => hk e (hran.inTree he)) hr' hm.right.left
    refine ⟨rest, by rw [hran.calls]; exact h1, fun ⟨d', hd'⟩ => h2 ?_⟩
    rw [hran.res_eq] at hd'
    cases y with
    | ok b => exact ⟨b, rfl⟩
    | error x => cases hd'

theorem runs_in_order (h : Comparable src dst w) (hr : DstReady dst w) (hrec : Reconcilable src dst n (snap src w) (snap dst w)) (hi : InstOf dst (snap dst w))
    (hk : KeepsIdsOf dst (snap src w)) (hdc : ∀ g l, dc.order g l = l) (hs : syncFrom n rl hooks dst src dc flags none w = (res, w'))
    {w1 : World V E} (hd : diffFrom n dst src dc flags w = (.ok d, w1)) (hn : NoRef (newEvents w w')) (hm : NoLost (newEvents w w')) :
    ∃ rest, RunFor flags (snap src w) (snap dst w) (visible flags (topPlaces src dst (snap src w) (snap dst w)))
      (callsOf (newEvents w w') ++ rest) ∧ ((∃ d', res = .ok d') → rest = []) := by
  have hrun := SyncRun.of_computed h hr hk hd hs
  obtain ⟨hdes, hcls⟩ := diffFrom_describes h.ok h.src_ok h.dst_ok h.fields h.src_types h.dst_types h.top_nodup hd
  have hc := hdes.cenv hrec hi h.src_ok h.dst_ok hr.valid (computed_good h hr hk hd)
  have hre : d.cls.Reorders := by
    rw [hcls]
    intro g l
    rw [hdc]
  obtain ⟨rest, h1, h2⟩ := hrun.runs ⟨hre, hc.dist⟩ hc.keyed hn hm
  refine ⟨rest, ?_, h2⟩
  rw [hcls, (C93_get_children h hd hdc).1] at h1
  exact h1.places hrec hi h.src_ok h.dst_ok hdc (C93_diff_in_order h hd)
    (fun p hp => ⟨0, Placed.of_top hrec (isTop_of_topPlaces h.src_ok h.dst_ok (List.mem_filter.1 hp).1)⟩)

/-- **C95** Between adapters that can be reconciled, the calls that a sync into a local store makes, with their outcomes, are a run that can be read off the
contents of the two adapters before it: all of it when the sync returns, the beginning of one when it raises.  Whatever the calls return or raise, with or
without CONTINUE_ON_FAILURE. -/
theorem C95_run {sid : Nat} (h : CanConverge n src dst sid w) (hrl : n ≤ rl) (hdc : ∀ g l, dc.order g l = l)
    (hs : syncFrom n rl hooks dst src dc flags none w = (res, w')) :
    ∃ rest, RunFor flags (snap src w) (snap dst w) (visible flags (topPlaces src dst (snap src w) (snap dst w)))
      (callsOf (newEvents w w') ++ rest) ∧ ((∃ d', res = .ok d') → rest = []) := by
  obtain ⟨d, ⟨w1, hd⟩, hn, hm, _⟩ := h.clean hrl (fun g l => by rw [hdc]) hs
  exact runs_in_order h.comparable h.ready.dst h.reconcilable h.ready.instOf h.keepsIds hdc hs hd hn hm.acts

/-- **C95** The same of a sync into a Redis store. -/
theorem C95_redis_run {sid : String} (h : RedisPair n src dst sid w) (hrl : n ≤ rl) (hdc : ∀ g l, dc.order g l = l)
    (hs : syncFrom n rl hooks dst src dc flags none w = (res, w')) :
    ∃ rest, RunFor flags (snap src w) (snap dst w) (visible flags (topPlaces src dst (snap src w) (snap dst w)))
      (callsOf (newEvents w w') ++ rest) ∧ ((∃ d', res = .ok d') → rest = []) := by
  obtain ⟨d, ⟨w1, hd⟩, hn, hm, _⟩ := h.clean hrl (fun g l => by rw [hdc]) hs
  exact runs_in_order h.comparable h.ready h.reconcilable h.instOf h.keepsIds hdc hs hd hn hm.acts
end

section
variable {S D : Snap V} {flags : Nat}

/-- Two lists of calls with outcomes are the same up to a call that both make, with different outcomes. -/
def SplitAtOutcome (cs cs' : List (CrudCall V × Outcome)) : Prop :=
  ∃ A c o o' R R', cs = A ++ (c, o) :: R ∧ cs' = A ++ (c, o') :: R' ∧ o ≠ o'

theorem SplitAtOutcome.right {cs cs' : List (CrudCall V × Outcome)} (h : SplitAtOutcome cs cs') (x y : List (CrudCall V × Outcome)) : SplitAtOutcome (cs ++ x) (cs' ++ y) := by
  obtain ⟨A, c, o, o', R, R', rfl, rfl, hne⟩ := h
  exact ⟨A, c, o, o', R ++ x, R' ++ y, by simp, by simp, hne⟩
theorem SplitAtOutcome.left {cs cs' : List (CrudCall V × Outcome)} (h : SplitAtOutcome cs cs') (x : List (CrudCall V × Outcome)) : SplitAtOutcome (x ++ cs) (x ++ cs') := by
  obtain ⟨A, c, o, o', R, R', rfl, rfl, hne⟩ := h
  exact ⟨x ++ A, c, o, o', R, R', by simp, by simp, hne⟩

theorem RunFor.same_or_split {ps : List (Pos V)} {cs cs' : List (CrudCall V × Outcome)} (h : RunFor flags S D ps cs) (h' : RunFor flags S D ps cs') :
    cs = cs' ∨ SplitAtOutcome cs cs' := by
  have app : ∀ {a a' b b' : List (CrudCall V × Outcome)}, a = a' ∨ SplitAtOutcome a a' → b = b' ∨ SplitAtOutcome b b' → a ++ b = a' ++ b' ∨ SplitAtOutcome (a ++ b) (a' ++ b') := by
    intro a a' b b' h1 h2
    rcases h1 with rfl | h1
    · rcases h2 with rfl | h2
      · exact .inl rfl
      · exact .inr (h2.left a)
    · exact .inr (h1.right b b')
  have one : ∀ (c : CrudCall V) (o o' : Outcome) {b b' : List (CrudCall V × Outcome)}, (o = o' → b = b' ∨ SplitAtOutcome b b') → (c, o) :: b = (c, o') :: b' ∨ SplitAtOutcome ((c, o) :: b) ((c, o') :: b') := by
    intro c o o' b b' h
    by_cases ho : o = o'
    · subst ho
      rcases h rfl with rfl | h
      · exact .inl rfl
      · exact .inr (h.left [(c, o)])
    · exact .inr ⟨[], c, o, o', b, b', rfl, rfl, ho⟩
  induction h generalizing cs' with
  | nil => cases h'; exact .inl rfl
  | same a1 _ _ ih1 ih2 =>
    cases h' with
    | same b1 c1 c2 => exact app (ih1 c1) (ih2 c2)
    | call b1 => cases a1.symm.trans b1
    | failed b1 => cases a1.symm.trans b1
    | last b1 => cases a1.symm.trans b1
    | alone b1 => cases a1.symm.trans b1
  | call a1 a2 a3 a4 _ _ ih1 ih2 =>
    cases h' with
    | same b1 => cases a1.symm.trans b1
    | call b1 b2 b3 b4 c1 c2 => cases a1.symm.trans b1; exact one _ _ _ (fun _ => app (ih1 c1) (ih2 c2))
    | failed b1 b2 b3 b4 => cases a1.symm.trans b1; exact one _ _ _ (fun h => absurd (h ▸ a4) b4)
    | last b1 b2 b3 => exact absurd b3 a3
    | alone b1 b2 => exact absurd b2 a2
  | failed a1 a2 a3 a4 _ ih2 =>
    cases h' with
    | same b1 => cases a1.symm.trans b1
    | failed b1 b2 b3 b4 c2 => cases a1.symm.trans b1; exact one _ _ _ (fun _ => ih2 c2)
    | call b1 b2 b3 b4 => cases a1.symm.trans b1; exact one _ _ _ (fun h => absurd (h ▸ b4) a4)
    | last b1 b2 b3 => exact absurd b3 a3
    | alone b1 b2 => exact absurd b2 a2
  | last a1 a2 a3 _ _ ih1 ih2 =>
    cases h' with
    | same b1 => cases a1.symm.trans b1
    | last b1 b2 b3 c1 c2 => cases a1.symm.trans b1; exact app (ih1 c1) (one _ _ _ (fun _ => ih2 c2))
    | call b1 b2 b3 => exact absurd a3 b3
    | failed b1 b2 b3 => exact absurd a3 b3
    | alone b1 b2 => exact absurd b2 a2
  | alone a1 a2 _ ih2 =>
    cases h' with
    | same b1 => cases a1.symm.trans b1
    | alone b1 b2 c2 => cases a1.symm.trans b1; exact one _ _ _ (fun _ => ih2 c2)
    | call b1 b2 => exact absurd a2 b2
    | failed b1 b2 => exact absurd a2 b2
    | last b1 b2 => exact absurd a2 b2

theorem prefix_of_outcomes {a b l l' : List (CrudCall V × Outcome)} (hl : l = l' ∨ SplitAtOutcome l l') (ha : a <+: l) (hb : b <+: l')
    (h : a.map Prod.snd <+: b.map Prod.snd) : a <+: b := by
  have hlen : a.length ≤ b.length := by simpa using h.length_le
  rcases hl with rfl | ⟨A, c, o, o', R, R', rfl, rfl, hne⟩
  · exact List.prefix_of_prefix_length_le ha hb hlen
  · by_cases hlt : a.length ≤ A.length
    · have h1 : a <+: A := List.prefix_of_prefix_length_le ha (List.prefix_append _ _) hlt
      exact List.prefix_of_prefix_length_le (h1.trans (List.prefix_append _ _)) hb hlen
    · exfalso
      have h1 : A ++ [(c, o)] <+: a := List.prefix_of_prefix_length_le ⟨R, by simp⟩ ha (by simp; omega)
      have h2 : A ++ [(c, o')] <+: b := List.prefix_of_prefix_length_le ⟨R', by simp⟩ hb (by simp; omega)
      obtain ⟨x, rfl⟩ := h1
      obtain ⟨y, rfl⟩ := h2
      obtain ⟨z, h⟩ := h
      simp only [List.map_append, List.map_cons, List.map_nil, List.append_assoc, List.cons_append, List.nil_append] at h
      have := List.append_cancel_left h
      exact hne (List.cons.inj this).1

/-- **C95** Two runs over the same contents are the same, or the same up to a call that has different outcomes in them: what is called next depends on the contents
and on the outcomes so far. -/
theorem C95_same_or_split {ps : List (Pos V)} {cs cs' : List (CrudCall V × Outcome)} (h : RunFor flags S D ps cs) (h' : RunFor flags S D ps cs') :
    cs = cs' ∨ ∃ A c o o' R R', cs = A ++ (c, o) :: R ∧ cs' = A ++ (c, o') :: R' ∧ o ≠ o' := h.same_or_split h'
end

/-- **C95** Two syncs between adapters with the same contents, with the same flags: as long as their calls have the same outcomes they make the same calls. -/
theorem C95_same_calls {E' : Type} {n rl n' rl' : Nat} {hooks : Hooks V E} {hooks' : Hooks V E'} {src dst : Adapter V} {dc dc' : DiffClass V} {flags sid sid' : Nat} {w w' : World V E}
    {v v' : World V E'} {res res' : Except Err (Diff V)} (h : CanConverge n src dst sid w) (h' : CanConverge n' src dst sid' v) (hrl : n ≤ rl) (hrl' : n' ≤ rl')
    (hdc : ∀ g l, dc.order g l = l) (hdc' : ∀ g l, dc'.order g l = l) (hS : snap src w = snap src v) (hD : snap dst w = snap dst v)
    (hs : syncFrom n rl hooks dst src dc flags none w = (res, w')) (hs' : syncFrom n' rl' hooks' dst src dc' flags none v = (res', v'))
    (hout : (callsOf (newEvents w w')).map Prod.snd <+: (callsOf (newEvents v v')).map Prod.snd) : callsOf (newEvents w w') <+: callsOf (newEvents v v') := by
  obtain ⟨r, h1, _⟩ := C95_run h hrl hdc hs
  obtain ⟨r', h3, _⟩ := C95_run h' hrl' hdc' hs'
  rw [← hS, ← hD] at h3
  exact prefix_of_outcomes (h1.same_or_split h3) (List.prefix_append _ _) (List.prefix_append _ _) hout

/-- **C95** The same of syncs into Redis stores. -/
theorem C95_redis_same_calls {E' : Type} {n rl n' rl' : Nat} {hooks : Hooks V E} {hooks' : Hooks V E'} {src dst : Adapter V} {dc dc' : DiffClass V} {flags : Nat} {sid sid' : String} {w w' : World V E}
    {v v' : World V E'} {res res' : Except Err (Diff V)} (h : RedisPair n src dst sid w) (h' : RedisPair n' src dst sid' v) (hrl : n ≤ rl) (hrl' : n' ≤ rl')
    (hdc : ∀ g l, dc.order g l = l) (hdc' : ∀ g l, dc'.order g l = l) (hS : snap src w = snap src v) (hD : snap dst w = snap dst v)
    (hs : syncFrom n rl hooks dst src dc flags none w = (res, w')) (hs' : syncFrom n' rl' hooks' dst src dc' flags none v = (res', v'))
    (hout : (callsOf (newEvents w w')).map Prod.snd <+: (callsOf (newEvents v v')).map Prod.snd) : callsOf (newEvents w w') <+: callsOf (newEvents v v') := by
  obtain ⟨r, h1, _⟩ := C95_redis_run h hrl hdc hs
  obtain ⟨r', h3, _⟩ := C95_redis_run h' hrl' hdc' hs'
  rw [← hS, ← hD] at h3
  exact prefix_of_outcomes (h1.same_or_split h3) (List.prefix_append _ _) (List.prefix_append _ _) hout

end DS
