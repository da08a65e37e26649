import Verif.Props.Sync
/-! # Failures, refusals, deletions and records of a sync -/
set_option linter.unusedSectionVars false

namespace DS
variable {V E : Type} [PyVal V]

section
variable {n rl : Nat} {hooks : Hooks V E} {dst src : Adapter V} {dc : DiffClass V} {flags : Nat} {diff : Option (Diff V)}
  {w w' : World V E} {d : Diff V} {res : Except Err (Diff V)}

theorem pairwise_or {α : Type} {R : α → α → Prop} {l : List α} (h : l.Pairwise R) {a b : α} (ha : a ∈ l) (hb : b ∈ l) : a = b ∨ R a b ∨ R b a := by
  induction h with
  | nil => cases ha
  | @cons c l h1 h2 ih =>
    rcases List.mem_cons.1 ha with ea | ha'
    · rcases List.mem_cons.1 hb with eb | hb'
      · exact .inl (ea.trans eb.symm)
      · exact .inr (.inl (ea ▸ h1 _ hb'))
    · rcases List.mem_cons.1 hb with eb | hb'
      · exact .inr (.inr (eb ▸ h1 _ ha'))
      · exact ih ha' hb'

/-- Elements about the same object are the same element. -/
theorem DistinctKeys.eq {A : Adapter V} {es : List (Elem V)} (h : DistinctKeys A es) {x y : Elem V} (hx : InTree x es) (hy : InTree y es) {k : Key}
    (hk : ElemKey A x k) (hk' : ElemKey A y k) : x = y := by
  rcases pairwise_or h ((mem_nodesL_iff _ _).2 hx) ((mem_nodesL_iff _ _).2 hy) with h1 | h1 | h1
  · exact h1
  · exact absurd hk' (h1 k hk)
  · exact absurd hk (h1 k hk')

/-- No element is below itself, and what is below has other keys. -/
theorem DistinctKeys.below {A : Adapter V} {es : List (Elem V)} (h : DistinctKeys A es) {x y : Elem V} (hx : InTree x es) (hy : InTree y x.kids) {k : Key}
    (hk : ElemKey A x k) : ¬ ElemKey A y k := (distinct_sub h hx).kids.2 k hk y hy

section
variable {D : Prop} {evs0 evs : List (Event V)} {p : Nat} {y : Except Err Bool}

theorem Ran.ord (_hr : Ran n rl hooks dst src flags (Tidy dst d) d w w' res evs0 evs p y) (ht : Tidy dst d) :
    DistinctKeys dst (getChildren d.cls d.kids) := ht.2.perm (getChildren_perm ht.1 d.kids).symm

theorem Ran.toOrd (_hr : Ran n rl hooks dst src flags (Tidy dst d) d w w' res evs0 evs p y) (ht : Tidy dst d) {x : Elem V} (hx : InTree x d.kids) :
    InTree x (getChildren d.cls d.kids) := hx.mono (fun _ hk => (getChildren_perm ht.1 _).mem_iff.2 hk)
end

/-- What is found for a deleted element that is treated children first is flagged so. -/
theorem natFirst_flagged {S : SyncCtx V E} {N : Key → Option Nat} {X SkipK : Key → Prop} {t : Nat} {D : Prop} (hD : D) {x : Elem V} {o : Option Nat} {k : Key}
    (hF : (trOf S D N X SkipK t).F x o) (hk : ElemKey S.dst x k) (hn : NatFirst x o) : x.action = some .delete ∧ Flagged N k MF.NATURAL_DELETION_ORDER ∧
      ¬ Flagged N k MF.SKIP_CHILDREN_ON_DELETE := by
  obtain ⟨h1, h2, h3⟩ := hn
  cases o with
  | none => cases h2
  | some fl =>
    have hN := ((hF.2 k hk).2 hD).1 fl rfl
    refine ⟨h1, ⟨fl, hN, h2⟩, ?_⟩
    rintro ⟨fl', h4, h5⟩
    rw [hN] at h4; cases h4
    rw [show oflag (some fl) MF.SKIP_CHILDREN_ON_DELETE = flagOn fl MF.SKIP_CHILDREN_ON_DELETE from rfl, h5] at h3
    cases h3

/-! ## C28 -/

/-- The call about an element in a run. -/
theorem Tr.own_call {T : TrCtx V} (hR : T.dc.Reorders) {l : List (Elem V)} (hD : DistinctKeys T.A l) {p p' : Nat} {evs : List (Event V)} {res : Except Err Bool}
    (h : Tr T l p evs p' res) {x : Elem V} (hx : InTree x l) {c : CrudCall V} {out : Outcome} (hp : Prescribes T.A x c) (hc : Event.call c out ∈ evs) :
    ∃ L B R o ctx rb, evs = L ++ (B ++ R) ∧ T.F x o ∧ BodyTr T x o ctx B rb ∧ callsOf B = [(c, out)] ∧ Silent T.A x L ∧ Silent T.A x R ∧
      (rb = .ok true → out.result = .object) ∧
      (¬ NatFirst x o → RecordOf T.A x ctx ∧ (∀ y, InTree y x.kids → Silent T.A y L) ∧ (rb ≠ .ok true ∨ Shortcut x o → ∀ y, InTree y x.kids → Silent T.A y R)) ∧
      (NatFirst x o → ∀ y, InTree y x.kids → Silent T.A y R) := by
  rcases h.own hR hD hx with h1 | ⟨L, B, R, o, ctx, rb, rfl, h2, h3, h4, h5, h6, h7, h8⟩ | ⟨_, _, _, _, _, h1⟩
  · exact absurd hc (h1 x c out (inTree_self _) hp)
  · have hB : Event.call c out ∈ B := by
      rcases List.mem_append.1 hc with hc | hc
      · exact absurd hc (h4 c out hp)
      · rcases List.mem_append.1 hc with hc | hc
        · exact hc
        · exact absurd hc (h5 c out hp)
    rcases h3.calls with ⟨e1, _⟩ | ⟨a, call, out', g1, g2, g3, g4, g5, g6, g7⟩
    · rw [← mem_callsOf, e1] at hB; cases hB
    · rw [← mem_callsOf, g3, List.mem_singleton] at hB
      cases hB
      exact ⟨L, B, R, o, ctx, rb, rfl, h2, h3, g3, h4, h5, g6, h7, h8⟩
  · exact absurd hc (h1 c out hp)

/-- **C28** When the call about an element does not return an object (it returns None or raises), no call is made about any
element below it; except for a deleted object flagged NATURAL_DELETION_ORDER, whose children come first. -/
theorem C28_no_calls_below (h : SyncRun n rl hooks dst src dc flags diff w d res w') (ht : Tidy dst d) {x : Elem V} (hx : InTree x d.kids)
    (hn : x.action = some .delete → ∀ k, ElemKey dst x k → ¬ Flagged (snap dst w).flagsAt k MF.NATURAL_DELETION_ORDER)
    {c : CrudCall V} {out : Outcome} (hp : Prescribes dst x c) (hc : Event.call c out ∈ newEvents w w') (ho : out.result ≠ .object) :
    ∀ z c' out', InTree z x.kids → Prescribes dst z c' → Event.call c' out' ∉ newEvents w w' := by
  rcases h.cases with ⟨_, rfl, _⟩ | ⟨evs0, evs, p, y, hran⟩
  · rw [show newEvents w' w' = [] by simp [newEvents]] at hc; cases hc
  · obtain ⟨L, B, R, o, ctx, rb, h1, h2, h3, h4, _, _, h6, h7, _⟩ := hran.tr.own_call ht.1 (hran.ord ht) (hran.toOrd ht hx) hp (hran.mem_call.1 hc)
    have hnn : ¬ NatFirst x o := by
      intro hnf
      obtain ⟨u, hk, _⟩ := hp
      obtain ⟨g1, g2, _⟩ := natFirst_flagged ht h2 hk hnf
      exact hn g1 _ hk g2
    obtain ⟨_, s1, s2⟩ := h7 hnn
    intro z c' out' hz hp' hc'
    rw [hran.mem_call, h1] at hc'
    rcases List.mem_append.1 hc' with hc' | hc'
    · exact s1 z hz c' out' hp' hc'
    · rcases List.mem_append.1 hc' with hc' | hc'
      · obtain ⟨hpx, _⟩ := h3.mem_call hc'
        obtain ⟨k, k1, k2⟩ := hpx.same hp'
        exact ht.2.below hx hz k1 k2
      · exact s2 (.inl (fun hrb => ho (h6 hrb))) z hz c' out' hp' hc'

/-- **C28** An object is added only by a create call for it that returns an object, and is removed only by a delete call on it that
returns an object, or along with an object flagged SKIP_CHILDREN_ON_DELETE whose delete call returned an object. -/
theorem C28_only_success_changes_contents (hr : DstReady dst w) (hg : Applicable n dst src dc flags diff w)
    (h : syncFrom n rl hooks dst src dc flags diff w = (res, w')) (t u : String) :
    ((snap dst w).find t u = none → (snap dst w').find t u ≠ none →
      ∃ ids attrs out, Event.call (.create t ids attrs) out ∈ newEvents w w' ∧ out.result = .object ∧ CallKey dst (.create t ids attrs) (t, u)) ∧
    ((snap dst w).find t u ≠ none → (snap dst w').find t u = none →
      (∃ out, Event.call (.delete t u) out ∈ newEvents w w' ∧ out.result = .object) ∨
      ∃ d, UsedDiff n dst src dc flags diff w d ∧ TakenAlong dst (snap dst w) d.kids (newEvents w w') (t, u)) ∧
    ((snap dst w).find t u ≠ none → ∀ m m', (snap dst w).find t u = some m → (snap dst w').find t u = some m' → m'.vals ≠ m.vals →
      (∃ ids attrs out, Event.call (.create t ids attrs) out ∈ newEvents w w' ∧ out.result = .object ∧ CallKey dst (.create t ids attrs) (t, u)) ∨
      ∃ attrs out, Event.call (.update t u attrs) out ∈ newEvents w w' ∧ out.applied = true) := by
  rcases sync_master hr hg h with ⟨x, _, _, hs, _⟩ | ⟨d, evs0, evs, p, y, hu, hran⟩
  · rw [hs.snap_eq hr.ok]
    exact ⟨fun h1 h2 => absurd h1 h2, fun h1 h2 => absurd h2 h1, fun _ m m' h1 h2 h3 => by rw [h1] at h2; cases h2; exact absurd rfl h3⟩
  · have hsub : ∀ ev, ev ∈ evs → ev ∈ newEvents w w' := fun ev hev => by rw [hran.new]; simp [hev]
    have f := hran.frame.effects hr.ok
    refine ⟨fun h1 h2 => ?_, fun h1 h2 => ?_, fun h1 m m' hm hm' hne => ?_⟩
    · obtain ⟨_, ids, attrs, out, g1, g2, g3⟩ := f.added t u h1 h2
      exact ⟨ids, attrs, out, hsub _ g1, g2, g3⟩
    · rcases f.removed t u h1 h2 with ⟨_, out, g1, g2⟩ | h3
      · exact .inl ⟨out, hsub _ g1, g2⟩
      · exact .inr ⟨d, hu, hran.taken h3⟩
    · rcases f.vals t u m m' hm hm' with h3 | ⟨ids, attrs, out, g1, g2, g3⟩ | ⟨attrs, out, g1, g2⟩
      · exact absurd h3 hne
      · exact .inl ⟨ids, attrs, out, hsub _ g1, g2, g3⟩
      · exact .inr ⟨attrs, out, hsub _ g1, g2⟩

/-- The outcome of the call about an element is one. -/
theorem Tr.outcome_unique {T : TrCtx V} (hR : T.dc.Reorders) {l : List (Elem V)} (hD : DistinctKeys T.A l) {p p' : Nat} {evs : List (Event V)} {res : Except Err Bool}
    (h : Tr T l p evs p' res) {x : Elem V} (hx : InTree x l) {c c' : CrudCall V} {out out' : Outcome} (hp : Prescribes T.A x c) (hc : Event.call c out ∈ evs)
    (hp' : Prescribes T.A x c') (hc' : Event.call c' out' ∈ evs) : c = c' ∧ out = out' := by
  obtain ⟨L, B, R, o, ctx, rb, rfl, _, _, h4, h5, h6, _⟩ := h.own_call hR hD hx hp hc
  rcases List.mem_append.1 hc' with hc' | hc'
  · exact absurd hc' (h5 c' out' hp')
  · rcases List.mem_append.1 hc' with hc' | hc'
    · rw [← mem_callsOf, h4, List.mem_singleton] at hc'
      cases hc'; exact ⟨rfl, rfl⟩
    · exact absurd hc' (h6 c' out' hp')

/-- A call about an object in a run is prescribed by the element about it. -/
theorem Ran.call_of {evs0 evs : List (Event V)} {p : Nat} {y : Except Err Bool} (hran : Ran n rl hooks dst src flags (Tidy dst d) d w w' res evs0 evs p y)
    (ht : Tidy dst d) {x : Elem V} (hx : InTree x d.kids) {k : Key} (hk : ElemKey dst x k) {c : CrudCall V} {out : Outcome} (hc : Event.call c out ∈ evs)
    (hck : CallKey dst c k) : Prescribes dst x c := by
  obtain ⟨z, hz, hp, _⟩ := hran.tr.mem_call c out hc
  have hzk : ElemKey dst z k := by
    obtain ⟨u, h1, h2⟩ := hp
    cases ha : z.action with
    | none => rw [ha] at h2; cases h2
    | some a =>
      obtain ⟨c0, u0, g1, g2, g3⟩ := h1
      cases g3
      cases a <;> simp only [ha] at h2 <;> subst h2
      · obtain ⟨c', u', e1, e2, e3⟩ := hck
        exact ⟨c', u', e1, e2, e3⟩
      · rw [show k = _ from hck]; exact ⟨c0, u, g1, g2, rfl⟩
      · rw [show k = _ from hck]; exact ⟨c0, u, g1, g2, rfl⟩
  cases ht.2.eq (hran.inTree hz) hx hzk hk
  exact hp

/-- **C28** A failed create adds nothing: when the create call about an object that is not stored does not return an object, the
object is not stored afterwards. -/
theorem C28_failed_create_adds_nothing (h : SyncRun n rl hooks dst src dc flags diff w d res w') (ht : Tidy dst d) {x : Elem V} (hx : InTree x d.kids)
    {c : CrudCall V} {out : Outcome} (hp : Prescribes dst x c) (hc : Event.call c out ∈ newEvents w w') (ho : out.result ≠ .object)
    {t u : String} (hk : ElemKey dst x (t, u)) (hnone : (snap dst w).find t u = none) : (snap dst w').find t u = none := by
  have hg : ∀ d', UsedDiff n dst src dc flags diff w d' → GoodDiff dst d'.kids := fun d' hu' => by cases h.used.unique hu'; exact h.good
  rcases h.cases with ⟨_, rfl, _⟩ | ⟨evs0, evs, p, y, hran⟩
  · exact hnone
  · refine Classical.byContradiction fun hne => ?_
    obtain ⟨ids, attrs, out', g1, g2, g3⟩ := (C28_only_success_changes_contents h.ready hg h.run t u).1 hnone hne
    have g1' := hran.mem_call.1 g1
    have hp' := hran.call_of ht hx hk g1' g3
    obtain ⟨_, rfl⟩ := hran.tr.outcome_unique ht.1 (hran.ord ht) (hran.toOrd ht hx) hp (hran.mem_call.1 hc) hp' g1'
    exact ho g2

/-- **C28** A failed delete removes nothing: when the delete call on an object does not return an object, the object is still
stored afterwards, unless it goes along with another, successfully deleted object flagged SKIP_CHILDREN_ON_DELETE. -/
theorem C28_failed_delete_removes_nothing (h : SyncRun n rl hooks dst src dc flags diff w d res w') (ht : Tidy dst d) {x : Elem V} (hx : InTree x d.kids)
    {c : CrudCall V} {out : Outcome} (hp : Prescribes dst x c) (hc : Event.call c out ∈ newEvents w w') (ho : out.result ≠ .object)
    {t u : String} (hk : ElemKey dst x (t, u)) (hsome : (snap dst w).find t u ≠ none)
    (htk : ¬ TakenAlong dst (snap dst w) d.kids (newEvents w w') (t, u)) : (snap dst w').find t u ≠ none := by
  have hg : ∀ d', UsedDiff n dst src dc flags diff w d' → GoodDiff dst d'.kids := fun d' hu' => by cases h.used.unique hu'; exact h.good
  rcases h.cases with ⟨_, rfl, _⟩ | ⟨evs0, evs, p, y, hran⟩
  · exact hsome
  · intro hne
    rcases (C28_only_success_changes_contents h.ready hg h.run t u).2.1 hsome hne with ⟨out', g1, g2⟩ | ⟨d', hu', g⟩
    · have g1' := hran.mem_call.1 g1
      have hp' := hran.call_of ht hx hk g1' (show CallKey dst (.delete t u) (t, u) from rfl)
      obtain ⟨_, rfl⟩ := hran.tr.outcome_unique ht.1 (hran.ord ht) (hran.toOrd ht hx) hp (hran.mem_call.1 hc) hp' g1'
      exact ho g2
    · cases h.used.unique hu'
      exact htk g
end

section
variable {n rl : Nat} {hooks : Hooks V E} {dst src : Adapter V} {dc : DiffClass V} {flags : Nat} {diff : Option (Diff V)}
  {w w' : World V E} {d : Diff V} {res : Except Err (Diff V)}

/-! ## C30 -/

/-- **C30** With CONTINUE_ON_FAILURE no ObjectCrudException escapes from a sync. -/
theorem C30_no_crud_exception (hr : DstReady dst w) (hg : Applicable n dst src dc flags diff w)
    (h : syncFrom n rl hooks dst src dc flags diff w = (res, w')) (hf : flagOn flags GF.CONTINUE_ON_FAILURE = true) {x : Err} (hx : res = .error x) :
    x.isCrud = false := by
  rcases sync_master hr hg h with ⟨x', h1, h2, _⟩ | ⟨d, evs0, evs, p, y, hu, hran⟩
  · rw [h1] at hx; cases hx; exact h2
  · rw [hran.res_eq] at hx
    cases y with
    | ok b => cases hx
    | error x' => cases hx; exact hran.tr.err_cont hf _ rfl

theorem BodyTr.attempted {T : TrCtx V} {e : Elem V} {o : Option Nat} {ctx : LogCtx} {evs : List (Event V)} {r : Except Err Bool} (h : BodyTr T e o ctx evs r)
    (hn : e.action ≠ none) : (∃ c out, Prescribes T.A e c ∧ Event.call c out ∈ evs ∧ (r = .ok false → out.result ≠ .object)) ∨
      ((∃ a, e.action = some a ∧ CallOK a o = false ∧ (r = .ok false ∨ r = .error (staleErr a)) ∧ r = (failRes T.flags (staleErr a))) ∧ Event.log .error ctx .error ∈ evs) := by
  obtain ⟨evs1, tail, r1, h1, rfl, h2⟩ := h.inv
  rcases h1.inv with ⟨h3, _⟩ | ⟨a, ha, ⟨hk, rfl, h4⟩ | ⟨_, call, out, h5, _, h6⟩⟩
  · exact absurd h3 hn
  · refine .inr ⟨⟨a, ha, hk, ?_⟩, by simp⟩
    have hr1 : r1 = .ok false ∨ r1 = .error (staleErr a) := by
      rw [h4]; unfold failRes; split
      · exact .inl rfl
      · exact .inr rfl
    rcases h2 with ⟨x, e1, _, e2⟩ | ⟨e1, _, e2⟩ | ⟨e1, _, _⟩
    · rw [← h4, e2, ← e1]; exact ⟨hr1, rfl⟩
    · have : r = r1 := e2.trans e1.symm
      rw [← h4, this]; exact ⟨hr1, rfl⟩
    · rcases hr1 with h | h <;> rw [h] at e1 <;> cases e1
  · refine .inl ⟨call, out, h5, ?_, ?_⟩
    · rcases h6 with ⟨x, _, _, rfl, _⟩ | ⟨x, _, _, rfl, _⟩ | ⟨_, rfl, _⟩ | ⟨_, _, rfl, _⟩ <;> simp
    · rintro rfl
      have e1 : r1 = .ok false := by
        rcases h2 with ⟨x, _, _, e2⟩ | ⟨e1, _, _⟩ | ⟨_, _, e2 | ⟨_, _, e2⟩⟩
        · cases e2
        · exact e1
        · cases e2
        · cases e2
      rcases h6 with ⟨x, h7, _⟩ | ⟨x, _, _, _, h7⟩ | ⟨h7, _⟩ | ⟨_, _, _, h7⟩
      · rw [h7]; simp
      · rw [e1] at h7; cases h7
      · rw [h7]; simp
      · rw [e1] at h7; cases h7

/-- What happens to an element of a sync that returns: it has its turn, or an element above it is left without an object or is
deleted with its children. -/
theorem Ran.turn {evs0 evs : List (Event V)} {p : Nat} {b : Bool} (hran : Ran n rl hooks dst src flags (Tidy dst d) d w w' res evs0 evs p (.ok b))
    (ht : Tidy dst d) {x : Elem V} (hx : InTree x d.kids) :
    (∃ L B R o ctx rb, evs = L ++ (B ++ R) ∧ FoundOK dst (Tidy dst d) (snap dst w).flagsAt (TakenAlong dst (snap dst w) d.kids evs) (SkipsChildren dst (snap dst w)) x o ∧
      BodyTr (trOf ⟨src, dst, flags, d.cls, hooks, rl⟩ (Tidy dst d) (snap dst w).flagsAt (TakenAlong dst (snap dst w) d.kids evs) (SkipsChildren dst (snap dst w)) d.len) x o ctx B (.ok rb) ∧
      (NatFirst x o ∨ RecordOf dst x ctx)) ∨
    ∃ a, InTree a d.kids ∧ InTree x a.kids ∧ (LeftWithout dst (newEvents w w') a ∨
      (a.action = some .delete ∧ ∃ k, ElemKey dst a k ∧ SkipsChildren dst (snap dst w) k)) := by
  rcases hran.tr.locate ht.1 (D := True) (fun _ => hran.ord ht) (hran.toOrd ht hx) with ⟨L, B, R, q, q', r, h1, h2, h3, _⟩ | ⟨_, ⟨err, h1⟩ | ⟨a, o, ctx, B, rb, L, R, h1, h2, h3, h4, h5, h6, h7, h8⟩⟩
  · left
    cases h2.one with
    | bad => cases (h3 _ rfl).2
    | natFail => cases (h3 _ rfl).2
    | @nat o ctx _ evs1 p1 b evs' rb g1 g2 g3 g4 =>
      have g4 := g4.2
      cases rb with
      | error err => cases (h3 err rfl).2
      | ok rb => exact ⟨L ++ evs1, evs', progIf (.ok rb) p1 d.len ++ R, o, ctx, rb, by rw [h1]; simp [List.append_assoc, trOf], g1, g4, .inl g2⟩
    | @leaf o ctx _ evs' rb g1 g2 g3 g4 g5 =>
      cases rb with
      | error err => cases (h3 err rfl).2
      | ok rb => exact ⟨L, B, R, o, ctx, rb, h1, g1, g5, .inr g3⟩
    | @pre o ctx _ evs1 evs' p1 r g1 g2 g3 g4 g5 g6 =>
      exact ⟨L, evs1, (.syncProgress (q + 1) d.len :: evs') ++ R, o, ctx, true, by rw [h1]; simp [List.append_assoc, trOf], g1, g5, .inr g4⟩
  · cases h1
  · right
    refine ⟨a, hran.inTree h1, h2, ?_⟩
    have hsub : ∀ ev, ev ∈ B → ev ∈ newEvents w w' := fun ev hev => by rw [hran.new, h6]; simp [hev]
    rcases h8 with rfl | ⟨_, hsc⟩
    · left
      obtain ⟨evs1, tail, r1, g1, rfl, g2⟩ := id h7.inv
      have htail : r1 = .ok false ∧ tail = [.noObject ctx] := by
        rcases g2 with ⟨_, _, _, h⟩ | ⟨h, h', _⟩ | ⟨_, _, h | ⟨_, _, h⟩⟩
        · cases h
        · exact ⟨h, h'⟩
        · cases h
        · cases h
      by_cases ha : a.action = none
      · exact .inr ⟨ctx, h5, hsub _ (by simp [htail.2]), .inl ha⟩
      · rcases h7.attempted ha with ⟨c, out, k1, k2, k3⟩ | ⟨_, k1⟩
        · exact .inl ⟨c, out, k1, hsub _ k2, k3 rfl⟩
        · exact .inr ⟨ctx, h5, hsub _ (by simp [htail.2]), .inr (hsub _ k1)⟩
    · obtain ⟨u, hk, _⟩ := h5
      exact .inr ⟨hsc.1, _, hk, (h3.2 _ hk).1 hsc.2⟩

/-- **C30** When a sync returns, something was attempted for every element with an action, except those below an element that
was left without an object (or below a deleted object flagged SKIP_CHILDREN_ON_DELETE). -/
theorem C30_everything_attempted {d' : Diff V} (h : SyncRun n rl hooks dst src dc flags diff w d (.ok d') w') (ht : Tidy dst d)
    {x : Elem V} (hx : InTree x d.kids) (ha : x.action ≠ none) :
    Attempted dst (newEvents w w') x ∨ ∃ a, InTree a d.kids ∧ InTree x a.kids ∧ (LeftWithout dst (newEvents w w') a ∨
      (a.action = some .delete ∧ ∃ k, ElemKey dst a k ∧ SkipsChildren dst (snap dst w) k)) := by
  rcases h.cases with ⟨h1, _⟩ | ⟨evs0, evs, p, y, hran⟩
  · cases h1
  · obtain ⟨b, rfl⟩ : ∃ b, y = .ok b := by
      have := hran.res_eq
      cases y with
      | ok b => exact ⟨b, rfl⟩
      | error x => cases this
    rcases hran.turn ht hx with ⟨L, B, R, o, ctx, rb, h1, h2, h3, h4⟩ | h1
    · left
      have hsub : ∀ ev, ev ∈ B → ev ∈ newEvents w w' := fun ev hev => by rw [hran.new, h1]; simp [hev]
      rcases h3.attempted ha with ⟨c, out, k1, k2, _⟩ | ⟨⟨a, k2, k3, _⟩, k1⟩
      · exact .inl ⟨c, out, k1, hsub _ k2⟩
      · rcases h4 with hn | hrec
        · exfalso
          rw [hn.1] at k2; cases k2
          cases o with
          | none => cases hn.2.1
          | some fl => simp [CallOK] at k3
        · exact .inr ⟨ctx, hrec, hsub _ k1⟩
    · exact .inr h1

/-! ## C34 -/

theorem flagsAt_none {D : Snap V} {k : Key} : D.flagsAt k = none ↔ D.find k.1 k.2 = none := by simp [Snap.flagsAt]

/-- A stale element is found stale, unless its object has gone along with another. -/
theorem Stale.found {A : Adapter V} {D : Snap V} {X SkipK : Key → Prop} {P : Prop} (hP : P) {x : Elem V} {a : Action} (h : Stale A D x a) {o : Option Nat}
    (hF : FoundOK A P D.flagsAt X SkipK x o) (hX : a = .create → ∀ k, ElemKey A x k → ¬ X k) : CallOK a o = false := by
  obtain ⟨_, k, hk, hm⟩ := h
  obtain ⟨h1, h2⟩ := (hF.2 k hk).2 hP
  cases a with
  | create =>
    cases o with
    | some fl => rfl
    | none =>
      rcases h2 rfl with h3 | h3
      · exact absurd (flagsAt_none.1 h3) hm
      · exact absurd h3 (hX rfl k hk)
  | update =>
    cases o with
    | none => rfl
    | some fl => have := h1 fl rfl; rw [flagsAt_none.2 hm] at this; cases this
  | delete =>
    cases o with
    | none => rfl
    | some fl => have := h1 fl rfl; rw [flagsAt_none.2 hm] at this; cases this

/-- **C34** An element whose action does not fit the destination (an object to be created exists, one to be updated or deleted
does not) is refused: the user's method is not called for it, and what the destination stores under its key stays as it is.
(Unless, for an object to be created, the one that exists is removed along with an object flagged SKIP_CHILDREN_ON_DELETE.) -/
theorem C34_stale_refused (h : SyncRun n rl hooks dst src dc flags diff w d res w') (ht : Tidy dst d) {x : Elem V} (hx : InTree x d.kids) {a : Action}
    (hs : Stale dst (snap dst w) x a) (hX : a = .create → ∀ k, ElemKey dst x k → ¬ TakenAlong dst (snap dst w) d.kids (newEvents w w') k) :
    (∀ c out, Prescribes dst x c → Event.call c out ∉ newEvents w w') ∧
    ∀ t u, ElemKey dst x (t, u) → (snap dst w').find t u = (snap dst w).find t u := by
  rcases h.cases with ⟨_, rfl, _⟩ | ⟨evs0, evs, p, y, hran⟩
  · exact ⟨fun c out _ h => (by rw [show newEvents w' w' = [] by simp [newEvents]] at h; cases h), fun _ _ _ => rfl⟩
  · constructor
    · intro c out hp hc
      obtain ⟨L, B, R, o, ctx, rb, h1, h2, h3, h4, _⟩ := hran.tr.own_call ht.1 (hran.ord ht) (hran.toOrd ht hx) hp (hran.mem_call.1 hc)
      have hk := hs.found ht h2 (fun ha k hk hx => hX ha k hk (hran.taken hx))
      rcases h3.calls with ⟨e1, _⟩ | ⟨a', call, out', g1, g2, _⟩
      · rw [e1] at h4; cases h4
      · rw [hs.1] at g1; cases g1; rw [hk] at g2; cases g2
    · intro t u hk
      obtain ⟨ha, k', hk', hm⟩ := hs
      cases hk.unique hk'
      have only : ∀ b, keysOf dst d.kids b (t, u) → b = some a := by
        rintro b ⟨z, hz, hb, hzk⟩
        cases ht.2.eq hz hx hzk hk
        rw [← hb, ha]
      have f := hran.frame.effects h.ready.ok
      cases hf : (snap dst w).find t u with
      | none =>
        refine Classical.byContradiction fun hne => ?_
        obtain ⟨hK, _⟩ := f.added t u hf hne
        cases only _ hK
        exact hm hf
      | some m =>
        have hac : a = .create := by
          have hne : (snap dst w).find t u ≠ none := by rw [hf]; simp
          cases a with
          | create => rfl
          | update => exact absurd hm hne
          | delete => exact absurd hm hne
        subst hac
        cases hf' : (snap dst w').find t u with
        | none =>
          rcases f.removed t u (by rw [hf]; simp) hf' with ⟨hK, _⟩ | h3
          · cases only _ hK
          · exact absurd (hran.taken h3) (hX rfl _ hk)
        | some m' =>
          rcases f.kept t u m m' hf hf' with rfl | ⟨b, hb, hK⟩ | h3
          · rfl
          · exact absurd (only b hK) hb
          · exact absurd (hran.taken h3) (hX rfl _ hk)

/-- **C34** Without CONTINUE_ON_FAILURE such an element makes the sync raise, unless it has no turn because an element above it is
left without an object or deleted with its children. -/
theorem C34_stale_raises (h : SyncRun n rl hooks dst src dc flags diff w d res w') (ht : Tidy dst d) (hf : flagOn flags GF.CONTINUE_ON_FAILURE = false)
    {x : Elem V} (hx : InTree x d.kids) {a : Action} (hs : Stale dst (snap dst w) x a)
    (hX : a = .create → ∀ k, ElemKey dst x k → ¬ TakenAlong dst (snap dst w) d.kids (newEvents w w') k)
    (hup : ∀ a', InTree a' d.kids → InTree x a'.kids → ¬ (LeftWithout dst (newEvents w w') a' ∨
      (a'.action = some .delete ∧ ∃ k, ElemKey dst a' k ∧ SkipsChildren dst (snap dst w) k))) : ∃ err, res = .error err := by
  cases res with
  | error err => exact ⟨err, rfl⟩
  | ok d' =>
    exfalso
    rcases h.cases with ⟨h1, _⟩ | ⟨evs0, evs, p, y, hran⟩
    · cases h1
    · obtain ⟨b, rfl⟩ : ∃ b, y = .ok b := by
        have := hran.res_eq
        cases y with
        | ok b => exact ⟨b, rfl⟩
        | error x => cases this
      rcases hran.turn ht hx with ⟨L, B, R, o, ctx, rb, h1, h2, h3, h4⟩ | ⟨a', g1, g2, g3⟩
      · have hk := hs.found ht h2 (fun ha k hk hx => hX ha k hk (hran.taken hx))
        rcases h3.attempted (by rw [hs.1]; simp) with ⟨c, out, k1, k2, _⟩ | ⟨⟨a2, k2, k3, k4, k5⟩, k1⟩
        · rcases h3.calls with ⟨e1, _⟩ | ⟨a3, call, out', g1, g2, _⟩
          · rw [← mem_callsOf, e1] at k2; cases k2
          · rw [hs.1] at g1; cases g1; rw [hk] at g2; cases g2
        · have : failRes flags (staleErr a2) = .error (staleErr a2) := failRes_neg _ (by rw [hf]; simp)
          rw [show (trOf ⟨src, dst, flags, d.cls, hooks, rl⟩ (Tidy dst d) (snap dst w).flagsAt (TakenAlong dst (snap dst w) d.kids evs) (SkipsChildren dst (snap dst w)) d.len).flags = flags from rfl, this] at k5
          cases k5
      · exact hup a' g1 g2 g3

/-- **C34** An ObjectCrudException that a sync raises was raised by one of the user's methods, or it is the one for refusing an
element whose action does not fit the destination. -/
theorem C34_crud_error_source (h : SyncRun n rl hooks dst src dc flags diff w d (.error x) w') (ht : Tidy dst d) (hk : Keyed dst d.kids) (hx : x.isCrud = true) :
    (∃ c out, Event.call c out ∈ newEvents w w' ∧ out.result = .raises x) ∨
    ∃ e a, InTree e d.kids ∧ e.action = some a ∧ x = staleErr a ∧
      (Stale dst (snap dst w) e a ∨ ∃ k, ElemKey dst e k ∧ TakenAlong dst (snap dst w) d.kids (newEvents w w') k) := by
  rcases h.cases with ⟨h1, _⟩ | ⟨evs0, evs, p, y, hran⟩
  · cases h1; cases hx
  · have hy : y = .error x := by
      have := hran.res_eq
      cases y with
      | ok b => cases this
      | error x => cases this; rfl
    rcases hran.tr.err_source x hy hx with ⟨c, out, h1, h2⟩ | ⟨e, o, a, h1, h2, h3, h4, h5⟩
    · exact .inl ⟨c, out, hran.mem_call.2 h1, h2⟩
    · refine .inr ⟨e, a, hran.inTree h1, h3, h5, ?_⟩
      obtain ⟨k, hk⟩ := hk e (hran.inTree h1)
      obtain ⟨g1, g2⟩ := (h2.2 k hk).2 ht
      cases a with
      | create =>
        cases o with
        | none => cases h4
        | some fl => exact .inl ⟨h3, k, hk, fun hn => by have := g1 fl rfl; rw [flagsAt_none.2 hn] at this; cases this⟩
      | update =>
        cases o with
        | some fl => cases h4
        | none =>
          rcases g2 rfl with g3 | g3
          · exact .inl ⟨h3, k, hk, flagsAt_none.1 g3⟩
          · exact .inr ⟨k, hk, hran.taken g3⟩
      | delete =>
        cases o with
        | some fl => cases h4
        | none =>
          rcases g2 rfl with g3 | g3
          · exact .inl ⟨h3, k, hk, flagsAt_none.1 g3⟩
          · exact .inr ⟨k, hk, hran.taken g3⟩
end

end DS
