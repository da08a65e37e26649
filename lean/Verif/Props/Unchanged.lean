import Verif.Props.SyncLog
/-! # Records of unchanged objects (C99) -/
set_option linter.unusedSectionVars false

namespace DS
variable {V E : Type} [PyVal V]

@[simp] theorem unchangedOf_append (a b : List (Event V)) : unchangedOf (a ++ b) = unchangedOf a ++ unchangedOf b := by simp [unchangedOf]
@[simp] theorem unchangedOf_nil : unchangedOf ([] : List (Event V)) = [] := rfl
@[simp] theorem unchangedOf_progress (a b : Nat) (l : List (Event V)) : unchangedOf (.syncProgress a b :: l) = unchangedOf l := rfl
theorem unchangedOf_warn {evs : List (Event V)} (h : ChildWarn evs) : unchangedOf evs = [] := by
  induction evs with
  | nil => rfl
  | cons ev evs ih =>
    obtain ⟨a, b, c, d, rfl⟩ := h ev (by simp)
    exact ih (fun ev hev => h ev (by simp [hev]))
theorem unchangedOf_progIf (r : Except Err Bool) (p t : Nat) : unchangedOf (progIf r p t : List (Event V)) = [] := by
  unfold progIf; split <;> rfl

theorem mem_unchangedOf {evs : List (Event V)} {ctx : LogCtx} {st : Status} : (ctx, st) ∈ unchangedOf evs ↔ Event.log .debug ctx st ∈ evs := by
  unfold unchangedOf
  rw [List.mem_filterMap]
  constructor
  · rintro ⟨ev, h1, h2⟩
    cases ev with
    | log lv c st => cases lv <;> simp at h2; obtain ⟨rfl, rfl⟩ := h2; exact h1
    | _ => simp at h2
  · intro h; exact ⟨_, h, rfl⟩

/-- The records of level debug of one element. -/
theorem BodyTr.unchanged {T : TrCtx V} {e : Elem V} {o : Option Nat} {ctx : LogCtx} {evs : List (Event V)} {r : Except Err Bool} (h : BodyTr T e o ctx evs r) :
    unchangedOf evs = if e.action = none ∧ flagOn T.flags GF.LOG_UNCHANGED_RECORDS = true then [(ctx, .success)] else [] := by
  obtain ⟨evs1, tail, r1, h1, rfl, h2⟩ := h.inv
  have ht : unchangedOf tail = [] := by
    rcases h2 with ⟨_, _, rfl, _⟩ | ⟨_, rfl, _⟩ | ⟨_, h, _⟩
    · rfl
    · rfl
    · exact unchangedOf_warn h
  rw [unchangedOf_append, ht, List.append_nil]
  rcases h1.inv with ⟨ha, h3, rfl⟩ | ⟨a, ha, ⟨h3, rfl, h4⟩ | ⟨h3, call, out, h4, h5, h6⟩⟩
  · by_cases hl : flagOn T.flags GF.LOG_UNCHANGED_RECORDS = true
    · rw [if_pos hl, if_pos ⟨ha, hl⟩]; rfl
    · rw [if_neg hl, if_neg (fun h => hl h.2)]; rfl
  · rw [if_neg (by rw [ha]; simp)]; rfl
  · rw [if_neg (by rw [ha]; simp)]
    rcases h6 with ⟨x, _, _, rfl, _⟩ | ⟨x, _, _, rfl, _⟩ | ⟨_, rfl, _⟩ | ⟨st, _, rfl, _⟩
    · rfl
    · rfl
    · rfl
    · cases st <;> rfl

/-- The records of level debug of a list of elements, with the elements they are about. -/
structure UnchangedFor (T : TrCtx V) (l : List (Elem V)) (evs : List (Event V)) (res : Except Err Bool) (ps : List (Elem V × LogCtx)) : Prop where
  sub : SubPerm (ps.map Prod.fst) (nodesL l)
  recs : unchangedOf evs = ps.map (fun q => (q.2, Status.success))
  off : flagOn T.flags GF.LOG_UNCHANGED_RECORDS = false → ps = []
  own : ∀ q ∈ ps, q.1.action = none ∧ RecordOf T.A q.1 q.2
  all : flagOn T.flags GF.LOG_UNCHANGED_RECORDS = true → (∃ b, res = .ok b) → NoMissing evs → DelClosed l →
    (ps.map Prod.fst).Perm ((nodesL l).filter (fun e => decide (e.action = none)))

theorem delClosed_kids {e : Elem V} {dc : DiffClass V} (h : DelClosed [e]) : DelClosed (getChildren dc e.kids) := fun a ha hd z hz =>
  h a (.under List.mem_cons_self (ha.mono (fun _ hk => mem_of_getChildren hk))) hd z hz

theorem Tr.unchanged {T : TrCtx V} (hR : T.dc.Reorders) {l : List (Elem V)} {p p' : Nat} {evs : List (Event V)} {res : Except Err Bool} (h : Tr T l p evs p' res) :
    ∃ ps, UnchangedFor T l evs res ps := by
  have single : ∀ e : Elem V, nodesL [e] = e :: nodesL e.kids := fun e => by rw [nodesL_eq]; simp [Elem.nodes_eq]
  have two : ∀ (e : Elem V) l, nodesL (e :: l) = nodesL [e] ++ nodesL l := fun e l => by simp [nodesL_eq]
  have kids : ∀ e : Elem V, (nodesL (getChildren T.dc e.kids)).Perm (nodesL e.kids) := fun e => by
    rw [nodesL_eq, nodesL_eq]; exact (getChildren_perm hR _).flatMap_right _
  have lift : ∀ (e : Elem V) {a : List (Elem V)}, SubPerm a (nodesL (getChildren T.dc e.kids)) → SubPerm a (nodesL [e]) := fun e a h => by
    rw [single]
    obtain ⟨l, h1, h2⟩ := h.permR (kids e)
    exact ⟨l, h1, h2.cons e⟩
  have dead : ∀ e : Elem V, DelClosed [e] → e.action = some .delete → (nodesL [e]).filter (fun e => decide (e.action = none)) = [] := by
    intro e hd ha
    rw [List.filter_eq_nil_iff, single]
    intro z hz
    rcases List.mem_cons.1 hz with rfl | hz
    · simp [ha]
    · simp [hd e (inTree_self e) ha z ((mem_nodesL_iff _ _).1 hz)]
  -- the own part
  have body : ∀ {e : Elem V} {o ctx evs rb}, BodyTr T e o ctx evs rb → RecordOf T.A e ctx → ∃ ps : List (Elem V × LogCtx), (ps.map Prod.fst).Sublist [e] ∧
      unchangedOf evs = ps.map (fun q => (q.2, Status.success)) ∧ (flagOn T.flags GF.LOG_UNCHANGED_RECORDS = false → ps = []) ∧ (∀ q ∈ ps, q.1.action = none ∧ RecordOf T.A q.1 q.2) ∧
      (flagOn T.flags GF.LOG_UNCHANGED_RECORDS = true → ps.map Prod.fst = [e].filter (fun e => decide (e.action = none))) := by
    intro e o ctx evs rb hb hr
    by_cases ha : e.action = none
    · by_cases hl : flagOn T.flags GF.LOG_UNCHANGED_RECORDS = true
      · exact ⟨[(e, ctx)], .refl _, by rw [hb.unchanged, if_pos ⟨ha, hl⟩]; rfl, fun h => (by rw [hl] at h; cases h), by simpa using ⟨ha, hr⟩, fun _ => by simp [ha]⟩
      · exact ⟨[], List.nil_sublist _, by rw [hb.unchanged, if_neg (fun h => hl h.2)]; rfl, fun _ => rfl, by simp, fun h => absurd h hl⟩
    · exact ⟨[], List.nil_sublist _, by rw [hb.unchanged, if_neg (fun h => ha h.1)]; rfl, fun _ => rfl, by simp, fun _ => by simp [ha]⟩
  refine Tr.ind (motive := fun l _ evs _ res => ∃ ps, UnchangedFor T l evs res ps) ?_ ?_ ?_ ?_ ?_ ?_ ?_ ?_ h
  · exact fun _ => ⟨[], .nil _, rfl, fun _ => rfl, by simp, fun _ _ _ _ => by simp [nodesL]⟩
  · rintro e l p evs p' x _ ⟨ps, h⟩
    refine ⟨ps, ?_, h.recs, h.off, h.own, fun _ ⟨_, hb⟩ => by cases hb⟩
    rw [two, ← List.append_nil (ps.map _)]
    exact h.sub.append (.nil _)
  · rintro e l p evs p1 b evs' p' r _ _ ⟨ps, h⟩ ⟨ps', h'⟩
    refine ⟨ps ++ ps', ?_, by simp [h.recs, h'.recs], fun hf => by rw [h.off hf, h'.off hf]; rfl, ?_, fun hf ⟨c, hc⟩ hm hd => ?_⟩
    · rw [two, List.map_append]
      exact h.sub.append h'.sub
    · intro q hq
      rcases List.mem_append.1 hq with hq | hq
      · exact h.own q hq
      · exact h'.own q hq
    · obtain ⟨d, hd1, _⟩ := orRes_ok hc
      rw [two, List.map_append, List.filter_append]
      exact (h.all hf ⟨b, rfl⟩ (fun c hc => hm c (List.mem_append_left _ hc)) (fun a ha => hd a (ha.mono (by simp)))).append
        (h'.all hf ⟨d, hd1⟩ (fun c hc => hm c (List.mem_append_right _ hc)) (fun a ha => hd a (ha.mono (fun _ h => List.mem_cons_of_mem _ h))))
  · exact fun _ => ⟨[], .nil _, rfl, fun _ => rfl, by simp, fun _ ⟨_, hb⟩ => by cases hb⟩
  · rintro e o p evs p' x _ _ _ ⟨ps, h⟩
    exact ⟨ps, lift e h.sub, h.recs, h.off, h.own, fun _ ⟨_, hb⟩ => by cases hb⟩
  · rintro e o ctx p evs p' b evs' rb _ hn _ ⟨_, hb⟩ ⟨ps, h⟩
    refine ⟨ps, lift e h.sub, ?_, h.off, h.own, fun hf _ hm hd => ?_⟩
    · rw [unchangedOf_append, unchangedOf_append, unchangedOf_progIf, hb.unchanged, if_neg (by rw [hn.1]; simp), h.recs]; simp
    · have h0 := h.all hf ⟨b, rfl⟩ (fun c hc => hm c (List.mem_append_left _ hc)) (delClosed_kids hd)
      have h1 : (nodesL (getChildren T.dc e.kids)).filter (fun e => decide (e.action = none)) = [] := by
        have := dead e hd hn.1
        rw [single, List.filter_cons_of_neg (by simp [hn.1])] at this
        exact ((kids e).filter _ |>.trans (by rw [this])).eq_nil
      rw [h1] at h0
      rw [dead e hd hn.1]
      exact h0
  · rintro e o ctx p evs rb _ _ hr hsc hb
    obtain ⟨ps, h1, h2, h0, h3, h4⟩ := body hb hr
    refine ⟨ps, ?_, h2, h0, h3, fun hf ⟨c, hc⟩ hm hd => ?_⟩
    · rw [single, ← List.append_nil (ps.map _)]
      exact SubPerm.append (a := _) (b := [e]) ⟨_, List.Perm.refl _, h1⟩ (.nil _)
    · cases rb with
      | error => cases hc
      | ok rb =>
        cases rb with
        | false =>
          exfalso
          obtain ⟨evs1, tail, r1, _, rfl, h6⟩ := hb.inv
          rcases h6 with ⟨_, _, _, h⟩ | ⟨_, rfl, _⟩ | ⟨_, _, h | ⟨_, _, h⟩⟩
          · cases h
          · exact hm ctx (by simp)
          · cases h
          · cases h
        | true =>
          have ha := (hsc rfl).1
          rw [dead e hd ha, h4 hf]
          simp [ha]
  · rintro e o ctx p evs evs' p' r _ _ _ hr hb _ ⟨ps, h⟩
    obtain ⟨ps', h1, h2, h0, h3, h4⟩ := body hb hr
    refine ⟨ps' ++ ps, ?_, by simp [h.recs, h2], fun hf => by rw [h.off hf, h0 hf]; rfl, ?_, fun hf ⟨c, hc⟩ hm hd => ?_⟩
    · rw [single, List.map_append]
      exact SubPerm.append (b := [e]) ⟨_, List.Perm.refl _, h1⟩ (h.sub.permR (kids e))
    · intro q hq
      rcases List.mem_append.1 hq with hq | hq
      · exact h3 q hq
      · exact h.own q hq
    · obtain ⟨d, hd1, _⟩ := orRes_ok hc
      rw [single, List.map_append, ← List.singleton_append, List.filter_append, h4 hf]
      refine (List.Perm.refl _).append (((h.all hf ⟨d, hd1⟩ (fun c hc => hm c ?_) (delClosed_kids hd))).trans ((kids e).filter _))
      simp [hc]

/-- An element without action has its record, or an element above it is left without an object. -/
theorem Tr.missed {T : TrCtx V} (hR : T.dc.Reorders) (hf : flagOn T.flags GF.LOG_UNCHANGED_RECORDS = true) {l : List (Elem V)} {p p' : Nat} {evs : List (Event V)}
    {res : Except Err Bool} (h : Tr T l p evs p' res) : ∀ x, InTree x l → x.action = none → (∃ b, res = .ok b) → DelClosed l →
      (∃ ctx, RecordOf T.A x ctx ∧ Event.log .debug ctx .success ∈ evs) ∨
      ∃ a ctx, InTree a l ∧ InTree x a.kids ∧ RecordOf T.A a ctx ∧ Event.noObject ctx ∈ evs := by
  have dead : ∀ {e x : Elem V}, DelClosed [e] → e.action = some .delete → InTree x [e] → x.action = none → False := by
    intro e x hd ha hx hn
    cases hx with
    | here h => rw [List.mem_singleton] at h; subst h; rw [ha] at hn; cases hn
    | under h hx => rw [List.mem_singleton] at h; subst h; have := hd _ (inTree_self _) ha x hx; rw [hn] at this; cases this
  have own : ∀ {e : Elem V} {o ctx evs rb}, BodyTr T e o ctx evs rb → e.action = none → Event.log .debug ctx .success ∈ evs := by
    intro e o ctx evs rb hb ha
    rw [← mem_unchangedOf, hb.unchanged, if_pos ⟨ha, hf⟩]; simp
  refine Tr.ind (motive := fun l _ evs _ res => ∀ x, InTree x l → x.action = none → (∃ b, res = .ok b) → DelClosed l →
      (∃ ctx, RecordOf T.A x ctx ∧ Event.log .debug ctx .success ∈ evs) ∨
      ∃ a ctx, InTree a l ∧ InTree x a.kids ∧ RecordOf T.A a ctx ∧ Event.noObject ctx ∈ evs) ?_ ?_ ?_ ?_ ?_ ?_ ?_ ?_ h
  · intro _ x hx; cases hx with
    | here h => cases h
    | under h => cases h
  · intro e l p evs p' x _ _ z _ _ ⟨_, hb⟩; cases hb
  · intro e l p evs p1 b evs' p' r _ _ ih ih' x hx hn ⟨c, hc⟩ hd
    obtain ⟨d, hd1, _⟩ := orRes_ok hc
    rcases inTree_cons hx with hx | hx
    · rcases ih x hx hn ⟨b, rfl⟩ (fun a ha => hd a (ha.mono (by simp))) with ⟨ctx, h1, h2⟩ | ⟨a, ctx, h1, h2, h3, h4⟩
      · exact .inl ⟨ctx, h1, List.mem_append_left _ h2⟩
      · exact .inr ⟨a, ctx, h1.mono (by simp), h2, h3, List.mem_append_left _ h4⟩
    · rcases ih' x hx hn ⟨d, hd1⟩ (fun a ha => hd a (ha.mono (fun _ h => List.mem_cons_of_mem _ h))) with ⟨ctx, h1, h2⟩ | ⟨a, ctx, h1, h2, h3, h4⟩
      · exact .inl ⟨ctx, h1, List.mem_append_right _ h2⟩
      · exact .inr ⟨a, ctx, h1.mono (fun _ h => List.mem_cons_of_mem _ h), h2, h3, List.mem_append_right _ h4⟩
  · intro e p x _ z _ _ ⟨_, hb⟩; cases hb
  · intro e o p evs p' x _ _ _ _ z _ _ ⟨_, hb⟩; cases hb
  · intro e o ctx p evs p' b evs' rb _ hnat _ _ _ x hx hn _ hd
    exact (dead hd hnat.1 hx hn).elim
  · intro e o ctx p evs rb _ _ hr hsc hb x hx hn ⟨c, hc⟩ hd
    cases hx with
    | here h => rw [List.mem_singleton] at h; subst h; exact .inl ⟨ctx, hr, own hb hn⟩
    | under h hx =>
      rw [List.mem_singleton] at h; subst h
      cases rb with
      | error => cases hc
      | ok rb =>
        cases rb with
        | false =>
          obtain ⟨evs1, tail, r1, _, rfl, h6⟩ := hb.inv
          rcases h6 with ⟨_, _, _, h⟩ | ⟨_, rfl, _⟩ | ⟨_, _, h | ⟨_, _, h⟩⟩
          · cases h
          · exact .inr ⟨_, ctx, inTree_self _, hx, hr, by simp⟩
          · cases h
          · cases h
        | true => exact (dead hd (hsc rfl).1 (.under List.mem_cons_self hx) hn).elim
  · intro e o ctx p evs evs' p' r _ _ _ hr hb _ ih x hx hn ⟨c, hc⟩ hd
    cases hx with
    | here h => rw [List.mem_singleton] at h; subst h; exact .inl ⟨ctx, hr, List.mem_append_left _ (own hb hn)⟩
    | under h hx =>
      rw [List.mem_singleton] at h; subst h
      obtain ⟨d, hd1, _⟩ := orRes_ok hc
      rcases ih x (hx.mono (fun _ hk => (getChildren_perm hR _).mem_iff.2 hk)) hn ⟨d, hd1⟩ (delClosed_kids hd) with ⟨ctx, h1, h2⟩ | ⟨a, ctx, h1, h2, h3, h4⟩
      · exact .inl ⟨ctx, h1, by simp [h2]⟩
      · exact .inr ⟨a, ctx, .under List.mem_cons_self (h1.mono (fun _ hk => mem_of_getChildren hk)), h2, h3, by simp [h4]⟩

section
variable {n rl : Nat} {hooks : Hooks V E} {dst src : Adapter V} {dc : DiffClass V} {flags : Nat} {diff : Option (Diff V)}
  {w w' : World V E} {d : Diff V} {res : Except Err (Diff V)}

theorem Ran.unchanged {D : Prop} {evs0 evs : List (Event V)} {p : Nat} {y : Except Err Bool} (hran : Ran n rl hooks dst src flags D d w w' res evs0 evs p y) :
    unchangedOf (newEvents w w') = unchangedOf evs := by
  have h0 : unchangedOf evs0 = [] := by
    rw [List.eq_nil_iff_forall_not_mem]
    rintro ⟨ctx, st⟩ h
    obtain ⟨a, b, h⟩ := hran.only _ (mem_unchangedOf.1 h)
    cases h
  rw [hran.new, unchangedOf_append, unchangedOf_append, h0]
  split <;> simp [unchangedOf]

theorem SyncRun.unchanged (h : SyncRun n rl hooks dst src dc flags diff w d res w') (hR : d.cls.Reorders) :
    ∃ ps : List (Elem V × LogCtx), SubPerm (ps.map Prod.fst) (nodesL d.kids) ∧ unchangedOf (newEvents w w') = ps.map (fun q => (q.2, .success)) ∧
      (∀ q ∈ ps, q.1.action = none ∧ RecordOf dst q.1 q.2) ∧ (flagOn flags GF.LOG_UNCHANGED_RECORDS = false → ps = []) ∧
      (flagOn flags GF.LOG_UNCHANGED_RECORDS = true → (∃ d', res = .ok d') → NoMissing (newEvents w w') →
        (ps.map Prod.fst).Perm ((nodesL d.kids).filter (fun e => decide (e.action = none)))) := by
  rcases h.cases with ⟨hres, rfl, _⟩ | ⟨evs0, evs, p, y, hran⟩
  · exact ⟨[], .nil _, by simp [newEvents], by simp, fun _ => rfl, fun _ ⟨_, h⟩ => by rw [hres] at h; cases h⟩
  · obtain ⟨ps, hp⟩ := hran.tr.unchanged hR
    have hperm : (nodesL (getChildren d.cls d.kids)).Perm (nodesL d.kids) := by
      rw [nodesL_eq, nodesL_eq]; exact (getChildren_perm hR _).flatMap_right _
    refine ⟨ps, hp.sub.permR hperm, by rw [hran.unchanged]; exact hp.recs, hp.own, hp.off, fun hf ⟨d', hd'⟩ hm => ?_⟩
    refine (hp.all hf ?_ (hran.mem_noObject.1 hm) (fun a ha => h.good.del a (hran.inTree ha))).trans (hperm.filter _)
    rw [hran.res_eq] at hd'
    cases y with
    | ok b => exact ⟨b, rfl⟩
    | error x => cases hd'

/-- **C99** Without LOG_UNCHANGED_RECORDS a sync writes no record of level debug. -/
theorem C99_only_when_asked (h : SyncRun n rl hooks dst src dc flags diff w d res w') (hR : d.cls.Reorders)
    (hf : flagOn flags GF.LOG_UNCHANGED_RECORDS = false) (ctx : LogCtx) (st : Status) : Event.log .debug ctx st ∉ newEvents w w' := by
  obtain ⟨ps, _, h2, _, h4, _⟩ := h.unchanged hR
  rw [h4 hf] at h2
  rw [← mem_unchangedOf, h2]; simp

/-- **C99** The records of level debug of a sync, in order, have status success and name elements of the diff without action, each element being used at
most once; whatever the calls return or raise. -/
theorem C99_unchanged_records (h : SyncRun n rl hooks dst src dc flags diff w d res w') (hR : d.cls.Reorders) :
    ∃ ps : List (Elem V × LogCtx), SubPerm (ps.map Prod.fst) (nodesL d.kids) ∧ unchangedOf (newEvents w w') = ps.map (fun q => (q.2, .success)) ∧
      ∀ q ∈ ps, q.1.action = none ∧ RecordOf dst q.1 q.2 := by
  obtain ⟨ps, h1, h2, h3, _⟩ := h.unchanged hR
  exact ⟨ps, h1, h2, h3⟩

/-- **C99** With LOG_UNCHANGED_RECORDS, when the sync returns, an element without action has such a record, unless some element above it was left without
an object: its call did not return one, or its action was refused. -/
theorem C99_every_unchanged {d' : Diff V} (h : SyncRun n rl hooks dst src dc flags diff w d (.ok d') w') (hR : d.cls.Reorders)
    (hf : flagOn flags GF.LOG_UNCHANGED_RECORDS = true) {e : Elem V} (he : InTree e d.kids) (ha : e.action = none) :
    (∃ ctx, RecordOf dst e ctx ∧ Event.log .debug ctx .success ∈ newEvents w w') ∨
    ∃ a ctx, InTree a d.kids ∧ InTree e a.kids ∧ RecordOf dst a ctx ∧ Event.noObject ctx ∈ newEvents w w' := by
  rcases h.cases with ⟨hres, rfl, _⟩ | ⟨evs0, evs, p, y, hran⟩
  · cases hres
  · have hin : ∀ ev ∈ evs, ev ∈ newEvents w w' := fun ev hev => by rw [hran.new]; simp [hev]
    have hy : ∃ b, y = .ok b := by
      have := hran.res_eq
      cases y with
      | ok b => exact ⟨b, rfl⟩
      | error x => cases this
    rcases hran.tr.missed hR hf e (he.mono (fun _ hk => (getChildren_perm hR _).mem_iff.2 hk)) ha hy (fun a ha => h.good.del a (hran.inTree ha)) with
      ⟨ctx, h1, h2⟩ | ⟨a, ctx, h1, h2, h3, h4⟩
    · exact .inl ⟨ctx, h1, hin _ h2⟩
    · exact .inr ⟨a, ctx, hran.inTree h1, h2, h3, hin _ h4⟩

/-- **C99** When the sync returns and no element is left without an object, there is exactly one such record for every element without action; so their
number is the `no-change` count of the summary of the diff. -/
theorem C99_exactly_the_unchanged {d' : Diff V} (h : SyncRun n rl hooks dst src dc flags diff w d (.ok d') w') (hR : d.cls.Reorders)
    (hf : flagOn flags GF.LOG_UNCHANGED_RECORDS = true) (hm : NoMissing (newEvents w w')) :
    (∃ ps : List (Elem V × LogCtx), (ps.map Prod.fst).Perm ((nodesL d.kids).filter (fun e => decide (e.action = none))) ∧
      unchangedOf (newEvents w w') = ps.map (fun q => (q.2, .success)) ∧ ∀ q ∈ ps, RecordOf dst q.1 q.2) ∧
    (unchangedOf (newEvents w w')).length = d.summary.noChange := by
  obtain ⟨ps, _, h2, h3, _, h5⟩ := h.unchanged hR
  have hp := h5 hf ⟨d', rfl⟩ hm
  refine ⟨⟨ps, hp, h2, fun q hq => (h3 q hq).2⟩, ?_⟩
  have := hp.length_eq
  rw [List.length_map] at this
  rw [h2, List.length_map, this, Diff.summary_eq_nodes _ hR]
  exact List.countP_eq_length_filter.symm

/-- **C99** When no two elements of the diff are about the same object, no object has two such records. -/
theorem C99_once (h : SyncRun n rl hooks dst src dc flags diff w d res w') (ht : Tidy dst d) : (unchangedOf (newEvents w w')).Nodup := by
  obtain ⟨ps, ⟨l, hp, hs⟩, h2, h3⟩ := C99_unchanged_records h ht.1
  have hd : (ps.map Prod.fst).Pairwise (fun e e' => ∀ k, ElemKey dst e k → ¬ ElemKey dst e' k) :=
    (ht.2.sublist hs).perm hp.symm (fun {x y} hxy k hy hx => hxy k hx hy)
  rw [h2]
  unfold List.Nodup
  rw [List.pairwise_map]
  rw [List.pairwise_map] at hd
  refine hd.imp_of_mem ?_
  intro a b ha hb hab heq
  obtain ⟨u, hu, e1⟩ := (h3 a ha).2
  obtain ⟨u', hu', e2⟩ := (h3 b hb).2
  have heq : a.2 = b.2 := congrArg Prod.fst heq
  rw [e1, e2] at heq
  injection heq with _ h4 h5
  rw [← h4, ← h5] at hu'
  exact hab _ hu hu'

end
end DS
