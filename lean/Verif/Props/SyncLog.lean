import Verif.Props.SyncDel
/-! # Records of attempts (C53), supplied diffs (C35) -/
set_option linter.unusedSectionVars false

namespace DS
variable {V E : Type} [PyVal V]

section
variable {n rl : Nat} {hooks : Hooks V E} {dst src : Adapter V} {dc : DiffClass V} {flags : Nat} {diff : Option (Diff V)}
  {w w' : World V E} {d : Diff V} {res : Except Err (Diff V)}

theorem Prescribes.recordFor {A : Adapter V} {e : Elem V} {c : CrudCall V} {ctx : LogCtx} (hp : Prescribes A e c) (hr : RecordOf A e ctx) : RecordFor A c ctx := by
  obtain ⟨u, hk, h⟩ := hp
  obtain ⟨u', hk', rfl⟩ := hr
  have hu : u = u' := by
    obtain ⟨c1, u1, h1, h2, h3⟩ := hk
    obtain ⟨c2, u2, h1', h2', h3'⟩ := hk'
    cases h3; cases h3'
    rw [h1] at h1'; cases h1'
    rw [h2] at h2'; cases h2'; rfl
  subst hu
  cases ha : e.action with
  | none => rw [ha] at h; cases h
  | some a =>
    rw [ha] at h
    obtain ⟨c', u', h1, h2, h3⟩ := hk
    cases h3
    cases a with
    | create => cases h; exact ⟨rfl, c', u, h1, h2, rfl⟩
    | update => cases h; exact ⟨rfl, rfl⟩
    | delete => cases h; exact ⟨rfl, rfl⟩

theorem Ran.logged {evs0 evs : List (Event V)} {p : Nat} {y : Except Err Bool} (hran : Ran n rl hooks dst src flags (Tidy dst d) d w w' res evs0 evs p y) :
    CallsLogged (trOf ⟨src, dst, flags, d.cls, hooks, rl⟩ (Tidy dst d) (snap dst w).flagsAt (TakenAlong dst (snap dst w) d.kids evs) (SkipsChildren dst (snap dst w)) d.len)
      (getChildren d.cls d.kids) [] evs y ∧
    LogsOwned (trOf ⟨src, dst, flags, d.cls, hooks, rl⟩ (Tidy dst d) (snap dst w).flagsAt (TakenAlong dst (snap dst w) d.kids evs) (SkipsChildren dst (snap dst w)) d.len)
      (getChildren d.cls d.kids) evs :=
  hran.tr.logged

/-- The binding of a record about an element: its own, or that of one below it when it goes after them. -/
theorem RecOwn.cases {A : Adapter V} {N : Key → Option Nat} {e : Elem V} {o : Option Nat} {ctx : LogCtx} (h : RecOwn A e o ctx)
    (hn : ∀ k, ElemKey A e k → NatFirst e o → e.action = some .delete ∧ Flagged N k MF.NATURAL_DELETION_ORDER ∧ ¬ Flagged N k MF.SKIP_CHILDREN_ON_DELETE) :
    RecordOf A e ctx ∨ (NatFirst e o ∧ DeletedAfterChildren A N e ∧ ∃ z, InTree z e.kids ∧ RecordOf A z ctx) := by
  rcases h with h | ⟨hnat, z, hz, hr⟩
  · exact .inl h
  · cases hz with
    | here hz => rw [List.mem_singleton] at hz; subst hz; exact .inl hr
    | under hm hz => rw [List.mem_singleton] at hm; subst hm; exact .inr ⟨hnat, ⟨hnat.1, fun k hk => (hn k hk hnat).2⟩, z, hz, hr⟩

theorem prescribes_act {A : Adapter V} {e : Elem V} {c : CrudCall V} (h : Prescribes A e c) : e.action = some c.act := by
  obtain ⟨u, _, h⟩ := h
  cases ha : e.action with
  | none => rw [ha] at h; cases h
  | some a => rw [ha] at h; cases a <;> cases h <;> rfl

/-- **C53** Every create/update/delete call of a sync is followed at once by one outcome record, which carries the action of the call and the status
and level of its outcome, unless the call ends the sync by an exception that is not a CRUD exception.  The record names the object the call is about,
except for one case: when the object is deleted after those below it (NATURAL_DELETION_ORDER), it may name one of those. -/
theorem C53_call_is_recorded (h : SyncRun n rl hooks dst src dc flags diff w d res w') (ht : Tidy dst d)
    {L R : List (Event V)} {c : CrudCall V} {out : Outcome} (hs : newEvents w w' = L ++ .call c out :: R) :
    (R = [] ∧ ∃ x, res = .error x ∧ x.isCrud = false) ∨
    ∃ lv ctx st R', R = .log lv ctx st :: R' ∧ Reported out.result lv st ∧ ctx.action = some c.act ∧
      (RecordFor dst c ctx ∨ RecordMisplaced dst (snap dst w).flagsAt d.kids c ctx) := by
  rcases h.cases with ⟨_, rfl, _⟩ | ⟨evs0, evs, p, y, hran⟩
  · rw [show newEvents w' w' = [] by simp [newEvents]] at hs; exact (not_split_nil hs).elim
  · obtain ⟨L', R', h1, _, h3⟩ := hran.split hs
    rcases hran.logged.1 L' c out R' h1 with ⟨rfl, x, rfl, hx⟩ | ⟨e, o, ctx, lv, st, R2, g1, hF, g2, g3, rfl, g5⟩
    · exact .inl ⟨by rw [h3]; simp, x, by rw [hran.res_eq]; rfl, hx⟩
    · refine .inr ⟨lv, ctx, st, _, by rw [h3]; rfl, g5, ?_⟩
      rcases g3.1.cases (fun k hk hnat => natFirst_flagged ht hF hk hnat) with hr | ⟨hnat, hdel, z, hz, hr⟩
      · exact ⟨(g2.recordFor hr).1, .inl (g2.recordFor hr)⟩
      · refine ⟨?_, .inr ⟨e, z, hran.inTree g1, g2, hdel, hz, hr⟩⟩
        obtain ⟨u, _, rfl⟩ := hr
        rw [← prescribes_act g2, hnat.1]
        exact h.good.del e (hran.inTree g1) hnat.1 z hz

/-- **C53** Conversely every outcome record follows at once a call, which it names unless the object is deleted after those below it, or is about an
action that was refused because the object to be created existed, or the one to be updated or deleted did not (no call is made then).  So there is
exactly one record for each attempt.  (Records of level debug are those of unchanged objects, under LOG_UNCHANGED_RECORDS.) -/
theorem C53_record_has_call (h : SyncRun n rl hooks dst src dc flags diff w d res w') (ht : Tidy dst d)
    {L R : List (Event V)} {lv : Level} {ctx : LogCtx} {st : Status}
    (hs : newEvents w w' = L ++ .log lv ctx st :: R) (hl : lv ≠ .debug) :
    (∃ L' c out, L = L' ++ [.call c out] ∧ (RecordFor dst c ctx ∨ RecordMisplaced dst (snap dst w).flagsAt d.kids c ctx)) ∨
    ∃ e a, InTree e d.kids ∧ RecordOf dst e ctx ∧ e.action = some a ∧
      (Stale dst (snap dst w) e a ∨ TakenAlong dst (snap dst w) d.kids (newEvents w w') (ctx.model, ctx.uid)) := by
  rcases h.cases with ⟨_, rfl, _⟩ | ⟨evs0, evs, p, y, hran⟩
  · rw [show newEvents w' w' = [] by simp [newEvents]] at hs; exact (not_split_nil hs).elim
  · have hs0 := hs
    rw [hran.new] at hs
    rcases split_append hs with ⟨L1, hL1, hs1⟩ | ⟨B', _, hs1⟩
    · rcases split_append hs1 with ⟨L2, _, hs2⟩ | ⟨B', _, hs2⟩
      · split at hs2
        · rcases split_single hs2 with ⟨_, h, _⟩ | ⟨_, _, h⟩
          · cases h
          · exact (not_split_nil h).elim
        · exact (not_split_nil hs2).elim
      · obtain ⟨e, o, g1, hF, g2, g3⟩ := hran.logged.2 L1 lv ctx st B' hs2 hl
        have g2 := g2.cases (fun k hk hnat => natFirst_flagged ht hF hk hnat)
        rcases g3 with ⟨L', c, out, rfl, g4⟩ | ⟨a, ha, hc⟩
        · refine .inl ⟨evs0 ++ L', c, out, by rw [hL1, List.append_assoc], ?_⟩
          rcases g2 with hr | ⟨_, hdel, z, hz, hr⟩
          · exact .inl (g4.recordFor hr)
          · exact .inr ⟨e, z, hran.inTree g1, g4, hdel, hz, hr⟩
        · right
          rcases g2 with g2 | ⟨⟨hd, hnat, _⟩, _⟩
          · refine ⟨e, a, hran.inTree g1, g2, ha, ?_⟩
            obtain ⟨u, hk, rfl⟩ := g2
            obtain ⟨f1, f2⟩ := (hF.2 _ hk).2 ht
            cases o with
            | none =>
              rcases f2 rfl with f3 | f3
              · refine .inl ⟨ha, _, hk, ?_⟩
                cases a with
                | create => cases hc
                | update => exact flagsAt_none.1 f3
                | delete => exact flagsAt_none.1 f3
              · exact .inr (hran.taken f3)
            | some fl =>
              refine .inl ⟨ha, _, hk, ?_⟩
              cases a with
              | create => intro h0; have := f1 fl rfl; rw [flagsAt_none.2 h0] at this; cases this
              | update => cases hc
              | delete => cases hc
          · exfalso
            rw [hd] at ha; cases ha
            cases o with
            | none => cases hnat
            | some fl => cases hc
    · obtain ⟨a, b, h⟩ := hran.only (.log lv ctx st) (by rw [hs1]; simp)
      cases h

/-- **C53** Exactly what the record of a call names, for every sync.  If the object is deleted after others below it in the diff
(NATURAL_DELETION_ORDER), the record names what the outcome record before it names, which is never the object of the call but one below it.  Every
other record names the object of the call. -/
theorem C53_record_names (h : SyncRun n rl hooks dst src dc flags diff w d res w') (ht : Tidy dst d)
    {L R : List (Event V)} {c : CrudCall V} {out : Outcome} {lv : Level} {ctx : LogCtx} {st : Status}
    (hs : newEvents w w' = L ++ .call c out :: .log lv ctx st :: R) {e : Elem V} (he : InTree e d.kids) (hp : Prescribes dst e c) :
    (RecordFor dst c ctx ↔ ¬ (DeletedAfterChildren dst (snap dst w).flagsAt e ∧ e.kids ≠ [])) ∧
    (DeletedAfterChildren dst (snap dst w).flagsAt e ∧ e.kids ≠ [] → LastRecord L ctx ∧ ∃ z, InTree z e.kids ∧ RecordOf dst z ctx) := by
  rcases h.cases with ⟨_, rfl, _⟩ | ⟨evs0, evs, p, y, hran⟩
  · rw [show newEvents w' w' = [] by simp [newEvents]] at hs; exact (not_split_nil hs).elim
  · obtain ⟨L', R', h1, h2, h3⟩ := hran.split hs
    rcases hran.logged.1 L' c out R' h1 with ⟨rfl, x, rfl, hx⟩ | ⟨e', o, ctx', lv', st', R2, g1, hF, g2, ⟨_, g3, a, ha, hok⟩, rfl, _⟩
    · simp at h3
    · have hctx : ctx' = ctx := by
        rw [List.cons_append] at h3
        injection h3 with h3 _
        cases h3; rfl
      subst hctx
      obtain ⟨k, hk, hk'⟩ : ∃ k, ElemKey dst e k ∧ ElemKey dst e' k := hp.same g2
      have hee : e = e' := ht.2.eq he (hran.inTree g1) hk hk'
      subst hee
      have hnil : getChildren d.cls e.kids = [] ↔ e.kids = [] := by
        have hperm := getChildren_perm ht.1 e.kids
        exact ⟨fun h => by rw [h] at hperm; exact hperm.symm.eq_nil, fun h => by rw [h] at hperm ⊢; exact hperm.eq_nil⟩
      have hnat : NatFirst e o ↔ DeletedAfterChildren dst (snap dst w).flagsAt e := by
        refine ⟨fun hn => ⟨hn.1, fun k hk => (natFirst_flagged ht hF hk hn).2⟩, fun ⟨h4, h5⟩ => ?_⟩
        rw [h4] at ha; cases ha
        cases o with
        | none => cases hok
        | some fl =>
          obtain ⟨⟨fl', h6, h7⟩, h8⟩ := h5 k hk
          have hN := ((hF.2 k hk).2 ht).1 fl rfl
          rw [hN] at h6; cases h6
          refine ⟨h4, h7, ?_⟩
          cases h9 : oflag (some fl) MF.SKIP_CHILDREN_ON_DELETE with
          | false => rfl
          | true => exact absurd ⟨fl, hN, h9⟩ h8
      have hmis : DeletedAfterChildren dst (snap dst w).flagsAt e ∧ e.kids ≠ [] → LastRecord L ctx' ∧ ∃ z, InTree z e.kids ∧ RecordOf dst z ctx' := by
        rintro ⟨h4, h5⟩
        obtain ⟨h6, h7⟩ := g3.1 (hnat.2 h4) (fun h => h5 (hnil.1 h))
        exact ⟨by rw [h2]; exact h6.append_left _, h7⟩
      refine ⟨⟨fun hr h4 => ?_, fun h4 => ?_⟩, hmis⟩
      · obtain ⟨_, z, hz, u, hu, rfl⟩ := hmis h4
        obtain ⟨u', hu', hc⟩ := hp
        rw [h4.1.1] at hc
        subst hc
        obtain ⟨_, hr⟩ := hr
        have hr : (z.type, u) = (e.type, u') := hr
        rw [hr] at hu
        exact ht.2.below he hz hu' hu
      · exact g2.recordFor (g3.2 (fun ⟨h5, h6⟩ => h4 ⟨hnat.1 h5, fun h => h6 (hnil.2 h)⟩))

theorem RecordMisplaced.natural {A : Adapter V} {N : Key → Option Nat} {es : List (Elem V)} {c : CrudCall V} {ctx : LogCtx}
    (h : RecordMisplaced A N es c ctx) (hn : NoNatural A N es) : False := by
  obtain ⟨e, _, he, ⟨u, hk, _⟩, hd, _⟩ := h
  exact hn e he hd.1 _ hk (hd.2 _ hk).1

/-- **C53** Every create/update/delete call of a sync is followed at once by one outcome record, which carries the action, the model name
and the unique id of the object the call is about, and the status and level of the outcome; unless the call ends the sync by an exception that is
not a CRUD exception.  Proved for syncs that delete no object flagged NATURAL_DELETION_ORDER; for those it is false
(`C53_natural_deletion_misreports`). -/
theorem C53_call_is_recorded_partial (h : SyncRun n rl hooks dst src dc flags diff w d res w') (ht : Tidy dst d)
    (hn : NoNatural dst (snap dst w).flagsAt d.kids) {L R : List (Event V)} {c : CrudCall V} {out : Outcome} (hs : newEvents w w' = L ++ .call c out :: R) :
    (R = [] ∧ ∃ x, res = .error x ∧ x.isCrud = false) ∨
    ∃ lv ctx st R', R = .log lv ctx st :: R' ∧ RecordFor dst c ctx ∧ Reported out.result lv st := by
  rcases C53_call_is_recorded h ht hs with h | ⟨lv, ctx, st, R', h1, h2, _, h3 | h3⟩
  · exact .inl h
  · exact .inr ⟨lv, ctx, st, R', h1, h3, h2⟩
  · exact (h3.natural hn).elim

/-- **C53** Conversely every outcome record follows at once the call it is about, or is about an action that was refused because the object to be
created existed, or the one to be updated or deleted did not (no call is made then).  So there is exactly one record for each attempt.  (Records of
level debug are those of unchanged objects, under LOG_UNCHANGED_RECORDS.) -/
theorem C53_record_has_call_partial (h : SyncRun n rl hooks dst src dc flags diff w d res w') (ht : Tidy dst d)
    (hn : NoNatural dst (snap dst w).flagsAt d.kids) {L R : List (Event V)} {lv : Level} {ctx : LogCtx} {st : Status}
    (hs : newEvents w w' = L ++ .log lv ctx st :: R) (hl : lv ≠ .debug) :
    (∃ L' c out, L = L' ++ [.call c out] ∧ RecordFor dst c ctx) ∨
    ∃ e a, InTree e d.kids ∧ RecordOf dst e ctx ∧ e.action = some a ∧
      (Stale dst (snap dst w) e a ∨ TakenAlong dst (snap dst w) d.kids (newEvents w w') (ctx.model, ctx.uid)) := by
  rcases C53_record_has_call h ht hs hl with ⟨L', c, out, h1, h2 | h2⟩ | h
  · exact .inl ⟨L', c, out, h1, h2⟩
  · exact (h2.natural hn).elim
  · exact .inr h
end

end DS
