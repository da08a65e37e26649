import Verif.Props.Unchanged
/-! # Warnings that no object resulted (C100) -/
set_option linter.unusedSectionVars false

namespace DS
variable {V E : Type} [PyVal V]

/-- Every warning follows at once the record of a failure under the same logger binding, or is about an element without action for which no object was
found. -/
def MissedOwned (T : TrCtx V) (l : List (Elem V)) (evs : List (Event V)) : Prop :=
  ∀ L ctx R, evs = L ++ .noObject ctx :: R →
    (∃ L' lv st, L = L' ++ [.log lv ctx st] ∧ ((lv = .warning ∧ st = .failure) ∨ (lv = .error ∧ st = .error ∧ flagOn T.flags GF.CONTINUE_ON_FAILURE = true))) ∨
    ∃ e, InTree e l ∧ e.action = none ∧ RecordOf T.A e ctx ∧ T.F e none

/-- Every call that returns no object is followed by its record and the warning, or ends the sync. -/
def FailsMissed (evs : List (Event V)) (res : Except Err Bool) : Prop :=
  ∀ L c out R, evs = L ++ .call c out :: R → out.result ≠ .object →
    (∃ x, res = .error x ∧ out.result = .raises x ∧ (R = [] ∨ ∃ ctx, R = [.log .error ctx .error])) ∨
    ∃ lv ctx st R', R = .log lv ctx st :: .noObject ctx :: R'

theorem split_two {α : Type} {a b : α} {L R : List α} {x : α} (h : [a, b] = L ++ x :: R) : (L = [] ∧ x = a ∧ R = [b]) ∨ (L = [a] ∧ x = b ∧ R = []) := by
  rcases L with _ | ⟨c, L⟩
  · injection h with h1 h2; exact .inl ⟨rfl, h1.symm, h2.symm⟩
  · injection h with h1 h2
    rcases L with _ | ⟨c', L⟩
    · injection h2 with h2 h3; exact .inr ⟨by rw [h1], h2.symm, h3.symm⟩
    · injection h2 with h2 h3; cases L <;> cases h3

theorem failRes_ok {flags : Nat} {x : Err} {b : Bool} (h : failRes flags x = .ok b) : flagOn flags GF.CONTINUE_ON_FAILURE = true := by
  unfold failRes at h; split at h
  · assumption
  · cases h
theorem failRes_error {flags : Nat} {x y : Err} (h : failRes flags x = .error y) : x = y := by
  unfold failRes at h; split at h
  · cases h
  · cases h; rfl

theorem BodyTr.missed {T : TrCtx V} {e : Elem V} {o : Option Nat} {ctx : LogCtx} {evs : List (Event V)} {r : Except Err Bool} (h : BodyTr T e o ctx evs r)
    (hF : T.F e o) (hrec : e.action = none → RecordOf T.A e ctx) : MissedOwned T [e] evs ∧ FailsMissed evs r := by
  obtain ⟨evs1, tail, r1, h1, rfl, h2⟩ := h.inv
  have noM : ∀ c, Event.noObject c ∉ evs1 := by
    intro c hc
    rcases h1.inv with ⟨ha, h3, rfl⟩ | ⟨a, ha, ⟨h3, rfl, h4⟩ | ⟨h3, call, out, h4, h5, h6⟩⟩
    · split at hc <;> simp at hc
    · simp at hc
    · rcases h6 with ⟨x, _, _, rfl, _⟩ | ⟨x, _, _, rfl, _⟩ | ⟨_, rfl, _⟩ | ⟨st, _, rfl, _⟩ <;> simp at hc
  have noC : ∀ c out, Event.call c out ∉ tail := by
    intro c out hc
    rcases h2 with ⟨_, _, rfl, _⟩ | ⟨_, rfl, _⟩ | ⟨_, hw, _⟩
    · cases hc
    · simp at hc
    · obtain ⟨_, _, _, _, h⟩ := hw _ hc; cases h
  constructor
  · intro L c R hs0
    rcases split_append hs0 with ⟨A', rfl, hs⟩ | ⟨B', _, hs⟩ <;> clear hs0
    · rcases h2 with ⟨_, _, rfl, _⟩ | ⟨hr1, rfl, _⟩ | ⟨_, hw, _⟩
      · exact (not_split_nil hs).elim
      · rcases split_single hs with ⟨rfl, hc, _⟩ | ⟨_, _, h⟩
        · cases hc
          rw [List.append_nil]
          rcases h1.inv with ⟨ha, h3, rfl⟩ | ⟨a, ha, ⟨h3, rfl, h4⟩ | ⟨h3, call, out, h4, h5, h6⟩⟩
          · right
            rw [hr1] at h3
            cases o with
            | none => exact ⟨e, inTree_self e, ha, hrec ha, hF⟩
            | some fl => cases h3
          · rw [hr1] at h4
            exact .inl ⟨[], _, _, rfl, .inr ⟨rfl, rfl, failRes_ok h4.symm⟩⟩
          · rcases h6 with ⟨x, _, _, rfl, h7⟩ | ⟨x, _, _, rfl, h7⟩ | ⟨_, rfl, _⟩ | ⟨st, _, rfl, h7⟩
            · rw [hr1] at h7
              exact .inl ⟨[.call call out], _, _, rfl, .inr ⟨rfl, rfl, failRes_ok h7.symm⟩⟩
            · rw [hr1] at h7; cases h7
            · exact .inl ⟨[.call call out], _, _, rfl, .inl ⟨rfl, rfl⟩⟩
            · rw [hr1] at h7; cases h7
        · exact (not_split_nil h).elim
      · obtain ⟨_, _, _, _, h⟩ := warn_split hw hs; cases h
    · exact absurd (by rw [hs]; simp) (noM c)
  · intro L c out R hs0 hout
    rcases split_append hs0 with ⟨A', _, hs⟩ | ⟨B', rfl, hs⟩ <;> clear hs0
    · exact absurd (by rw [hs]; simp) (noC c out)
    · rcases h1.inv with ⟨ha, h3, rfl⟩ | ⟨a, ha, ⟨h3, rfl, h4⟩ | ⟨h3, call, out', h4, h5, h6⟩⟩
      · split at hs
        · rcases split_single hs with ⟨_, h, _⟩ | ⟨_, _, h⟩
          · cases h
          · exact (not_split_nil h).elim
        · exact (not_split_nil hs).elim
      · rcases split_single hs with ⟨_, h, _⟩ | ⟨_, _, h⟩
        · cases h
        · exact (not_split_nil h).elim
      · rcases h6 with ⟨x, hx, _, rfl, h7⟩ | ⟨x, _, hx, rfl, h7⟩ | ⟨_, rfl, h7⟩ | ⟨st, hx, rfl, h7⟩
        · rcases split_two hs with ⟨_, h, rfl⟩ | ⟨_, h, _⟩ <;> cases h
          rcases h2 with ⟨y, hy, rfl, rfl⟩ | ⟨_, rfl, _⟩ | ⟨hr, _⟩
          · rw [hy] at h7
            have := failRes_error h7.symm
            subst this
            exact .inl ⟨_, rfl, hx, .inr ⟨ctx, rfl⟩⟩
          · exact .inr ⟨_, _, _, [], rfl⟩
          · rw [hr] at h7
            unfold failRes at h7
            split at h7 <;> cases h7
        · rcases split_single hs with ⟨_, h, rfl⟩ | ⟨_, _, h⟩
          · cases h
            rcases h2 with ⟨y, hy, rfl, rfl⟩ | ⟨hr, _⟩ | ⟨hr, _⟩
            · rw [hy] at h7; cases h7
              rcases hx with hx | ⟨_, hx⟩
              · exact .inl ⟨_, rfl, hx, .inl rfl⟩
              · exact absurd hx hout
            · rw [hr] at h7; cases h7
            · rw [hr] at h7; cases h7
          · exact (not_split_nil h).elim
        · rcases split_two hs with ⟨_, h, rfl⟩ | ⟨_, h, _⟩ <;> cases h
          rcases h2 with ⟨y, hy, _⟩ | ⟨_, rfl, _⟩ | ⟨hr, _⟩
          · rw [hy] at h7; cases h7
          · exact .inr ⟨_, _, _, [], rfl⟩
          · rw [hr] at h7; cases h7
        · rcases split_two hs with ⟨_, h, _⟩ | ⟨_, h, _⟩ <;> cases h
          exact absurd hx hout

theorem Tr.misses {T : TrCtx V} {l : List (Elem V)} {p p' : Nat} {evs : List (Event V)} {res : Except Err Bool} (h : Tr T l p evs p' res) :
    MissedOwned T l evs ∧ FailsMissed evs res := by
  have sub : ∀ {e x : Elem V}, InTree x (getChildren T.dc e.kids) → InTree x [e] :=
    fun h => .under List.mem_cons_self (h.mono (fun _ hk => mem_of_getChildren hk))
  have monoM : ∀ {l l' : List (Elem V)} {evs}, (∀ x, InTree x l → InTree x l') → MissedOwned T l evs → MissedOwned T l' evs := by
    intro l l' evs hs h L c R he
    rcases h L c R he with h | ⟨e, h1, h2⟩
    · exact .inl h
    · exact .inr ⟨e, hs e h1, h2⟩
  have appM : ∀ {l : List (Elem V)} {evs evs'}, MissedOwned T l evs → MissedOwned T l evs' → MissedOwned T l (evs ++ evs') := by
    intro l evs evs' h h' L c R he
    rcases split_append he with ⟨A', rfl, hs⟩ | ⟨B', _, hs⟩
    · rcases h' _ _ _ hs with ⟨L', lv, st, rfl, h1⟩ | h1
      · exact .inl ⟨evs ++ L', lv, st, by rw [List.append_assoc], h1⟩
      · exact .inr h1
    · exact h _ _ _ hs
  have monoF : ∀ {evs : List (Event V)} {res res'}, (∀ x, res = .error x → res' = .error x) → FailsMissed evs res → FailsMissed evs res' := by
    intro evs res res' hr h L c out R he ho
    rcases h L c out R he ho with ⟨x, h1, h2⟩ | h
    · exact .inl ⟨x, hr x h1, h2⟩
    · exact .inr h
  have appF : ∀ {evs evs' : List (Event V)} {b res}, FailsMissed evs (.ok b) → FailsMissed evs' res → FailsMissed (evs ++ evs') res := by
    intro evs evs' b res h h' L c out R he ho
    rcases split_append he with ⟨A', rfl, hs⟩ | ⟨B', rfl, hs⟩
    · exact h' _ _ _ _ hs ho
    · rcases h _ _ _ _ hs ho with ⟨x, h1, _⟩ | ⟨lv, ctx, st, R', rfl⟩
      · cases h1
      · exact .inr ⟨lv, ctx, st, R' ++ evs', rfl⟩
  have progM : ∀ {l : List (Elem V)} {p}, MissedOwned T l [.syncProgress p T.total] := by
    intro l p L c R he
    rcases split_single he with ⟨_, h, _⟩ | ⟨_, _, h⟩
    · cases h
    · exact (not_split_nil h).elim
  have progF : ∀ {p res}, FailsMissed ([.syncProgress p T.total] : List (Event V)) res := by
    intro p res L c out R he
    rcases split_single he with ⟨_, h, _⟩ | ⟨_, _, h⟩
    · cases h
    · exact (not_split_nil h).elim
  have nil : ∀ {l : List (Elem V)} {res}, MissedOwned T l [] ∧ FailsMissed ([] : List (Event V)) res :=
    ⟨fun L c R h => (not_split_nil h).elim, fun L c out R h => (not_split_nil h).elim⟩
  refine Tr.ind (motive := fun l _ evs _ res => MissedOwned T l evs ∧ FailsMissed evs res) ?_ ?_ ?_ ?_ ?_ ?_ ?_ ?_ h
  · exact fun _ => nil
  · rintro e l p evs p' x _ ⟨h1, h2⟩
    exact ⟨monoM (fun a h => h.mono (by simp)) h1, h2⟩
  · rintro e l p evs p1 b evs' p' r _ _ ⟨h1, h2⟩ ⟨h1', h2'⟩
    exact ⟨appM (monoM (fun a h => h.mono (by simp)) h1) (monoM (fun a h => h.mono (fun _ h => List.mem_cons_of_mem _ h)) h1'),
      appF h2 (monoF (by rintro x rfl; rfl) h2')⟩
  · exact fun _ => nil
  · rintro e o p evs p' x _ _ _ ⟨h1, h2⟩
    exact ⟨monoM (fun _ h => sub h) h1, h2⟩
  · rintro e o ctx p evs p' b evs' rb hF hn _ ⟨_, hb⟩ ⟨h1, h2⟩
    obtain ⟨h1', h2'⟩ := hb.missed hF (fun ha => by rw [hn.1] at ha; cases ha)
    have c3 : MissedOwned T [e] (evs' ++ progIf rb p' T.total) ∧ FailsMissed (evs' ++ progIf rb p' T.total) (didRes true rb) := by
      cases rb with
      | error x => simpa [progIf, didRes] using ⟨h1', h2'⟩
      | ok bb =>
        cases bb with
        | false =>
          refine ⟨by simpa [progIf] using h1', ?_⟩
          simpa [progIf, didRes] using monoF (res' := .ok true) (fun x h => by cases h) h2'
        | true => exact ⟨by simpa [progIf] using appM h1' progM, by simpa [progIf, didRes] using appF h2' progF⟩
    exact ⟨appM (monoM (fun _ h => sub h) h1) c3.1, appF h2 c3.2⟩
  · rintro e o ctx p evs rb hF _ hr _ hb
    obtain ⟨h1, h2⟩ := hb.missed hF (fun _ => hr)
    exact ⟨h1, monoF (by rintro x rfl; rfl) h2⟩
  · rintro e o ctx p evs evs' p' r hF _ _ hr hb _ ⟨h1', h2'⟩
    obtain ⟨h1, h2⟩ := hb.missed hF (fun _ => hr)
    have a1 := appM h1 (appM (progM (p := p + 1)) (monoM (fun _ h => sub h) h1'))
    have a2 := appF h2 (appF (progF (p := p + 1) (res := .ok true)) h2')
    exact ⟨by simpa using a1, monoF (res := r) (by rintro x rfl; rfl) (by simpa using a2)⟩

/-- An element without action whose object is not found has its warning, or an element above it is left without an object. -/
theorem Tr.absent {T : TrCtx V} (hR : T.dc.Reorders) {l : List (Elem V)} {p p' : Nat} {evs : List (Event V)}
    {res : Except Err Bool} (h : Tr T l p evs p' res) : ∀ x, InTree x l → x.action = none → (∀ o, T.F x o → o = none) → (∃ b, res = .ok b) → DelClosed l →
      (∃ ctx, RecordOf T.A x ctx ∧ Event.noObject ctx ∈ evs) ∨
      ∃ a ctx, InTree a l ∧ InTree x a.kids ∧ RecordOf T.A a ctx ∧ Event.noObject ctx ∈ evs := by
  have dead : ∀ {e x : Elem V}, DelClosed [e] → e.action = some .delete → InTree x [e] → x.action = none → False := by
    intro e x hd ha hx hn
    cases hx with
    | here h => rw [List.mem_singleton] at h; subst h; rw [ha] at hn; cases hn
    | under h hx => rw [List.mem_singleton] at h; subst h; have := hd _ (inTree_self _) ha x hx; rw [hn] at this; cases this
  have own : ∀ {e : Elem V} {o ctx evs rb}, T.F e o → BodyTr T e o ctx evs rb → e.action = none → (∀ o, T.F e o → o = none) → Event.noObject ctx ∈ evs := by
    intro e o ctx evs rb hF hb ha ho
    cases ho o hF
    obtain ⟨evs1, tail, r1, h1, rfl, h2⟩ := hb.inv
    rcases h1.inv with ⟨_, h3, _⟩ | ⟨a, ha', _⟩
    · rcases h2 with ⟨x, h4, _⟩ | ⟨_, rfl, _⟩ | ⟨h4, _⟩
      · rw [h3] at h4; cases h4
      · simp
      · rw [h3] at h4; cases h4
    · rw [ha] at ha'; cases ha'
  refine Tr.ind (motive := fun l _ evs _ res => ∀ x, InTree x l → x.action = none → (∀ o, T.F x o → o = none) → (∃ b, res = .ok b) → DelClosed l →
      (∃ ctx, RecordOf T.A x ctx ∧ Event.noObject ctx ∈ evs) ∨
      ∃ a ctx, InTree a l ∧ InTree x a.kids ∧ RecordOf T.A a ctx ∧ Event.noObject ctx ∈ evs) ?_ ?_ ?_ ?_ ?_ ?_ ?_ ?_ h
  · intro _ x hx; cases hx with
    | here h => cases h
    | under h => cases h
  · intro e l p evs p' x _ _ z _ _ _ ⟨_, hb⟩; cases hb
  · intro e l p evs p1 b evs' p' r _ _ ih ih' x hx hn ho ⟨c, hc⟩ hd
    obtain ⟨d, hd1, _⟩ := orRes_ok hc
    rcases inTree_cons hx with hx | hx
    · rcases ih x hx hn ho ⟨b, rfl⟩ (fun a ha => hd a (ha.mono (by simp))) with ⟨ctx, h1, h2⟩ | ⟨a, ctx, h1, h2, h3, h4⟩
      · exact .inl ⟨ctx, h1, List.mem_append_left _ h2⟩
      · exact .inr ⟨a, ctx, h1.mono (by simp), h2, h3, List.mem_append_left _ h4⟩
    · rcases ih' x hx hn ho ⟨d, hd1⟩ (fun a ha => hd a (ha.mono (fun _ h => List.mem_cons_of_mem _ h))) with ⟨ctx, h1, h2⟩ | ⟨a, ctx, h1, h2, h3, h4⟩
      · exact .inl ⟨ctx, h1, List.mem_append_right _ h2⟩
      · exact .inr ⟨a, ctx, h1.mono (fun _ h => List.mem_cons_of_mem _ h), h2, h3, List.mem_append_right _ h4⟩
  · intro e p x _ z _ _ _ ⟨_, hb⟩; cases hb
  · intro e o p evs p' x _ _ _ _ z _ _ _ ⟨_, hb⟩; cases hb
  · intro e o ctx p evs p' b evs' rb _ hnat _ _ _ x hx hn ho _ hd
    exact (dead hd hnat.1 hx hn).elim
  · intro e o ctx p evs rb hF _ hr hsc hb x hx hn ho ⟨c, hc⟩ hd
    cases hx with
    | here h => rw [List.mem_singleton] at h; subst h; exact .inl ⟨ctx, hr, own hF hb hn ho⟩
    | under h hx =>
      rw [List.mem_singleton] at h; subst h
      cases rb with
      | error => cases hc
      | ok rb =>
        cases rb with
        | false =>
          obtain ⟨evs1, tail, r1, _, rfl, h6⟩ := hb.inv
          rcases h6 with ⟨_, _, _, h⟩ | ⟨_, rfl, _⟩ | ⟨_, _, h | ⟨_, _, h⟩⟩
          · cases h
          · exact .inr ⟨_, ctx, inTree_self _, hx, hr, by simp⟩
          · cases h
          · cases h
        | true => exact (dead hd (hsc rfl).1 (.under List.mem_cons_self hx) hn).elim
  · intro e o ctx p evs evs' p' r hF _ _ hr hb _ ih x hx hn ho ⟨c, hc⟩ hd
    cases hx with
    | here h => rw [List.mem_singleton] at h; subst h; exact .inl ⟨ctx, hr, List.mem_append_left _ (own hF hb hn ho)⟩
    | under h hx =>
      rw [List.mem_singleton] at h; subst h
      obtain ⟨d, hd1, _⟩ := orRes_ok hc
      rcases ih x (hx.mono (fun _ hk => (getChildren_perm hR _).mem_iff.2 hk)) hn ho ⟨d, hd1⟩ (delClosed_kids hd) with ⟨ctx, h1, h2⟩ | ⟨a, ctx, h1, h2, h3, h4⟩
      · exact .inl ⟨ctx, h1, by simp [h2]⟩
      · exact .inr ⟨a, ctx, .under List.mem_cons_self (h1.mono (fun _ hk => mem_of_getChildren hk)), h2, h3, by simp [h4]⟩

section
variable {n rl : Nat} {hooks : Hooks V E} {dst src : Adapter V} {dc : DiffClass V} {flags : Nat} {diff : Option (Diff V)}
  {w w' : World V E} {d : Diff V} {res : Except Err (Diff V)}

/-- **C100** A warning that no object resulted follows at once the record of a failed attempt and names what that names (a call that returned nothing; or,
under CONTINUE_ON_FAILURE, one that raised or an action that was refused), or it names an object that is to be left as it is but is not there: it was not
when the sync began, or it has been removed along with one above it. -/
theorem C100_warning_has_cause (h : SyncRun n rl hooks dst src dc flags diff w d res w') (ht : Tidy dst d) {L R : List (Event V)} {ctx : LogCtx}
    (hs : newEvents w w' = L ++ .noObject ctx :: R) :
    (∃ L' lv st, L = L' ++ [.log lv ctx st] ∧ ((lv = .warning ∧ st = .failure) ∨ (lv = .error ∧ st = .error ∧ flagOn flags GF.CONTINUE_ON_FAILURE = true))) ∨
    ∃ e, InTree e d.kids ∧ e.action = none ∧ RecordOf dst e ctx ∧
      ((snap dst w).find ctx.model ctx.uid = none ∨ TakenAlong dst (snap dst w) d.kids (newEvents w w') (ctx.model, ctx.uid)) := by
  rcases h.cases with ⟨_, rfl, _⟩ | ⟨evs0, evs, p, y, hran⟩
  · rw [show newEvents w' w' = [] by simp [newEvents]] at hs; exact (not_split_nil hs).elim
  · rw [hran.new] at hs
    rcases split_append hs with ⟨L1, hL1, hs1⟩ | ⟨B', _, hs1⟩
    · rcases split_append hs1 with ⟨L2, _, hs2⟩ | ⟨B', _, hs2⟩
      · split at hs2
        · rcases split_single hs2 with ⟨_, h, _⟩ | ⟨_, _, h⟩
          · cases h
          · exact (not_split_nil h).elim
        · exact (not_split_nil hs2).elim
      · rcases hran.tr.misses.1 L1 ctx B' hs2 with ⟨L', lv, st, rfl, h1⟩ | ⟨e, h1, h2, h3, h4⟩
        · exact .inl ⟨evs0 ++ L', lv, st, by rw [hL1, List.append_assoc], h1⟩
        · right
          refine ⟨e, hran.inTree h1, h2, h3, ?_⟩
          obtain ⟨u, hk, rfl⟩ := h3
          rcases ((h4.2 _ hk).2 ht).2 rfl with h5 | h5
          · exact .inl (flagsAt_none.1 h5)
          · exact .inr (hran.taken h5)
    · obtain ⟨a, b, h⟩ := hran.only (.noObject ctx) (by rw [hs1]; simp)
      cases h

/-- **C100** Conversely every call that does not return an object is followed by its record and then at once by the warning, which names the same; unless the
call raised and that exception ends the sync. -/
theorem C100_failure_is_warned (h : SyncRun n rl hooks dst src dc flags diff w d res w') {L R : List (Event V)} {c : CrudCall V} {out : Outcome}
    (hs : newEvents w w' = L ++ .call c out :: R) (ho : out.result ≠ .object) :
    (∃ x, res = .error x ∧ out.result = .raises x ∧ (R = [] ∨ ∃ ctx, R = [.log .error ctx .error])) ∨
    ∃ lv ctx st R', R = .log lv ctx st :: .noObject ctx :: R' := by
  rcases h.cases with ⟨_, rfl, _⟩ | ⟨evs0, evs, p, y, hran⟩
  · rw [show newEvents w' w' = [] by simp [newEvents]] at hs; exact (not_split_nil hs).elim
  · obtain ⟨L', R', h1, h2, h3⟩ := hran.split hs
    rcases hran.tr.misses.2 L' c out R' h1 ho with ⟨x, rfl, hx, h4⟩ | ⟨lv, ctx, st, R2, rfl⟩
    · refine .inl ⟨x, by rw [hran.res_eq]; rfl, hx, ?_⟩
      rw [if_neg (by simp), List.append_nil] at h3
      rw [h3]; exact h4
    · exact .inr ⟨lv, ctx, st, _, by rw [h3]; rfl⟩

/-- **C100** And an object that is to be left as it is but was not in the destination when the sync began is warned of when the sync returns, unless there is
a warning about an element above it. -/
theorem C100_absent_is_warned {d' : Diff V} (h : SyncRun n rl hooks dst src dc flags diff w d (.ok d') w') (ht : Tidy dst d) {e : Elem V}
    (he : InTree e d.kids) (ha : e.action = none) {t u : String} (hk : ElemKey dst e (t, u)) (hn : (snap dst w).find t u = none) :
    (∃ ctx, RecordOf dst e ctx ∧ Event.noObject ctx ∈ newEvents w w') ∨
    ∃ a ctx, InTree a d.kids ∧ InTree e a.kids ∧ RecordOf dst a ctx ∧ Event.noObject ctx ∈ newEvents w w' := by
  rcases h.cases with ⟨hres, rfl, _⟩ | ⟨evs0, evs, p, y, hran⟩
  · cases hres
  · have hin : ∀ ev ∈ evs, ev ∈ newEvents w w' := fun ev hev => by rw [hran.new]; simp [hev]
    have hy : ∃ b, y = .ok b := by
      have := hran.res_eq
      cases y with
      | ok b => exact ⟨b, rfl⟩
      | error x => cases this
    have ho : ∀ o, FoundOK dst (Tidy dst d) (snap dst w).flagsAt (TakenAlong dst (snap dst w) d.kids evs) (SkipsChildren dst (snap dst w)) e o → o = none := by
      intro o hF
      cases o with
      | none => rfl
      | some fl =>
        have := ((hF.2 _ hk).2 ht).1 fl rfl
        rw [flagsAt_none.2 hn] at this
        cases this
    rcases hran.tr.absent ht.1 e (he.mono (fun _ hk => (getChildren_perm ht.1 _).mem_iff.2 hk)) ha ho hy (fun a ha => h.good.del a (hran.inTree ha)) with
      ⟨ctx, h1, h2⟩ | ⟨a, ctx, h1, h2, h3, h4⟩
    · exact .inl ⟨ctx, h1, hin _ h2⟩
    · exact .inr ⟨a, ctx, hran.inTree h1, h2, h3, hin _ h4⟩

end
end DS
