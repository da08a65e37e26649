import Verif.Lemmas.SyncPlan
import Verif.Lemmas.ConvErr
/-! The calls of a sync with their outcomes, whatever these are. -/
set_option linter.unusedSectionVars false

namespace DS
variable {V E : Type} [PyVal V]

/-- The calls for elements one after the other, with their outcomes. -/
inductive RunPlan (A : Adapter V) (dc : DiffClass V) (N : Key → Option Nat) : List (Elem V) → List (CrudCall V × Outcome) → Prop where
  | nil : RunPlan A dc N [] []
  | nothing {e l cs cs'} : e.action = none → RunPlan A dc N (getChildren dc e.kids) cs → RunPlan A dc N l cs' → RunPlan A dc N (e :: l) (cs ++ cs')
  | call {e l k c out cs cs'} : Prescribes A e c → ElemKey A e k → ¬ (e.action = some .delete ∧ Flagged N k MF.SKIP_CHILDREN_ON_DELETE) →
      ¬ (e.action = some .delete ∧ Flagged N k MF.NATURAL_DELETION_ORDER) → out.result = .object →
      RunPlan A dc N (getChildren dc e.kids) cs → RunPlan A dc N l cs' → RunPlan A dc N (e :: l) ((c, out) :: cs ++ cs')
  | failed {e l k c out cs'} : Prescribes A e c → ElemKey A e k → ¬ (e.action = some .delete ∧ Flagged N k MF.SKIP_CHILDREN_ON_DELETE) →
      ¬ (e.action = some .delete ∧ Flagged N k MF.NATURAL_DELETION_ORDER) → out.result ≠ .object →
      RunPlan A dc N l cs' → RunPlan A dc N (e :: l) ((c, out) :: cs')
  | last {e l k c out cs cs'} : Prescribes A e c → ElemKey A e k → ¬ (e.action = some .delete ∧ Flagged N k MF.SKIP_CHILDREN_ON_DELETE) →
      e.action = some .delete ∧ Flagged N k MF.NATURAL_DELETION_ORDER →
      RunPlan A dc N (getChildren dc e.kids) cs → RunPlan A dc N l cs' → RunPlan A dc N (e :: l) (cs ++ (c, out) :: cs')
  | alone {e l k c out cs'} : Prescribes A e c → ElemKey A e k → e.action = some .delete ∧ Flagged N k MF.SKIP_CHILDREN_ON_DELETE →
      RunPlan A dc N l cs' → RunPlan A dc N (e :: l) ((c, out) :: cs')

section
variable {A : Adapter V} {dc : DiffClass V} {N : Key → Option Nat}

theorem RunPlan.nil_inv {cs : List (CrudCall V × Outcome)} (h : RunPlan A dc N [] cs) : cs = [] := by cases h; rfl

theorem RunPlan.cons {e : Elem V} {l : List (Elem V)} {cs cs' : List (CrudCall V × Outcome)} (h : RunPlan A dc N [e] cs) (h' : RunPlan A dc N l cs') :
    RunPlan A dc N (e :: l) (cs ++ cs') := by
  generalize hl : [e] = l0 at h
  cases h with
  | nil => cases hl
  | nothing h1 h2 h3 => cases hl; cases h3.nil_inv; simpa using RunPlan.nothing h1 h2 h'
  | call h1 h2 h3 h4 h5 h6 h7 => cases hl; cases h7.nil_inv; simpa using RunPlan.call h1 h2 h3 h4 h5 h6 h'
  | failed h1 h2 h3 h4 h5 h6 => cases hl; cases h6.nil_inv; simpa using RunPlan.failed h1 h2 h3 h4 h5 h'
  | last h1 h2 h3 h4 h5 h6 => cases hl; cases h6.nil_inv; simpa using RunPlan.last h1 h2 h3 h4 h5 h'
  | alone h1 h2 h3 h4 => cases hl; cases h4.nil_inv; simpa using RunPlan.alone h1 h2 h3 h'

theorem CallPlan.run {l : List (Elem V)} {cs : List (CrudCall V)} (h : CallPlan A dc N l cs) : RunPlan A dc N l (cs.map (fun c => (c, { result := .object }))) := by
  induction h with
  | nil => exact .nil
  | nothing h1 _ _ i1 i2 => rw [List.map_append]; exact .nothing h1 i1 i2
  | objectFirst h1 h2 h3 h4 _ _ i1 i2 =>
    rw [List.map_append, List.map_cons]; exact .call h1 h2 h3 h4 rfl i1 i2
  | childrenFirst h1 h2 h3 h4 _ _ i1 i2 => rw [List.map_append, List.map_cons]; exact .last h1 h2 h3 h4 i1 i2
  | childrenSkipped h1 h2 h3 _ i2 => rw [List.map_cons]; exact .alone h1 h2 h3 i2

theorem RunPlan.exists (l : List (Elem V)) (h : ∀ e, InTree e l → ∃ k, ElemKey A e k) : ∃ cs, RunPlan A dc N l cs := by
  obtain ⟨cs, hcs⟩ := CallPlan.exists (dc := dc) (N := N) l h
  exact ⟨_, hcs.run⟩
end

/-- The last of the events is a call. -/
def EndsInCall (evs : List (Event V)) : Prop := ∃ L c out, evs = L ++ [.call c out]

theorem EndsInCall.append {a b : List (Event V)} (h : EndsInCall (a ++ b)) (hb : b ≠ []) : EndsInCall b := by
  obtain ⟨L, c, out, h⟩ := h
  obtain ⟨b', x, rfl⟩ : ∃ b' x, b = b' ++ [x] := ⟨b.dropLast, b.getLast hb, (List.dropLast_concat_getLast hb).symm⟩
  rw [← List.append_assoc] at h
  obtain ⟨_, h2⟩ := List.append_inj' h rfl
  exact ⟨b', c, out, by rw [h2]⟩

theorem NoRef.left {a b : List (Event V)} (h : NoRef (a ++ b)) : NoRef a := by
  intro L lv ctx st R hs hl
  exact h L lv ctx st (R ++ b) (by rw [hs]; simp) hl

theorem NoRef.right {a b : List (Event V)} (h : NoRef (a ++ b)) (ha : ¬ EndsInCall a) : NoRef b := by
  intro L lv ctx st R hs hl
  obtain ⟨L', c, out, he⟩ := h (a ++ L) lv ctx st R (by rw [hs]; simp) hl
  by_cases hL : L = []
  · subst hL
    exact absurd ⟨L', c, out, by simpa using he⟩ ha
  · obtain ⟨L2, c2, o2, h2⟩ := EndsInCall.append ⟨L', c, out, he⟩ hL
    exact ⟨L2, c2, o2, h2⟩

theorem BodyTr.no_end {T : TrCtx V} {e : Elem V} {o : Option Nat} {ctx : LogCtx} {evs : List (Event V)} {b : Bool} (h : BodyTr T e o ctx evs (.ok b)) : ¬ EndsInCall evs := by
  have own : ∀ {evs : List (Event V)} {r}, OwnTr T e o ctx evs r → r = .ok b → ¬ EndsInCall evs := by
    rintro evs r h hr ⟨L, c, out, he⟩
    have last : evs.getLast? = some (.call c out) := by rw [he]; simp
    cases h with
    | idle _ => split at last <;> simp at last
    | stale _ _ => simp at last
    | crud => simp at last
    | fatal => cases hr
    | failed => simp at last
    | done => simp at last
  have warn : ∀ {ws : List (Event V)}, ChildWarn ws → ¬ EndsInCall ws := by
    rintro ws h ⟨L, c, out, he⟩
    have hc := callsOf_warn h
    rw [he] at hc
    simp [callsOf] at hc
  generalize hr : (Except.ok b : Except Err Bool) = r at h
  cases h with
  | raised => cases hr
  | noObject h =>
    intro he
    obtain ⟨L, c, out, h2⟩ := he.append (by simp)
    have := congrArg List.getLast? h2
    simp at this
  | storeFail => cases hr
  | @obj evs ws h hw =>
    intro he
    by_cases hn : ws = []
    · subst hn
      rw [List.append_nil] at he
      exact own h hr.symm he
    · exact warn hw.1 (he.append hn)

theorem Tr.no_end {T : TrCtx V} {l : List (Elem V)} {p p' : Nat} {evs : List (Event V)} {res : Except Err Bool} (h : Tr T l p evs p' res) : ∀ b, res = .ok b → ¬ EndsInCall evs := by
  refine Tr.ind (motive := fun _ _ evs _ res => ∀ b, res = .ok b → ¬ EndsInCall evs) ?_ ?_ ?_ ?_ ?_ ?_ ?_ ?_ h
  · rintro _ _ _ ⟨L, c, out, he⟩
    exact not_split_nil (B := []) he
  · intro e l p evs p' x _ _ b hb; cases hb
  · intro e l p evs p1 b evs' p' r _ _ ih ih' c hc he
    obtain ⟨d, rfl, _⟩ := orRes_ok hc
    by_cases hn : evs' = []
    · subst hn; rw [List.append_nil] at he; exact ih b rfl he
    · exact ih' d rfl (he.append hn)
  · intro e p x _ b hb; cases hb
  · intro e o p evs p' x _ _ _ _ b hb; cases hb
  · intro e o ctx p evs p' b evs' rb _ _ _ ⟨_, hb⟩ ih c hc he
    cases rb with
    | error x => cases hc
    | ok r =>
      cases r with
      | true =>
        rw [← List.append_assoc] at he
        obtain ⟨L, c, out, h2⟩ := he.append (b := progIf (.ok true) p' T.total) (by simp [progIf])
        have := congrArg List.getLast? h2
        simp [progIf] at this
      | false =>
        simp only [progIf, List.append_nil] at he
        by_cases hn : evs' = []
        · subst hn; rw [List.append_nil] at he; exact ih b rfl he
        · exact hb.no_end (he.append hn)
  · intro e o ctx p evs rb _ _ _ _ hb c hc he
    cases rb with
    | error x => cases hc
    | ok r => exact hb.no_end he
  · intro e o ctx p evs evs' p' r _ _ _ _ hb _ ih c hc he
    obtain ⟨d, rfl, _⟩ := orRes_ok hc
    have h1 := he.append (by simp)
    by_cases hn : evs' = []
    · subst hn
      obtain ⟨L, c, out, h2⟩ := h1
      have := congrArg List.getLast? h2
      simp at this
    · exact ih d rfl (EndsInCall.append (a := [.syncProgress (p + 1) T.total]) h1 hn)

/-- Elements without action that lost their object do not occur. -/
def NoLost (evs : List (Event V)) : Prop := ∀ ctx, Event.noObject ctx ∈ evs → ctx.action ≠ none
theorem NoLost.left {a b : List (Event V)} (h : NoLost (a ++ b)) : NoLost a := fun c hc => h c (by simp [hc])
theorem NoLost.right {a b : List (Event V)} (h : NoLost (a ++ b)) : NoLost b := fun c hc => h c (by simp [hc])

/-- With no action refused and no object lost, the calls made so far are the beginning of the run; all of it when the sync ends well. -/
theorem Tr.runs {T : TrCtx V} {N : Key → Option Nat} (hN : FlagsKnown T N) {l : List (Elem V)} {p p' : Nat} {evs : List (Event V)} {res : Except Err Bool}
    (h : Tr T l p evs p' res) : (∀ e, InTree e l → ∃ k, ElemKey T.A e k) → NoRef evs → NoLost evs →
      ∃ rest, RunPlan T.A T.dc N l (callsOf evs ++ rest) ∧ ((∃ b, res = .ok b) → rest = []) := by
  have sub : ∀ {e x : Elem V}, InTree x (getChildren T.dc e.kids) → InTree x [e] :=
    fun h => .under List.mem_cons_self (h.mono (fun _ hk => mem_of_getChildren hk))
  -- the calls of an element itself
  have own : ∀ {e : Elem V} {o : Option Nat} {ctx : LogCtx} {evs : List (Event V)} {rb : Except Err Bool}, T.F e o → BodyTr T e o ctx evs rb → NoRef evs → NoLost evs →
      (e.action = none → ctx.action = none) →
      (callsOf evs = [] ∧ ((∃ x, rb = .error x) ∨ e.action = none ∧ rb = .ok true)) ∨
      ∃ call out, callsOf evs = [(call, out)] ∧ Prescribes T.A e call ∧ (rb = .ok true → out.result = .object) ∧ (rb = .ok false → out.result ≠ .object) ∧
        (∀ k, ElemKey T.A e k → e.action = some .delete →
        (oflag o MF.SKIP_CHILDREN_ON_DELETE = true ↔ Flagged N k MF.SKIP_CHILDREN_ON_DELETE) ∧
        (oflag o MF.NATURAL_DELETION_ORDER = true ↔ Flagged N k MF.NATURAL_DELETION_ORDER)) := by
    intro e o ctx evs rb hF hb hr hl hctx
    rcases hb.calls with ⟨h1, _⟩ | ⟨a, call, out, h0, h1, h2, h3, h4, h5, h6, _⟩
    · left
      refine ⟨h1, ?_⟩
      cases hb with
      | raised => exact .inl ⟨_, rfl⟩
      | noObject hown =>
        exfalso
        generalize hrr : (Except.ok false : Except Err Bool) = r at hown
        cases hown with
        | idle ha => exact hl ctx (by simp) (hctx ha)
        | stale _ _ =>
          obtain ⟨L, c, out, he⟩ := hr [] .error ctx .error [.noObject ctx] rfl (by simp)
          exact not_split_nil (B := []) he
        | crud => simp [callsOf] at h1
        | fatal => cases hrr
        | failed => simp [callsOf] at h1
        | done => cases hrr
      | storeFail => exact .inl ⟨_, rfl⟩
      | obj hown hw =>
        refine .inr ⟨?_, rfl⟩
        generalize hrr : (Except.ok true : Except Err Bool) = r at hown
        cases hown with
        | idle ha => exact ha
        | stale _ _ => unfold failRes at hrr; split at hrr <;> cases hrr
        | crud => simp [callsOf] at h1
        | fatal => cases hrr
        | failed => cases hrr
        | done => simp [callsOf] at h1
    · right
      refine ⟨call, out, h2, h3, h5, h6, fun k hk ha => ?_⟩
      obtain ⟨fl, ho⟩ := hb.found ha (c := (call, out)) (by rw [h2]; simp)
      exact ⟨oflag_flagged (hN e o k hF hk) ho _, oflag_flagged (hN e o k hF hk) ho _⟩
  refine Tr.ind (motive := fun l _ evs _ res => (∀ e, InTree e l → ∃ k, ElemKey T.A e k) → NoRef evs → NoLost evs →
      ∃ rest, RunPlan T.A T.dc N l (callsOf evs ++ rest) ∧ ((∃ b, res = .ok b) → rest = [])) ?_ ?_ ?_ ?_ ?_ ?_ ?_ ?_ h
  · exact fun _ _ _ _ => ⟨[], .nil, fun _ => rfl⟩
  · intro e l p evs p' x _ ih hk hr hm
    obtain ⟨rest, h1, _⟩ := ih (fun x hx => hk x (hx.mono (by simp))) hr hm
    obtain ⟨cs, h2⟩ := RunPlan.exists (A := T.A) (dc := T.dc) (N := N) l (fun x hx => hk x (hx.mono (fun _ h => List.mem_cons_of_mem _ h)))
    refine ⟨rest ++ cs, ?_, by rintro ⟨_, h⟩; cases h⟩
    rw [← List.append_assoc]; exact h1.cons h2
  · intro e l p evs p1 b evs' p' r ht _ ih ih' hk hr hm
    obtain ⟨rest, h1, h2⟩ := ih (fun x hx => hk x (hx.mono (by simp))) hr.left hm.left
    cases h2 ⟨b, rfl⟩
    obtain ⟨rest, h3, h4⟩ := ih' (fun x hx => hk x (hx.mono (fun _ h => List.mem_cons_of_mem _ h))) (hr.right (ht.no_end b rfl)) hm.right
    refine ⟨rest, ?_, ?_⟩
    · have := h1.cons h3
      simpa [List.append_assoc] using this
    · rintro ⟨c, hc⟩
      obtain ⟨d, rfl, _⟩ := orRes_ok hc
      exact h4 ⟨d, rfl⟩
  · intro e p x _ hk _ _
    obtain ⟨cs, h⟩ := RunPlan.exists (A := T.A) (dc := T.dc) (N := N) [e] hk
    exact ⟨cs, by simpa using h, by rintro ⟨_, h⟩; cases h⟩
  · intro e o p evs p' x hF hn _ ih hk hr hm
    obtain ⟨rest, h1, h2⟩ := ih (fun x hx => hk x (sub hx)) hr hm
    obtain ⟨k, hk0⟩ := hk e (inTree_self _)
    obtain ⟨c, hc⟩ := Prescribes.exists hk0 (by rw [hn.1]; simp)
    have ho : ∃ fl, o = some fl := by
      cases o with
      | none => have := hn.2.1; simp [oflag] at this
      | some fl => exact ⟨fl, rfl⟩
    obtain ⟨fl, ho⟩ := ho
    have e1 := oflag_flagged (hN e o k hF hk0) ho
    refine ⟨rest ++ [(c, { result := .object })], ?_, by rintro ⟨_, h⟩; cases h⟩
    rw [← List.append_assoc]
    refine .last hc hk0 (fun h => ?_) ⟨hn.1, (e1 _).1 hn.2.1⟩ h1 .nil
    have := (e1 _).2 h.2
    rw [hn.2.2] at this; cases this
  · intro e o ctx p evs p' b evs' rb hF hn ht ⟨hrec, hb⟩ ih hk hr hm
    obtain ⟨rest, h1, h2⟩ := ih (fun x hx => hk x (sub hx)) hr.left hm.left
    cases h2 ⟨b, rfl⟩
    obtain ⟨k, hk0⟩ := hk e (inTree_self _)
    obtain ⟨c, hc⟩ := Prescribes.exists hk0 (by rw [hn.1]; simp)
    have ho : ∃ fl, o = some fl := by
      cases o with
      | none => have := hn.2.1; simp [oflag] at this
      | some fl => exact ⟨fl, rfl⟩
    obtain ⟨fl, ho⟩ := ho
    have e1 := oflag_flagged (hN e o k hF hk0) ho
    rw [List.append_nil] at h1
    have hp : ∀ out, RunPlan T.A T.dc N [e] (callsOf evs ++ [(c, out)]) := by
      intro out
      refine .last hc hk0 (fun h => ?_) ⟨hn.1, (e1 _).1 hn.2.1⟩ h1 .nil
      have := (e1 _).2 h.2
      rw [hn.2.2] at this; cases this
    rcases own hF hb (hr.right (ht.no_end b rfl)).left hm.right.left (fun h => by rw [hn.1] at h; cases h) with ⟨h3, h4⟩ | ⟨call, out, h3, h4, _⟩
    · refine ⟨[(c, { result := .object })], by simp only [callsOf_append, callsOf_progIf, h3, List.append_nil]; exact hp _, ?_⟩
      rintro ⟨d, hd⟩
      rcases h4 with ⟨x, rfl⟩ | ⟨h4, _⟩
      · cases hd
      · rw [hn.1] at h4; cases h4
    · cases hc.unique h4
      exact ⟨[], by simp only [callsOf_append, callsOf_progIf, h3, List.append_nil]; exact hp _, fun _ => rfl⟩
  · intro e o ctx p evs rb hF hn hrec hs hb hk hr hm
    obtain ⟨k, hk0⟩ := hk e (inTree_self _)
    rcases own hF hb hr hm (fun ha => by obtain ⟨u, _, rfl⟩ := hrec; exact ha) with ⟨h3, h4⟩ | ⟨call, out, h3, h4, h6, h7, h5⟩
    · obtain ⟨cs, h⟩ := RunPlan.exists (A := T.A) (dc := T.dc) (N := N) [e] hk
      refine ⟨cs, by rw [h3]; exact h, ?_⟩
      rintro ⟨d, hd⟩
      exfalso
      rcases h4 with ⟨x, rfl⟩ | ⟨h4, rfl⟩
      · cases hd
      · have := (hs rfl).1; rw [h4] at this; cases this
    · rw [h3]
      by_cases hsk : e.action = some .delete ∧ Flagged N k MF.SKIP_CHILDREN_ON_DELETE
      · exact ⟨[], .alone h4 hk0 hsk .nil, fun _ => rfl⟩
      · have hns : ¬ Shortcut e o := fun h => hsk ⟨h.1, (h5 k hk0 h.1).1.1 h.2⟩
        have hnn : ¬ (e.action = some .delete ∧ Flagged N k MF.NATURAL_DELETION_ORDER) := by
          rintro ⟨ha, hf⟩
          refine hn ⟨ha, (h5 k hk0 ha).2.2 hf, ?_⟩
          by_cases hx : oflag o MF.SKIP_CHILDREN_ON_DELETE = true
          · exact absurd ⟨ha, hx⟩ hns
          · simpa using hx
        by_cases hob : out.result = .object
        · obtain ⟨cs, hcs⟩ := RunPlan.exists (A := T.A) (dc := T.dc) (N := N) (getChildren T.dc e.kids) (fun x hx => hk x (sub hx))
          refine ⟨cs, ?_, ?_⟩
          · have := RunPlan.call h4 hk0 hsk hnn hob hcs .nil
            simpa using this
          · rintro ⟨d, hd⟩
            exfalso
            cases rb with
            | error => cases hd
            | ok rb =>
              cases rb with
              | false => exact h7 rfl hob
              | true => exact hns (hs rfl)
        · exact ⟨[], by simpa using RunPlan.failed h4 hk0 hsk hnn hob .nil, fun _ => rfl⟩
  · intro e o ctx p evs evs' p' r hF hn hns hrec hb _ ih hk hr hm
    have hr' : NoRef evs' := by
      have h1 : NoRef (.syncProgress (p + 1) T.total :: evs') := hr.right hb.no_end
      refine NoRef.right (a := [.syncProgress (p + 1) T.total]) h1 ?_
      rintro ⟨L, c, out, he⟩
      have := congrArg List.getLast? he
      simp at this
    obtain ⟨rest, h1, h2⟩ := ih (fun x hx => hk x (sub hx)) hr' (fun c hc => hm c (by simp [hc]))
    obtain ⟨k, hk0⟩ := hk e (inTree_self _)
    have hcs : callsOf (evs ++ .syncProgress (p + 1) T.total :: evs') = callsOf evs ++ callsOf evs' := by simp [callsOf]
    rw [hcs]
    have hrest : (∃ b, orRes e.action.isSome r = .ok b) → rest = [] := by
      rintro ⟨c, hc⟩
      obtain ⟨d, rfl, _⟩ := orRes_ok hc
      exact h2 ⟨d, rfl⟩
    rcases own hF hb hr.left hm.left (fun ha => by obtain ⟨u, _, rfl⟩ := hrec; exact ha) with ⟨h3, h4⟩ | ⟨call, out, h3, h4, h6, _, h5⟩
    · rcases h4 with ⟨x, h⟩ | ⟨h4, _⟩
      · cases h
      · refine ⟨rest, ?_, hrest⟩
        have := RunPlan.nothing h4 h1 .nil
        simpa [h3] using this
    · refine ⟨rest, ?_, hrest⟩
      have := RunPlan.call (A := T.A) (dc := T.dc) (N := N) (l := []) h4 hk0 (fun h => hns ⟨h.1, (h5 k hk0 h.1).1.2 h.2⟩) (by
          rintro ⟨ha, hf⟩
          refine hn ⟨ha, (h5 k hk0 ha).2.2 hf, ?_⟩
          by_cases hx : oflag o MF.SKIP_CHILDREN_ON_DELETE = true
          · exact absurd ⟨ha, hx⟩ hns
          · simpa using hx) (h6 rfl) h1 .nil
      simpa [h3] using this

end DS
