import Verif.Lemmas.SyncTrace
/-! Consequences of the grammar of events. -/
set_option linter.unusedSectionVars false

namespace DS
variable {V E : Type} [PyVal V]

/-! ## inversion -/

theorem OwnTr.inv {T : TrCtx V} {e : Elem V} {o : Option Nat} {ctx : LogCtx} {evs : List (Event V)} {r : Except Err Bool} (h : OwnTr T e o ctx evs r) :
    (e.action = none ∧ r = .ok o.isSome ∧ evs = (if flagOn T.flags GF.LOG_UNCHANGED_RECORDS then [.log .debug ctx .success] else [])) ∨
    ∃ a, e.action = some a ∧ ((CallOK a o = false ∧ evs = [.log .error ctx .error] ∧ r = failRes T.flags (staleErr a)) ∨
      (CallOK a o = true ∧ ∃ call out, Prescribes T.A e call ∧ T.H call out ∧ (
        (∃ x, out.result = .raises x ∧ x.isCrud = true ∧ evs = [.call call out, .log .error ctx .error] ∧ r = failRes T.flags x) ∨
        (∃ x, x.isCrud = false ∧ (out.result = .raises x ∨ (a = .create ∧ out.result = .object)) ∧ evs = [.call call out] ∧ r = .error x) ∨
        (out.result = .none ∧ evs = [.call call out, .log .warning ctx .failure] ∧ r = .ok false) ∨
        (∃ st, out.result = .object ∧ evs = [.call call out, .log (levelOf st) ctx st] ∧ r = .ok true)))) := by
  cases h with
  | idle h => exact .inl ⟨h, rfl, rfl⟩
  | stale h1 h2 => exact .inr ⟨_, h1, .inl ⟨h2, rfl, rfl⟩⟩
  | crud h1 h2 h3 h4 h5 h6 => exact .inr ⟨_, h1, .inr ⟨h2, _, _, h3, h4, .inl ⟨_, h5, h6, rfl, rfl⟩⟩⟩
  | fatal h1 h2 h3 h4 h5 h6 => exact .inr ⟨_, h1, .inr ⟨h2, _, _, h3, h4, .inr (.inl ⟨_, h5, h6, rfl, rfl⟩)⟩⟩
  | failed h1 h2 h3 h4 h5 => exact .inr ⟨_, h1, .inr ⟨h2, _, _, h3, h4, .inr (.inr (.inl ⟨h5, rfl, rfl⟩))⟩⟩
  | done h1 h2 h3 h4 h5 => exact .inr ⟨_, h1, .inr ⟨h2, _, _, h3, h4, .inr (.inr (.inr ⟨_, h5, rfl, rfl⟩))⟩⟩

theorem BodyTr.inv {T : TrCtx V} {e : Elem V} {o : Option Nat} {ctx : LogCtx} {evs : List (Event V)} {r : Except Err Bool} (h : BodyTr T e o ctx evs r) :
    ∃ evs1 tail r1, OwnTr T e o ctx evs1 r1 ∧ evs = evs1 ++ tail ∧
      ((∃ x, r1 = .error x ∧ tail = [] ∧ r = .error x) ∨ (r1 = .ok false ∧ tail = [.noObject ctx] ∧ r = .ok false) ∨
        (r1 = .ok true ∧ ChildWarn tail ∧ (r = .ok true ∨ ∃ x, x.isCrud = false ∧ r = .error x))) := by
  cases h with
  | raised h => exact ⟨_, [], _, h, by simp, .inl ⟨_, rfl, rfl, rfl⟩⟩
  | noObject h => exact ⟨_, _, _, h, rfl, .inr (.inl ⟨rfl, rfl, rfl⟩)⟩
  | storeFail h h1 h2 => exact ⟨_, _, _, h, rfl, .inr (.inr ⟨rfl, h1.1, .inr ⟨_, h2, rfl⟩⟩)⟩
  | obj h h1 => exact ⟨_, _, _, h, rfl, .inr (.inr ⟨rfl, h1.1, .inl rfl⟩)⟩

/-! ## calls -/

@[simp] theorem callsOf_append (a b : List (Event V)) : callsOf (a ++ b) = callsOf a ++ callsOf b := by simp [callsOf]
@[simp] theorem callsOf_nil : callsOf ([] : List (Event V)) = [] := rfl
@[simp] theorem callsOf_progress (a b : Nat) (l : List (Event V)) : callsOf (.syncProgress a b :: l) = callsOf l := rfl
@[simp] theorem callsOf_log (a b c) (l : List (Event V)) : callsOf (.log a b c :: l) = callsOf l := rfl
@[simp] theorem callsOf_noObject (a) (l : List (Event V)) : callsOf (.noObject a :: l) = callsOf l := rfl
@[simp] theorem callsOf_call (a b) (l : List (Event V)) : callsOf (.call a b :: l) = (a, b) :: callsOf l := rfl
theorem callsOf_warn {evs : List (Event V)} (h : ChildWarn evs) : callsOf evs = [] := by
  induction evs with
  | nil => rfl
  | cons ev evs ih =>
    obtain ⟨a, b, c, d, rfl⟩ := h ev (by simp)
    exact ih (fun ev hev => h ev (by simp [hev]))
theorem callsOf_ite {c : Prop} [Decidable c] {a : LogCtx} {l : Level} {s : Status} : callsOf (if c then [.log l a s] else ([] : List (Event V))) = [] := by
  split <;> rfl

theorem mem_callsOf {evs : List (Event V)} {c : CrudCall V} {out : Outcome} : (c, out) ∈ callsOf evs ↔ Event.call c out ∈ evs := by
  unfold callsOf
  rw [List.mem_filterMap]
  constructor
  · rintro ⟨ev, h1, h2⟩
    cases ev <;> simp at h2
    obtain ⟨rfl, rfl⟩ := h2; exact h1
  · intro h; exact ⟨_, h, rfl⟩

/-- What the part of an element itself amounts to. -/
theorem BodyTr.calls {T : TrCtx V} {e : Elem V} {o : Option Nat} {ctx : LogCtx} {evs : List (Event V)} {r : Except Err Bool} (h : BodyTr T e o ctx evs r) :
    (callsOf evs = [] ∧ ((e.action = none ∧ (r = .ok true → o.isSome = true)) ∨ (r ≠ .ok true ∧ ∃ a, e.action = some a ∧ CallOK a o = false))) ∨
    ∃ a call out, e.action = some a ∧ CallOK a o = true ∧ callsOf evs = [(call, out)] ∧ Prescribes T.A e call ∧ T.H call out ∧
      (r = .ok true → out.result = .object) ∧ (r = .ok false → out.result ≠ .object) ∧
      (∀ x, r = .error x → x.isCrud = true → out.result = .raises x) := by
  obtain ⟨evs1, tail, r1, h1, rfl, h2⟩ := h.inv
  have ht : callsOf tail = [] := by
    rcases h2 with ⟨_, _, rfl, _⟩ | ⟨_, rfl, _⟩ | ⟨_, h, _⟩
    · rfl
    · rfl
    · exact callsOf_warn h
  have hr : r = .ok true → r1 = .ok true := by
    rintro rfl
    rcases h2 with ⟨_, _, _, h⟩ | ⟨_, _, h⟩ | ⟨h, _, _⟩
    · cases h
    · cases h
    · exact h
  have hf : r = .ok false → r1 = .ok false := by
    rintro rfl
    rcases h2 with ⟨_, _, _, h⟩ | ⟨h, _, _⟩ | ⟨_, _, h | ⟨_, _, h⟩⟩
    · cases h
    · exact h
    · cases h
    · cases h
  have hx : ∀ x, r = .error x → x.isCrud = true → r1 = .error x := by
    rintro x rfl hc
    rcases h2 with ⟨_, h, _, h'⟩ | ⟨_, _, h⟩ | ⟨_, _, h | ⟨_, h', h⟩⟩
    · cases h'; exact h
    · cases h
    · cases h
    · cases h; rw [hc] at h'; cases h'
  rcases h1.inv with ⟨ha, h3, rfl⟩ | ⟨a, ha, ⟨h3, rfl, h4⟩ | ⟨h3, call, out, h4, h5, h6⟩⟩
  · left
    refine ⟨by rw [callsOf_append, ht, callsOf_ite]; rfl, .inl ⟨ha, fun h => ?_⟩⟩
    have := hr h
    rw [h3] at this; simpa using this
  · left
    refine ⟨by simp [ht], .inr ⟨fun h => ?_, a, ha, h3⟩⟩
    have := hr h
    rw [h4] at this
    unfold failRes at this
    split at this <;> cases this
  · right
    have hfc : ∀ {x c}, failRes T.flags x = .ok c → c = false := by
      intro x c h; unfold failRes at h; split at h <;> cases h; rfl
    refine ⟨a, call, out, ha, h3, ?_, h4, h5, ?_, ?_, ?_⟩
    · rcases h6 with ⟨x, _, _, rfl, _⟩ | ⟨x, _, _, rfl, _⟩ | ⟨_, rfl, _⟩ | ⟨_, _, rfl, _⟩ <;> simp [ht]
    · intro h
      have := hr h
      rcases h6 with ⟨x, _, _, _, rfl⟩ | ⟨x, _, _, _, rfl⟩ | ⟨_, _, rfl⟩ | ⟨_, h, _, _⟩
      · cases hfc this
      · cases this
      · cases this
      · exact h
    · intro h ho
      have := hf h
      rcases h6 with ⟨x, h, _⟩ | ⟨x, _, _, _, rfl⟩ | ⟨h, _⟩ | ⟨_, _, _, rfl⟩
      · rw [h] at ho; cases ho
      · cases this
      · rw [h] at ho; cases ho
      · cases this
    · intro x h hc
      have := hx x h hc
      rcases h6 with ⟨y, h, _, _, rfl⟩ | ⟨y, h, _, _, rfl⟩ | ⟨_, _, rfl⟩ | ⟨_, _, _, rfl⟩
      · unfold failRes at this; split at this <;> cases this; exact h
      · cases this; rw [hc] at h; cases h
      · cases this
      · cases this

theorem BodyTr.mem_call {T : TrCtx V} {e : Elem V} {o : Option Nat} {ctx : LogCtx} {evs : List (Event V)} {r : Except Err Bool} (h : BodyTr T e o ctx evs r)
    {c : CrudCall V} {out : Outcome} (hc : Event.call c out ∈ evs) : Prescribes T.A e c ∧ T.H c out := by
  rw [← mem_callsOf] at hc
  rcases h.calls with ⟨h1, _⟩ | ⟨a, call, out', _, _, h1, h2, h3, _⟩
  · rw [h1] at hc; cases hc
  · rw [h1, List.mem_singleton] at hc; cases hc; exact ⟨h2, h3⟩

/-- Every call is prescribed by some element. -/
theorem Tr.mem_call {T : TrCtx V} {l : List (Elem V)} {p p' : Nat} {evs : List (Event V)} {res : Except Err Bool} (h : Tr T l p evs p' res) :
    ∀ c out, Event.call c out ∈ evs → ∃ x, InTree x l ∧ Prescribes T.A x c ∧ T.H c out := by
  have sub : ∀ {e : Elem V} {l : List (Elem V)} {x}, InTree x (getChildren T.dc e.kids) → InTree x (e :: l) :=
    fun h => .under List.mem_cons_self (h.mono (fun _ hk => mem_of_getChildren hk))
  have rest : ∀ {e : Elem V} {l : List (Elem V)} {x}, InTree x l → InTree x (e :: l) := fun h => h.mono (fun _ hk => List.mem_cons_of_mem _ hk)
  induction h with
  | nil => intro _ _ h; cases h
  | bad => intro _ _ h; cases h
  | natFail _ _ _ ih => intro c out h; obtain ⟨x, h1, h2⟩ := ih c out h; exact ⟨x, sub h1, h2⟩
  | natStop _ _ _ hb ih =>
    have hb := hb.2
    intro c out h
    rcases List.mem_append.1 h with h | h
    · obtain ⟨x, h1, h2⟩ := ih c out h; exact ⟨x, sub h1, h2⟩
    · exact ⟨_, .here List.mem_cons_self, hb.mem_call h⟩
  | natNone _ _ _ hb _ ih ih2 =>
    have hb := hb.2
    intro c out h
    rcases List.mem_append.1 h with h | h
    · obtain ⟨x, h1, h2⟩ := ih c out h; exact ⟨x, sub h1, h2⟩
    · rcases List.mem_append.1 h with h | h
      · exact ⟨_, .here List.mem_cons_self, hb.mem_call h⟩
      · obtain ⟨x, h1, h2⟩ := ih2 c out h; exact ⟨x, rest h1, h2⟩
  | natObj _ _ _ hb _ ih ih2 =>
    have hb := hb.2
    intro c out h
    rcases List.mem_append.1 h with h | h
    · obtain ⟨x, h1, h2⟩ := ih c out h; exact ⟨x, sub h1, h2⟩
    · rcases List.mem_append.1 h with h | h
      · exact ⟨_, .here List.mem_cons_self, hb.mem_call h⟩
      · rcases List.mem_cons.1 h with h | h
        · cases h
        · obtain ⟨x, h1, h2⟩ := ih2 c out h; exact ⟨x, rest h1, h2⟩
  | stop _ _ _ hb => intro c out h; exact ⟨_, .here List.mem_cons_self, hb.mem_call h⟩
  | noObj _ _ _ hb _ ih2 =>
    intro c out h
    rcases List.mem_append.1 h with h | h
    · exact ⟨_, .here List.mem_cons_self, hb.mem_call h⟩
    · obtain ⟨x, h1, h2⟩ := ih2 c out h; exact ⟨x, rest h1, h2⟩
  | short _ _ _ hb _ ih2 =>
    intro c out h
    rcases List.mem_append.1 h with h | h
    · exact ⟨_, .here List.mem_cons_self, hb.mem_call h⟩
    · obtain ⟨x, h1, h2⟩ := ih2 c out h; exact ⟨x, rest h1, h2⟩
  | kidsStop _ _ _ _ hb _ ih =>
    intro c out h
    rcases List.mem_append.1 h with h | h
    · exact ⟨_, .here List.mem_cons_self, hb.mem_call h⟩
    · rcases List.mem_cons.1 h with h | h
      · cases h
      · obtain ⟨x, h1, h2⟩ := ih c out h; exact ⟨x, sub h1, h2⟩
  | kids _ _ _ _ hb _ _ ih ih2 =>
    intro c out h
    rcases List.mem_append.1 h with h | h
    · exact ⟨_, .here List.mem_cons_self, hb.mem_call h⟩
    · rcases List.mem_cons.1 h with h | h
      · cases h
      · rcases List.mem_append.1 h with h | h
        · obtain ⟨x, h1, h2⟩ := ih c out h; exact ⟨x, sub h1, h2⟩
        · obtain ⟨x, h1, h2⟩ := ih2 c out h; exact ⟨x, rest h1, h2⟩

/-! ## at most one call per element -/

theorem SubPerm.nil {α : Type} (b : List α) : SubPerm [] b := ⟨[], .refl _, List.nil_sublist _⟩
theorem SubPerm.append {α : Type} {a b a' b' : List α} (h : SubPerm a b) (h' : SubPerm a' b') : SubPerm (a ++ a') (b ++ b') := by
  obtain ⟨l, h1, h2⟩ := h; obtain ⟨l', h3, h4⟩ := h'
  exact ⟨l ++ l', h1.append h3, h2.append h4⟩
theorem SubPerm.permL {α : Type} {a a' b : List α} (hp : a'.Perm a) (h : SubPerm a b) : SubPerm a' b := by
  obtain ⟨l, h1, h2⟩ := h; exact ⟨l, hp.trans h1, h2⟩
theorem SubPerm.permR {α : Type} {a b b' : List α} (h : SubPerm a b) (hp : b.Perm b') : SubPerm a b' := by
  obtain ⟨l, h1, h2⟩ := h
  obtain ⟨l', h3, h4⟩ := List.exists_perm_sublist h2 hp
  exact ⟨l', h1.trans h3.symm, h4⟩

/-! ## induction element by element -/

/-- The counter after an element's own part. -/
def tickIf (r : Except Err Bool) (p : Nat) : Nat := match r with | .ok true => p + 1 | _ => p
/-- The progress event after an element's own part. -/
def progIf (r : Except Err Bool) (p total : Nat) : List (Event V) := match r with | .ok true => [.syncProgress (p + 1) total] | _ => []
/-- The `changed` flag after an element's own part. -/
def didRes (b : Bool) : Except Err Bool → Except Err Bool
  | .ok _ => .ok b
  | .error x => .error x

theorem Tr.ind {T : TrCtx V} {motive : List (Elem V) → Nat → List (Event V) → Nat → Except Err Bool → Prop}
    (nil : ∀ p, motive [] p [] p (.ok false))
    (seqErr : ∀ {e l p evs p' x}, Tr T [e] p evs p' (.error x) → motive [e] p evs p' (.error x) → motive (e :: l) p evs p' (.error x))
    (seq : ∀ {e l p evs p1 b evs' p' r}, Tr T [e] p evs p1 (.ok b) → Tr T l p1 evs' p' r → motive [e] p evs p1 (.ok b) → motive l p1 evs' p' r →
      motive (e :: l) p (evs ++ evs') p' (orRes b r))
    (bad : ∀ {e p x}, x.isCrud = false → motive [e] p [] p (.error x))
    (natFail : ∀ {e o p evs p' x}, T.F e o → NatFirst e o → Tr T (getChildren T.dc e.kids) p evs p' (.error x) →
      motive (getChildren T.dc e.kids) p evs p' (.error x) → motive [e] p evs p' (.error x))
    (nat : ∀ {e o ctx p evs p' b evs' rb}, T.F e o → NatFirst e o → Tr T (getChildren T.dc e.kids) p evs p' (.ok b) →
      RecordAfter T e evs ctx ∧ BodyTr T e o ctx evs' rb → motive (getChildren T.dc e.kids) p evs p' (.ok b) →
      motive [e] p (evs ++ (evs' ++ progIf rb p' T.total)) (tickIf rb p') (didRes true rb))
    (leaf : ∀ {e o ctx p evs rb}, T.F e o → ¬ NatFirst e o → RecordOf T.A e ctx → (rb = .ok true → Shortcut e o) → BodyTr T e o ctx evs rb →
      motive [e] p evs p (didRes e.action.isSome rb))
    (pre : ∀ {e o ctx p evs evs' p' r}, T.F e o → ¬ NatFirst e o → ¬ Shortcut e o → RecordOf T.A e ctx → BodyTr T e o ctx evs (.ok true) →
      Tr T (getChildren T.dc e.kids) (p + 1) evs' p' r → motive (getChildren T.dc e.kids) (p + 1) evs' p' r →
      motive [e] p (evs ++ .syncProgress (p + 1) T.total :: evs') p' (orRes e.action.isSome r))
    {l : List (Elem V)} {p : Nat} {evs : List (Event V)} {p' : Nat} {res : Except Err Bool} (h : Tr T l p evs p' res) : motive l p evs p' res := by
  induction h with
  | nil => exact nil _
  | bad h => exact seqErr (.bad h) (bad h)
  | natFail h1 h2 h3 ih => exact seqErr (.natFail h1 h2 h3) (natFail h1 h2 h3 ih)
  | natStop h1 h2 h3 h4 ih =>
    refine seqErr (.natStop h1 h2 h3 h4) ?_
    simpa [progIf, tickIf, didRes] using nat h1 h2 h3 h4 ih
  | natNone h1 h2 h3 h4 h5 ih ih5 =>
    have hm := nat h1 h2 h3 h4 ih
    have ht : Tr T [_] _ _ _ _ := Tr.natNone h1 h2 h3 h4 .nil
    simp only [progIf, tickIf, didRes, List.append_nil, orRes, Bool.true_or] at hm ht
    have := seq ht h5 hm ih5
    simpa [List.append_assoc] using this
  | natObj h1 h2 h3 h4 h5 ih ih5 =>
    have hm := nat h1 h2 h3 h4 ih
    have ht : Tr T [_] _ _ _ _ := Tr.natObj h1 h2 h3 h4 .nil
    simp only [progIf, tickIf, didRes, orRes, Bool.true_or] at hm ht
    have := seq ht h5 hm ih5
    simpa [List.append_assoc] using this
  | stop h1 h2 h3 h4 =>
    refine seqErr (.stop h1 h2 h3 h4) ?_
    simpa [didRes] using leaf h1 h2 h3 (by intro h; cases h) h4
  | noObj h1 h2 h3 h4 h5 ih5 =>
    rename_i e l o ctx p _ _ _ _
    have hm := leaf (p := p) h1 h2 h3 (by intro h; cases h) h4
    have ht : Tr T [_] p _ _ _ := Tr.noObj h1 h2 h3 h4 .nil
    simp only [didRes, List.append_nil, orRes, Bool.or_false] at hm ht
    exact seq ht h5 hm ih5
  | short h1 h2 h3 h4 h5 ih5 =>
    rename_i e l o ctx p _ _ _ _
    have hn : ¬ NatFirst e o := fun h => by have := h.2.2; rw [h2.2] at this; cases this
    have hm := leaf (p := p) h1 hn h3 (fun _ => h2) h4
    have ht : Tr T [_] p _ _ _ := Tr.short h1 h2 h3 h4 .nil
    simp only [didRes, List.append_nil, orRes, Bool.or_false, h2.1, Option.isSome_some] at hm ht
    exact seq ht h5 hm ih5
  | kidsStop h1 h2 h3 h4 h5 h6 ih =>
    refine seqErr (.kidsStop h1 h2 h3 h4 h5 h6) ?_
    simpa [orRes] using pre h1 h2 h3 h4 h5 h6 ih
  | kids h1 h2 h3 h4 h5 h6 h7 ih ih7 =>
    have hm := pre h1 h2 h3 h4 h5 h6 ih
    have ht : Tr T [_] _ _ _ _ := Tr.kids h1 h2 h3 h4 h5 h6 .nil
    simp only [orRes, List.append_nil, Bool.or_false] at hm ht
    have := seq ht h7 hm ih7
    simpa [List.append_assoc] using this

/-! ## at most one call per element -/

theorem callsOf_progIf (r : Except Err Bool) (p t : Nat) : callsOf (progIf r p t : List (Event V)) = [] := by
  unfold progIf; split <;> rfl

theorem BodyTr.pairs {T : TrCtx V} {e : Elem V} {o : Option Nat} {ctx : LogCtx} {evs : List (Event V)} {r : Except Err Bool} (h : BodyTr T e o ctx evs r) :
    ∃ ps : List (Elem V × CrudCall V), (ps.map Prod.fst).Sublist [e] ∧ (callsOf evs).map Prod.fst = ps.map Prod.snd ∧ ∀ q ∈ ps, Prescribes T.A q.1 q.2 := by
  rcases h.calls with ⟨h1, _⟩ | ⟨a, call, out', _, _, h1, h2, h3, _⟩
  · exact ⟨[], List.nil_sublist _, by rw [h1]; rfl, by simp⟩
  · exact ⟨[(e, call)], .refl _, by rw [h1]; rfl, by simpa using h2⟩

theorem Tr.pairs {T : TrCtx V} (hR : T.dc.Reorders) {l : List (Elem V)} {p p' : Nat} {evs : List (Event V)} {res : Except Err Bool} (h : Tr T l p evs p' res) :
    ∃ ps : List (Elem V × CrudCall V), SubPerm (ps.map Prod.fst) (nodesL l) ∧ (callsOf evs).map Prod.fst = ps.map Prod.snd ∧ ∀ q ∈ ps, Prescribes T.A q.1 q.2 := by
  have single : ∀ e : Elem V, nodesL [e] = e :: nodesL e.kids := fun e => by rw [nodesL_eq]; simp [Elem.nodes_eq]
  have kids : ∀ e : Elem V, (nodesL (getChildren T.dc e.kids)).Perm (nodesL e.kids) := fun e => by
    rw [nodesL_eq, nodesL_eq]; exact (getChildren_perm hR _).flatMap_right _
  have lift : ∀ (e : Elem V) {a : List (Elem V)}, SubPerm a (nodesL (getChildren T.dc e.kids)) → SubPerm a (nodesL [e]) := fun e a h => by
    rw [single]
    obtain ⟨l, h1, h2⟩ := h.permR (kids e)
    exact ⟨l, h1, h2.cons e⟩
  refine Tr.ind (motive := fun l _ evs _ _ => ∃ ps : List (Elem V × CrudCall V), SubPerm (ps.map Prod.fst) (nodesL l) ∧ (callsOf evs).map Prod.fst = ps.map Prod.snd ∧ ∀ q ∈ ps, Prescribes T.A q.1 q.2)
    ?_ ?_ ?_ ?_ ?_ ?_ ?_ ?_ h
  · exact fun _ => ⟨[], .nil _, rfl, by simp⟩
  · rintro e l p evs p' x _ ⟨ps, h1, h2⟩
    refine ⟨ps, ?_, h2⟩
    rw [show nodesL (e :: l) = nodesL [e] ++ nodesL l by simp [nodesL_eq], ← List.append_nil (ps.map _)]
    exact h1.append (.nil _)
  · rintro e l p evs p1 b evs' p' r _ _ ⟨ps, h1, h2, h3⟩ ⟨ps', h1', h2', h3'⟩
    refine ⟨ps ++ ps', ?_, by simp [h2, h2'], by
      intro q hq
      rcases List.mem_append.1 hq with h | h
      · exact h3 q h
      · exact h3' q h⟩
    rw [show nodesL (e :: l) = nodesL [e] ++ nodesL l by simp [nodesL_eq], List.map_append]
    exact h1.append h1'
  · exact fun _ => ⟨[], .nil _, rfl, by simp⟩
  · rintro e o p evs p' x _ _ _ ⟨ps, h1, h2⟩
    exact ⟨ps, lift e h1, h2⟩
  · rintro e o ctx p evs p' b evs' rb _ _ _ ⟨_, hb⟩ ⟨ps, h1, h2, h3⟩
    obtain ⟨ps', h1', h2', h3'⟩ := hb.pairs
    refine ⟨ps ++ ps', ?_, by simp [h2, h2', callsOf_progIf], by
      intro q hq
      rcases List.mem_append.1 hq with h | h
      · exact h3 q h
      · exact h3' q h⟩
    rw [single, List.map_append]
    have := SubPerm.append ⟨_, List.Perm.refl _, h1'⟩ (h1.permR (kids e))
    exact this.permL List.perm_append_comm
  · rintro e o ctx p evs rb _ _ _ _ hb
    obtain ⟨ps', h1', h2', h3'⟩ := hb.pairs
    refine ⟨ps', ?_, h2', h3'⟩
    rw [single, ← List.append_nil (ps'.map _)]
    exact SubPerm.append (a := _) (b := [e]) ⟨_, List.Perm.refl _, h1'⟩ (.nil _)
  · rintro e o ctx p evs evs' p' r _ _ _ _ hb _ ⟨ps, h1, h2, h3⟩
    obtain ⟨ps', h1', h2', h3'⟩ := hb.pairs
    refine ⟨ps' ++ ps, ?_, by simp [h2, h2'], by
      intro q hq
      rcases List.mem_append.1 hq with h | h
      · exact h3' q h
      · exact h3 q h⟩
    rw [single, List.map_append]
    exact SubPerm.append (b := [e]) ⟨_, List.Perm.refl _, h1'⟩ (h1.permR (kids e))

/-! ## the changed flag -/

theorem BodyTr.attempt {T : TrCtx V} {e : Elem V} {o : Option Nat} {ctx : LogCtx} {evs : List (Event V)} {r : Except Err Bool} (h : BodyTr T e o ctx evs r) :
    e.action.isSome = true ↔ ∃ ev ∈ evs, Attempt ev := by
  obtain ⟨evs1, tail, r1, h1, rfl, h2⟩ := h.inv
  have ht : ∀ ev ∈ tail, ¬ Attempt ev := by
    rcases h2 with ⟨_, _, rfl, _⟩ | ⟨_, rfl, _⟩ | ⟨_, h, _⟩
    · simp
    · simp [Attempt]
    · intro ev hev
      obtain ⟨a, b, c, d, rfl⟩ := h ev hev
      simp [Attempt]
  have he : (∃ ev ∈ evs1 ++ tail, Attempt ev) ↔ ∃ ev ∈ evs1, Attempt ev := by
    constructor
    · rintro ⟨ev, h1, h2⟩
      rcases List.mem_append.1 h1 with h | h
      · exact ⟨ev, h, h2⟩
      · exact absurd h2 (ht ev h)
    · rintro ⟨ev, h1, h2⟩; exact ⟨ev, by simp [h1], h2⟩
  rw [he]
  rcases h1.inv with ⟨ha, h3, rfl⟩ | ⟨a, ha, ⟨h3, rfl, h4⟩ | ⟨h3, call, out, h4, h5, h6⟩⟩
  · rw [ha]
    by_cases hl : flagOn T.flags GF.LOG_UNCHANGED_RECORDS = true
    · rw [if_pos hl]; simp [Attempt]
    · rw [if_neg hl]; simp
  · rw [ha]; simp [Attempt]
  · rw [ha]
    have : Event.call call out ∈ evs1 := by
      rcases h6 with ⟨x, _, _, rfl, _⟩ | ⟨x, _, _, rfl, _⟩ | ⟨_, rfl, _⟩ | ⟨_, _, rfl, _⟩ <;> simp
    exact ⟨fun _ => ⟨_, this, trivial⟩, fun _ => rfl⟩

theorem Tr.changed {T : TrCtx V} {l : List (Elem V)} {p p' : Nat} {evs : List (Event V)} {res : Except Err Bool} (h : Tr T l p evs p' res) :
    ∀ b, res = .ok b → (b = true ↔ ∃ ev ∈ evs, Attempt ev) := by
  have app : ∀ (a b : List (Event V)), (∃ ev ∈ a ++ b, Attempt ev) ↔ (∃ ev ∈ a, Attempt ev) ∨ ∃ ev ∈ b, Attempt ev := by
    intro a b
    constructor
    · rintro ⟨ev, h1, h2⟩
      rcases List.mem_append.1 h1 with h | h
      · exact .inl ⟨ev, h, h2⟩
      · exact .inr ⟨ev, h, h2⟩
    · rintro (⟨ev, h1, h2⟩ | ⟨ev, h1, h2⟩)
      · exact ⟨ev, by simp [h1], h2⟩
      · exact ⟨ev, by simp [h1], h2⟩
  refine Tr.ind (motive := fun _ _ evs _ res => ∀ b, res = .ok b → (b = true ↔ ∃ ev ∈ evs, Attempt ev)) ?_ ?_ ?_ ?_ ?_ ?_ ?_ ?_ h
  · rintro _ b h; cases h; simp
  · intro e l p evs p' x _ _ b h; cases h
  · intro e l p evs p1 b evs' p' r _ _ ih ih' c hc
    obtain ⟨d, rfl, rfl⟩ := orRes_ok hc
    rw [app, ← ih b rfl, ← ih' d rfl]; simp
  · intro e p x _ b h; cases h
  · intro e o p evs p' x _ _ _ _ b h; cases h
  · intro e o ctx p evs p' b evs' rb _ hn _ ⟨_, hb⟩ ih c hc
    cases rb with
    | error => cases hc
    | ok rb =>
      cases hc
      have := hb.attempt
      rw [hn.1] at this
      rw [app, app, ← this]
      simp
  · intro e o ctx p evs rb _ _ _ _ hb c hc
    cases rb with
    | error => cases hc
    | ok rb => cases hc; exact hb.attempt
  · intro e o ctx p evs evs' p' r _ _ _ _ hb _ ih c hc
    obtain ⟨d, rfl, rfl⟩ := orRes_ok hc
    have := app [.syncProgress (p + 1) T.total] evs'
    rw [List.singleton_append] at this
    rw [app, this, ← ih d rfl, ← hb.attempt]
    simp [Attempt]

/-! ## progress -/

@[simp] theorem progressOf_append (a b : List (Event V)) : progressOf (a ++ b) = progressOf a ++ progressOf b := by simp [progressOf]
@[simp] theorem progressOf_nil : progressOf ([] : List (Event V)) = [] := rfl
@[simp] theorem progressOf_progress (a b : Nat) (l : List (Event V)) : progressOf (.syncProgress a b :: l) = (a, b) :: progressOf l := rfl

theorem progressOf_warn {evs : List (Event V)} (h : ChildWarn evs) : progressOf evs = [] := by
  induction evs with
  | nil => rfl
  | cons ev evs ih =>
    obtain ⟨a, b, c, d, rfl⟩ := h ev (by simp)
    exact ih (fun ev hev => h ev (by simp [hev]))

theorem BodyTr.no_progress {T : TrCtx V} {e : Elem V} {o : Option Nat} {ctx : LogCtx} {evs : List (Event V)} {r : Except Err Bool} (h : BodyTr T e o ctx evs r) :
    progressOf evs = [] := by
  obtain ⟨evs1, tail, r1, h1, rfl, h2⟩ := h.inv
  have ht : progressOf tail = [] := by
    rcases h2 with ⟨_, _, rfl, _⟩ | ⟨_, rfl, _⟩ | ⟨_, h, _⟩
    · rfl
    · rfl
    · exact progressOf_warn h
  rw [progressOf_append, ht, List.append_nil]
  rcases h1.inv with ⟨ha, h3, rfl⟩ | ⟨a, ha, ⟨h3, rfl, h4⟩ | ⟨h3, call, out, h4, h5, h6⟩⟩
  · split <;> rfl
  · rfl
  · rcases h6 with ⟨x, _, _, rfl, _⟩ | ⟨x, _, _, rfl, _⟩ | ⟨_, rfl, _⟩ | ⟨_, _, rfl, _⟩ <;> rfl

theorem countUp_add (t p k k' : Nat) : countUp t p (k + k') = countUp t p k ++ countUp t (p + k) k' := by
  induction k generalizing p with
  | zero => simp [countUp]
  | succ k ih =>
    rw [show k + 1 + k' = (k + k') + 1 by omega]
    simp only [countUp, ih, List.cons_append]
    rw [show p + 1 + k = p + (k + 1) by omega]

theorem Tr.progress {T : TrCtx V} {l : List (Elem V)} {p p' : Nat} {evs : List (Event V)} {res : Except Err Bool} (h : Tr T l p evs p' res) :
    ∃ k, p' = p + k ∧ progressOf evs = countUp T.total p k := by
  refine Tr.ind (motive := fun _ p evs p' _ => ∃ k, p' = p + k ∧ progressOf evs = countUp T.total p k) ?_ ?_ ?_ ?_ ?_ ?_ ?_ ?_ h
  · exact fun p => ⟨0, rfl, rfl⟩
  · exact fun _ h => h
  · rintro e l p evs p1 b evs' p' r _ _ ⟨k, rfl, h⟩ ⟨k', rfl, h'⟩
    exact ⟨k + k', by omega, by rw [progressOf_append, h, h', countUp_add]⟩
  · exact fun _ => ⟨0, rfl, rfl⟩
  · exact fun _ _ _ h => h
  · rintro e o ctx p evs p' b evs' rb _ _ _ ⟨_, hb⟩ ⟨k, rfl, h⟩
    rw [progressOf_append, progressOf_append, hb.no_progress, h]
    unfold tickIf progIf
    split
    · exact ⟨k + 1, by omega, by rw [countUp_add]; rfl⟩
    · exact ⟨k, rfl, by simp⟩
  · intro e o ctx p evs rb _ _ _ _ hb
    exact ⟨0, rfl, hb.no_progress⟩
  · rintro e o ctx p evs evs' p' r _ _ _ _ hb _ ⟨k, rfl, h⟩
    exact ⟨k + 1, by omega, by rw [progressOf_append, hb.no_progress, progressOf_progress, h]; rfl⟩

theorem NoMissing.left {a b : List (Event V)} (h : NoMissing (a ++ b)) : NoMissing a := fun c hc => h c (by simp [hc])
theorem NoMissing.right {a b : List (Event V)} (h : NoMissing (a ++ b)) : NoMissing b := fun c hc => h c (by simp [hc])
theorem NoMissing.tail {a : Event V} {b : List (Event V)} (h : NoMissing (a :: b)) : NoMissing b := fun c hc => h c (by simp [hc])

theorem BodyTr.not_false {T : TrCtx V} {e : Elem V} {o : Option Nat} {ctx : LogCtx} {evs : List (Event V)} {r : Except Err Bool} (h : BodyTr T e o ctx evs r)
    (hm : NoMissing evs) : r ≠ .ok false := by
  rintro rfl
  obtain ⟨evs1, tail, r1, h1, rfl, h2⟩ := h.inv
  rcases h2 with ⟨_, _, _, h⟩ | ⟨_, rfl, _⟩ | ⟨_, _, h | ⟨_, _, h⟩⟩
  · cases h
  · exact hm ctx (by simp)
  · cases h
  · cases h

theorem Tr.progress_le {T : TrCtx V} (hR : T.dc.Reorders) {l : List (Elem V)} {p p' : Nat} {evs : List (Event V)} {res : Except Err Bool}
    (h : Tr T l p evs p' res) : p' ≤ p + (nodesL l).length ∧
      ((∃ b, res = .ok b) → NoMissing evs → (∀ e o ctx, InTree e l → T.F e o → RecordOf T.A e ctx → ¬ Shortcut e o) → p' = p + (nodesL l).length) := by
  have single : ∀ e : Elem V, (nodesL [e]).length = 1 + (nodesL (getChildren T.dc e.kids)).length := fun e => by
    have hk : (nodesL (getChildren T.dc e.kids)).Perm (nodesL e.kids) := by
      rw [nodesL_eq, nodesL_eq]; exact (getChildren_perm hR _).flatMap_right _
    rw [hk.length_eq, show nodesL [e] = e :: nodesL e.kids by rw [nodesL_eq]; simp [Elem.nodes_eq], List.length_cons]; omega
  have two : ∀ (e : Elem V) l, (nodesL (e :: l)).length = (nodesL [e]).length + (nodesL l).length := fun e l => by simp [nodesL_eq]
  have sub : ∀ {e x : Elem V}, InTree x (getChildren T.dc e.kids) → InTree x [e] :=
    fun h => .under List.mem_cons_self (h.mono (fun _ hk => mem_of_getChildren hk))
  refine Tr.ind (motive := fun l p evs p' res => p' ≤ p + (nodesL l).length ∧
      ((∃ b, res = .ok b) → NoMissing evs → (∀ e o ctx, InTree e l → T.F e o → RecordOf T.A e ctx → ¬ Shortcut e o) → p' = p + (nodesL l).length)) ?_ ?_ ?_ ?_ ?_ ?_ ?_ ?_ h
  · exact fun p => ⟨by omega, fun _ _ _ => by simp [nodesL_eq]⟩
  · rintro e l p evs p' x _ ⟨h, _⟩
    refine ⟨?_, ?_⟩
    · have := two e l; omega
    · rintro ⟨_, h⟩; cases h
  · rintro e l p evs p1 b evs' p' r _ _ ⟨h1, h2⟩ ⟨h3, h4⟩
    have := two e l
    refine ⟨by omega, fun ⟨c, hc⟩ hm hs => ?_⟩
    obtain ⟨d, rfl, _⟩ := orRes_ok hc
    have e1 := h2 ⟨b, rfl⟩ hm.left (fun x o ctx hx => hs x o ctx (hx.mono (by simp)))
    have e2 := h4 ⟨d, rfl⟩ hm.right (fun x o ctx hx => hs x o ctx (hx.mono (fun _ h => List.mem_cons_of_mem _ h)))
    omega
  · exact fun _ => ⟨by omega, fun ⟨_, h⟩ => by cases h⟩
  · rintro e o p evs p' x _ _ _ ⟨h, _⟩
    have := single e
    exact ⟨by omega, fun ⟨_, h⟩ => by cases h⟩
  · rintro e o ctx p evs p' b evs' rb _ _ _ ⟨_, hb⟩ ⟨h1, h2⟩
    have := single e
    have ht : tickIf rb p' ≤ p' + 1 := by unfold tickIf; split <;> omega
    refine ⟨by omega, fun ⟨c, hc⟩ hm hs => ?_⟩
    have e1 := h2 ⟨b, rfl⟩ hm.left (fun x o ctx hx => hs x o ctx (sub hx))
    have hf := hb.not_false hm.right.left
    cases rb with
    | error => cases hc
    | ok rb =>
      cases rb with
      | false => exact absurd rfl hf
      | true => simp only [tickIf]; omega
  · rintro e o ctx p evs rb hF _ hrec hsc hb
    refine ⟨by omega, fun ⟨c, hc⟩ hm hs => ?_⟩
    have hf := hb.not_false hm
    cases rb with
    | error => cases hc
    | ok rb =>
      cases rb with
      | false => exact absurd rfl hf
      | true => exact absurd (hsc rfl) (hs e o ctx (inTree_self _) hF hrec)
  · rintro e o ctx p evs evs' p' r _ _ _ _ hb _ ⟨h1, h2⟩
    have := single e
    refine ⟨by omega, fun ⟨c, hc⟩ hm hs => ?_⟩
    obtain ⟨d, rfl, _⟩ := orRes_ok hc
    have e1 := h2 ⟨d, rfl⟩ hm.right.tail (fun x o ctx hx => hs x o ctx (sub hx))
    omega

/-! ## splitting lists of events -/

theorem split_append {α : Type} {a b A B : List α} {c : α} (h : a ++ b = A ++ c :: B) :
    (∃ A', A = a ++ A' ∧ b = A' ++ c :: B) ∨ ∃ B', B = B' ++ b ∧ a = A ++ c :: B' := by
  rcases List.append_eq_append_iff.1 h with ⟨a', h1, h2⟩ | ⟨c', h1, h2⟩
  · exact .inl ⟨a', h1, h2⟩
  · cases c' with
    | nil => exact .inl ⟨[], by simpa using h1.symm, by simpa using h2.symm⟩
    | cons x xs =>
      simp only [List.cons_append, List.cons.injEq] at h2
      obtain ⟨rfl, h2⟩ := h2
      exact .inr ⟨xs, h2, h1⟩

theorem split_single {α : Type} {a A B : List α} {c d : α} (h : d :: a = A ++ c :: B) :
    (A = [] ∧ c = d ∧ B = a) ∨ ∃ A', A = d :: A' ∧ a = A' ++ c :: B := by
  cases A with
  | nil => simp only [List.nil_append, List.cons.injEq] at h; exact .inl ⟨rfl, h.1.symm, h.2.symm⟩
  | cons x A => simp only [List.cons_append, List.cons.injEq] at h; obtain ⟨rfl, h⟩ := h; exact .inr ⟨A, rfl, h⟩

theorem not_split_nil {α : Type} {A B : List α} {c : α} (h : [] = A ++ c :: B) : False := by
  have := congrArg List.length h; simp at this

theorem warn_split {evs A B : List (Event V)} {ev : Event V} (h : ChildWarn evs) (he : evs = A ++ ev :: B) : ∃ a b c d, ev = .childNotFound a b c d :=
  h ev (by rw [he]; simp)

theorem progIf_split {r : Except Err Bool} {p t : Nat} {A B : List (Event V)} {ev : Event V} (he : progIf r p t = A ++ ev :: B) : ev = .syncProgress (p + 1) t := by
  unfold progIf at he
  split at he
  · rcases split_single he with ⟨_, h, _⟩ | ⟨_, _, h⟩
    · exact h
    · exact (not_split_nil h).elim
  · exact (not_split_nil he).elim

/-! ## a failing call -/

/-- After a call that raised, no other call; and the result is the exception, unless it is to be passed over. -/
def StopsAt (flags : Nat) (evs : List (Event V)) (res : Except Err Bool) : Prop :=
  ∀ A c out B x, evs = A ++ .call c out :: B → out.result = .raises x → (x.isCrud = true → flagOn flags GF.CONTINUE_ON_FAILURE = false) →
    callsOf B = [] ∧ res = .error x

theorem BodyTr.stopsAt {T : TrCtx V} {e : Elem V} {o : Option Nat} {ctx : LogCtx} {evs : List (Event V)} {r : Except Err Bool} (h : BodyTr T e o ctx evs r) :
    StopsAt T.flags evs r := by
  intro A c out B x he ho hx
  obtain ⟨evs1, tail, r1, h1, rfl, h2⟩ := h.inv
  have key : ∀ A B, evs1 = A ++ .call c out :: B → callsOf B = [] ∧ r1 = .error x := by
    intro A B he
    rcases h1.inv with ⟨ha, h3, rfl⟩ | ⟨a, ha, ⟨h3, rfl, h4⟩ | ⟨h3, call, out', h4, h5, h6⟩⟩
    · split at he
      · rcases split_single he with ⟨_, h, _⟩ | ⟨_, _, h⟩
        · cases h
        · exact (not_split_nil h).elim
      · exact (not_split_nil he).elim
    · rcases split_single he with ⟨_, h, _⟩ | ⟨_, _, h⟩
      · cases h
      · exact (not_split_nil h).elim
    · rcases h6 with ⟨y, hy, hc, rfl, rfl⟩ | ⟨y, hy, hc, rfl, rfl⟩ | ⟨hy, rfl, rfl⟩ | ⟨_, hy, rfl, rfl⟩
      · rcases split_single he with ⟨_, h, rfl⟩ | ⟨_, _, h⟩
        · cases h
          rw [hy] at ho; cases ho
          exact ⟨rfl, failRes_neg _ (by rw [hx hc]; simp)⟩
        · rcases split_single h with ⟨_, h, _⟩ | ⟨_, _, h⟩
          · cases h
          · exact (not_split_nil h).elim
      · rcases split_single he with ⟨_, h, rfl⟩ | ⟨_, _, h⟩
        · cases h
          rcases hc with hc | ⟨_, hc⟩
          · rw [hc] at ho; cases ho; exact ⟨rfl, rfl⟩
          · rw [hc] at ho; cases ho
        · exact (not_split_nil h).elim
      · rcases split_single he with ⟨_, h, rfl⟩ | ⟨_, _, h⟩
        · cases h
          rw [hy] at ho; cases ho
        · rcases split_single h with ⟨_, h, _⟩ | ⟨_, _, h⟩
          · cases h
          · exact (not_split_nil h).elim
      · rcases split_single he with ⟨_, h, rfl⟩ | ⟨_, _, h⟩
        · cases h
          rw [hy] at ho; cases ho
        · rcases split_single h with ⟨_, h, _⟩ | ⟨_, _, h⟩
          · cases h
          · exact (not_split_nil h).elim
  rcases split_append he with ⟨A', _, h⟩ | ⟨B', rfl, h⟩
  · exfalso
    rcases h2 with ⟨_, _, rfl, _⟩ | ⟨_, rfl, _⟩ | ⟨_, hw, _⟩
    · exact not_split_nil h
    · rcases split_single h with ⟨_, h, _⟩ | ⟨_, _, h⟩
      · cases h
      · exact not_split_nil h
    · obtain ⟨_, _, _, _, h⟩ := warn_split hw h; cases h
  · obtain ⟨h3, rfl⟩ := key _ _ h
    rcases h2 with ⟨y, hy, rfl, rfl⟩ | ⟨hy, _⟩ | ⟨hy, _⟩
    · cases hy; exact ⟨by simpa using h3, rfl⟩
    · cases hy
    · cases hy

theorem StopsAt.seq {flags : Nat} {evs evs' : List (Event V)} {b : Bool} {res res' : Except Err Bool} (h : StopsAt flags evs (.ok b)) (h' : StopsAt flags evs' res)
    (he : ∀ x, res = .error x → res' = .error x) : StopsAt flags (evs ++ evs') res' := by
  intro A c out B x hs ho hx
  rcases split_append hs with ⟨A', _, hs⟩ | ⟨B', _, hs⟩
  · obtain ⟨h1, h2⟩ := h' _ _ _ _ _ hs ho hx
    exact ⟨h1, he _ h2⟩
  · cases (h _ _ _ _ _ hs ho hx).2

theorem StopsAt.quiet {flags : Nat} {evs : List (Event V)} {res : Except Err Bool} (h : callsOf evs = []) : StopsAt flags evs res := by
  intro A c out B x hs
  rw [hs] at h; simp at h

theorem Tr.stopsAt {T : TrCtx V} {l : List (Elem V)} {p p' : Nat} {evs : List (Event V)} {res : Except Err Bool} (h : Tr T l p evs p' res) :
    StopsAt T.flags evs res := by
  refine Tr.ind (motive := fun _ _ evs _ res => StopsAt T.flags evs res) ?_ ?_ ?_ ?_ ?_ ?_ ?_ ?_ h
  · exact fun _ => .quiet rfl
  · exact fun _ h => h
  · exact fun _ _ h h' => h.seq h' (by rintro x rfl; rfl)
  · exact fun _ => .quiet rfl
  · exact fun _ _ _ h => h
  · intro e o ctx p evs p' b evs' rb _ _ _ ⟨_, hb⟩ h
    refine h.seq (res := rb) ?_ (by rintro x rfl; rfl)
    cases rb with
    | error x => simpa [progIf] using hb.stopsAt
    | ok rb => exact hb.stopsAt.seq (res := .ok rb) (.quiet (callsOf_progIf _ _ _)) (by rintro x ⟨⟩)
  · intro e o ctx p evs rb _ _ _ _ hb
    cases rb with
    | error x => exact hb.stopsAt
    | ok rb => 
      intro A c out B x hs ho hx
      cases (hb.stopsAt _ _ _ _ _ hs ho hx).2
  · intro e o ctx p evs evs' p' r _ _ _ _ hb _ h
    refine hb.stopsAt.seq (res := r) ?_ (by rintro x rfl; rfl)
    have : StopsAt T.flags ([.syncProgress (p + 1) T.total] ++ evs') r := StopsAt.seq (b := true) (.quiet rfl) h (fun _ h => h)
    simpa using this

/-- An error that ends a sync without CONTINUE_ON_FAILURE being set, or in spite of it. -/
theorem BodyTr.err_cont {T : TrCtx V} {e : Elem V} {o : Option Nat} {ctx : LogCtx} {evs : List (Event V)} {r : Except Err Bool} (h : BodyTr T e o ctx evs r)
    (hc : flagOn T.flags GF.CONTINUE_ON_FAILURE = true) {x : Err} (hr : r = .error x) : x.isCrud = false := by
  obtain ⟨evs1, tail, r1, h1, rfl, h2⟩ := h.inv
  subst hr
  rcases h2 with ⟨y, rfl, _, h2⟩ | ⟨_, _, h2⟩ | ⟨_, _, h2 | ⟨y, hy, h2⟩⟩
  · cases h2
    rcases h1.inv with ⟨_, h3, _⟩ | ⟨a, _, ⟨_, _, h4⟩ | ⟨_, call, out', _, _, h6⟩⟩
    · cases h3
    · rw [failRes_pos _ hc] at h4; cases h4
    · rcases h6 with ⟨y, _, _, _, h⟩ | ⟨y, h', _, _, h⟩ | ⟨_, _, h⟩ | ⟨_, _, _, h⟩
      · rw [failRes_pos _ hc] at h; cases h
      · cases h; exact h'
      · cases h
      · cases h
  · cases h2
  · cases h2
  · cases h2; exact hy

theorem Tr.err_cont {T : TrCtx V} (hc : flagOn T.flags GF.CONTINUE_ON_FAILURE = true) {l : List (Elem V)} {p p' : Nat} {evs : List (Event V)} {res : Except Err Bool}
    (h : Tr T l p evs p' res) : ∀ x, res = .error x → x.isCrud = false := by
  refine Tr.ind (motive := fun _ _ _ _ res => ∀ x, res = .error x → x.isCrud = false) ?_ ?_ ?_ ?_ ?_ ?_ ?_ ?_ h
  · intro _ x h; cases h
  · exact fun _ h => h
  · intro e l p evs p1 b evs' p' r _ _ _ h x hx; exact h x (orRes_err hx)
  · intro e p x h y hy; cases hy; exact h
  · exact fun _ _ _ h => h
  · intro e o ctx p evs p' b evs' rb _ _ _ ⟨_, hb⟩ _ x hx
    cases rb with
    | error y => cases hx; exact hb.err_cont hc rfl
    | ok => cases hx
  · intro e o ctx p evs rb _ _ _ _ hb x hx
    cases rb with
    | error y => cases hx; exact hb.err_cont hc rfl
    | ok => cases hx
  · intro e o ctx p evs evs' p' r _ _ _ _ hb _ h x hx; exact h x (orRes_err hx)

/-- A CRUD exception that ends a sync was raised by user code or by a refused action. -/
theorem Tr.err_source {T : TrCtx V} {l : List (Elem V)} {p p' : Nat} {evs : List (Event V)} {res : Except Err Bool}
    (h : Tr T l p evs p' res) : ∀ x, res = .error x → x.isCrud = true →
      (∃ c out, Event.call c out ∈ evs ∧ out.result = .raises x) ∨ ∃ e o a, InTree e l ∧ T.F e o ∧ e.action = some a ∧ CallOK a o = false ∧ x = staleErr a := by
  have body : ∀ {e : Elem V} {o : Option Nat} {ctx : LogCtx} {evs : List (Event V)} {x}, T.F e o → BodyTr T e o ctx evs (.error x) → x.isCrud = true →
      (∃ c out, Event.call c out ∈ evs ∧ out.result = .raises x) ∨ ∃ e' o a, InTree e' [e] ∧ T.F e' o ∧ e'.action = some a ∧ CallOK a o = false ∧ x = staleErr a := by
    intro e o ctx evs x hF h hx
    obtain ⟨evs1, tail, r1, h1, rfl, h2⟩ := h.inv
    rcases h2 with ⟨y, rfl, rfl, h2⟩ | ⟨_, _, h2⟩ | ⟨_, _, h2 | ⟨y, hy, h2⟩⟩
    · cases h2
      rcases h1.inv with ⟨_, h3, _⟩ | ⟨a, ha, ⟨hk, _, h4⟩ | ⟨_, call, out', _, _, h6⟩⟩
      · cases h3
      · right
        unfold failRes at h4; split at h4 <;> cases h4
        exact ⟨e, o, a, inTree_self _, hF, ha, hk, rfl⟩
      · left
        rcases h6 with ⟨y, h, _, rfl, h'⟩ | ⟨y, h', _, _, h⟩ | ⟨_, _, h⟩ | ⟨_, _, _, h⟩
        · unfold failRes at h'; split at h' <;> cases h'
          exact ⟨call, out', by simp, h⟩
        · cases h; rw [hx] at h'; cases h'
        · cases h
        · cases h
    · cases h2
    · cases h2
    · cases h2; rw [hx] at hy; cases hy
  have sub : ∀ {e x : Elem V}, InTree x (getChildren T.dc e.kids) → InTree x [e] :=
    fun h => .under List.mem_cons_self (h.mono (fun _ hk => mem_of_getChildren hk))
  refine Tr.ind (motive := fun l _ evs _ res => ∀ x, res = .error x → x.isCrud = true →
      (∃ c out, Event.call c out ∈ evs ∧ out.result = .raises x) ∨ ∃ e o a, InTree e l ∧ T.F e o ∧ e.action = some a ∧ CallOK a o = false ∧ x = staleErr a) ?_ ?_ ?_ ?_ ?_ ?_ ?_ ?_ h
  · intro _ x h; cases h
  · intro e l p evs p' y _ h x hx hc
    rcases h x hx hc with h | ⟨e', o, a, h1, h2⟩
    · exact .inl h
    · exact .inr ⟨e', o, a, h1.mono (by simp), h2⟩
  · intro e l p evs p1 b evs' p' r _ _ _ h x hx hc
    rcases h x (orRes_err hx) hc with ⟨c, out, h1, h2⟩ | ⟨e', o, a, h1, h2⟩
    · exact .inl ⟨c, out, by simp [h1], h2⟩
    · exact .inr ⟨e', o, a, h1.mono (fun _ h => List.mem_cons_of_mem _ h), h2⟩
  · intro e p x h y hy hc; cases hy; rw [hc] at h; cases h
  · intro e o p evs p' y _ _ _ h x hx hc
    rcases h x hx hc with h | ⟨e', o, a, h1, h2⟩
    · exact .inl h
    · exact .inr ⟨e', o, a, sub h1, h2⟩
  · intro e o ctx p evs p' b evs' rb hF _ _ ⟨_, hb⟩ _ x hx hc
    cases rb with
    | error y =>
      cases hx
      rcases body hF hb hc with ⟨c, out, h1, h2⟩ | h
      · exact .inl ⟨c, out, by simp [h1], h2⟩
      · exact .inr h
    | ok => cases hx
  · intro e o ctx p evs rb hF _ _ _ hb x hx hc
    cases rb with
    | error y => cases hx; exact body hF hb hc
    | ok => cases hx
  · intro e o ctx p evs evs' p' r _ _ _ _ hb _ h x hx hc
    rcases h x (orRes_err hx) hc with ⟨c, out, h1, h2⟩ | ⟨e', o, a, h1, h2⟩
    · exact .inl ⟨c, out, by simp [h1], h2⟩
    · exact .inr ⟨e', o, a, sub h1, h2⟩

end DS
