import Verif.Lemmas.SyncRun
/-! The events of one element: its own and those of what is below it. -/
set_option linter.unusedSectionVars false

namespace DS
variable {V E : Type} [PyVal V]

/-- The events of one element. -/
inductive One (T : TrCtx V) (e : Elem V) : Nat → List (Event V) → Nat → Except Err Bool → Prop where
  | bad {p x} : x.isCrud = false → One T e p [] p (.error x)
  | natFail {o p evs p' x} : T.F e o → NatFirst e o → Tr T (getChildren T.dc e.kids) p evs p' (.error x) → One T e p evs p' (.error x)
  | nat {o ctx p evs p' b evs' rb} : T.F e o → NatFirst e o → Tr T (getChildren T.dc e.kids) p evs p' (.ok b) → RecordAfter T e evs ctx ∧ BodyTr T e o ctx evs' rb →
      One T e p (evs ++ (evs' ++ progIf rb p' T.total)) (tickIf rb p') (didRes true rb)
  | leaf {o ctx p evs rb} : T.F e o → ¬ NatFirst e o → RecordOf T.A e ctx → (rb = .ok true → Shortcut e o) → BodyTr T e o ctx evs rb →
      One T e p evs p (didRes e.action.isSome rb)
  | pre {o ctx p evs evs' p' r} : T.F e o → ¬ NatFirst e o → ¬ Shortcut e o → RecordOf T.A e ctx → BodyTr T e o ctx evs (.ok true) →
      Tr T (getChildren T.dc e.kids) (p + 1) evs' p' r → One T e p (evs ++ .syncProgress (p + 1) T.total :: evs') p' (orRes e.action.isSome r)

theorem Tr.one {T : TrCtx V} {e : Elem V} {p p' : Nat} {evs : List (Event V)} {res : Except Err Bool} (h : Tr T [e] p evs p' res) : One T e p evs p' res := by
  generalize hl : [e] = l0 at h
  cases h with
  | nil => cases hl
  | bad h => cases hl; exact .bad h
  | natFail h1 h2 h3 => cases hl; exact .natFail h1 h2 h3
  | natStop h1 h2 h3 h4 => cases hl; simpa [progIf, tickIf, didRes] using One.nat h1 h2 h3 h4
  | natNone h1 h2 h3 h4 h5 => cases hl; obtain ⟨rfl, rfl, rfl⟩ := h5.nil_inv; simpa [progIf, tickIf, didRes, orRes] using One.nat h1 h2 h3 h4
  | natObj h1 h2 h3 h4 h5 => cases hl; obtain ⟨rfl, rfl, rfl⟩ := h5.nil_inv; simpa [progIf, tickIf, didRes, orRes] using One.nat h1 h2 h3 h4
  | stop h1 h2 h3 h4 => cases hl; simpa [didRes] using One.leaf h1 h2 h3 (by intro h; cases h) h4
  | noObj h1 h2 h3 h4 h5 => cases hl; obtain ⟨rfl, rfl, rfl⟩ := h5.nil_inv; simpa [didRes, orRes] using One.leaf h1 h2 h3 (by intro h; cases h) h4
  | @short _ _ o _ _ _ _ _ _ h1 h2 h3 h4 h5 =>
    cases hl; obtain ⟨rfl, rfl, rfl⟩ := h5.nil_inv
    have hn : ¬ NatFirst e o := fun h => by have := h.2.2; rw [h2.2] at this; cases this
    simpa [didRes, orRes, h2.1] using One.leaf h1 hn h3 (fun _ => h2) h4
  | kidsStop h1 h2 h3 h4 h5 h6 => cases hl; simpa [orRes] using One.pre h1 h2 h3 h4 h5 h6
  | kids h1 h2 h3 h4 h5 h6 h7 => cases hl; obtain ⟨rfl, rfl, rfl⟩ := h7.nil_inv; simpa [orRes] using One.pre h1 h2 h3 h4 h5 h6

/-- No call about the element itself. -/
def Silent (A : Adapter V) (x : Elem V) (evs : List (Event V)) : Prop := ∀ c out, Prescribes A x c → Event.call c out ∉ evs

theorem Silent.nil {A : Adapter V} {x : Elem V} : Silent A x [] := fun _ _ _ h => by cases h
theorem Silent.append {A : Adapter V} {x : Elem V} {a b : List (Event V)} (h : Silent A x a) (h' : Silent A x b) : Silent A x (a ++ b) := by
  intro c out hp hc
  rcases List.mem_append.1 hc with hc | hc
  · exact h c out hp hc
  · exact h' c out hp hc
theorem Silent.quiet {A : Adapter V} {x : Elem V} {a : List (Event V)} (h : callsOf a = []) : Silent A x a := by
  intro c out hp hc
  rw [← mem_callsOf, h] at hc; cases hc
theorem Foreign.silent {A : Adapter V} {x y : Elem V} {evs : List (Event V)} (h : Foreign A x evs) (hy : InTree y [x]) : Silent A y evs :=
  fun c out hp => h y c out hy hp

theorem Tr.silent {T : TrCtx V} {l : List (Elem V)} {p p' : Nat} {evs : List (Event V)} {res : Except Err Bool} (h : Tr T l p evs p' res) {x : Elem V}
    (hd : ∀ z k, InTree z l → ElemKey T.A x k → ¬ ElemKey T.A z k) : Silent T.A x evs := by
  intro c out hp hc
  obtain ⟨z, hz, hpz, _⟩ := h.mem_call c out hc
  obtain ⟨k, h1, h2⟩ := hp.same hpz
  exact hd z k hz h1 h2

theorem BodyTr.silent {T : TrCtx V} {e : Elem V} {o : Option Nat} {ctx : LogCtx} {evs : List (Event V)} {r : Except Err Bool} (h : BodyTr T e o ctx evs r) {x : Elem V}
    (hd : ∀ k, ElemKey T.A x k → ¬ ElemKey T.A e k) : Silent T.A x evs := by
  intro c out hp hc
  obtain ⟨hpz, _⟩ := h.mem_call hc
  obtain ⟨k, h1, h2⟩ := hp.same hpz
  exact hd k h1 h2

theorem kids_silent {T : TrCtx V} {e : Elem V} (hd : DistinctKeys T.A [e]) {p p' : Nat} {evs : List (Event V)} {res : Except Err Bool}
    (h : Tr T (getChildren T.dc e.kids) p evs p' res) : Silent T.A e evs :=
  h.silent (fun z k hz hk => hd.kids.2 k hk z (hz.mono (fun _ h => mem_of_getChildren h)))

theorem distinct_sub {A : Adapter V} {l : List (Elem V)} {x : Elem V} (h : DistinctKeys A l) (hx : InTree x l) : DistinctKeys A [x] := by
  have key : ∀ {l' : List (Elem V)} {e : Elem V}, DistinctKeys A l' → e ∈ l' → DistinctKeys A [e] := by
    intro l' e h he
    obtain ⟨a, b, rfl⟩ := List.append_of_mem he
    have hp : (a ++ e :: b).Perm (e :: (a ++ b)) := List.perm_middle
    exact (h.perm hp).cons.1
  induction hx with
  | here hm => exact key h hm
  | under hm _ ih => exact ih (key h hm).kids.1

/-- Where the own part of an element is: either the sync made no call about it, or its body is in the events, no other call is
about it, what comes before and after it contains the events of what is below. -/
theorem Tr.own {T : TrCtx V} (hR : T.dc.Reorders) {l : List (Elem V)} (hD : DistinctKeys T.A l) {p p' : Nat} {evs : List (Event V)} {res : Except Err Bool}
    (h : Tr T l p evs p' res) {x : Elem V} (hx : InTree x l) :
    (Foreign T.A x evs) ∨
    (∃ L B R o ctx rb, evs = L ++ (B ++ R) ∧ T.F x o ∧ BodyTr T x o ctx B rb ∧ Silent T.A x L ∧ Silent T.A x R ∧
      (∀ err, rb = .error err → R = [] ∧ res = .error err) ∧
      (¬ NatFirst x o → RecordOf T.A x ctx ∧ (∀ y, InTree y x.kids → Silent T.A y L) ∧ (rb ≠ .ok true ∨ Shortcut x o → ∀ y, InTree y x.kids → Silent T.A y R)) ∧
      (NatFirst x o → ∀ y, InTree y x.kids → Silent T.A y R)) ∨
    ∃ o x', T.F x o ∧ NatFirst x o ∧ res = .error x' ∧ Silent T.A x evs := by
  have below : ∀ {y : Elem V}, InTree y x.kids → InTree y [x] := fun hy => .under List.mem_cons_self hy
  have hDx := distinct_sub hD hx
  rcases h.locate hR (D := True) (fun _ => hD) hx with ⟨L, B, R, q, q', r, rfl, h1, h2, h3⟩ | ⟨h1, _⟩
  · obtain ⟨f1, f2⟩ := h3 trivial
    have s1 : Silent T.A x L := f1.silent (inTree_self _)
    have s2 : Silent T.A x R := f2.silent (inTree_self _)
    cases h1.one with
    | bad =>
      obtain ⟨rfl, _⟩ := h2 _ rfl
      exact .inl (by simpa using f1)
    | natFail g1 g2 g3 =>
      obtain ⟨rfl, e2⟩ := h2 _ rfl
      exact .inr (.inr ⟨_, _, g1, g2, e2, by simpa using s1.append (kids_silent hDx g3)⟩)
    | @nat o ctx _ evs1 p1 b evs' rb g1 g2 g3 g4 =>
      have g4 := g4.2
      refine .inr (.inl ⟨L ++ evs1, evs', progIf rb p1 T.total ++ R, o, ctx, rb, by simp [List.append_assoc], g1, g4, s1.append (kids_silent hDx g3),
        (Silent.quiet (callsOf_progIf _ _ _)).append s2, ?_, fun hn => absurd g2 hn, fun _ y hy => (Silent.quiet (callsOf_progIf _ _ _)).append (f2.silent (below hy))⟩)
      rintro err rfl
      obtain ⟨rfl, e2⟩ := h2 err rfl
      exact ⟨rfl, e2⟩
    | @leaf o ctx _ evs' rb g1 g2 g3 g4 g5 =>
      refine .inr (.inl ⟨L, B, R, o, ctx, rb, rfl, g1, g5, s1, s2, ?_, fun _ => ⟨g3, fun y hy => f1.silent (below hy), fun _ y hy => f2.silent (below hy)⟩, fun hn => absurd hn g2⟩)
      rintro err rfl
      exact h2 err rfl
    | @pre o ctx _ evs1 evs' p1 r g1 g2 g3 g4 g5 g6 =>
      refine .inr (.inl ⟨L, evs1, (.syncProgress (q + 1) T.total :: evs') ++ R, o, ctx, .ok true, by simp [List.append_assoc], g1, g5, s1, ?_, ?_, ?_, fun hn => absurd hn g2⟩)
      · refine Silent.append ?_ s2
        have : Silent T.A x ([.syncProgress (q + 1) T.total] ++ evs') := (Silent.quiet rfl).append (kids_silent hDx g6)
        simpa using this
      · intro err h; cases h
      · intro _
        refine ⟨g4, fun y hy => f1.silent (below hy), ?_⟩
        rintro (h | h)
        · exact absurd rfl h
        · exact absurd h g3
  · exact .inl (h1 trivial)


/-- Something is attempted only for an element with an action. -/
theorem Tr.mem_attempt {T : TrCtx V} {l : List (Elem V)} {p p' : Nat} {evs : List (Event V)} {res : Except Err Bool} (h : Tr T l p evs p' res) :
    (∃ ev ∈ evs, Attempt ev) → ∃ e, InTree e l ∧ e.action ≠ none := by
  have sub : ∀ {e x : Elem V}, InTree x (getChildren T.dc e.kids) → InTree x [e] :=
    fun h => .under List.mem_cons_self (h.mono (fun _ hk => mem_of_getChildren hk))
  have body : ∀ {e : Elem V} {o ctx} {evs : List (Event V)} {rb}, BodyTr T e o ctx evs rb → (∃ ev ∈ evs, Attempt ev) → ∃ x, InTree x [e] ∧ x.action ≠ none := by
    intro e o ctx evs rb hb ha
    refine ⟨e, inTree_self _, ?_⟩
    have := hb.attempt.2 ha
    intro h; rw [h] at this; cases this
  refine Tr.ind (motive := fun l _ evs _ _ => (∃ ev ∈ evs, Attempt ev) → ∃ e, InTree e l ∧ e.action ≠ none) ?_ ?_ ?_ ?_ ?_ ?_ ?_ ?_ h
  · rintro _ ⟨_, h, _⟩; cases h
  · rintro e l p evs p' x _ ih ha
    obtain ⟨y, h1, h2⟩ := ih ha
    exact ⟨y, h1.mono (by simp), h2⟩
  · rintro e l p evs p1 b evs' p' r _ _ ih ih' ⟨ev, hm, ha⟩
    rcases List.mem_append.1 hm with hm | hm
    · obtain ⟨y, h1, h2⟩ := ih ⟨ev, hm, ha⟩; exact ⟨y, h1.mono (by simp), h2⟩
    · obtain ⟨y, h1, h2⟩ := ih' ⟨ev, hm, ha⟩; exact ⟨y, h1.mono (fun _ h => List.mem_cons_of_mem _ h), h2⟩
  · rintro _ _ _ _ ⟨_, h, _⟩; cases h
  · rintro e o p evs p' x _ _ _ ih ha
    obtain ⟨y, h1, h2⟩ := ih ha
    exact ⟨y, sub h1, h2⟩
  · rintro e o ctx p evs p' b evs' rb _ hn _ ⟨_, hb⟩ ih _
    exact ⟨e, inTree_self _, by rw [hn.1]; simp⟩
  · rintro e o ctx p evs rb _ _ _ _ hb ha
    exact body hb ha
  · rintro e o ctx p evs evs' p' r _ _ _ _ hb _ ih ⟨ev, hm, ha⟩
    rcases List.mem_append.1 hm with hm | hm
    · exact body hb ⟨ev, hm, ha⟩
    · rcases List.mem_cons.1 hm with hm | hm
      · subst hm; cases ha
      · obtain ⟨y, h1, h2⟩ := ih ⟨ev, hm, ha⟩; exact ⟨y, sub h1, h2⟩

/-- A sync of elements reports no progress of a comparison. -/
theorem Tr.no_diffProgress {T : TrCtx V} {l : List (Elem V)} {p p' : Nat} {evs : List (Event V)} {res : Except Err Bool} (h : Tr T l p evs p' res) (a b : Nat) :
    Event.diffProgress a b ∉ evs := by
  have body : ∀ {e : Elem V} {o ctx} {evs : List (Event V)} {rb}, BodyTr T e o ctx evs rb → Event.diffProgress a b ∉ evs := by
    intro e o ctx evs rb hb
    have own : ∀ {evs : List (Event V)} {r}, OwnTr T e o ctx evs r → Event.diffProgress a b ∉ evs := by
      intro evs r ho
      cases ho <;> try simp
    have warn : ∀ {ws : List (Event V)}, ChildWarn ws → Event.diffProgress a b ∉ ws := by
      intro ws hw hm
      obtain ⟨_, _, _, _, h⟩ := hw _ hm; cases h
    cases hb with
    | raised ho => exact own ho
    | noObject ho => simp [own ho]
    | storeFail ho hw _ => simp [own ho, warn hw.1]
    | obj ho hw => simp [own ho, warn hw.1]
  induction h with
  | nil => simp
  | bad => simp
  | natFail _ _ _ ih => exact ih
  | natStop _ _ _ hb ih => simp [ih, body hb.2]
  | natNone _ _ _ hb _ ih ih' => simp [ih, ih', body hb.2]
  | natObj _ _ _ hb _ ih ih' => simp [ih, ih', body hb.2]
  | stop _ _ _ hb => exact body hb
  | noObj _ _ _ hb _ ih => simp [ih, body hb]
  | short _ _ _ hb _ ih => simp [ih, body hb]
  | kidsStop _ _ _ _ hb _ ih => simp [ih, body hb]
  | kids _ _ _ _ hb _ _ ih ih' => simp [ih, ih', body hb]

end DS
