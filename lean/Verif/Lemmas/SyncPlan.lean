import Verif.Lemmas.SyncFacts
/-! The order of calls; where the events of an element are. -/
set_option linter.unusedSectionVars false

namespace DS
variable {V E : Type} [PyVal V]

theorem ElemKey.unique {A : Adapter V} {e : Elem V} {k k' : Key} (h : ElemKey A e k) (h' : ElemKey A e k') : k = k' := by
  obtain ⟨c, u, h1, h2, rfl⟩ := h
  obtain ⟨c', u', h1', h2', rfl⟩ := h'
  cases h1.symm.trans h1'
  cases h2.symm.trans h2'
  rfl

theorem ElemKey.type {A : Adapter V} {e : Elem V} {k : Key} (h : ElemKey A e k) : k = (e.type, k.2) := by
  obtain ⟨c, u, _, _, rfl⟩ := h; rfl

theorem Prescribes.unique {A : Adapter V} {e : Elem V} {c c' : CrudCall V} (h : Prescribes A e c) (h' : Prescribes A e c') : c = c' := by
  obtain ⟨u, h1, h2⟩ := h
  obtain ⟨u', h1', h2'⟩ := h'
  cases h1.unique h1'
  cases ha : e.action with
  | none => simp [ha] at h2
  | some a => cases a <;> simp only [ha] at h2 h2' <;> rw [h2, h2']

theorem Prescribes.exists {A : Adapter V} {e : Elem V} {k : Key} (hk : ElemKey A e k) (ha : e.action ≠ none) : ∃ c, Prescribes A e c := by
  rw [hk.type] at hk
  cases he : e.action with
  | none => exact absurd he ha
  | some a =>
    cases a with
    | create => exact ⟨.create e.type e.keys (e.plus.getD []), k.2, hk, by rw [he]⟩
    | update => exact ⟨.update e.type k.2 (e.plus.getD []), k.2, hk, by rw [he]⟩
    | delete => exact ⟨.delete e.type k.2, k.2, hk, by rw [he]⟩

theorem Prescribes.action {A : Adapter V} {e : Elem V} {c : CrudCall V} (h : Prescribes A e c) : e.action ≠ none := by
  obtain ⟨u, _, h2⟩ := h
  intro ha; simp [ha] at h2

/-- A call prescribed by two elements is about the same object. -/
theorem Prescribes.same {A : Adapter V} {e e' : Elem V} {c : CrudCall V} (h : Prescribes A e c) (h' : Prescribes A e' c) :
    ∃ k, ElemKey A e k ∧ ElemKey A e' k := by
  obtain ⟨u, h1, h2⟩ := h
  obtain ⟨u', h1', h2'⟩ := h'
  refine ⟨_, h1, ?_⟩
  cases ha : e.action with
  | none => simp [ha] at h2
  | some a =>
    cases hb : e'.action with
    | none => simp [hb] at h2'
    | some b =>
      cases a <;> cases b <;> simp only [ha] at h2 <;> simp only [hb] at h2' <;> subst h2 <;> simp at h2'
      · obtain ⟨c1, u1, g1, g2, g3⟩ := h1
        cases g3
        obtain ⟨ht, hk, _⟩ := h2'
        exact ⟨c1, u, by rw [← ht]; exact g1, by rw [← hk]; exact g2, by rw [ht]⟩
      · rw [h2'.1, h2'.2.1]; exact h1'
      · rw [h2'.1, h2'.2]; exact h1'

/-! ## the plan -/

section
variable {A : Adapter V} {dc : DiffClass V} {N : Key → Option Nat}

theorem CallPlan.cons {e : Elem V} {l : List (Elem V)} {cs cs' : List (CrudCall V)} (h : CallPlan A dc N [e] cs) (h' : CallPlan A dc N l cs') :
    CallPlan A dc N (e :: l) (cs ++ cs') := by
  have nil : ∀ {cs}, CallPlan A dc N [] cs → cs = [] := by
    intro cs h
    generalize hl : ([] : List (Elem V)) = l at h
    cases h <;> cases hl; rfl
  generalize hl : [e] = l0 at h
  cases h with
  | nil => cases hl
  | nothing h1 h2 h3 => cases hl; cases nil h3; simpa using CallPlan.nothing h1 h2 h'
  | objectFirst h1 h2 h3 h4 h5 h6 => cases hl; cases nil h6; simpa using CallPlan.objectFirst h1 h2 h3 h4 h5 h'
  | childrenFirst h1 h2 h3 h4 h5 h6 => cases hl; cases nil h6; simpa using CallPlan.childrenFirst h1 h2 h3 h4 h5 h'
  | childrenSkipped h1 h2 h3 h4 => cases hl; cases nil h4; simpa using CallPlan.childrenSkipped h1 h2 h3 h'

/-- The plan is unique. -/
theorem CallPlan.unique {l : List (Elem V)} {cs cs' : List (CrudCall V)} (h : CallPlan A dc N l cs) (h' : CallPlan A dc N l cs') : cs = cs' := by
  induction h generalizing cs' with
  | nil =>
    generalize hl : ([] : List (Elem V)) = l at h'
    cases h' <;> cases hl; rfl
  | nothing h1 _ _ ih ih' =>
    cases h' with
    | nothing g1 g2 g3 => rw [ih g2, ih' g3]
    | objectFirst g1 => exact absurd h1 g1.action
    | childrenFirst g1 => exact absurd h1 g1.action
    | childrenSkipped g1 => exact absurd h1 g1.action
  | objectFirst h1 h2 h3 h4 _ _ ih ih' =>
    cases h' with
    | nothing g1 => exact absurd g1 h1.action
    | objectFirst g1 g2 g3 g4 g5 g6 => rw [ih g5, ih' g6, h1.unique g1]
    | childrenFirst g1 g2 g3 g4 => cases h2.unique g2; exact absurd g4 h4
    | childrenSkipped g1 g2 g3 => cases h2.unique g2; exact absurd g3 h3
  | childrenFirst h1 h2 h3 h4 _ _ ih ih' =>
    cases h' with
    | nothing g1 => exact absurd g1 h1.action
    | objectFirst g1 g2 g3 g4 g5 g6 => cases h2.unique g2; exact absurd h4 g4
    | childrenFirst g1 g2 g3 g4 g5 g6 => rw [ih g5, ih' g6, h1.unique g1]
    | childrenSkipped g1 g2 g3 => cases h2.unique g2; exact absurd g3 h3
  | childrenSkipped h1 h2 h3 _ ih =>
    cases h' with
    | nothing g1 => exact absurd g1 h1.action
    | objectFirst g1 g2 g3 g4 g5 g6 => cases h2.unique g2; exact absurd h3 g3
    | childrenFirst g1 g2 g3 g4 g5 g6 => cases h2.unique g2; exact absurd h3 g3
    | childrenSkipped g1 g2 g3 g4 => rw [ih g4, h1.unique g1]

theorem CallPlan.of_list {l : List (Elem V)} (h : ∀ e ∈ l, ∃ cs, CallPlan A dc N [e] cs) : ∃ cs, CallPlan A dc N l cs := by
  induction l with
  | nil => exact ⟨_, .nil⟩
  | cons e l ih =>
    obtain ⟨cs, h1⟩ := h e (by simp)
    obtain ⟨cs', h2⟩ := ih (fun x hx => h x (List.mem_cons_of_mem _ hx))
    exact ⟨_, h1.cons h2⟩

theorem CallPlan.single {e : Elem V} {k : Key} (hk : ElemKey A e k) {cs : List (CrudCall V)} (h : CallPlan A dc N (getChildren dc e.kids) cs) :
    ∃ cs, CallPlan A dc N [e] cs := by
  by_cases ha : e.action = none
  · exact ⟨_, .nothing ha h .nil⟩
  · obtain ⟨c, hc⟩ := Prescribes.exists hk ha
    by_cases hs : e.action = some .delete ∧ Flagged N k MF.SKIP_CHILDREN_ON_DELETE
    · exact ⟨_, .childrenSkipped hc hk hs .nil⟩
    · by_cases hn : e.action = some .delete ∧ Flagged N k MF.NATURAL_DELETION_ORDER
      · exact ⟨_, .childrenFirst hc hk hs hn h .nil⟩
      · exact ⟨_, .objectFirst hc hk hs hn h .nil⟩

/-- There is a plan when every element is about some object. -/
theorem CallPlan.exists (l : List (Elem V)) (h : ∀ e, InTree e l → ∃ k, ElemKey A e k) : ∃ cs, CallPlan A dc N l cs := by
  have key : ∀ e : Elem V, (∀ x, InTree x [e] → ∃ k, ElemKey A x k) → ∃ cs, CallPlan A dc N [e] cs := by
    intro e
    refine Elem.ind (P := fun e => (∀ x, InTree x [e] → ∃ k, ElemKey A x k) → ∃ cs, CallPlan A dc N [e] cs) ?_ e
    intro e ih hk
    obtain ⟨k, hk0⟩ := hk e (inTree_self _)
    obtain ⟨cs, hcs⟩ := CallPlan.of_list (A := A) (dc := dc) (N := N) (l := getChildren dc e.kids) (fun x hx =>
      ih x (mem_of_getChildren hx) (fun y hy => hk y (.under List.mem_cons_self (hy.mono (by
        intro z hz; rw [List.mem_singleton] at hz; subst hz; exact mem_of_getChildren hx)))))
    exact CallPlan.single hk0 hcs
  exact CallPlan.of_list (fun e he => key e (fun x hx => h x (hx.mono (by
    intro z hz; rw [List.mem_singleton] at hz; subst hz; exact he))))

end

/-- What the grammar must know of the objects found: they are the ones stored at the start. -/
def FlagsKnown (T : TrCtx V) (N : Key → Option Nat) : Prop := ∀ e o k, T.F e o → ElemKey T.A e k → ∀ fl, o = some fl → N k = some fl

theorem BodyTr.found {T : TrCtx V} {e : Elem V} {o : Option Nat} {ctx : LogCtx} {evs : List (Event V)} {r : Except Err Bool} (h : BodyTr T e o ctx evs r)
    (ha : e.action = some .delete) {c} (hc : c ∈ callsOf evs) : ∃ fl, o = some fl := by
  rcases h.calls with ⟨h1, _⟩ | ⟨a, call, out', h0, h1, _⟩
  · rw [h1] at hc; cases hc
  · rw [ha] at h0; cases h0
    cases o with
    | none => simp [CallOK] at h1
    | some fl => exact ⟨fl, rfl⟩

theorem oflag_flagged {o : Option Nat} {N : Key → Option Nat} {k : Key} (hN : ∀ fl, o = some fl → N k = some fl) {fl : Nat} (ho : o = some fl) (b : Nat) :
    oflag o b = true ↔ Flagged N k b := by
  subst ho
  have := hN fl rfl
  constructor
  · intro h; exact ⟨fl, this, h⟩
  · rintro ⟨fl', h1, h2⟩; rw [this] at h1; cases h1; exact h2

/-- The calls made so far are the beginning of the plan; all of it when the sync ends well. -/
theorem Tr.plan {T : TrCtx V} {N : Key → Option Nat} (hN : FlagsKnown T N) {l : List (Elem V)} {p p' : Nat} {evs : List (Event V)} {res : Except Err Bool}
    (h : Tr T l p evs p' res) : (∀ e, InTree e l → ∃ k, ElemKey T.A e k) → NoMissing evs →
      ∃ rest, CallPlan T.A T.dc N l ((callsOf evs).map Prod.fst ++ rest) ∧ ((∃ b, res = .ok b) → rest = []) := by
  have sub : ∀ {e x : Elem V}, InTree x (getChildren T.dc e.kids) → InTree x [e] :=
    fun h => .under List.mem_cons_self (h.mono (fun _ hk => mem_of_getChildren hk))
  -- the calls of an element itself
  have own : ∀ {e : Elem V} {o : Option Nat} {ctx : LogCtx} {evs : List (Event V)} {rb : Except Err Bool}, T.F e o → BodyTr T e o ctx evs rb →
      ((callsOf evs).map Prod.fst = [] ∧ ((∃ x, rb = .error x) ∨ rb = .ok false ∨ e.action = none)) ∨
      ∃ call, (callsOf evs).map Prod.fst = [call] ∧ Prescribes T.A e call ∧ (∀ k, ElemKey T.A e k → e.action = some .delete → 
        (oflag o MF.SKIP_CHILDREN_ON_DELETE = true ↔ Flagged N k MF.SKIP_CHILDREN_ON_DELETE) ∧
        (oflag o MF.NATURAL_DELETION_ORDER = true ↔ Flagged N k MF.NATURAL_DELETION_ORDER)) := by
    intro e o ctx evs rb hF hb
    rcases hb.calls with ⟨h1, h2⟩ | ⟨a, call, out, h0, h1, h2, h3, h4, _⟩
    · left
      refine ⟨by rw [h1]; rfl, ?_⟩
      rcases h2 with ⟨h, _⟩ | ⟨h, _⟩
      · exact .inr (.inr h)
      · cases rb with
        | error x => exact .inl ⟨x, rfl⟩
        | ok b => cases b with
          | true => exact absurd rfl h
          | false => exact .inr (.inl rfl)
    · right
      refine ⟨call, by rw [h2]; rfl, h3, fun k hk ha => ?_⟩
      obtain ⟨fl, ho⟩ := hb.found ha (c := (call, out)) (by rw [h2]; simp)
      exact ⟨oflag_flagged (hN e o k hF hk) ho _, oflag_flagged (hN e o k hF hk) ho _⟩
  refine Tr.ind (motive := fun l _ evs _ res => (∀ e, InTree e l → ∃ k, ElemKey T.A e k) → NoMissing evs →
      ∃ rest, CallPlan T.A T.dc N l ((callsOf evs).map Prod.fst ++ rest) ∧ ((∃ b, res = .ok b) → rest = [])) ?_ ?_ ?_ ?_ ?_ ?_ ?_ ?_ h
  · exact fun _ _ _ => ⟨[], .nil, fun _ => rfl⟩
  · intro e l p evs p' x _ ih hk hm
    obtain ⟨rest, h1, _⟩ := ih (fun x hx => hk x (hx.mono (by simp))) hm
    obtain ⟨cs, h2⟩ := CallPlan.exists (A := T.A) (dc := T.dc) (N := N) l (fun x hx => hk x (hx.mono (fun _ h => List.mem_cons_of_mem _ h)))
    refine ⟨rest ++ cs, ?_, by rintro ⟨_, h⟩; cases h⟩
    rw [← List.append_assoc]; exact h1.cons h2
  · intro e l p evs p1 b evs' p' r _ _ ih ih' hk hm
    obtain ⟨rest, h1, h2⟩ := ih (fun x hx => hk x (hx.mono (by simp))) hm.left
    cases h2 ⟨b, rfl⟩
    obtain ⟨rest, h3, h4⟩ := ih' (fun x hx => hk x (hx.mono (fun _ h => List.mem_cons_of_mem _ h))) hm.right
    refine ⟨rest, ?_, ?_⟩
    · have := h1.cons h3
      simpa [List.append_assoc] using this
    · rintro ⟨c, hc⟩
      obtain ⟨d, rfl, _⟩ := orRes_ok hc
      exact h4 ⟨d, rfl⟩
  · intro e p x _ hk _
    obtain ⟨cs, h⟩ := CallPlan.exists (A := T.A) (dc := T.dc) (N := N) [e] hk
    exact ⟨cs, by simpa using h, by rintro ⟨_, h⟩; cases h⟩
  · intro e o p evs p' x hF hn _ ih hk hm
    obtain ⟨rest, h1, h2⟩ := ih (fun x hx => hk x (sub hx)) hm
    obtain ⟨k, hk0⟩ := hk e (inTree_self _)
    obtain ⟨c, hc⟩ := Prescribes.exists hk0 (by rw [hn.1]; simp)
    have ho : ∃ fl, o = some fl := by
      cases o with
      | none => have := hn.2.1; simp [oflag] at this
      | some fl => exact ⟨fl, rfl⟩
    obtain ⟨fl, ho⟩ := ho
    have e1 := oflag_flagged (hN e o k hF hk0) ho
    refine ⟨rest ++ [c], ?_, by rintro ⟨_, h⟩; cases h⟩
    rw [← List.append_assoc]
    refine .childrenFirst hc hk0 (fun h => ?_) ⟨hn.1, (e1 _).1 hn.2.1⟩ h1 .nil
    have := (e1 _).2 h.2
    rw [hn.2.2] at this; cases this
  · intro e o ctx p evs p' b evs' rb hF hn _ ⟨_, hb⟩ ih hk hm
    obtain ⟨rest, h1, h2⟩ := ih (fun x hx => hk x (sub hx)) hm.left
    cases h2 ⟨b, rfl⟩
    obtain ⟨k, hk0⟩ := hk e (inTree_self _)
    obtain ⟨c, hc⟩ := Prescribes.exists hk0 (by rw [hn.1]; simp)
    have ho : ∃ fl, o = some fl := by
      cases o with
      | none => have := hn.2.1; simp [oflag] at this
      | some fl => exact ⟨fl, rfl⟩
    obtain ⟨fl, ho⟩ := ho
    have e1 := oflag_flagged (hN e o k hF hk0) ho
    rw [List.append_nil] at h1
    have hp : CallPlan T.A T.dc N [e] ((callsOf evs).map Prod.fst ++ [c]) := by
      refine .childrenFirst hc hk0 (fun h => ?_) ⟨hn.1, (e1 _).1 hn.2.1⟩ h1 .nil
      have := (e1 _).2 h.2
      rw [hn.2.2] at this; cases this
    rcases own hF hb with ⟨h3, h4⟩ | ⟨call, h3, h4, _⟩
    · refine ⟨[c], by simp only [callsOf_append, callsOf_progIf, List.map_append, h3, List.append_nil]; exact hp, ?_⟩
      rintro ⟨d, hd⟩
      rcases h4 with ⟨x, rfl⟩ | rfl | h4
      · cases hd
      · exact absurd rfl (hb.not_false hm.right.left)
      · rw [hn.1] at h4; cases h4
    · cases hc.unique h4
      exact ⟨[], by simp only [callsOf_append, callsOf_progIf, List.map_append, h3, List.append_nil]; exact hp, fun _ => rfl⟩
  · intro e o ctx p evs rb hF hn _ hs hb hk hm
    obtain ⟨k, hk0⟩ := hk e (inTree_self _)
    rcases own hF hb with ⟨h3, h4⟩ | ⟨call, h3, h4, h5⟩
    · obtain ⟨cs, h⟩ := CallPlan.exists (A := T.A) (dc := T.dc) (N := N) [e] hk
      refine ⟨cs, by rw [h3]; exact h, ?_⟩
      rintro ⟨d, hd⟩
      exfalso
      rcases h4 with ⟨x, rfl⟩ | rfl | h4
      · cases hd
      · exact absurd rfl (hb.not_false hm)
      · cases rb with
        | error => cases hd
        | ok rb =>
          cases rb with
          | false => exact absurd rfl (hb.not_false hm)
          | true => have := (hs rfl).1; rw [h4] at this; cases this
    · rw [h3]
      by_cases hsk : e.action = some .delete ∧ Flagged N k MF.SKIP_CHILDREN_ON_DELETE
      · exact ⟨[], .childrenSkipped h4 hk0 hsk .nil, fun _ => rfl⟩
      · have hns : ¬ Shortcut e o := fun h => hsk ⟨h.1, (h5 k hk0 h.1).1.1 h.2⟩
        have hnn : ¬ (e.action = some .delete ∧ Flagged N k MF.NATURAL_DELETION_ORDER) := by
          rintro ⟨ha, hf⟩
          refine hn ⟨ha, (h5 k hk0 ha).2.2 hf, ?_⟩
          by_cases hx : oflag o MF.SKIP_CHILDREN_ON_DELETE = true
          · exact absurd ⟨ha, hx⟩ hns
          · simpa using hx
        obtain ⟨cs, hcs⟩ := CallPlan.exists (A := T.A) (dc := T.dc) (N := N) (getChildren T.dc e.kids) (fun x hx => hk x (sub hx))
        refine ⟨cs, ?_, ?_⟩
        · have := CallPlan.objectFirst h4 hk0 hsk hnn hcs .nil
          simpa using this
        · rintro ⟨d, hd⟩
          exfalso
          cases rb with
          | error => cases hd
          | ok rb =>
            cases rb with
            | false => exact absurd rfl (hb.not_false hm)
            | true => exact hns (hs rfl)
  · intro e o ctx p evs evs' p' r hF hn hns _ hb _ ih hk hm
    obtain ⟨rest, h1, h2⟩ := ih (fun x hx => hk x (sub hx)) hm.right.tail
    obtain ⟨k, hk0⟩ := hk e (inTree_self _)
    have hrest : (∃ b, orRes e.action.isSome r = .ok b) → rest = [] := by
      rintro ⟨c, hc⟩
      obtain ⟨d, rfl, _⟩ := orRes_ok hc
      exact h2 ⟨d, rfl⟩
    rcases own hF hb with ⟨h3, h4⟩ | ⟨call, h3, h4, h5⟩
    · rcases h4 with ⟨x, h⟩ | h | h4
      · cases h
      · cases h
      · refine ⟨rest, ?_, hrest⟩
        have := CallPlan.nothing h4 h1 .nil
        simpa [h3] using this
    · refine ⟨rest, ?_, hrest⟩
      have := CallPlan.objectFirst (A := T.A) (dc := T.dc) (flagsAt := N) (l := []) h4 hk0 (fun h => hns ⟨h.1, (h5 k hk0 h.1).1.2 h.2⟩) (by
          rintro ⟨ha, hf⟩
          refine hn ⟨ha, (h5 k hk0 ha).2.2 hf, ?_⟩
          by_cases hx : oflag o MF.SKIP_CHILDREN_ON_DELETE = true
          · exact absurd ⟨ha, hx⟩ hns
          · simpa using hx) h1 .nil
      simpa [h3] using this

/-! ## where the events of an element are -/

/-- No call about the element or one below it. -/
def Foreign (A : Adapter V) (x : Elem V) (evs : List (Event V)) : Prop := ∀ y c out, InTree y [x] → Prescribes A y c → Event.call c out ∉ evs

theorem Foreign.nil {A : Adapter V} {x : Elem V} : Foreign A x [] := fun _ _ _ _ _ h => by cases h
theorem Foreign.append {A : Adapter V} {x : Elem V} {a b : List (Event V)} (h : Foreign A x a) (h' : Foreign A x b) : Foreign A x (a ++ b) := by
  intro y c out hy hp hc
  rcases List.mem_append.1 hc with hc | hc
  · exact h y c out hy hp hc
  · exact h' y c out hy hp hc
theorem Foreign.quiet {A : Adapter V} {x : Elem V} {a : List (Event V)} (h : callsOf a = []) : Foreign A x a := by
  intro y c out hy hp hc
  rw [← mem_callsOf, h] at hc; cases hc

theorem Tr.foreign {T : TrCtx V} {l : List (Elem V)} {p p' : Nat} {evs : List (Event V)} {res : Except Err Bool} (h : Tr T l p evs p' res) {x : Elem V}
    (hd : ∀ y z k, InTree y [x] → InTree z l → ElemKey T.A y k → ¬ ElemKey T.A z k) : Foreign T.A x evs := by
  intro y c out hy hp hc
  obtain ⟨z, hz, hpz, _⟩ := h.mem_call c out hc
  obtain ⟨k, h1, h2⟩ := hp.same hpz
  exact hd y z k hy hz h1 h2

theorem BodyTr.foreign {T : TrCtx V} {e : Elem V} {o : Option Nat} {ctx : LogCtx} {evs : List (Event V)} {r : Except Err Bool} (h : BodyTr T e o ctx evs r) {x : Elem V}
    (hd : ∀ y k, InTree y [x] → ElemKey T.A y k → ¬ ElemKey T.A e k) : Foreign T.A x evs := by
  intro y c out hy hp hc
  obtain ⟨hpz, _⟩ := h.mem_call hc
  obtain ⟨k, h1, h2⟩ := hp.same hpz
  exact hd y k hy h1 h2

/-- Either the events of a sync contain those of the element `x` (and, when keys are distinct, no call about it or what is
below it elsewhere), or `x` is not reached: the sync has failed, or there is no object for an element above `x`, or the
children of an element above `x` are skipped. -/
def Loc (T : TrCtx V) (D : Prop) (l : List (Elem V)) (x : Elem V) (evs : List (Event V)) (res : Except Err Bool) : Prop :=
  (∃ L B R q q' r, evs = L ++ (B ++ R) ∧ Tr T [x] q B q' r ∧ (∀ err, r = .error err → R = [] ∧ res = .error err) ∧ (D → Foreign T.A x L ∧ Foreign T.A x R)) ∨
  ((D → Foreign T.A x evs) ∧ ((∃ err, res = .error err) ∨ ∃ a o ctx B rb L R, InTree a l ∧ InTree x a.kids ∧ T.F a o ∧ ¬ NatFirst a o ∧ RecordOf T.A a ctx ∧
    evs = L ++ (B ++ R) ∧ BodyTr T a o ctx B rb ∧ (rb = .ok false ∨ rb = .ok true ∧ Shortcut a o)))

theorem Loc.embed {T : TrCtx V} {D : Prop} {l : List (Elem V)} {x : Elem V} {evs : List (Event V)} {res : Except Err Bool} (h : Loc T D l x evs res)
    {l' : List (Elem V)} {res' : Except Err Bool} (L0 R0 : List (Event V)) (hsub : ∀ a, InTree a l → InTree a l') (hf : D → Foreign T.A x L0 ∧ Foreign T.A x R0)
    (he : ∀ err, res = .error err → R0 = [] ∧ res' = .error err) : Loc T D l' x (L0 ++ (evs ++ R0)) res' := by
  rcases h with ⟨L, B, R, q, q', r, rfl, h2, h3, h4⟩ | ⟨h1, h2⟩
  · refine .inl ⟨L0 ++ L, B, R ++ R0, q, q', r, by simp [List.append_assoc], h2, ?_, ?_⟩
    · intro err hr
      obtain ⟨h5, h6⟩ := h3 err hr
      obtain ⟨h7, h8⟩ := he err h6
      exact ⟨by rw [h5, h7]; rfl, h8⟩
    · intro hd; exact ⟨(hf hd).1.append (h4 hd).1, (h4 hd).2.append (hf hd).2⟩
  · refine .inr ⟨fun hd => (hf hd).1.append ((h1 hd).append (hf hd).2), ?_⟩
    rcases h2 with ⟨err, h2⟩ | ⟨a, o, ctx, B, rb, L, R, g1, g2, g3, g4, g7, rfl, g5, g6⟩
    · exact .inl ⟨err, (he err h2).2⟩
    · exact .inr ⟨a, o, ctx, B, rb, L0 ++ L, R ++ R0, hsub a g1, g2, g3, g4, g7, by simp [List.append_assoc], g5, g6⟩

theorem inTree_trans {x y : Elem V} {l : List (Elem V)} (hx : InTree x l) (hy : InTree y x.kids) : InTree y l := by
  induction hx with
  | here h => exact .under h hy
  | under h _ ih => exact .under h ih

theorem Tr.locate {T : TrCtx V} (hR : T.dc.Reorders) {D : Prop} {x : Elem V} {l : List (Elem V)} {p p' : Nat} {evs : List (Event V)} {res : Except Err Bool}
    (h : Tr T l p evs p' res) : (D → DistinctKeys T.A l) → InTree x l → Loc T D l x evs res := by
  have sub : ∀ {e x : Elem V}, InTree x (getChildren T.dc e.kids) → InTree x [e] :=
    fun h => .under List.mem_cons_self (h.mono (fun _ hk => mem_of_getChildren hk))
  have ord : ∀ {e x : Elem V}, InTree x e.kids → InTree x (getChildren T.dc e.kids) :=
    fun h => h.mono (fun _ hk => (getChildren_perm hR _).mem_iff.2 hk)
  have below : ∀ {y x : Elem V} {l}, InTree y [x] → InTree x l → InTree y l := by
    intro y x l hy hx
    cases hy with
    | here h => rw [List.mem_singleton] at h; subst h; exact hx
    | under h hy => rw [List.mem_singleton] at h; subst h; exact inTree_trans hx hy
  have kidsD : ∀ {e : Elem V}, (D → DistinctKeys T.A [e]) → D → DistinctKeys T.A (getChildren T.dc e.kids) :=
    fun h hd => (h hd).kids.1.perm (getChildren_perm hR _).symm
  have self : ∀ {e : Elem V} {p evs p' res}, Tr T [e] p evs p' res → Loc T D [e] e evs res := fun {e p evs p' res} h =>
    .inl ⟨[], evs, [], p, p', res, by simp, h, fun err h => ⟨rfl, h⟩, fun _ => ⟨.nil, .nil⟩⟩
  have bodyF : ∀ {e : Elem V} {o ctx evs rb}, (D → DistinctKeys T.A [e]) → InTree x e.kids → BodyTr T e o ctx evs rb → D → Foreign T.A x evs :=
    fun hD hx hb hd => hb.foreign (fun y k hy hk hk' => (hD hd).kids.2 k hk' y (below hy hx) hk)
  suffices hmain : Tr T l p evs p' res → (D → DistinctKeys T.A l) → InTree x l → Loc T D l x evs res from hmain h
  refine Tr.ind (motive := fun l p evs p' res => Tr T l p evs p' res → (D → DistinctKeys T.A l) → InTree x l → Loc T D l x evs res) ?_ ?_ ?_ ?_ ?_ ?_ ?_ ?_ h
  · intro p _ _ hx; cases hx with
    | here h => cases h
    | under h => cases h
  · intro e l p evs p' err ht ih _ hD hx
    rcases inTree_cons hx with hx | hx
    · have := (ih ht (fun hd => (hD hd).cons.1) hx).embed (l' := e :: l) (res' := .error err) [] [] (fun a h => h.mono (by simp)) (fun _ => ⟨.nil, .nil⟩)
        (fun _ h => ⟨rfl, h⟩)
      simpa using this
    · refine .inr ⟨fun hd => ht.foreign (fun y z k hy hz hk hk' => (hD hd).cons.2.2 z k hz hk' y (below hy hx) hk), .inl ⟨err, rfl⟩⟩
  · intro e l p evs p1 b evs' p' r ht ht' ih ih' _ hD hx
    rcases inTree_cons hx with hx | hx
    · have := (ih ht (fun hd => (hD hd).cons.1) hx).embed (l' := e :: l) (res' := orRes b r) [] evs' (fun a h => h.mono (by simp)) (fun hd => ⟨.nil,
        ht'.foreign (fun y z k hy hz hk hk' => (hD hd).cons.2.2 y k (below hy hx) hk z hz hk')⟩) (fun _ h => by cases h)
      simpa using this
    · have := (ih' ht' (fun hd => (hD hd).cons.2.1) hx).embed (l' := e :: l) (res' := orRes b r) evs [] (fun a h => h.mono (fun _ h => List.mem_cons_of_mem _ h))
        (fun hd => ⟨ht.foreign (fun y z k hy hz hk hk' => (hD hd).cons.2.2 z k hz hk' y (below hy hx) hk), .nil⟩) (by rintro err rfl; exact ⟨rfl, rfl⟩)
      simpa using this
  · intro e p err _ ht hD hx
    cases hx with
    | here h => rw [List.mem_singleton] at h; subst h; exact self ht
    | under h hx => exact .inr ⟨fun _ => .nil, .inl ⟨err, rfl⟩⟩
  · intro e o p evs p' err _ _ htk ih ht hD hx
    cases hx with
    | here h => rw [List.mem_singleton] at h; subst h; exact self ht
    | under h hx =>
      rw [List.mem_singleton] at h; subst h
      have := (ih htk (kidsD hD) (ord hx)).embed (res' := .error err) [] [] (fun a h => sub h) (fun _ => ⟨.nil, .nil⟩) (fun _ h => ⟨rfl, h⟩)
      simpa using this
  · intro e o ctx p evs p' b evs' rb _ _ htk ⟨_, hb⟩ ih ht hD hx
    cases hx with
    | here h => rw [List.mem_singleton] at h; subst h; exact self ht
    | under h hx =>
      rw [List.mem_singleton] at h; subst h
      exact (ih htk (kidsD hD) (ord hx)).embed (res' := didRes true rb) [] (evs' ++ progIf rb p' T.total) (fun a h => sub h)
        (fun hd => ⟨.nil, (bodyF hD hx hb hd).append (.quiet (callsOf_progIf _ _ _))⟩) (fun _ h => by cases h)
  · intro e o ctx p evs rb hF hn hrec hs hb ht hD hx
    cases hx with
    | here h => rw [List.mem_singleton] at h; subst h; exact self ht
    | under h hx =>
      rw [List.mem_singleton] at h; subst h
      refine .inr ⟨bodyF hD hx hb, ?_⟩
      cases rb with
      | error err => exact .inl ⟨err, rfl⟩
      | ok rb =>
        refine .inr ⟨_, o, ctx, evs, .ok rb, [], [], inTree_self _, hx, hF, hn, hrec, by simp, hb, ?_⟩
        cases rb with
        | false => exact .inl rfl
        | true => exact .inr ⟨rfl, hs rfl⟩
  · intro e o ctx p evs evs' p' r _ _ _ _ hb htk ih ht hD hx
    cases hx with
    | here h => rw [List.mem_singleton] at h; subst h; exact self ht
    | under h hx =>
      rw [List.mem_singleton] at h; rw [h] at hx
      have := (ih htk (kidsD hD) (ord hx)).embed (res' := orRes e.action.isSome r) (evs ++ [.syncProgress (p + 1) T.total]) [] (fun a h => sub h)
        (fun hd => ⟨(bodyF hD hx hb hd).append (.quiet rfl), .nil⟩) (by rintro err rfl; exact ⟨rfl, rfl⟩)
      simpa [List.append_assoc] using this

/-! ## outcome records -/

/-- The logger binding of the records about an element, given the object found for it: its own, or after the elements below it (NATURAL_DELETION_ORDER)
that of one of them. -/
def RecOwn (A : Adapter V) (e : Elem V) (o : Option Nat) (ctx : LogCtx) : Prop := RecordOf A e ctx ∨ (NatFirst e o ∧ RecordBelow A e ctx)

/-- What the record of a call names exactly, given the events before the call: what the record before names, if the object goes after elements below it,
else the object. -/
def RecExact (T : TrCtx V) (e : Elem V) (o : Option Nat) (L : List (Event V)) (ctx : LogCtx) : Prop :=
  (NatFirst e o → getChildren T.dc e.kids ≠ [] → LastRecord L ctx ∧ ∃ z, InTree z e.kids ∧ RecordOf T.A z ctx) ∧ (¬ (NatFirst e o ∧ getChildren T.dc e.kids ≠ []) → RecordOf T.A e ctx)

theorem RecExact.append {T : TrCtx V} {e : Elem V} {o : Option Nat} {L : List (Event V)} {ctx : LogCtx} (pre : List (Event V)) (h : RecExact T e o L ctx) :
    RecExact T e o (pre ++ L) ctx := ⟨fun h1 h2 => ⟨(h.1 h1 h2).1.append_left _, (h.1 h1 h2).2⟩, h.2⟩

/-- Every call is followed at once by a record about its object, unless it ends the sync by an exception other than a CRUD one; `pre` are the events
before. -/
def CallsLogged (T : TrCtx V) (l : List (Elem V)) (pre evs : List (Event V)) (res : Except Err Bool) : Prop :=
  ∀ L c out R, evs = L ++ .call c out :: R → (R = [] ∧ ∃ x, res = .error x ∧ x.isCrud = false) ∨
    ∃ e o ctx lv st R', InTree e l ∧ T.F e o ∧ Prescribes T.A e c ∧ (RecOwn T.A e o ctx ∧ RecExact T e o (pre ++ L) ctx ∧ ∃ a, e.action = some a ∧ CallOK a o = true) ∧
      R = .log lv ctx st :: R' ∧ Reported out.result lv st

/-- Every record of an attempt follows the call at once, or is about a refused action. -/
def LogsOwned (T : TrCtx V) (l : List (Elem V)) (evs : List (Event V)) : Prop :=
  ∀ L lv ctx st R, evs = L ++ .log lv ctx st :: R → lv ≠ .debug → ∃ e o, InTree e l ∧ T.F e o ∧ RecOwn T.A e o ctx ∧
    ((∃ L' c out, L = L' ++ [.call c out] ∧ Prescribes T.A e c) ∨ ∃ a, e.action = some a ∧ CallOK a o = false)

theorem levelOf_ne (st : Status) : levelOf st ≠ .debug := by cases st <;> simp [levelOf]

theorem BodyTr.logged {T : TrCtx V} {e : Elem V} {o : Option Nat} {ctx : LogCtx} {evs : List (Event V)} {r : Except Err Bool} (h : BodyTr T e o ctx evs r)
    (hF : T.F e o) (hrec : RecOwn T.A e o ctx) {pre : List (Event V)} (hex : RecExact T e o pre ctx) : CallsLogged T [e] pre evs r ∧ LogsOwned T [e] evs := by
  obtain ⟨evs1, tail, r1, h1, he, h2⟩ := h.inv
  have tailC : ∀ L c out R, tail ≠ L ++ .call c out :: R := by
    intro L c out R h
    rcases h2 with ⟨_, _, rfl, _⟩ | ⟨_, rfl, _⟩ | ⟨_, hw, _⟩
    · exact not_split_nil h
    · rcases split_single h with ⟨_, h, _⟩ | ⟨_, _, h⟩
      · cases h
      · exact not_split_nil h
    · obtain ⟨_, _, _, _, h⟩ := warn_split hw h; cases h
  have tailL : ∀ L lv c st R, tail ≠ L ++ .log lv c st :: R := by
    intro L lv c st R h
    rcases h2 with ⟨_, _, rfl, _⟩ | ⟨_, rfl, _⟩ | ⟨_, hw, _⟩
    · exact not_split_nil h
    · rcases split_single h with ⟨_, h, _⟩ | ⟨_, _, h⟩
      · cases h
      · exact not_split_nil h
    · obtain ⟨_, _, _, _, h⟩ := warn_split hw h; cases h
  have two : ∀ {a b : Event V} {L R} {x : Event V}, [a, b] = L ++ x :: R → (L = [] ∧ x = a ∧ R = [b]) ∨ (L = [a] ∧ x = b ∧ R = []) := by
    intro a b L R x h
    rcases split_single h with ⟨h1, h2, h3⟩ | ⟨A', hA, h⟩
    · exact .inl ⟨h1, h2, h3⟩
    · rcases split_single h with ⟨h1, h2, h3⟩ | ⟨_, _, h⟩
      · exact .inr ⟨by rw [hA, h1], h2, h3⟩
      · exact (not_split_nil h).elim
  have one : ∀ {a : Event V} {L R} {x : Event V}, [a] = L ++ x :: R → L = [] ∧ x = a ∧ R = [] := by
    intro a L R x h
    rcases split_single h with h | ⟨_, _, h⟩
    · exact h
    · exact (not_split_nil h).elim
  constructor
  · intro L c out R hs0
    rw [he] at hs0
    rcases split_append hs0 with ⟨A', _, hs⟩ | ⟨B', hR, hs⟩
    · exact absurd hs (tailC _ _ _ _)
    · rcases h1.inv with ⟨ha, h3, rfl⟩ | ⟨a, ha, ⟨h3, rfl, h4⟩ | ⟨h3, call, out', h4, h5, h6⟩⟩
      · split at hs
        · obtain ⟨_, h, _⟩ := one hs; cases h
        · exact (not_split_nil hs).elim
      · obtain ⟨_, h, _⟩ := one hs; cases h
      · rcases h6 with ⟨y, hy, hc, rfl, rfl⟩ | ⟨y, hy, hc, rfl, rfl⟩ | ⟨hy, rfl, rfl⟩ | ⟨_, hy, rfl, rfl⟩
        · rcases two hs with ⟨rfl, h, rfl⟩ | ⟨_, h, _⟩ <;> cases h
          exact .inr ⟨e, o, ctx, .error, .error, tail, inTree_self _, hF, h4, ⟨hrec, by rw [List.append_nil]; exact hex, a, ha, h3⟩, hR, by rw [hy]; exact ⟨rfl, rfl⟩⟩
        · obtain ⟨_, h, rfl⟩ := one hs; cases h
          left
          rcases h2 with ⟨z, hz, rfl, rfl⟩ | ⟨hz, _⟩ | ⟨hz, _⟩ <;> cases hz
          exact ⟨hR, y, rfl, hy⟩
        · rcases two hs with ⟨rfl, h, rfl⟩ | ⟨_, h, _⟩ <;> cases h
          exact .inr ⟨e, o, ctx, .warning, .failure, tail, inTree_self _, hF, h4, ⟨hrec, by rw [List.append_nil]; exact hex, a, ha, h3⟩, hR, by rw [hy]; exact ⟨rfl, rfl⟩⟩
        · rcases two hs with ⟨rfl, h, rfl⟩ | ⟨_, h, _⟩ <;> cases h
          exact .inr ⟨e, o, ctx, _, _, tail, inTree_self _, hF, h4, ⟨hrec, by rw [List.append_nil]; exact hex, a, ha, h3⟩, hR, by rw [hy]; rfl⟩
  · intro L lv c st R hs0 hlv
    rw [he] at hs0
    rcases split_append hs0 with ⟨A', _, hs⟩ | ⟨B', hR, hs⟩
    · exact absurd hs (tailL _ _ _ _ _)
    · refine ⟨e, o, inTree_self _, hF, ?_⟩
      rcases h1.inv with ⟨ha, h3, rfl⟩ | ⟨a, ha, ⟨h3, rfl, h4⟩ | ⟨h3, call, out', h4, h5, h6⟩⟩
      · split at hs
        · obtain ⟨_, h, _⟩ := one hs; cases h; exact absurd rfl hlv
        · exact (not_split_nil hs).elim
      · obtain ⟨_, h, _⟩ := one hs; cases h
        exact ⟨hrec, .inr ⟨a, ha, h3⟩⟩
      · rcases h6 with ⟨y, hy, hc, rfl, rfl⟩ | ⟨y, hy, hc, rfl, rfl⟩ | ⟨hy, rfl, rfl⟩ | ⟨_, hy, rfl, rfl⟩
        · rcases two hs with ⟨_, h, _⟩ | ⟨rfl, h, _⟩ <;> cases h
          exact ⟨hrec, .inl ⟨[], call, out', rfl, h4⟩⟩
        · obtain ⟨_, h, rfl⟩ := one hs; cases h
        · rcases two hs with ⟨_, h, _⟩ | ⟨rfl, h, _⟩ <;> cases h
          exact ⟨hrec, .inl ⟨[], call, out', rfl, h4⟩⟩
        · rcases two hs with ⟨_, h, _⟩ | ⟨rfl, h, _⟩ <;> cases h
          exact ⟨hrec, .inl ⟨[], call, out', rfl, h4⟩⟩

theorem Tr.logged {T : TrCtx V} {l : List (Elem V)} {p p' : Nat} {evs : List (Event V)} {res : Except Err Bool} (h : Tr T l p evs p' res) :
    CallsLogged T l [] evs res ∧ LogsOwned T l evs := by
  have sub : ∀ {e x : Elem V}, InTree x (getChildren T.dc e.kids) → InTree x [e] :=
    fun h => .under List.mem_cons_self (h.mono (fun _ hk => mem_of_getChildren hk))
  have monoC : ∀ {l l' : List (Elem V)} {pre evs res res'}, (∀ x, InTree x l → InTree x l') → (∀ x, res = .error x → res' = .error x) → CallsLogged T l pre evs res → CallsLogged T l' pre evs res' := by
    intro l l' pre evs res res' hs hr h L c out R he
    rcases h L c out R he with ⟨h1, x, h2, h3⟩ | ⟨e, o, ctx, lv, st, R', h1, h2⟩
    · exact .inl ⟨h1, x, hr x h2, h3⟩
    · exact .inr ⟨e, o, ctx, lv, st, R', hs e h1, h2⟩
  have monoL : ∀ {l l' : List (Elem V)} {evs}, (∀ x, InTree x l → InTree x l') → LogsOwned T l evs → LogsOwned T l' evs := by
    intro l l' evs hs h L lv c st R he hlv
    obtain ⟨e, o, h1, h2⟩ := h L lv c st R he hlv
    exact ⟨e, o, hs e h1, h2⟩
  have preC : ∀ {l : List (Elem V)} {pre evs evs' res}, CallsLogged T l pre evs res → CallsLogged T l (evs' ++ pre) evs res := by
    intro l pre evs evs' res h L c out R he
    rcases h L c out R he with h | ⟨e, o, ctx, lv, st, R', h1, h2, h3, ⟨h4, h5, h6⟩, h7⟩
    · exact .inl h
    · exact .inr ⟨e, o, ctx, lv, st, R', h1, h2, h3, ⟨h4, by rw [List.append_assoc]; exact h5.append _, h6⟩, h7⟩
  have preN : ∀ {l : List (Elem V)} {evs evs' res}, CallsLogged T l [] evs res → CallsLogged T l evs' evs res := by
    intro l evs evs' res h
    have := preC (evs' := evs') h
    rwa [List.append_nil] at this
  have appC : ∀ {l : List (Elem V)} {pre evs evs' b res}, CallsLogged T l pre evs (.ok b) → CallsLogged T l (pre ++ evs) evs' res → CallsLogged T l pre (evs ++ evs') res := by
    intro l pre evs evs' b res h h' L c out R he
    rcases split_append he with ⟨A', rfl, hs⟩ | ⟨B', rfl, hs⟩
    · have := h' _ _ _ _ hs
      rwa [List.append_assoc] at this
    · rcases h _ _ _ _ hs with ⟨_, x, h2, _⟩ | ⟨e, o, ctx, lv, st, R', h1, hF, h2, h3, rfl, h5⟩
      · cases h2
      · exact .inr ⟨e, o, ctx, lv, st, R' ++ evs', h1, hF, h2, h3, rfl, h5⟩
  have appL : ∀ {l : List (Elem V)} {evs evs'}, LogsOwned T l evs → LogsOwned T l evs' → LogsOwned T l (evs ++ evs') := by
    intro l evs evs' h h' L lv c st R he hlv
    rcases split_append he with ⟨A', rfl, hs⟩ | ⟨B', rfl, hs⟩
    · obtain ⟨e, o, h1, hF, h2, h3⟩ := h' _ _ _ _ _ hs hlv
      refine ⟨e, o, h1, hF, h2, ?_⟩
      rcases h3 with ⟨L', c, out, rfl, h4⟩ | h3
      · exact .inl ⟨evs ++ L', c, out, by simp [List.append_assoc], h4⟩
      · exact .inr h3
    · exact h _ _ _ _ _ hs hlv
  have progC : ∀ {l : List (Elem V)} {pre p b}, CallsLogged T l pre [.syncProgress p T.total] (.ok b) := by
    intro l pre p b L c out R he
    rcases split_single he with ⟨_, h, _⟩ | ⟨_, _, h⟩
    · cases h
    · exact (not_split_nil h).elim
  have progL : ∀ {l : List (Elem V)} {p}, LogsOwned T l [.syncProgress p T.total] := by
    intro l p L lv c st R he
    rcases split_single he with ⟨_, h, _⟩ | ⟨_, _, h⟩
    · cases h
    · exact (not_split_nil h).elim
  refine Tr.ind (motive := fun l _ evs _ res => CallsLogged T l [] evs res ∧ LogsOwned T l evs) ?_ ?_ ?_ ?_ ?_ ?_ ?_ ?_ h
  · exact fun _ => ⟨fun L c out R h => (not_split_nil h).elim, fun L lv c st R h => (not_split_nil h).elim⟩
  · rintro e l p evs p' x _ ⟨h1, h2⟩
    have hs : ∀ x : Elem V, InTree x [e] → InTree x (e :: l) := fun a h => h.mono (by simp)
    exact ⟨monoC hs (fun _ h => h) h1, monoL hs h2⟩
  · rintro e l p evs p1 b evs' p' r _ _ ⟨h1, h2⟩ ⟨h1', h2'⟩
    have hs : ∀ x : Elem V, InTree x [e] → InTree x (e :: l) := fun a h => h.mono (by simp)
    have hs' : ∀ x : Elem V, InTree x l → InTree x (e :: l) := fun a h => h.mono (fun _ h => List.mem_cons_of_mem _ h)
    exact ⟨appC (monoC hs (fun _ h => h) h1) (preN (monoC hs' (by rintro x rfl; rfl) h1')), appL (monoL hs h2) (monoL hs' h2')⟩
  · exact fun _ => ⟨fun L c out R h => (not_split_nil h).elim, fun L lv c st R h => (not_split_nil h).elim⟩
  · rintro e o p evs p' x hF hnat _ ⟨h1, h2⟩
    exact ⟨monoC (fun _ h => sub h) (fun x h => h) h1, monoL (fun _ h => sub h) h2⟩
  · rintro e o ctx p evs p' b evs' rb hF hnat _ ⟨hrec, hb⟩ ⟨h1, h2⟩
    obtain ⟨h1', h2'⟩ := hb.logged hF (.inr ⟨hnat, hrec.1⟩) (pre := evs) ⟨fun _ h => hrec.2.2 h, fun h => hrec.2.1 (Classical.byContradiction fun h0 => h ⟨hnat, h0⟩)⟩
    have c1 := monoC (l' := [e]) (res' := .ok b) (fun _ h => sub h) (fun x h => h) h1
    have c2 := monoL (l' := [e]) (fun _ h => sub h) h2
    have c3 : CallsLogged T [e] evs (evs' ++ progIf rb p' T.total) (didRes true rb) ∧ LogsOwned T [e] (evs' ++ progIf rb p' T.total) := by
      cases rb with
      | error x => simpa [progIf, didRes] using ⟨h1', h2'⟩
      | ok bb =>
        cases bb with
        | false =>
          refine ⟨?_, by simpa [progIf] using h2'⟩
          simpa [progIf, didRes] using monoC (res' := .ok true) (fun _ h => h) (fun x h => by cases h) h1'
        | true => exact ⟨by simpa [progIf, didRes] using appC h1' progC, by simpa [progIf] using appL h2' progL⟩
    exact ⟨appC c1 c3.1, appL c2 c3.2⟩
  · rintro e o ctx p evs rb hF hn hrec _ hb
    obtain ⟨h1, h2⟩ := hb.logged hF (.inl hrec) (pre := []) ⟨fun h => absurd h hn, fun _ => hrec⟩
    exact ⟨monoC (fun _ h => h) (by rintro x rfl; rfl) h1, h2⟩
  · rintro e o ctx p evs evs' p' r hF hn _ hrec hb _ ⟨h1', h2'⟩
    obtain ⟨h1, h2⟩ := hb.logged hF (.inl hrec) (pre := []) ⟨fun h => absurd h hn, fun _ => hrec⟩
    have a1 := appC h1 (appC (progC (p := p + 1)) (preN (monoC (fun _ h => sub h) (fun x h => h) h1')) (b := true))
    have a2 := appL h2 (appL (progL (p := p + 1)) (monoL (fun _ h => sub h) h2'))
    exact ⟨monoC (res := r) (fun _ h => h) (by rintro x rfl; rfl) (by simpa using a1), by simpa using a2⟩

end DS
