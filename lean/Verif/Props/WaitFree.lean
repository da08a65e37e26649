import Verif.Spec.WaitFree
/-! # C90: clients of a Redis server do not wait for each other, and come to their ends -/
set_option linter.unusedSectionVars false

namespace DS
variable {V α : Type}

/-! ## One step -/

theorem Move.elsewhere {i j : Nat} {s s' : Sys V α} (h : Move i s s') (hj : j ≠ i) : s'.cl j = (s.cl j).see s'.srv ∨ s'.cl j = s.cl j := by
  cases h with
  | cmd h hc => exact .inl (by simp [hj])
  | scanBegins h => exact .inr (by simp [hj])
  | scanEnds h ks h1 h2 => exact .inr (by simp [hj])

/-- Where a client is: `false` if it is at the beginning of `p`, `true` if it is in the `SCAN` that `p` begins with. -/
def Stage.Is (p : Proc V α) : Bool → Stage V α → Prop
  | false, st => st = .at p
  | true, st => ∃ pfx must may k, st = .scanning pfx must may k ∧ p = .cmd (.scan pfx) k

theorem Stage.Is.see {p : Proc V α} {b : Bool} {st : Stage V α} (d : Dict (Obj V)) (h : st.Is p b) : (st.see d).Is p b := by
  cases b with
  | false => cases h; rfl
  | true => obtain ⟨pfx, must, may, k, rfl, rfl⟩ := h; exact ⟨_, _, _, _, rfl, rfl⟩

theorem stage_is (st : Stage V α) : ∃ p b, st.Is p b := by
  cases st with
  | «at» p => exact ⟨p, false, rfl⟩
  | scanning pfx must may k => exact ⟨.cmd (.scan pfx) k, true, _, _, _, _, rfl, rfl⟩

theorem Move.keeps {i j : Nat} {s s' : Sys V α} (h : Move i s s') (hj : j ≠ i) {p : Proc V α} {b : Bool} (hs : (s.cl j).Is p b) : (s'.cl j).Is p b := by
  rcases h.elsewhere hj with h | h
  · rw [h]; exact hs.see _
  · rw [h]; exact hs

/-- What a step of the client itself makes of it. -/
theorem Move.own {i : Nat} {s s' : Sys V α} (h : Move i s s') {p : Proc V α} {b : Bool} (hs : (s.cl i).Is p b) :
    (b = false ∧ (s'.cl i).Is p true) ∨ ∃ c k x, p = .cmd c k ∧ (s'.cl i).Is (k x) false := by
  cases h with
  | @cmd c k h hc =>
    cases b with
    | false =>
      rw [h] at hs
      cases hs
      exact .inr ⟨c, k, (c.exec s.srv).1, rfl, by simp [Stage.Is]⟩
    | true => obtain ⟨_, _, _, _, h', _⟩ := hs; rw [h] at h'; cases h'
  | @scanBegins pfx k h =>
    cases b with
    | false =>
      rw [h] at hs
      cases hs
      exact .inl ⟨rfl, pfx, Found s.srv pfx, Found s.srv pfx, k, by simp, rfl⟩
    | true => obtain ⟨_, _, _, _, h', _⟩ := hs; rw [h] at h'; cases h'
  | @scanEnds pfx must may k h ks h1 h2 =>
    cases b with
    | false => rw [h] at hs; cases hs
    | true =>
      obtain ⟨_, _, _, _, h', rfl⟩ := hs
      rw [h] at h'
      cases h'
      exact .inr ⟨.scan pfx, k, ks, rfl, by simp [Stage.Is]⟩

/-! ## Executions without end -/

variable {who : Nat → Nat} {f : Nat → Sys V α}

/-- The client's next step, if there is one, finds it where it was. -/
theorem Endless.next (h : Endless who f) {i n : Nat} {p : Proc V α} {b : Bool} (hs : ((f n).cl i).Is p b) :
    (∀ m, n ≤ m → who m ≠ i ∧ ((f m).cl i).Is p b) ∨ ∃ m, n ≤ m ∧ who m = i ∧ ((f m).cl i).Is p b := by
  by_cases hx : ∃ m, n ≤ m ∧ who m = i ∧ ((f m).cl i).Is p b
  · exact .inr hx
  · refine .inl fun m hm => ?_
    induction hm with
    | refl => exact ⟨fun hw => hx ⟨n, Nat.le_refl _, hw, hs⟩, hs⟩
    | @step m hm ih =>
      have := (h m).keeps (fun e => ih.1 e.symm) ih.2
      exact ⟨fun hw => hx ⟨m + 1, Nat.le_succ_of_le hm, hw, this⟩, this⟩

theorem Endless.settles (h : Endless who f) (i : Nat) (p : Proc V α) : ∀ n b, ((f n).cl i).Is p b → ∃ N p' b', ∀ m, N ≤ m → who m ≠ i ∧ ((f m).cl i).Is p' b' := by
  induction p with
  | ret r =>
    intro n b hs
    rcases h.next hs with hn | ⟨m, hm, hw, hs'⟩
    · exact ⟨n, _, _, hn⟩
    · rcases (hw ▸ h m).own hs' with ⟨_, _, _, _, _, _, h'⟩ | ⟨c, k, x, h', _⟩ <;> cases h'
  | cmd c k ih =>
    have scan : ∀ n, ((f n).cl i).Is (.cmd c k) true → ∃ N p' b', ∀ m, N ≤ m → who m ≠ i ∧ ((f m).cl i).Is p' b' := by
      intro n hs
      rcases h.next hs with hn | ⟨m, hm, hw, hs'⟩
      · exact ⟨n, _, _, hn⟩
      · rcases (hw ▸ h m).own hs' with ⟨hb, _⟩ | ⟨_, _, x, h', h''⟩
        · cases hb
        · cases h'; exact ih x _ _ h''
    intro n b hs
    cases b with
    | true => exact scan n hs
    | false =>
      rcases h.next hs with hn | ⟨m, hm, hw, hs'⟩
      · exact ⟨n, _, _, hn⟩
      · rcases (hw ▸ h m).own hs' with ⟨_, h'⟩ | ⟨_, _, x, h', h''⟩
        · exact scan _ h'
        · cases h'; exact ih x _ _ h''

/-! ## `SCAN`s that are under way -/

/-- A `SCAN` that is under way can be answered. -/
def Stage.Fine (d : Dict (Obj V)) : Stage V α → Prop
  | .at _ => True
  | .scanning pfx must may _ => ∀ x, must x → may x ∧ Found d pfx x

theorem Move.fine {i : Nat} {s s' : Sys V α} (h : Move i s s') (hs : ∀ j, (s.cl j).Fine s.srv) : ∀ j, (s'.cl j).Fine s'.srv := by
  intro j
  cases h with
  | @cmd c k h hc =>
    by_cases hj : j = i
    · simp [hj, Stage.Fine]
    · simp only [hj, if_false]
      have := hs j
      cases hst : s.cl j with
      | «at» p => trivial
      | scanning pfx must may k' =>
        rw [hst] at this
        exact fun x hx => ⟨.inl (this x hx.1).1, hx.2⟩
  | @scanBegins pfx k h =>
    by_cases hj : j = i
    · simp only [hj, if_true]
      exact fun x hx => ⟨hx, hx⟩
    · simp only [hj, if_false]
      exact hs j
  | @scanEnds pfx must may k h ks h1 h2 =>
    by_cases hj : j = i
    · simp [hj, Stage.Fine]
    · simp only [hj, if_false]
      exact hs j

theorem AtRest.fine {s : Sys V α} (h : AtRest s) : ∀ j, (s.cl j).Fine s.srv := fun j => by
  obtain ⟨p, h⟩ := h j
  rw [h]; trivial

theorem Exec.fine {s s' : Sys V α} {l : List (Sys V α)} (he : Exec s l s') (h : ∀ j, (s.cl j).Fine s.srv) : ∀ j, (s'.cl j).Fine s'.srv := by
  induction he with
  | done => exact h
  | step hm _ ih => exact ih (hm.fine h)

theorem goes_on {s : Sys V α} {i : Nat} (h : (s.cl i).Fine s.srv) : Ended i s ∨ CanGoOn i s := by
  cases hc : s.cl i with
  | «at» p =>
    cases p with
    | ret r => exact .inl ⟨r, hc⟩
    | cmd c k =>
      refine .inr ?_
      cases c with
      | scan pfx => exact ⟨_, .scanBegins hc⟩
      | get => exact ⟨_, .cmd hc id⟩
      | set => exact ⟨_, .cmd hc id⟩
      | exist => exact ⟨_, .cmd hc id⟩
      | del => exact ⟨_, .cmd hc id⟩
  | scanning pfx must may k =>
    rw [hc] at h
    refine .inr ⟨_, .scanEnds hc ((Dict.keys s.srv).filter fun x => @decide (must x) (Classical.propDecidable _)) (fun x hx => ?_) fun x hx => ?_⟩
    · simp only [List.mem_filter, decide_eq_true_eq]
      exact ⟨(h x hx).2.1, hx⟩
    · simp only [List.mem_filter, decide_eq_true_eq] at hx
      exact ⟨(h x hx.2).1, (h x hx.2).2.2⟩

theorem Endless.exec (h : Endless who f) : ∀ n, ∃ l, Exec (f 0) l (f n) := by
  have gen : ∀ n k, ∃ l, Exec (f k) l (f (k + n)) := by
    intro n
    induction n with
    | zero => exact fun k => ⟨_, .done _⟩
    | succ n ih =>
      intro k
      obtain ⟨l, hl⟩ := ih (k + 1)
      exact ⟨_, .step (h k) (by rw [show k + (n + 1) = k + 1 + n by omega]; exact hl)⟩
  intro n
  obtain ⟨l, hl⟩ := gen n 0
  exact ⟨l, by rw [Nat.zero_add] at hl; exact hl⟩

/-! ## The theorems -/

/-- **C90** No client has to wait for another one: in every state that an execution comes to, whatever the other clients have done, have left undone, or are about to do,
a client that has not come to its end can take its next step. -/
theorem C90_never_waits {s s' : Sys V α} {l : List (Sys V α)} (h0 : AtRest s) (he : Exec s l s') (i : Nat) : Ended i s' ∨ CanGoOn i s' :=
  goes_on (he.fine h0.fine i)

/-- **C90** In an execution without end, each client takes only finitely many steps, whatever the other clients do in between: no client works forever. -/
theorem C90_finitely_many (h : Endless who f) (i : Nat) : ∃ N, ∀ n, N ≤ n → who n ≠ i := by
  obtain ⟨p, b, hs⟩ := stage_is ((f 0).cl i)
  obtain ⟨N, _, _, hN⟩ := h.settles i p 0 b hs
  exact ⟨N, fun n hn => (hN n hn).1⟩

/-- **C90** A client that is not held up forever comes to its end, with a result or an exception, and stays there. -/
theorem C90_ends (h : Endless who f) (h0 : AtRest (f 0)) {i : Nat} (hf : FairTo i who f) : ∃ N r, ∀ n, N ≤ n → (f n).cl i = .at (.ret r) := by
  obtain ⟨p, b, hs⟩ := stage_is ((f 0).cl i)
  obtain ⟨N, p', b', hN⟩ := h.settles i p 0 b hs
  obtain ⟨l, hl⟩ := h.exec N
  rcases C90_never_waits h0 hl i with ⟨r, hr⟩ | hg
  · refine ⟨N, r, fun n hn => ?_⟩
    have h1 := (hN N (Nat.le_refl _)).2
    have h2 := (hN n hn).2
    rw [hr] at h1
    cases b' with
    | false => cases h1; exact h2
    | true => obtain ⟨_, _, _, _, h', _⟩ := h1; cases h'
  · obtain ⟨m, hm, hw⟩ := hf N hg
    exact absurd hw (hN m hm).1

/-- **C90** So if only finitely many clients have anything to do, then no execution is without end; and where none of them can go on, all have come to their ends. -/
theorem C90_all_end {s : Sys V α} (h0 : AtRest s) (n : Nat) (hn : ∀ j, n ≤ j → Ended j s) :
    (¬ ∃ who f, f 0 = s ∧ Endless who f) ∧ ∀ s' l, Exec s l s' → (∀ i, ¬ CanGoOn i s') → ∀ i, Ended i s' := by
  constructor
  · rintro ⟨who, f, rfl, h⟩
    have stay : ∀ m j, n ≤ j → Ended j (f m) ∧ who m ≠ j := by
      have no : ∀ m j, Ended j (f m) → who m ≠ j := fun m j ⟨r, hr⟩ hw => by
        rcases (hw ▸ h m).own (p := .ret r) (b := false) hr with ⟨_, _, _, _, _, _, h'⟩ | ⟨c, k, x, h', _⟩ <;> cases h'
      have keep : ∀ m j, n ≤ j → Ended j (f m) := by
        intro m j hj
        induction m with
        | zero => exact hn j hj
        | succ m ih =>
          obtain ⟨r, hr⟩ := ih
          exact ⟨r, (h m).keeps (p := .ret r) (b := false) (fun e => no m j ⟨r, hr⟩ e.symm) hr⟩
      exact fun m j hj => ⟨keep m j hj, no m j (keep m j hj)⟩
    have all : ∀ k, ∃ N, ∀ m, N ≤ m → ∀ j, j < k → who m ≠ j := by
      intro k
      induction k with
      | zero => exact ⟨0, fun m _ j hj => absurd hj (Nat.not_lt_zero _)⟩
      | succ k ih =>
        obtain ⟨N, hN⟩ := ih
        obtain ⟨N', hN'⟩ := C90_finitely_many h k
        refine ⟨max N N', fun m hm j hj => ?_⟩
        rcases Nat.lt_succ_iff_lt_or_eq.1 hj with hj | rfl
        · exact hN m (Nat.le_trans (Nat.le_max_left _ _) hm) j hj
        · exact hN' m (Nat.le_trans (Nat.le_max_right _ _) hm)
    obtain ⟨N, hN⟩ := all n
    by_cases hw : who N < n
    · exact hN N (Nat.le_refl _) _ hw rfl
    · exact (stay N _ (Nat.le_of_not_lt hw)).2 rfl
  · intro s' l he hst i
    exact (C90_never_waits h0 he i).resolve_right (hst i)

/-! ## How many commands -/

theorem AtMost.mono {n m : Nat} {p : Proc V α} (h : AtMost n p) (hm : n ≤ m) : AtMost m p := by
  induction h generalizing m with
  | ret r => exact .ret r
  | cmd _ ih =>
    obtain ⟨m, rfl⟩ : ∃ k, m = k + 1 := ⟨m - 1, by omega⟩
    exact .cmd fun x => ih x (by omega)

theorem AtMost.bind {β : Type} {n m : Nat} {p : Proc V α} {k : α → Proc V β} (h : AtMost n p) (hk : ∀ a, AtMost m (k a)) : AtMost (n + m) (p.bind k) := by
  induction h with
  | ret r =>
    cases r with
    | ok a => exact (hk a).mono (Nat.le_add_left _ _)
    | error e => exact .ret _
  | @cmd n c f _ ih => rw [show n + 1 + m = n + m + 1 by omega]; exact .cmd ih

theorem AtMost.mapEach {γ : Type} {f : γ → Proc V α} (hf : ∀ x, AtMost 1 (f x)) : ∀ l : List γ, AtMost l.length (Proc.mapEach f l)
  | [] => .ret _
  | x :: xs => by
    unfold Proc.mapEach
    rw [List.length_cons, Nat.add_comm]
    exact (hf x).bind fun a => (AtMost.mapEach hf xs).bind (m := 0) fun _ => .ret _

/-- **C90** A lookup, an update and a count are one command; `add` and `remove_item` are at most two; `get_by_uids` is at most one for each unique id, and `get_all` is a `SCAN` and at most one
more for each key that it returns.  So between the commands of one of these operations, other clients can interfere only once, in `add` and `remove_item`, and in the ones that read several objects. -/
theorem C90_commands [PyVal V] (A : Adapter V) (sid t u : String) (o : Obj V) (us : List String) (a : Option (ModelArg V)) :
    AtMost 1 (pGet A sid t u) ∧ AtMost 1 (pUpdate sid o) ∧ AtMost 1 (pCount sid a) ∧ AtMost 2 (pAdd sid o) ∧ AtMost 2 (pRemoveItem (V := V) sid t u) ∧
    AtMost us.length (pGetByUids A sid us t) ∧ ∃ pfx k, pGetAll A sid t = .cmd (.scan pfx) k ∧ ∀ ks : List String, AtMost ks.length (k ks) := by
  have hl : ∀ key, AtMost 1 (pLoad A key) := fun key => .cmd fun x => by cases x <;> exact .ret _
  refine ⟨hl _, .cmd fun _ => .ret _, ?_, .cmd fun x => ?_, .cmd fun x => ?_, AtMost.mapEach (fun _ => hl _) us, _, _, rfl, fun ks => AtMost.mapEach hl ks⟩
  · cases a <;> exact .cmd fun _ => .ret _
  · change Option (Obj V) at x
    cases x with
    | none => exact .cmd fun _ => .ret _
    | some o' =>
      show AtMost 1 (if o'.m.dictEq o.m then _ else _)
      split <;> exact .ret _
  · change Bool at x
    cases x with
    | true => exact .cmd fun _ => .ret _
    | false => exact .ret _

end DS
