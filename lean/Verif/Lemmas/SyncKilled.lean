import Verif.Lemmas.SyncCmd
import Verif.Lemmas.SafeSync
/-! # Lemmas about syncs that are killed -/
set_option linter.unusedSectionVars false

namespace DS
variable {V E α β : Type} [PyVal V] {Ad : Adapter V} {es : List (Elem V)}

/-! ## Where a client can be -/

theorem solo_cbind {q : Cl V E α} {g : α → Cl V E β} {w : World V E} {d d' : Dict (Obj V)} {p : Proc V (Except Err β × World V E)} (h : Solo (Cl.bind q g w, d) (p, d')) :
    (∃ p', Solo (q w, d) (p', d')) ∨ ∃ a w1 d1, Solo (q w, d) (.ret (.ok (.ok a, w1)), d1) ∧ Solo (g a w1, d1) (p, d') := by
  rcases solo_bind h with ⟨p', h1, _⟩ | ⟨⟨r, w1⟩, d1, h1, h2⟩
  · exact .inl ⟨p', h1⟩
  · cases r with
    | ok a => exact .inr ⟨a, w1, d1, h1, h2⟩
    | error e => cases solo_ret h2; exact .inl ⟨_, h1⟩

theorem solo_ctry {q : Cl V E α} {s : Err → Bool} {g : Err → Cl V E α} {w : World V E} {d d' : Dict (Obj V)} {p : Proc V (Except Err α × World V E)} (h : Solo (Cl.tryCatch q s g w, d) (p, d')) :
    (∃ p', Solo (q w, d) (p', d')) ∨ ∃ e w1 d1, Solo (q w, d) (.ret (.ok (.error e, w1)), d1) ∧ Solo (g e w1, d1) (p, d') := by
  rcases solo_bind h with ⟨p', h1, _⟩ | ⟨⟨r, w1⟩, d1, h1, h2⟩
  · exact .inl ⟨p', h1⟩
  · cases r with
    | ok a => cases solo_ret h2; exact .inl ⟨_, h1⟩
    | error e =>
      dsimp only at h2
      split at h2
      · exact .inr ⟨e, w1, d1, h1, h2⟩
      · cases solo_ret h2; exact .inl ⟨_, h1⟩

/-! ## Clients that only read -/

theorem ro_bind {q : Cl V E α} {g : α → Cl V E β} (hq : ∀ w, Sends Cmd.ReadOnly (q w)) (hg : ∀ a w, Sends Cmd.ReadOnly (g a w)) (w : World V E) : Sends Cmd.ReadOnly (Cl.bind q g w) := by
  have bind : ∀ {α β : Type} {p : Proc V α} {k : α → Proc V β}, Sends Cmd.ReadOnly p → (∀ a, Sends Cmd.ReadOnly (k a)) → Sends Cmd.ReadOnly (p.bind k) := by
    intro α β p k hp hk
    induction hp with
    | ret r => cases r <;> first | exact hk _ | exact .ret _
    | cmd h _ ih => exact .cmd h ih
  refine bind (hq w) fun p => ?_
  obtain ⟨r, w'⟩ := p
  cases r with
  | ok a => exact hg a w'
  | error e => exact .ret _

theorem ro_tryCatch {q : Cl V E α} {s : Err → Bool} {g : Err → Cl V E α} (hq : ∀ w, Sends Cmd.ReadOnly (q w)) (hg : ∀ a w, Sends Cmd.ReadOnly (g a w)) (w : World V E) :
    Sends Cmd.ReadOnly (Cl.tryCatch q s g w) := by
  have bind : ∀ {α β : Type} {p : Proc V α} {k : α → Proc V β}, Sends Cmd.ReadOnly p → (∀ a, Sends Cmd.ReadOnly (k a)) → Sends Cmd.ReadOnly (p.bind k) := by
    intro α β p k hp hk
    induction hp with
    | ret r => cases r <;> first | exact hk _ | exact .ret _
    | cmd h _ ih => exact .cmd h ih
  refine bind (hq w) fun p => ?_
  obtain ⟨r, w'⟩ := p
  cases r with
  | ok a => exact .ret _
  | error e =>
    dsimp only
    split
    · exact hg e w'
    · exact .ret _

theorem ro_load (A : Adapter V) (key : String) (w : World V E) : Sends Cmd.ReadOnly (cLoad A key w) :=
  .cmd trivial fun o? _ => by
    cases o? with
    | none => exact .ret _
    | some o => exact .ret _

theorem ro_get (A : Adapter V) (m : ModelArg V) (i : Ident V) (w : World V E) : Sends Cmd.ReadOnly (cGet A m i w) := by
  refine ro_bind (fun _ => .ret _) (fun p w => ?_) w
  unfold cGetRaw
  cases A.ref.store with
  | «local» sid => exact .ret _
  | redis sid => exact ro_load A _ w

theorem ro_getOrNone (A : Adapter V) (m : ModelArg V) (i : Ident V) (w : World V E) : Sends Cmd.ReadOnly (cGetOrNone A m i w) :=
  ro_tryCatch (ro_bind (ro_get A m i) fun _ _ => .ret _) (fun _ _ => .ret _) w

theorem ro_fetchDst (S : SyncCtx V E) (c : ModelClass V) (ids : Dict V) (w : World V E) : Sends Cmd.ReadOnly (cFetchDst S c ids w) :=
  ro_tryCatch (ro_bind (ro_get _ _ _) fun _ => ro_bind (fun _ => .ret _) fun _ _ => .ret _) (fun _ _ => .ret _) w

/-! ## What a killed client leaves -/

/-- The contents are those when all was done, or those in a world where user code gave up, or such amid a removal. -/
def Leaves (Ad : Adapter V) (es : List (Elem V)) (sid : String) (m : M V E α) (m' : M V (Nat × E) α) (w : World V E) (d' : Dict (Obj V)) : Prop :=
  (m w).2.redis = d' ∨ ∃ k w1, m' (w.upTo k) = (.error (.user 0), w1) ∧ (w1.redis = d' ∨ AmidRemoval Ad es sid w1 d')

/-- What a client leaves that is killed, in worlds that satisfy `P`; `X` are further possibilities. -/
def Kills (Ad : Adapter V) (es : List (Elem V)) (sid : String) (P : World V E → Prop) (q : Cl V E α) (m : M V E α) (m' : M V (Nat × E) α) (X : World V E → Dict (Obj V) → Prop) : Prop :=
  ∀ w d, P (w.at d) → ∀ d', KilledLeaves (q w) d d' → Leaves Ad es sid m m' (w.at d) d' ∨ X (w.at d) d'

/-- No further possibilities. -/
abbrev NoMore : World V E → Dict (Obj V) → Prop := fun _ _ => False

theorem Kills.reads {sid : String} {P : World V E → Prop} {q : Cl V E α} {m : M V E α} (m' : M V (Nat × E) α) {X : World V E → Dict (Obj V) → Prop} (h : ∀ w, Sends Cmd.ReadOnly (q w))
    (hr : RunsAs q m) : Kills Ad es sid P q m m' X := by
  rintro w d _ d' ⟨p, hs⟩
  refine .inl (.inl ?_)
  rw [solo_readOnly (h w) hs, ← (hr w d _ _ (solo_run (q w) d)).2]
  exact solo_readOnly (h w) (solo_run (q w) d)

theorem Kills.lift {sid : String} {P : World V E → Prop} {m : M V E α} (m' : M V (Nat × E) α) {X : World V E → Dict (Obj V) → Prop} (h : Blind m) : Kills Ad es sid P (Cl.lift m) m m' X :=
  .reads m' (fun _ => .ret _) (.lift h)

theorem Kills.mono {sid : String} {P P' : World V E → Prop} {q : Cl V E α} {m : M V E α} {m' : M V (Nat × E) α} {X X' : World V E → Dict (Obj V) → Prop} (h : Kills Ad es sid P q m m' X)
    (hP : ∀ w, P' w → P w) (hX : ∀ w d, P' w → X w d → X' w d) : Kills Ad es sid P' q m m' X' :=
  fun w d hw d' hk => (h w d (hP _ hw) d' hk).imp id (hX _ _ hw)

theorem Leaves.after {sid : String} {m : M V E α} {m' : M V (Nat × E) α} {f : α → M V E β} {f' : α → M V (Nat × E) β} {w w' : World V E} {a : α} {d' : Dict (Obj V)} (hc : Cuts m m')
    (hm : m w = (.ok a, w')) (h : Leaves Ad es sid (f a) (f' a) w' d') : Leaves Ad es sid (m >>= f) (m' >>= f') w d' := by
  rcases h with h | ⟨k, w1, h1, h2⟩
  · refine .inl ?_
    show (M.bind m f w).2.redis = d'
    unfold M.bind
    rw [hm]
    exact h
  · obtain ⟨_, c, hc⟩ := hc w
    rw [hm] at hc
    refine .inr ⟨c + k, w1, ?_, h2⟩
    show M.bind m' f' (w.upTo (c + k)) = _
    unfold M.bind
    rw [hc]
    exact h1

theorem Leaves.gaveUp {sid : String} {m : M V E α} {m' : M V (Nat × E) α} {f : α → M V E β} {f' : α → M V (Nat × E) β} {w : World V E} {d' : Dict (Obj V)}
    (h : ∃ k w1, m' (w.upTo k) = (.error (.user 0), w1) ∧ (w1.redis = d' ∨ AmidRemoval Ad es sid w1 d')) : Leaves Ad es sid (m >>= f) (m' >>= f') w d' := by
  obtain ⟨k, w1, h1, h2⟩ := h
  refine .inr ⟨k, w1, ?_, h2⟩
  show M.bind m' f' (w.upTo k) = _
  unfold M.bind
  rw [h1]

theorem Kills.bindX {sid : String} {P : World V E → Prop} {q : Cl V E α} {m : M V E α} {m' : M V (Nat × E) α} {X : World V E → Dict (Obj V) → Prop} {Q : α → World V E → Prop}
    {g : α → Cl V E β} {f : α → M V E β} {f' : α → M V (Nat × E) β} {Y : α → World V E → Dict (Obj V) → Prop} (h : Kills Ad es sid P q m m' X) (hr : RunsAs q m) (hc : Cuts m m')
    (hpost : ∀ w a w', P w → m w = (.ok a, w') → Q a w') (hf : ∀ a, Kills Ad es sid (Q a) (g a) (f a) (f' a) (Y a)) :
    Kills Ad es sid P (Cl.bind q g) (m >>= f) (m' >>= f') (fun w d' => X w d' ∨ ∃ a w', m w = (.ok a, w') ∧ Y a w' d') := by
  rintro w d hw d' ⟨p, hs⟩
  rcases solo_cbind hs with ⟨p', h1⟩ | ⟨a, w1, d1, h1, h2⟩
  · rcases h w d hw d' ⟨p', h1⟩ with (h2 | h2) | h2
    · cases hm : m (w.at d) with
      | mk r w' =>
        rw [hm] at h2
        cases r with
        | error e =>
          refine .inl (.inl ?_)
          show (M.bind m f (w.at d)).2.redis = d'
          unfold M.bind
          rw [hm]
          exact h2
        | ok a =>
          rcases hf a (w'.at w.redis) d' (by rw [World.at_at, ← h2]; exact hpost _ _ _ hw hm) d' ⟨_, .done _⟩ with h3 | h3
          · rw [World.at_at, ← h2] at h3
            rw [← h2]
            exact .inl (h3.after hc hm)
          · rw [World.at_at, ← h2] at h3
            rw [← h2]
            exact .inr (.inr ⟨a, w', hm, h3⟩)
    · exact .inl (.gaveUp h2)
    · exact .inr (.inl h2)
  · obtain ⟨e1, e2⟩ := hr w d _ _ h1
    cases hm : m (w.at d) with
    | mk r w' =>
      rw [hm] at e1 e2
      cases e1
      rcases hf a (w'.at w.redis) d1 (by rw [World.at_at, e2]; exact hpost _ _ _ hw hm) d' ⟨p, h2⟩ with h3 | h3
      · rw [World.at_at, e2] at h3
        exact .inl (h3.after hc hm)
      · rw [World.at_at, e2] at h3
        exact .inr (.inr ⟨a, w', hm, h3⟩)

theorem Kills.bind {sid : String} {P : World V E → Prop} {q : Cl V E α} {m : M V E α} {m' : M V (Nat × E) α} {X : World V E → Dict (Obj V) → Prop} {Q : α → World V E → Prop}
    {g : α → Cl V E β} {f : α → M V E β} {f' : α → M V (Nat × E) β} (h : Kills Ad es sid P q m m' X) (hr : RunsAs q m) (hc : Cuts m m')
    (hpost : ∀ w a w', P w → m w = (.ok a, w') → Q a w') (hf : ∀ a, Kills Ad es sid (Q a) (g a) (f a) (f' a) NoMore) :
    Kills Ad es sid P (Cl.bind q g) (m >>= f) (m' >>= f') X :=
  (h.bindX hr hc hpost hf).mono (fun _ h => h) fun _ _ _ h => h.elim id fun ⟨_, _, _, h⟩ => h.elim

/-- A call of user code, and what is done on the server after it. -/
theorem Kills.call {sid : String} {P : World V E → Prop} {m : M V E α} {m' : M V (Nat × E) α} {Q : α → World V E → Prop}
    {g : α → Cl V E β} {f : α → M V E β} {f' : α → M V (Nat × E) β} {Y : α → World V E → Dict (Obj V) → Prop} (hb : Blind m) (hc : Cuts m m')
    (hpost : ∀ w a w', P w → m w = (.ok a, w') → Q a w') (hf : ∀ a, Kills Ad es sid (Q a) (g a) (f a) (f' a) (Y a))
    (hY : ∀ w a w' d', P w → m w = (.ok a, w') → Y a w' d' → ∃ w1, m' (w.upTo 0) = (.error (.user 0), w1) ∧ (w1.redis = d' ∨ AmidRemoval Ad es sid w1 d')) :
    Kills Ad es sid P (Cl.bind (Cl.lift m) g) (m >>= f) (m' >>= f') NoMore := by
  have h := (Kills.lift (Ad := Ad) (es := es) (sid := sid) (P := P) m' (X := NoMore) hb).bindX (.lift hb) hc hpost hf
  intro w d hw d' hk
  rcases h w d hw d' hk with h | h | ⟨a, w', hm, h⟩
  · exact .inl h
  · exact h.elim
  · obtain ⟨w1, h1⟩ := hY _ _ _ _ hw hm h
    exact .inl (.gaveUp ⟨0, w1, h1⟩)

theorem Kills.orEach {γ : Type} {sid : String} {P : World V E → Prop} {g : γ → Cl V E Bool} {f : γ → M V E Bool} {f' : γ → M V (Nat × E) Bool}
    (hr : ∀ a, RunsAs (g a) (f a)) (hc : ∀ a, Cuts (f a) (f' a)) (hpost : ∀ w w', P w → w.next ≤ w'.next → P w') :
    ∀ l b, (∀ a ∈ l, Kills Ad es sid P (g a) (f a) (f' a) NoMore) → Kills Ad es sid P (Cl.orEach g l b) (M.orEach f l b) (M.orEach f' l b) NoMore
  | [], _, _ => .lift _ (.mpure _)
  | a :: l, _, h => (h a List.mem_cons_self).bind (Q := fun _ => P) (hr a) (hc a) (fun w b w' hw hm => hpost w w' hw (by have := (hc a w).1; rw [hm] at this; exact this))
    fun _ => orEach hr hc hpost l _ fun a ha => h a (List.mem_cons_of_mem _ ha)

/-! ## Adding -/

theorem kills_add (A : Adapter V) {sid : String} (hA : A.ref.store = .redis sid) (r : Ref) (P : World V E → Prop) (m' : M V (Nat × E) Unit) :
    Kills (V := V) (E := E) Ad es sid P (cAdd sid r) (add A r) m' (fun w d' => d' = w.redis) := by
  rintro w d _ d' ⟨p, hs⟩
  change Solo (Cl.bind (Cl.send (.get (redisKey sid (w.heap r).m.type (w.heap r).m.uid))) _ w, d) (p, d') at hs
  rcases solo_send id hs with h | h
  · cases h; exact .inr rfl
  · simp only [Cmd.exec] at h
    cases hg : Dict.get? d (redisKey sid (w.heap r).m.type (w.heap r).m.uid) with
    | some o' =>
      rw [hg] at h
      dsimp only at h
      split at h <;> (cases solo_ret h; exact .inr rfl)
    | none =>
      rw [hg] at h
      change Solo (Proc.cmd (.set _ _) _, d) (p, d') at h
      cases h with
      | done => exact .inr rfl
      | cmd _ h =>
        cases solo_ret h
        exact .inl (.inl (runs_add A hA r w d _ _ hs).2.symm)

/-! ## Removing -/

theorem killed_removeOne {sid : String} {r : Ref} {w : World V E} {d d1 : Dict (Obj V)} {q : Proc V (Except Err Unit × World V E)} (h : Solo (cRemoveOne sid r w, d) (q, d1)) :
    (d1 = d ∧ ∀ x, q ≠ .ret (.ok (.ok (), x))) ∨ (Dict.has d (redisKey sid (w.heap r).m.type (w.heap r).m.uid) = true ∧ d1 = Dict.erase d (redisKey sid (w.heap r).m.type (w.heap r).m.uid)) := by
  change Solo (Cl.bind (cRemoveItem sid (w.heap r).m.type (w.heap r).m.uid) _ w, d) (q, d1) at h
  have item : ∀ {q : Proc V (Except Err Unit × World V E)} {d1 : Dict (Obj V)}, Solo (cRemoveItem sid (w.heap r).m.type (w.heap r).m.uid w, d) (q, d1) →
      (d1 = d ∧ ∀ x, q ≠ .ret (.ok (.ok (), x))) ∨ (Dict.has d (redisKey sid (w.heap r).m.type (w.heap r).m.uid) = true ∧ d1 = Dict.erase d (redisKey sid (w.heap r).m.type (w.heap r).m.uid)) := by
    intro q d1 h
    rcases solo_send id h with h | h
    · cases h; exact .inl ⟨rfl, fun x hx => by cases hx⟩
    · simp only [Cmd.exec] at h
      cases hh : Dict.has d (redisKey sid (w.heap r).m.type (w.heap r).m.uid) with
      | false => rw [hh] at h; cases solo_ret h; exact .inl ⟨rfl, fun x hx => by cases hx⟩
      | true =>
        rw [hh] at h
        change Solo (Proc.cmd (.del _) _, d) (q, d1) at h
        cases h with
        | done => exact .inl ⟨rfl, fun x hx => by cases hx⟩
        | cmd _ h => cases solo_ret h; exact .inr ⟨rfl, rfl⟩
  rcases solo_bind h with ⟨p', h1, h2⟩ | ⟨⟨r0, w1⟩, d2, h1, h2⟩
  · rcases item h1 with ⟨h3, h4⟩ | h3
    · refine .inl ⟨h3, fun x hx => ?_⟩
      rw [hx] at h2
      cases p' with
      | cmd c k => cases h2
      | ret r0 =>
        cases r0 with
        | error e => cases h2
        | ok p =>
          obtain ⟨r1, w1⟩ := p
          cases r1 with
          | error e => cases h2
          | ok _ => exact h4 _ rfl
    · exact .inr h3
  · cases r0 with
    | error e =>
      cases solo_ret h2
      rcases item h1 with ⟨h3, h4⟩ | h3
      · exact .inl ⟨h3, fun x hx => by cases hx⟩
      · exact .inr h3
    | ok _ =>
      have hd : d1 = d2 := by
        refine solo_readOnly (ro_bind (q := cTruthy (w.heap r).adapter) (fun w1 => ?_) (fun _ _ => .ret _) w1) h2
        cases (w.heap r).adapter with
        | none => exact .ret _
        | some ar =>
          obtain ⟨i, st⟩ := ar
          cases st with
          | «local» n => exact .ret _
          | redis s => exact .cmd trivial fun _ _ => .ret _
      subst hd
      rcases item h1 with ⟨h3, h4⟩ | h3
      · exact (h4 _ rfl).elim
      · exact .inr h3

theorem killed_removal {A : Adapter V} {sid : String} {d0 : Dict (Obj V)} {m0 : Model V} : ∀ (n : Nat) {r : Ref} {rc : Bool} {w : World V E} {l : List (Model V)} {d d' : Dict (Obj V)} {q : Proc V (Except Err Unit × World V E)},
    TakenFrom d0 sid m0 l → LeftOver d0 sid l d → TakenFrom d0 sid m0 (l ++ [(w.heap r).m]) → Solo (cRemove A sid n r rc w, d) (q, d') →
    ∃ l', TakenFrom d0 sid m0 (l ++ l') ∧ LeftOver d0 sid (l ++ l') d'
  | 0, r, rc, w, l, d, d', q, ht, hl, _, h => by
    cases solo_ret h
    exact ⟨[], by rwa [List.append_nil], by rwa [List.append_nil]⟩
  | n + 1, r, rc, w, l, d, d', q, ht, hl, hx, h => by
    change Solo (Cl.bind (cRemoveOne sid r) _ w, d) (q, d') at h
    have stay : ∃ l', TakenFrom d0 sid m0 (l ++ l') ∧ LeftOver d0 sid (l ++ l') d := ⟨[], by rwa [List.append_nil], by rwa [List.append_nil]⟩
    have one : ∃ l', TakenFrom d0 sid m0 (l ++ l') ∧ LeftOver d0 sid (l ++ l') (Dict.erase d (redisKey sid (w.heap r).m.type (w.heap r).m.uid)) := ⟨[(w.heap r).m], hx, hl.take _⟩
    rcases solo_cbind h with ⟨p', h1⟩ | ⟨_, w1, d1, h1, h2⟩
    · rcases killed_removeOne h1 with ⟨rfl, _⟩ | ⟨_, rfl⟩
      · exact stay
      · exact one
    · rcases killed_removeOne h1 with ⟨_, hn⟩ | ⟨_, rfl⟩
      · exact (hn _ rfl).elim
      · cases rc with
        | false => cases solo_ret h2; exact one
        | true =>
          have loop : ∀ (cs : List (String × String)) {l2 : List (Model V)} {d2 : Dict (Obj V)} {w2 : World V E} {q2 : Proc V (Except Err Unit × World V E)}, (∀ c ∈ cs, c ∈ childRefs (w.heap r).m) → (w.heap r).m ∈ l2 → TakenFrom d0 sid m0 l2 → LeftOver d0 sid l2 d2 →
              Solo (Cl.forEach (fun c => Cl.tryCatch (Cl.bind (cLoad A (redisKey sid c.1 c.2)) fun k => cRemove A sid n k true) Err.isNotFound
                (fun _ => Cl.lift (M.emit (.childNotFound c.1 c.2 (w.heap r).m.type (w.heap r).m.uid)))) cs w2, d2) (q2, d') →
              ∃ l', TakenFrom d0 sid m0 (l2 ++ l') ∧ LeftOver d0 sid (l2 ++ l') d' := by
            intro cs
            induction cs with
            | nil =>
              intro l2 d2 w2 q2 _ _ ht2 hl2 h3
              cases solo_ret h3
              exact ⟨[], by rwa [List.append_nil], by rwa [List.append_nil]⟩
            | cons c cs ih =>
              intro l2 d2 w2 q2 hcs hx2 ht2 hl2 h3
              have body : ∀ {q3 : Proc V (Except Err Unit × World V E)} {d3 : Dict (Obj V)}, Solo (Cl.bind (cLoad A (redisKey sid c.1 c.2)) (fun k => cRemove A sid n k true) w2, d2) (q3, d3) →
                  ∃ l', TakenFrom d0 sid m0 (l2 ++ l') ∧ LeftOver d0 sid (l2 ++ l') d3 := by
                intro q3 d3 h4
                rcases solo_cbind h4 with ⟨p', h5⟩ | ⟨k, w3, d4, h5, h6⟩
                · rw [solo_readOnly (ro_load A _ w2) h5]
                  exact ⟨[], by rwa [List.append_nil], by rwa [List.append_nil]⟩
                · have hd := solo_readOnly (ro_load A _ w2) h5
                  rw [hd] at h5 h6
                  have h5 := solo_send_ret id h5
                  simp only [Cmd.exec] at h5
                  cases hg : Dict.get? d2 (redisKey sid c.1 c.2) with
                  | none => rw [hg] at h5; cases solo_ret h5
                  | some o' =>
                    rw [hg] at h5
                    cases solo_ret h5
                    obtain ⟨f, hf, ll, hk, hu⟩ := mem_childRefs_iff.1 (hcs c (List.mem_cons_self ..))
                    have ho : ((alloc { o' with adapter := some A.ref } w2).2.heap w2.next).m = o'.m := by
                      show (if w2.next = w2.next then _ else _ : Obj V).m = _
                      rw [if_pos rfl]
                    exact killed_removal n ht2 hl2 (show TakenFrom d0 sid m0 (l2 ++ [((alloc { o' with adapter := some A.ref } w2).2.heap w2.next).m]) by
                      rw [ho]; exact .next ht2 hx2 ⟨f, ll, hf, hk, hu⟩ (hl2.sub hg)) h6
              have tc : ∀ {q3 : Proc V (Except Err Unit × World V E)} {d3 : Dict (Obj V)}, Solo (Cl.tryCatch (Cl.bind (cLoad A (redisKey sid c.1 c.2)) (fun k => cRemove A sid n k true)) Err.isNotFound
                  (fun _ => Cl.lift (M.emit (.childNotFound c.1 c.2 (w.heap r).m.type (w.heap r).m.uid))) w2, d2) (q3, d3) →
                  ∃ l', TakenFrom d0 sid m0 (l2 ++ l') ∧ LeftOver d0 sid (l2 ++ l') d3 := by
                intro q3 d3 h4
                rcases solo_ctry h4 with ⟨p', h5⟩ | ⟨e, w3, d4, h5, h6⟩
                · exact body h5
                · cases solo_ret h6
                  exact body h5
              change Solo (Cl.bind _ _ w2, d2) (q2, d') at h3
              rcases solo_cbind h3 with ⟨p', h4⟩ | ⟨_, w3, d3, h4, h5⟩
              · exact tc h4
              · obtain ⟨l3, ht3, hl3⟩ := tc h4
                obtain ⟨l4, ht4, hl4⟩ := ih (fun c hc => hcs c (List.mem_cons_of_mem _ hc)) (List.mem_append_left _ hx2) ht3 hl3 h5
                exact ⟨l3 ++ l4, by rwa [← List.append_assoc], by rwa [← List.append_assoc]⟩
          obtain ⟨l', h3, h4⟩ := loop (childRefs (w.heap r).m) (fun _ h => h) (List.mem_append_right l (List.mem_singleton.2 rfl)) hx (hl.take _) h2
          exact ⟨[(w.heap r).m] ++ l', by rwa [← List.append_assoc], by rwa [← List.append_assoc]⟩

theorem remove_alone_redis (A : Adapter V) {sid : String} (hA : A.ref.store = .redis sid) (n : Nat) (r : Ref) (w : World V E) (h : Dict.has w.redis (redisKey sid (w.heap r).m.type (w.heap r).m.uid) = true) :
    (remove A (n + 1) r false w).2.redis = Dict.erase w.redis (redisKey sid (w.heap r).m.type (w.heap r).m.uid) := by
  have h1 : removeItem A (w.heap r).m.type (w.heap r).m.uid w = (.ok (), w.at (Dict.erase w.redis (redisKey sid (w.heap r).m.type (w.heap r).m.uid))) := by
    unfold removeItem
    rw [hA]
    show (if Dict.has w.redis _ = true then _ else _ : M V E Unit) w = _
    rw [if_pos h]
    rfl
  have h2 : (removeOne A r w).2.redis = Dict.erase w.redis (redisKey sid (w.heap r).m.type (w.heap r).m.uid) ∧ (removeOne A r w).1 = .ok () := by
    rw [removeOne_eq]
    show (M.bind (removeItem A (w.heap r).m.type (w.heap r).m.uid) _ w).2.redis = _ ∧ (M.bind (removeItem A (w.heap r).m.type (w.heap r).m.uid) _ w).1 = _
    unfold M.bind
    rw [h1]
    show ((if adapterTruthy _ _ then _ else _ : M V E Unit) _).2.redis = _ ∧ ((if adapterTruthy _ _ then _ else _ : M V E Unit) _).1 = _
    split <;> exact ⟨rfl, rfl⟩
  show (M.bind (removeOne A r) (fun _ => _) w).2.redis = _
  unfold M.bind
  obtain ⟨h3, h4⟩ := h2
  cases hr : removeOne A r w with
  | mk x w' =>
    rw [hr] at h3 h4
    cases h4
    exact h3

theorem kills_remove (A : Adapter V) {sid : String} (hA : A.ref.store = .redis sid) (n : Nat) (r : Ref) (rc : Bool) (P : World V E → Prop) (m' : M V (Nat × E) Unit) :
    Kills (V := V) (E := E) Ad es sid P (cRemove A sid n r rc) (remove A n r rc) m' (fun w d' => d' = w.redis ∨ rc = true ∧ ∃ l, TakenFrom w.redis sid (w.heap r).m l ∧ LeftOver w.redis sid l d') := by
  rintro w d _ d' ⟨p, hs⟩
  cases rc with
  | true =>
    obtain ⟨l, h1, h2⟩ := killed_removal (l := []) n .none (fun key => ⟨(fun hm => by cases hm), fun _ => rfl⟩) (.first : TakenFrom d sid (w.heap r).m _) hs
    exact .inr (.inr ⟨rfl, l, h1, h2⟩)
  | false =>
    cases n with
    | zero => cases solo_ret hs; exact .inr (.inl rfl)
    | succ n =>
      change Solo (Cl.bind (cRemoveOne sid r) _ w, d) (p, d') at hs
      have fin : (∃ p', Solo (cRemoveOne sid r w, d) (p', d')) := by
        rcases solo_cbind hs with h | ⟨_, w1, d1, h1, h2⟩
        · exact h
        · cases solo_ret h2; exact ⟨_, h1⟩
      obtain ⟨p', h1⟩ := fin
      rcases killed_removeOne h1 with ⟨h2, _⟩ | ⟨h2, h3⟩
      · exact .inr (.inl h2)
      · refine .inl (.inl ?_)
        rw [h3]
        exact remove_alone_redis A hA n r (w.at d) h2

/-! ## Bookkeeping after `sync_model` -/

/-- What may be left amid the bookkeeping. -/
def AmidStore (sid : String) (act : Option Action) (r : Ref) (sk : Bool) (w : World V E) (d' : Dict (Obj V)) : Prop :=
  act = some .create ∧ d' = w.redis ∨
  act = some .delete ∧ (d' = w.redis ∨ sk = true ∧ ∃ l, TakenFrom w.redis sid (w.heap r).m l ∧ LeftOver w.redis sid l d')

theorem removeChildRef_heap {p r : Ref} {w w' : World V E} {a : Unit} (hp : p ≠ r) (h : removeChildRef p r w = (.ok a, w')) : w'.heap r = w.heap r := by
  unfold removeChildRef at h
  change M.bind (M.ofExcept ((w.heap p).m.removeChild (w.heap r).m.type (w.heap r).m.uid)) _ w = _ at h
  unfold M.bind M.ofExcept at h
  cases hm : (w.heap p).m.removeChild (w.heap r).m.type (w.heap r).m.uid with
  | error e => rw [hm] at h; cases h
  | ok m =>
    rw [hm] at h
    cases h
    show (if r = p then _ else w.heap r) = _
    rw [if_neg (fun h => hp h.symm)]

theorem kills_applyStore (S : SyncCtx V E) {sid : String} (hS : S.dst.ref.store = .redis sid) (act : Option Action) (parent : Option Ref) (r : Ref) (sk : Bool) (P : World V E → Prop)
    (hP : ∀ w, P w → parent ≠ some r) :
    Kills Ad es sid P (cApplyStore S sid act parent r sk) (applyStore S act parent r sk) (applyStore S.upTo act parent r sk) (AmidStore sid act r sk) := by
  have quiet : ∀ {m' : M V (Nat × E) Unit}, Kills Ad es sid P (Cl.lift (M.pure ())) (M.pure ()) m' (AmidStore sid act r sk) := fun {m'} => .lift m' (.mpure _)
  cases act with
  | none => exact quiet
  | some a =>
    cases a with
    | update => exact quiet
    | create =>
      have hb := both_withParent (E := E) (fun p => both_addChildRef (V := V) p r) parent
      refine ((Kills.lift (withParent parent fun p => addChildRef p r) (X := NoMore) hb.1).bindX (.lift hb.1) hb.2 (Q := fun _ _ => True) (fun _ _ _ _ _ => trivial)
        (fun _ => kills_add S.dst hS r _ (add S.dst r))).mono (fun _ h => h) ?_
      rintro w d' hw (h | ⟨_, w', hm, h⟩)
      · exact h.elim
      · have := hb.1.redis w
        rw [hm] at this
        exact .inl ⟨rfl, h.trans this⟩
    | delete =>
      have hb := both_withParent (E := E) (fun p => both_removeChildRef (V := V) p r) parent
      refine ((Kills.lift (withParent parent fun p => removeChildRef p r) (X := NoMore) hb.1).bindX (.lift hb.1) hb.2 (Q := fun _ _ => True) (fun _ _ _ _ _ => trivial)
        (fun _ => kills_remove S.dst hS S.rlimit r sk _ (remove S.dst S.rlimit r sk))).mono (fun _ h => h) ?_
      rintro w d' hw (h | ⟨_, w', hm, h⟩)
      · exact h.elim
      · have hr := hb.1.redis w
        rw [hm] at hr
        have hh : w'.heap r = w.heap r := by
          cases parent with
          | none => cases hm; rfl
          | some p => exact removeChildRef_heap (fun hp => hP w hw (congrArg some hp)) hm
        refine .inr ⟨rfl, ?_⟩
        rw [hr, hh] at h
        exact h

/-! ## `sync_model` -/

theorem setStatus_apply (r : Ref) (s : Status) (msg : String) (w : World V E) : setStatus r s msg w = (.ok (), w.setObj r { w.heap r with status := s, msg := msg }) := rfl

theorem overrideStatus_keeps (r : Ref) (o : Option (Status × String)) (w : World V E) :
    ∃ w', overrideStatus r o w = (.ok (), w') ∧ w'.next = w.next ∧ (∀ x, (w'.heap x).m = (w.heap x).m) := by
  cases o with
  | none => exact ⟨w, rfl, rfl, fun _ => rfl⟩
  | some p =>
    refine ⟨_, rfl, rfl, fun x => ?_⟩
    show (if x = r then _ else w.heap x : Obj V).m = _
    split
    · rename_i h; rw [h]
    · rfl

theorem hookCreate_post {S : SyncCtx V E} {c : ModelClass V} {ids attrs : Dict V} {w w' : World V E} {r : Ref} (h : hookCreate S c ids attrs w = (.ok (some r), w')) :
    r = w.next ∧ r < w'.next ∧ c.construct ids attrs = .ok (w'.heap r).m := by
  unfold hookCreate at h
  change (match (S.hooks w.env (.create c.name ids attrs)).1.result with
    | .raises e => M.raise e
    | .none => Pure.pure none
    | .object => _ : M V E (Option Ref)) _ = _ at h
  cases hr : (S.hooks w.env (.create c.name ids attrs)).1.result with
  | raises e => rw [hr] at h; cases h
  | none => rw [hr] at h; cases h
  | object =>
    rw [hr] at h
    change M.bind (M.ofExcept (c.construct ids attrs)) _ _ = _ at h
    unfold M.bind M.ofExcept at h
    cases hm : c.construct ids attrs with
    | error e => rw [hm] at h; cases h
    | ok m =>
      rw [hm] at h
      change M.bind (overrideStatus w.next _) _ _ = _ at h
      unfold M.bind at h
      obtain ⟨w2, h2, h3, h4⟩ := overrideStatus_keeps w.next (S.hooks w.env (.create c.name ids attrs)).1.status
        (alloc { m := m, adapter := some S.dst.ref, status := .success, msg := "Created successfully" } { w with env := (S.hooks w.env (.create c.name ids attrs)).2, trace := w.trace ++ [.call (.create c.name ids attrs) (S.hooks w.env (.create c.name ids attrs)).1] }).2
      erw [h2] at h
      cases h
      refine ⟨rfl, by rw [h3]; exact Nat.lt_succ_self _, ?_⟩
      refine congrArg Except.ok ?_
      refine Eq.trans ?_ (h4 w.next).symm
      show _ = (if w.next = w.next then _ else _ : Obj V).m
      rw [if_pos rfl]

theorem finishHook_post {r r' : Ref} {out : Outcome} {w w' : World V E} (h : finishHook r out w = (.ok (some r'), w')) : r' = r ∧ ∀ x, (w'.heap x).m = (w.heap x).m := by
  change M.bind (overrideStatus r out.status) _ w = _ at h
  unfold M.bind at h
  obtain ⟨w2, h2, _, h4⟩ := overrideStatus_keeps r out.status w
  rw [h2] at h
  dsimp only at h
  cases hr : out.result with
  | raises e => rw [hr] at h; cases h
  | none => rw [hr] at h; cases h
  | object => rw [hr] at h; cases h; exact ⟨rfl, h4⟩

theorem hookDelete_post {S : SyncCtx V E} {r r' : Ref} {w w' : World V E} (h : hookDelete S r w = (.ok (some r'), w')) : r' = r ∧ (w'.heap r).m = (w.heap r).m := by
  unfold hookDelete at h
  change (if (S.hooks w.env (.delete (w.heap r).m.type (w.heap r).m.uid)).1.applied = true then _ else _ : M V E (Option Ref)) _ = _ at h
  split at h
  · obtain ⟨h1, h2⟩ := finishHook_post (w := World.setObj _ r _) h
    refine ⟨h1, (h2 r).trans ?_⟩
    show (if r = r then _ else _ : Obj V).m = _
    rw [if_pos rfl]
  · obtain ⟨h1, h2⟩ := finishHook_post h
    exact ⟨h1, h2 r⟩

theorem hookUpdate_post {S : SyncCtx V E} {r r' : Ref} {attrs : Dict V} {w w' : World V E} (h : hookUpdate S r attrs w = (.ok (some r'), w')) : r' = r := by
  unfold hookUpdate at h
  change (if (S.hooks w.env (.update (w.heap r).m.type (w.heap r).m.uid attrs)).1.applied = true then _ else _ : M V E (Option Ref)) _ = _ at h
  split at h
  · change M.bind (updateBase r attrs) _ _ = _ at h
    unfold M.bind at h
    split at h
    · exact (finishHook_post h).1
    · cases h
  · exact (finishHook_post h).1

theorem logSyncStatus_keeps (flags : Nat) (a : Option Action) (s : Status) (w : World V E) : ∃ t, logSyncStatus flags a s w = (.ok (), { w with trace := w.trace ++ t }) := by
  have h0 : w = { w with trace := w.trace ++ [] } := by rw [List.append_nil]
  unfold logSyncStatus
  cases a with
  | none =>
    show ∃ t, (if flagOn flags GF.LOG_UNCHANGED_RECORDS then _ else _ : M V E Unit) w = _
    split
    · exact ⟨_, rfl⟩
    · exact ⟨[], congrArg (Prod.mk (Except.ok ())) h0⟩
  | some a => cases s <;> exact ⟨_, rfl⟩

theorem applyAction_post {S : SyncCtx V E} {c : ModelClass V} {a : Action} {dst : Option Ref} {ids attrs : Dict V} {w w' : World V E} {r : Ref}
    (h : applyAction S c a dst ids attrs w = (.ok (some r), w')) :
    (a = .create → dst = none ∧ r = w.next ∧ r < w'.next ∧ c.construct ids attrs = .ok (w'.heap r).m) ∧ (a ≠ .create → dst = some r) ∧ (a = .delete → (w'.heap r).m = (w.heap r).m) := by
  cases a <;> cases dst
  · exact ⟨fun _ => ⟨rfl, hookCreate_post h⟩, fun h => (h rfl).elim, fun h => (nomatch h)⟩
  · cases h
  · cases h
  · rename_i r0
    exact ⟨fun h => (nomatch h), fun _ => congrArg some (hookUpdate_post h).symm, fun h => (nomatch h)⟩
  · cases h
  · rename_i r0
    obtain ⟨h1, h2⟩ := hookDelete_post h
    exact ⟨fun h => (nomatch h), fun _ => congrArg some h1.symm, fun _ => by rw [h1]; exact h2⟩

theorem syncModel_post {S : SyncCtx V E} {c : ModelClass V} {a : Option Action} {dst : Option Ref} {ids attrs : Dict V} {w w' : World V E} {ch : Bool} {r : Ref}
    (h : syncModel S c a dst ids attrs w = (.ok (ch, some r), w')) :
    (a = some .create → dst = none ∧ r = w.next ∧ r < w'.next ∧ c.construct ids attrs = .ok (w'.heap r).m) ∧ (a ≠ some .create → dst = some r) ∧ (a = some .delete → (w'.heap r).m = (w.heap r).m) := by
  cases a with
  | none =>
    change M.bind (logSyncStatus S.flags none .success) _ w = _ at h
    unfold M.bind at h
    obtain ⟨t, ht⟩ := logSyncStatus_keeps (V := V) S.flags none .success w
    rw [ht] at h
    cases h
    exact ⟨fun h => (nomatch h), fun _ => rfl, fun h => (nomatch h)⟩
  | some a =>
    change M.bind (M.attempt (tryAction S c a dst ids attrs) Err.isCrud) _ w = _ at h
    unfold M.bind M.attempt at h
    cases ht : tryAction S c a dst ids attrs w with
    | mk res w1 =>
      rw [ht] at h
      cases res with
      | error e =>
        dsimp only at h
        split at h
        · rename_i heq
          split at heq
          · cases heq
            change M.bind (logSyncStatus S.flags (some a) .error) _ w1 = _ at h
            unfold M.bind at h
            obtain ⟨t, ht⟩ := logSyncStatus_keeps (V := V) S.flags (some a) .error w1
            rw [ht] at h
            dsimp only at h
            split at h <;> cases h
          · cases heq
        · cases h
      | ok p =>
        obtain ⟨r?, st⟩ := p
        change M.bind (logSyncStatus S.flags (some a) st) _ w1 = _ at h
        unfold M.bind at h
        obtain ⟨t, hl⟩ := logSyncStatus_keeps (V := V) S.flags (some a) st w1
        rw [hl] at h
        cases h
        change M.bind (applyAction S c a dst ids attrs) _ w = _ at ht
        unfold M.bind at ht
        cases ha : applyAction S c a dst ids attrs w with
        | mk res w2 =>
          rw [ha] at ht
          cases res with
          | error e => cases ht
          | ok o =>
            cases o with
            | none => cases ht
            | some r1 =>
              cases ht
              obtain ⟨h1, h2, h3⟩ := applyAction_post ha
              exact ⟨fun h => h1 (by cases h; rfl), fun h => h2 (fun hh => h (by rw [hh])), fun h => h3 (by cases h; rfl)⟩

/-- User code that gives up at once. -/
theorem syncModel_gaveUp {S : SyncCtx V E} {c : ModelClass V} {a : Action} {dst : Option Ref} {ids attrs : Dict V} {w : World V E} (h : a = .create ∧ dst = none ∨ a = .delete ∧ dst ≠ none) :
    ∃ w1, syncModel S.upTo c (some a) dst ids attrs (w.upTo 0) = (.error (.user 0), w1) ∧ w1.redis = w.redis ∧
      ∀ r, a = .delete → dst = some r → w1.trace.getLast? = some (.call (.delete (w.heap r).m.type (w.heap r).m.uid) gaveUp) := by
  rcases h with ⟨rfl, rfl⟩ | ⟨rfl, h⟩
  · exact ⟨_, rfl, rfl, fun r h => by cases h⟩
  · cases dst with
    | none => exact (h rfl).elim
    | some r =>
      refine ⟨_, rfl, rfl, fun r' _ hr => ?_⟩
      cases hr
      show (w.trace ++ [_]).getLast? = _
      rw [List.getLast?_append]
      rfl

/-! ## `sync_diff_element` -/

theorem resolve_cls {A : Adapter V} {c : ModelClass V} {d : Dict V} {t u : String} (h : resolve A (.cls c) (.dict d) = .ok (t, u)) : t = c.name ∧ c.createUniqueId d = some u := by
  unfold resolve at h
  dsimp only at h
  split at h <;> cases h
  rename_i hu
  exact ⟨rfl, hu⟩

theorem enterElem_post {S : SyncCtx V E} {e : Elem V} {w w' : World V E} {c : ModelClass V} (h : enterElem S e w = (.ok c, w')) :
    Dict.get? S.dst.classes e.type = some c ∧ w'.sact = e.action := by
  change M.bind (M.ofOption .attributeError (Dict.get? S.dst.classes e.type)) (fun c => M.bind (M.ofOption .keyError (c.createUniqueId e.keys)) _) w = _ at h
  unfold M.bind M.ofOption at h
  cases hc : Dict.get? S.dst.classes e.type with
  | none => rw [hc] at h; cases h
  | some c' =>
    rw [hc] at h
    dsimp only at h
    cases hu : c'.createUniqueId e.keys with
    | none => rw [hu] at h; cases h
    | some u => rw [hu] at h; cases h; exact ⟨rfl, rfl⟩

theorem get_redis_post {A : Adapter V} {sid : String} (hA : A.ref.store = .redis sid) {m : ModelArg V} {i : Ident V} {w w' : World V E} {r : Ref}
    (h : get A m i w = (.ok r, w')) : r = w.next ∧ r < w'.next ∧ ∃ t u o, resolve A m i = .ok (t, u) ∧ Dict.get? w'.redis (redisKey sid t u) = some o ∧ (w'.heap r).m = o.m := by
  change M.bind (M.ofExcept (resolve A m i)) _ w = _ at h
  unfold M.bind M.ofExcept at h
  cases hr : resolve A m i with
  | error e => rw [hr] at h; cases h
  | ok p =>
    obtain ⟨t, u⟩ := p
    rw [hr] at h
    dsimp only at h
    unfold getRaw redisLoad at h
    rw [hA] at h
    dsimp only at h
    cases hg : Dict.get? w.redis (redisKey sid t u) with
    | none => rw [hg] at h; cases h
    | some o =>
      rw [hg] at h
      cases h
      refine ⟨rfl, Nat.lt_succ_self _, t, u, o, rfl, hg, ?_⟩
      show (if w.next = w.next then _ else _ : Obj V).m = _
      rw [if_pos rfl]

theorem fetchDst_post {S : SyncCtx V E} {sid : String} (hS : S.dst.ref.store = .redis sid) {c : ModelClass V} {ids : Dict V} {w w' : World V E} {r : Ref}
    (h : fetchDst S c ids w = (.ok (some r), w')) : r = w.next ∧ r < w'.next ∧ ∃ u o, c.createUniqueId ids = some u ∧
      Dict.get? w'.redis (redisKey sid c.name u) = some o ∧ (w'.heap r).m = o.m := by
  unfold fetchDst M.tryCatch at h
  cases hb : (do let r ← get S.dst (.cls c) (.dict ids); setStatus r .unknown; pure (some r) : M V E (Option Ref)) w with
  | mk res w1 =>
    rw [hb] at h
    cases res with
    | error e =>
      dsimp only at h
      split at h <;> cases h
    | ok a =>
      cases h
      change M.bind (get S.dst (.cls c) (.dict ids)) _ w = _ at hb
      unfold M.bind at hb
      cases hg : get S.dst (.cls c) (.dict ids) w with
      | mk res w2 =>
        rw [hg] at hb
        cases res with
        | error e => cases hb
        | ok r2 =>
          cases hb
          obtain ⟨h1, h2, _, u, o, hr, h3, h4⟩ := get_redis_post hS hg
          obtain ⟨rfl, hu⟩ := resolve_cls hr
          refine ⟨h1, h2, u, o, hu, h3, ?_⟩
          show (if r = r then _ else _ : Obj V).m = _
          rw [if_pos rfl]
          exact h4

/-- The parent was made before. -/
def ParentIn (parent : Option Ref) (w : World V E) : Prop := ∀ p, parent = some p → p < w.next

theorem ParentIn.mono {parent : Option Ref} {w w' : World V E} (h : ParentIn parent w) (hn : w.next ≤ w'.next) : ParentIn parent w' := fun p hp => Nat.lt_of_lt_of_le (h p hp) hn

theorem Cuts.next {m : M V E α} {m' : M V (Nat × E) α} (h : Cuts m m') {w w' : World V E} {a : α} (hm : m w = (.ok a, w')) : w.next ≤ w'.next := by
  have := (h w).1
  rw [hm] at this
  exact this

/-- The object is as stored on the server for the element. -/
def OnServer (A : Adapter V) (sid : String) (e : Elem V) (r : Ref) (w : World V E) : Prop :=
  ∃ c u o, Dict.get? A.classes e.type = some c ∧ c.createUniqueId e.keys = some u ∧ Dict.get? w.redis (redisKey sid c.name u) = some o ∧ (w.heap r).m = o.m

/-- The object that the destination has was made after the parent, and is as on the server. -/
def FoundIn (A : Adapter V) (sid : String) (e : Elem V) (parent dst : Option Ref) (w : World V E) : Prop :=
  ParentIn parent w ∧ ∀ r, dst = some r → r < w.next ∧ parent ≠ some r ∧ OnServer A sid e r w

/-- The same after the children were visited. -/
def FoundIn' (A : Adapter V) (sid : String) (e : Elem V) (parent dst : Option Ref) (fl : Bool × Bool) (w : World V E) : Prop :=
  ParentIn parent w ∧ ∀ r, dst = some r → r < w.next ∧ parent ≠ some r ∧ (fl.2 = true → OnServer A sid e r w ∧ w.sact = e.action ∧ flagOn (w.heap r).m.flags MF.SKIP_CHILDREN_ON_DELETE = true)

theorem dstFlags_world (dst : Option Ref) (w : World V E) : (dstFlags dst w).2 = w := by cases dst <;> rfl

theorem dstFlags_post {dst : Option Ref} {w w' : World V E} {fl : Bool × Bool} (h : dstFlags dst w = (.ok fl, w')) :
    ∀ r, dst = some r → fl.2 = flagOn (w'.heap r).m.flags MF.SKIP_CHILDREN_ON_DELETE := by
  intro r hr
  subst hr
  cases h
  rfl

theorem kills_before (S : SyncCtx V E) {sid : String} (hS : S.dst.ref.store = .redis sid) {n : Nat}
    (e : Elem V)
    (ih : ∀ k ∈ e.kids, ∀ p, Kills S.dst es sid (ParentIn p) (cSyncElem S sid n k p) (syncElem S n k p) (syncElem S.upTo n k p) NoMore) (dst : Option Ref) (fl : Bool × Bool) :
    Kills S.dst es sid (ParentIn dst) (cBefore S sid n e dst fl) (before S n e dst fl) (before S.upTo n e dst fl) NoMore := by
  unfold before cBefore
  split
  · exact (Kills.orEach (fun k => runs_syncElem S hS n k dst) (fun k => cuts_syncElem S hS n k dst) (fun _ _ h hn => h.mono hn) _ _
      (fun k hk => ih k (mem_of_getChildren hk) dst)).bind (Q := fun _ _ => True)
      (.orEach (fun k => runs_syncElem S hS n k dst) _ _) (.orEach (fun k => cuts_syncElem S hS n k dst) _ _) (fun _ _ _ _ _ => trivial) fun _ => .lift _ (.mpure _)
  · exact .lift _ (.mpure _)

theorem runs_before (S : SyncCtx V E) {sid : String} (hS : S.dst.ref.store = .redis sid) (n : Nat) (e : Elem V) (dst : Option Ref) (fl : Bool × Bool) :
    RunsAs (cBefore S sid n e dst fl) (before S n e dst fl) := by
  unfold before cBefore
  split
  · exact .bind (.orEach (fun k => runs_syncElem S hS n k dst) _ _) fun _ => .lift (.mpure _)
  · exact .lift (.mpure _)

theorem kills_afterModel (S : SyncCtx V E) {sid : String} (hS : S.dst.ref.store = .redis sid) {n : Nat}
    (e : Elem V)
    (ih : ∀ k ∈ e.kids, ∀ p, Kills S.dst es sid (ParentIn p) (cSyncElem S sid n k p) (syncElem S n k p) (syncElem S.upTo n k p) NoMore) (parent : Option Ref) (fl : Bool × Bool)
    (act : Option Action) (x : Bool × Option Ref) :
    Kills S.dst es sid (fun w => ∀ r, x.2 = some r → r < w.next ∧ parent ≠ some r) (cAfterModel S sid n e parent fl act x) (afterModel S n e parent fl act x) (afterModel S.upTo n e parent fl act x)
      (fun w d' => ∃ r, x.2 = some r ∧ AmidStore sid act r fl.2 w d') := by
  obtain ⟨ch, md⟩ := x
  cases md with
  | none =>
    exact ((Kills.lift noObj both_noObj.1).bind (Q := fun _ _ => True) (.lift both_noObj.1) both_noObj.2 (fun _ _ _ _ _ => trivial) fun _ => .lift _ (.mpure _)).mono
      (fun _ h => h) (X := NoMore) fun _ _ _ h => h.elim
  | some r =>
    have hap := kills_applyStore (Ad := S.dst) (es := es) S hS act parent r fl.2 (fun w => ∀ r', some r = some r' → r' < w.next ∧ parent ≠ some r') fun w hw => (hw r rfl).2
    have hrest : Kills (V := V) (E := E) S.dst es sid (fun w => r < w.next)
        (if act == some .delete && fl.2 then Cl.lift (M.pure ch)
          else Cl.bind (Cl.lift incrElements) fun _ =>
            if !fl.1 || !(act == some .delete) then Cl.orEach (fun k => cSyncElem S sid n k (some r)) (getChildren S.dc e.kids) ch else Cl.lift (M.pure ch))
        (if act == some .delete && fl.2 then M.pure ch
          else incrElements >>= fun _ =>
            if !fl.1 || !(act == some .delete) then M.orEach (fun k => syncElem S n k (some r)) (getChildren S.dc e.kids) ch else M.pure ch)
        (if act == some .delete && fl.2 then M.pure ch
          else incrElements >>= fun _ =>
            if !fl.1 || !(act == some .delete) then M.orEach (fun k => syncElem S.upTo n k (some r)) (getChildren S.dc e.kids) ch else M.pure ch) NoMore := by
      split
      · exact .lift _ (.mpure _)
      · refine (Kills.lift incrElements both_incrElements.1).bind (Q := fun _ w => ParentIn (some r) w) (.lift both_incrElements.1) both_incrElements.2
          (fun w a w' hw hm p hp => by cases hp; exact Nat.lt_of_lt_of_le hw (Cuts.next both_incrElements.2 hm)) fun _ => ?_
        split
        · exact .orEach (fun k => runs_syncElem S hS n k _) (fun k => cuts_syncElem S hS n k _) (fun _ _ h hn => h.mono hn) _ _ fun k hk => ih k (mem_of_getChildren hk) _
        · exact .lift _ (.mpure _)
    exact (hap.bind (runs_applyStore S hS _ _ _ _) (cuts_applyStore S hS _ _ _ _) (Q := fun _ w => r < w.next)
      (fun w a w' hw hm => Nat.lt_of_lt_of_le (hw r rfl).1 ((cuts_applyStore S hS _ _ _ _).next hm)) fun _ => hrest).mono (fun _ h => h) fun _ _ _ h => ⟨r, rfl, h⟩

theorem kills_syncElem (S : SyncCtx V E) {sid : String} (hS : S.dst.ref.store = .redis sid) :
    ∀ (n : Nat) (e : Elem V) (p : Option Ref), InTree e es → Kills S.dst es sid (ParentIn p) (cSyncElem S sid n e p) (syncElem S n e p) (syncElem S.upTo n e p) NoMore
  | 0, _, _, _ => .lift _ (.raise _)
  | n + 1, e, p, he => by
    have ih : ∀ k ∈ e.kids, ∀ p, Kills S.dst es sid (ParentIn p) (cSyncElem S sid n k p) (syncElem S n k p) (syncElem S.upTo n k p) NoMore :=
      fun k hk p => kills_syncElem S hS n k p (he.kid hk)
    rw [syncElem_eq, syncElem_eq, cSyncElem_eq]
    refine (Kills.lift _ (both_enterElem S e).1).bind (Q := fun c w => ParentIn p w ∧ Dict.get? S.dst.classes e.type = some c ∧ w.sact = e.action) (.lift (both_enterElem S e).1) (both_enterElem S e).2
      (fun w a w' hw hm => ⟨hw.mono ((both_enterElem S e).2.next hm), enterElem_post hm⟩) fun c => ?_
    refine (Kills.reads _ (ro_getOrNone _ _ _) (runs_getOrNone _ _ _)).bind (Q := fun _ w => ParentIn p w ∧ Dict.get? S.dst.classes e.type = some c ∧ w.sact = e.action) (runs_getOrNone _ _ _) (cuts_getOrNone _ _ _)
      (fun w a w' hw hm => ⟨hw.1.mono ((cuts_getOrNone _ _ _).next hm), hw.2.1, by
        have := sameAct_getOrNone S.src (.cls c) (.dict e.keys) w
        rw [hm] at this
        exact this.trans hw.2.2⟩) fun _ => ?_
    refine (Kills.reads _ (ro_fetchDst S c _) (runs_fetchDst S c _)).bind (Q := fun dst w => FoundIn S.dst sid e p dst w ∧ w.sact = e.action) (runs_fetchDst S c _) (cuts_fetchDst S c _)
      (fun w a w' hw hm => ⟨⟨hw.1.mono ((cuts_fetchDst S c _).next hm), fun r hr => ?_⟩, by
        have := sameAct_fetchDst S c e.keys w
        rw [hm] at this
        exact this.trans hw.2.2⟩) fun dst => ?_
    · cases hr
      obtain ⟨h1, h2, u, o, hu, h3, h4⟩ := fetchDst_post hS hm
      exact ⟨h2, fun hp => Nat.lt_irrefl _ (h1 ▸ hw.1 r hp), c, u, o, hw.2.1, hu, h3, h4⟩
    refine (Kills.lift _ (both_dstFlags dst).1).bind (Q := fun fl w => (FoundIn S.dst sid e p dst w ∧ w.sact = e.action) ∧ ∀ r, dst = some r → fl.2 = flagOn (w.heap r).m.flags MF.SKIP_CHILDREN_ON_DELETE) (.lift (both_dstFlags dst).1) (both_dstFlags dst).2 (fun w a w' hw hm => ?_) fun fl => ?_
    · have := dstFlags_world dst w
      rw [hm] at this
      refine ⟨?_, dstFlags_post hm⟩
      rw [show w' = w from this]
      exact hw
    refine ((kills_before S hS e ih dst fl).mono (fun w hw r hr => (hw.1.1.2 r hr).1) fun _ _ _ h => h).bind (Q := fun _ => FoundIn' S.dst sid e p dst fl) (runs_before S hS n e dst fl)
      (cuts_before S (cuts_syncElem S hS n) e dst fl) (fun w a w' hw hm => ?_) fun _ => ?_
    · have hn := (cuts_before S (cuts_syncElem S hS n) e dst fl).next hm
      refine ⟨hw.1.1.1.mono hn, fun r hr => ⟨Nat.lt_of_lt_of_le (hw.1.1.2 r hr).1 hn, (hw.1.1.2 r hr).2.1, fun hf => ?_⟩⟩
      unfold before at hm
      rw [hf, Bool.not_true, Bool.and_false, if_neg (by decide)] at hm
      cases hm
      exact ⟨(hw.1.1.2 r hr).2.2, hw.1.2, by rw [← hw.2 r hr]; exact hf⟩
    refine (Kills.lift _ both_peek.1).bind (Q := fun a w => FoundIn' S.dst sid e p dst fl w ∧ a.1 = w.sact) (.lift both_peek.1) both_peek.2 (fun w a w' hw hm => by cases hm; exact ⟨hw, rfl⟩) fun a => ?_
    have hsm := both_syncModel S (a.2.getD c) a.1 dst e.keys (e.plus.getD [])
    refine Kills.call hsm.1 hsm.2 ?_ (fun x => kills_afterModel S hS e ih p fl a.1 x) ?_
    · rintro w ⟨ch, md⟩ w' hw hm r hr
      cases hr
      obtain ⟨h1, h2, _⟩ := syncModel_post hm
      by_cases ha : a.1 = some .create
      · obtain ⟨_, h3, h4, _⟩ := h1 ha
        exact ⟨h4, fun hp => Nat.lt_irrefl _ (h3 ▸ hw.1.1 r hp)⟩
      · obtain ⟨h3, h4, _⟩ := hw.1.2 r (h2 ha)
        exact ⟨Nat.lt_of_lt_of_le h3 (hsm.2.next hm), h4⟩
    · rintro w ⟨ch, md⟩ w' d' hw hm ⟨r, hr, hx⟩
      cases hr
      obtain ⟨h1, h2, h3⟩ := syncModel_post hm
      have hred : w'.redis = w.redis := by
        have := hsm.1.redis w
        rw [hm] at this
        exact this
      rcases hx with ⟨ha, rfl⟩ | ⟨ha, hx⟩
      · rw [ha]
        obtain ⟨w1, g1, g2, _⟩ := syncModel_gaveUp (S := S) (c := a.2.getD c) (a := .create) (dst := dst) (ids := e.keys) (attrs := e.plus.getD []) (w := w) (.inl ⟨rfl, (h1 ha).1⟩)
        exact ⟨w1, g1, .inl (g2.trans hred.symm)⟩
      · have hd : dst = some r := h2 (by rw [ha]; intro h; cases h)
        rw [ha]
        obtain ⟨w1, g1, g2, g3⟩ := syncModel_gaveUp (S := S) (c := a.2.getD c) (a := .delete) (dst := dst) (ids := e.keys) (attrs := e.plus.getD []) (w := w) (.inr ⟨rfl, by rw [hd]; intro h; cases h⟩)
        rcases hx with rfl | ⟨hsk, l, hl⟩
        · exact ⟨w1, g1, .inl (g2.trans hred.symm)⟩
        · obtain ⟨⟨c', u, o, hc', hu, ho, hm⟩, hact, hfl⟩ := (hw.1.2 r hd).2.2 hsk
          refine ⟨w1, g1, .inr ⟨e, c', u, o, l, he, by rw [← hact, ← hw.2]; exact ha, hc', hu, by rw [g2]; exact ho, by rw [← hm]; exact hfl, by rw [← hm]; exact g3 r rfl hd, ?_⟩⟩
          rw [g2, ← hred, ← hm, ← h3 ha]
          exact hl

theorem kills_performSync (S : SyncCtx V E) {sid : String} (hS : S.dst.ref.store = .redis sid) (n : Nat) (d : Diff V) :
    Kills S.dst d.kids sid (fun _ => True) (cPerformSync S sid n d) (performSync S n d) (performSync S.upTo n d) NoMore := by
  refine (Kills.lift _ (.modify fun _ _ => rfl)).bind (Q := fun _ => ParentIn none) (.lift (.modify fun _ _ => rfl)) (.modify (fun _ _ => rfl) fun _ => rfl) (fun _ _ _ _ _ p hp => by cases hp) fun _ => ?_
  exact .orEach (fun k => runs_syncElem S hS n k none) (fun k => cuts_syncElem S hS n k none) (fun _ _ h hn => h.mono hn) _ _
    fun k hk => kills_syncElem S hS n k none (.here (mem_of_getChildren hk))

end DS
