import Verif.Spec.SyncKilled
import Verif.Props.Crash
/-! # Lemmas about the sync as a client of the server -/
set_option linter.unusedSectionVars false

namespace DS
variable {V E α β : Type}

/-- The world with other contents of the server. -/
def World.at (w : World V E) (d : Dict (Obj V)) : World V E := { w with redis := d }

@[simp] theorem World.at_at (w : World V E) (d d' : Dict (Obj V)) : (w.at d).at d' = w.at d' := rfl
@[simp] theorem World.at_redis (w : World V E) (d : Dict (Obj V)) : (w.at d).redis = d := rfl
@[simp] theorem World.at_self (w : World V E) : w.at w.redis = w := rfl

/-! ## Work in the client's own memory -/

/-- Neither reads nor changes the contents of the server. -/
def Blind (x : M V E α) : Prop := ∀ w d, x (w.at d) = ((x w).1, (x w).2.at d)

theorem Blind.redis {x : M V E α} (h : Blind x) (w : World V E) : (x w).2.redis = w.redis := by
  have h1 := h w w.redis
  rw [World.at_self] at h1
  rw [h1]
  rfl

theorem Blind.pure (a : α) : Blind (V := V) (E := E) (Pure.pure a) := fun _ _ => rfl
theorem Blind.mpure (a : α) : Blind (V := V) (E := E) (M.pure a) := fun _ _ => rfl
theorem Blind.raise (e : Err) : Blind (V := V) (E := E) (M.raise e : M V E α) := fun _ _ => rfl
theorem Blind.ofExcept (r : Except Err α) : Blind (V := V) (E := E) (M.ofExcept r) := fun _ _ => rfl
theorem Blind.ofOption (e : Err) (r : Option α) : Blind (V := V) (E := E) (M.ofOption e r) := fun _ _ => by
  cases r <;> rfl
theorem Blind.modify {f : World V E → World V E} (h : ∀ w d, f (w.at d) = (f w).at d) : Blind (M.modify f) := fun w d => by
  show ((.ok (), f (w.at d)) : Except Err Unit × World V E) = _
  rw [h]; rfl
theorem Blind.emit (e : Event V) : Blind (V := V) (E := E) (M.emit e) := .modify (fun _ _ => rfl)
theorem Blind.deref (r : Ref) : Blind (V := V) (E := E) (DS.deref r) := fun _ _ => rfl
theorem Blind.writeObj (r : Ref) (o : Obj V) : Blind (V := V) (E := E) (DS.writeObj r o) := .modify (fun _ _ => rfl)
theorem Blind.alloc (o : Obj V) : Blind (V := V) (E := E) (DS.alloc o) := fun _ _ => rfl

theorem Blind.bind {x : M V E α} {f : α → M V E β} (hx : Blind x) (hf : ∀ a, Blind (f a)) : Blind (x >>= f) := by
  intro w d
  show M.bind x f (w.at d) = ((M.bind x f w).1, (M.bind x f w).2.at d)
  unfold M.bind
  rw [hx w d]
  cases h : x w with
  | mk r w' =>
    cases r with
    | ok a => exact hf a w' d
    | error e => rfl

theorem Blind.tryCatch {x : M V E α} {p : Err → Bool} {g : Err → M V E α} (hx : Blind x) (hg : ∀ e, Blind (g e)) : Blind (M.tryCatch x p g) := by
  intro w d
  unfold M.tryCatch
  rw [hx w d]
  cases h : x w with
  | mk r w' =>
    cases r with
    | ok a => rfl
    | error e =>
      dsimp only
      split
      · exact hg e w' d
      · rfl

theorem Blind.attempt {x : M V E α} {p : Err → Bool} (hx : Blind x) : Blind (M.attempt x p) := by
  intro w d
  unfold M.attempt
  rw [hx w d]
  cases h : x w with
  | mk r w' =>
    cases r with
    | ok a => rfl
    | error e => dsimp only; split <;> rfl

theorem Blind.read {f : World V E → M V E α} (h : ∀ w, Blind (f w)) (he : ∀ w d, f (w.at d) = f w) : Blind (M.read >>= f) := by
  intro w d
  show f (w.at d) (w.at d) = ((f w w).1, (f w w).2.at d)
  rw [he, h w w d]

/-! ## User code that gives up -/

/-- The second computation is the first one, with user code that gives up after some calls: when it does not get that far, all is the same.  (And no address
becomes free.) -/
def Cuts (x : M V E α) (x' : M V (Nat × E) α) : Prop := ∀ w, w.next ≤ (x w).2.next ∧ ∃ c, ∀ k, x' (w.upTo (c + k)) = ((x w).1, (x w).2.upTo k)

theorem Cuts.none {x : M V E α} {x' : M V (Nat × E) α} (h : ∀ w k, x' (w.upTo k) = ((x w).1, (x w).2.upTo k)) (hn : ∀ w, (x w).2.next = w.next) : Cuts x x' :=
  fun w => ⟨Nat.le_of_eq (hn w).symm, 0, fun k => by rw [Nat.zero_add]; exact h w k⟩

theorem Cuts.pure (a : α) : Cuts (V := V) (E := E) (Pure.pure a) (Pure.pure a) := .none (fun _ _ => rfl) fun _ => rfl
theorem Cuts.mpure (a : α) : Cuts (V := V) (E := E) (M.pure a) (M.pure a) := .none (fun _ _ => rfl) fun _ => rfl
theorem Cuts.raise (e : Err) : Cuts (V := V) (E := E) (M.raise e : M V E α) (M.raise e) := .none (fun _ _ => rfl) fun _ => rfl
theorem Cuts.ofExcept (r : Except Err α) : Cuts (V := V) (E := E) (M.ofExcept r) (M.ofExcept r) := .none (fun _ _ => rfl) fun _ => rfl
theorem Cuts.ofOption (e : Err) (r : Option α) : Cuts (V := V) (E := E) (M.ofOption e r) (M.ofOption e r) := .none (fun _ _ => by cases r <;> rfl) fun _ => by cases r <;> rfl
theorem Cuts.modify {f : World V E → World V E} {f' : World V (Nat × E) → World V (Nat × E)} (h : ∀ w k, f' (w.upTo k) = (f w).upTo k) (hn : ∀ w, (f w).next = w.next) : Cuts (M.modify f) (M.modify f') :=
  .none (fun w k => by
    show ((.ok (), f' (w.upTo k)) : Except Err Unit × World V (Nat × E)) = _
    rw [h]; rfl) hn
theorem Cuts.emit (e : Event V) : Cuts (V := V) (E := E) (M.emit e) (M.emit e) := .modify (fun _ _ => rfl) fun _ => rfl
theorem Cuts.deref (r : Ref) : Cuts (V := V) (E := E) (DS.deref r) (DS.deref r) := .none (fun _ _ => rfl) fun _ => rfl
theorem Cuts.writeObj (r : Ref) (o : Obj V) : Cuts (V := V) (E := E) (DS.writeObj r o) (DS.writeObj r o) := .modify (fun _ _ => rfl) fun _ => rfl
theorem Cuts.alloc (o : Obj V) : Cuts (V := V) (E := E) (DS.alloc o) (DS.alloc o) := fun w => ⟨Nat.le_succ _, 0, fun k => by rw [Nat.zero_add]; rfl⟩

theorem Cuts.bind {x : M V E α} {x' : M V (Nat × E) α} {f : α → M V E β} {f' : α → M V (Nat × E) β} (hx : Cuts x x') (hf : ∀ a, Cuts (f a) (f' a)) :
    Cuts (x >>= f) (x' >>= f') := by
  intro w
  obtain ⟨hn, c, hc⟩ := hx w
  show w.next ≤ (M.bind x f w).2.next ∧ ∃ c, ∀ k, M.bind x' f' (w.upTo (c + k)) = ((M.bind x f w).1, (M.bind x f w).2.upTo k)
  unfold M.bind
  cases h : x w with
  | mk r w' =>
    rw [h] at hc hn
    cases r with
    | ok a =>
      obtain ⟨hn2, c2, hc2⟩ := hf a w'
      refine ⟨Nat.le_trans hn hn2, c + c2, fun k => ?_⟩
      rw [Nat.add_assoc, hc]
      exact hc2 k
    | error e => exact ⟨hn, c, fun k => by rw [hc]⟩

theorem Cuts.tryCatch {x : M V E α} {x' : M V (Nat × E) α} {p : Err → Bool} {g : Err → M V E α} {g' : Err → M V (Nat × E) α} (hx : Cuts x x')
    (hg : ∀ e, Cuts (g e) (g' e)) : Cuts (M.tryCatch x p g) (M.tryCatch x' p g') := by
  intro w
  obtain ⟨hn, c, hc⟩ := hx w
  unfold M.tryCatch
  cases h : x w with
  | mk r w' =>
    rw [h] at hc hn
    cases r with
    | ok a => exact ⟨hn, c, fun k => by rw [hc]⟩
    | error e =>
      dsimp only
      cases hp : p e with
      | true =>
        obtain ⟨hn2, c2, hc2⟩ := hg e w'
        refine ⟨Nat.le_trans hn hn2, c + c2, fun k => ?_⟩
        rw [Nat.add_assoc, hc]
        dsimp only
        rw [if_pos hp, if_pos rfl]
        exact hc2 k
      | false => exact ⟨hn, c, fun k => by rw [hc]; dsimp only; rw [hp]; rfl⟩

theorem Cuts.attempt {x : M V E α} {x' : M V (Nat × E) α} {p : Err → Bool} (hx : Cuts x x') : Cuts (M.attempt x p) (M.attempt x' p) := by
  intro w
  obtain ⟨hn, c, hc⟩ := hx w
  unfold M.attempt
  cases h : x w with
  | mk r w' =>
    rw [h] at hc hn
    cases r with
    | ok a => exact ⟨hn, c, fun k => by rw [hc]⟩
    | error e =>
      dsimp only
      refine ⟨?_, c, fun k => ?_⟩
      · split <;> exact hn
      · rw [hc]; dsimp only; split <;> rfl

theorem Cuts.read {f : World V E → M V E α} {f' : World V (Nat × E) → M V (Nat × E) α} (h : ∀ w, ∃ g, Cuts (f w) g ∧ ∀ k, f' (w.upTo k) = g) :
    Cuts (M.read >>= f) (M.read >>= f') := by
  intro w
  obtain ⟨g, h1, h2⟩ := h w
  obtain ⟨hn, c, hc⟩ := h1 w
  refine ⟨hn, c, fun k => ?_⟩
  show f' (w.upTo (c + k)) (w.upTo (c + k)) = ((f w w).1, (f w w).2.upTo k)
  rw [h2]
  exact hc k

theorem Cuts.forEach {γ : Type} {f : γ → M V E Unit} {f' : γ → M V (Nat × E) Unit} (h : ∀ a, Cuts (f a) (f' a)) : ∀ l, Cuts (M.forEach f l) (M.forEach f' l)
  | [] => .pure ()
  | a :: l => .bind (h a) (fun _ => forEach h l)

theorem Cuts.orEach {γ : Type} {f : γ → M V E Bool} {f' : γ → M V (Nat × E) Bool} (h : ∀ a, Cuts (f a) (f' a)) : ∀ l b, Cuts (M.orEach f l b) (M.orEach f' l b)
  | [], _ => .mpure _
  | a :: l, _ => .bind (h a) (fun _ => orEach h l _)

theorem Cuts.callHook (h : Hooks V E) (c : CrudCall V) : Cuts (DS.callHook h c) (DS.callHook h.upTo c) :=
  fun w => ⟨Nat.le_refl _, 1, fun k => by rw [Nat.add_comm]; rfl⟩

theorem Blind.callHook (h : Hooks V E) (c : CrudCall V) : Blind (DS.callHook h c) := fun _ _ => rfl

/-! ## The parts of a sync -/

section
variable [PyVal V]

theorem both_setStatus (r : Ref) (s : Status) (msg : String) : Blind (V := V) (E := E) (setStatus r s msg) ∧ Cuts (V := V) (E := E) (setStatus r s msg) (setStatus r s msg) :=
  ⟨.bind (.deref r) fun _ => .writeObj r _, .bind (.deref r) fun _ => .writeObj r _⟩

theorem both_overrideStatus (r : Ref) (o : Option (Status × String)) : Blind (V := V) (E := E) (overrideStatus r o) ∧ Cuts (V := V) (E := E) (overrideStatus r o) (overrideStatus r o) := by
  cases o with
  | none => exact ⟨.pure _, .pure _⟩
  | some p => exact both_setStatus r p.1 p.2

theorem both_setattrsRef (r : Ref) (attrs : Dict V) : Blind (V := V) (E := E) (setattrsRef r attrs) ∧ Cuts (V := V) (E := E) (setattrsRef r attrs) (setattrsRef r attrs) := by
  constructor
  · refine .bind (.deref r) fun o => ?_
    dsimp only
    refine .bind (.writeObj r _) fun _ => ?_
    split
    · exact .pure _
    · exact .raise _
  · refine .bind (.deref r) fun o => ?_
    dsimp only
    refine .bind (.writeObj r _) fun _ => ?_
    cases (o.m.setattrs attrs).2 with
    | none => exact .pure _
    | some e => exact .raise _

theorem both_finishHook (r : Ref) (out : Outcome) : Blind (V := V) (E := E) (finishHook r out) ∧ Cuts (V := V) (E := E) (finishHook r out) (finishHook r out) := by
  constructor
  · refine .bind (both_overrideStatus r _).1 fun _ => ?_
    split
    · exact .raise _
    · exact .pure _
    · exact .pure _
  · refine .bind (both_overrideStatus r _).2 fun _ => ?_
    cases out.result with
    | raises e => exact .raise _
    | none => exact .pure _
    | object => exact .pure _

theorem both_hookCreate (S : SyncCtx V E) (c : ModelClass V) (ids attrs : Dict V) : Blind (hookCreate S c ids attrs) ∧ Cuts (hookCreate S c ids attrs) (hookCreate S.upTo c ids attrs) := by
  constructor
  · refine .bind (.callHook _ _) fun out => ?_
    split
    · exact .raise _
    · exact .pure _
    · exact .bind (.ofExcept _) fun _ => .bind (.alloc _) fun _ => .bind (both_overrideStatus ..).1 fun _ => .pure _
  · refine .bind (.callHook _ _) fun out => ?_
    cases out.result with
    | raises e => exact .raise _
    | none => exact .pure _
    | object => exact .bind (.ofExcept _) fun _ => .bind (.alloc _) fun _ => .bind (both_overrideStatus ..).2 fun _ => .pure _

theorem both_hookUpdate (S : SyncCtx V E) (r : Ref) (attrs : Dict V) : Blind (hookUpdate S r attrs) ∧ Cuts (hookUpdate S r attrs) (hookUpdate S.upTo r attrs) := by
  constructor
  · refine .bind (.deref r) fun o => .bind (.callHook _ _) fun out => ?_
    dsimp only
    split
    · exact .bind (.bind (both_setattrsRef ..).1 fun _ => (both_setStatus ..).1) fun _ => (both_finishHook r out).1
    · exact (both_finishHook r out).1
  · refine .bind (.deref r) fun o => .bind (.callHook _ _) fun out => ?_
    dsimp only
    split
    · exact .bind (.bind (both_setattrsRef ..).2 fun _ => (both_setStatus ..).2) fun _ => (both_finishHook r out).2
    · exact (both_finishHook r out).2

theorem both_hookDelete (S : SyncCtx V E) (r : Ref) : Blind (hookDelete S r) ∧ Cuts (hookDelete S r) (hookDelete S.upTo r) := by
  constructor
  · refine .bind (.deref r) fun o => .bind (.callHook _ _) fun out => ?_
    dsimp only
    split
    · exact .bind (both_setStatus ..).1 fun _ => (both_finishHook r out).1
    · exact (both_finishHook r out).1
  · refine .bind (.deref r) fun o => .bind (.callHook _ _) fun out => ?_
    dsimp only
    split
    · exact .bind (both_setStatus ..).2 fun _ => (both_finishHook r out).2
    · exact (both_finishHook r out).2

theorem both_applyAction (S : SyncCtx V E) (c : ModelClass V) (a : Action) (dst : Option Ref) (ids attrs : Dict V) :
    Blind (applyAction S c a dst ids attrs) ∧ Cuts (applyAction S c a dst ids attrs) (applyAction S.upTo c a dst ids attrs) := by
  cases a <;> cases dst
  · exact both_hookCreate S c ids attrs
  · exact ⟨.raise _, .raise _⟩
  · exact ⟨.raise _, .raise _⟩
  · exact both_hookUpdate S _ attrs
  · exact ⟨.raise _, .raise _⟩
  · exact both_hookDelete S _

theorem both_tryAction (S : SyncCtx V E) (c : ModelClass V) (a : Action) (dst : Option Ref) (ids attrs : Dict V) :
    Blind (tryAction S c a dst ids attrs) ∧ Cuts (tryAction S c a dst ids attrs) (tryAction S.upTo c a dst ids attrs) := by
  constructor
  · refine .bind (both_applyAction ..).1 fun r? => ?_
    cases r? with
    | none => exact .pure _
    | some r => exact .bind (.deref r) fun _ => .pure _
  · refine .bind (both_applyAction ..).2 fun r? => ?_
    cases r? with
    | none => exact .pure _
    | some r => exact .bind (.deref r) fun _ => .pure _

theorem both_logSyncStatus (flags : Nat) (a : Option Action) (s : Status) :
    Blind (V := V) (E := E) (logSyncStatus flags a s) ∧ Cuts (V := V) (E := E) (logSyncStatus flags a s) (logSyncStatus flags a s) := by
  constructor
  · refine .read (fun w => ?_) (fun w d => rfl)
    cases a with
    | none => dsimp only; split
              · exact .emit _
              · exact .pure _
    | some a => cases s <;> exact .emit _
  · refine .read fun w => ?_
    cases a with
    | none =>
      dsimp only
      by_cases h : flagOn flags GF.LOG_UNCHANGED_RECORDS = true
      · exact ⟨M.emit (.log .debug w.slog s), by rw [if_pos h]; exact .emit _, fun k => by rw [if_pos h]; rfl⟩
      · exact ⟨Pure.pure (), by rw [if_neg h]; exact .pure _, fun k => by rw [if_neg h]⟩
    | some a => cases s <;> exact ⟨_, .emit _, fun k => rfl⟩

theorem both_syncModel (S : SyncCtx V E) (c : ModelClass V) (a : Option Action) (dst : Option Ref) (ids attrs : Dict V) :
    Blind (syncModel S c a dst ids attrs) ∧ Cuts (syncModel S c a dst ids attrs) (syncModel S.upTo c a dst ids attrs) := by
  cases a with
  | none => exact ⟨.bind (both_logSyncStatus ..).1 fun _ => .pure _, .bind (both_logSyncStatus ..).2 fun _ => .pure _⟩
  | some a =>
    constructor
    · refine .bind (.attempt (both_tryAction ..).1) fun res => ?_
      cases res with
      | error e =>
        refine .bind (both_logSyncStatus ..).1 fun _ => ?_
        split
        · exact .pure _
        · exact .raise _
      | ok p => exact .bind (both_logSyncStatus ..).1 fun _ => .pure _
    · refine .bind (.attempt (both_tryAction ..).2) fun res => ?_
      cases res with
      | error e =>
        refine .bind (both_logSyncStatus ..).2 fun _ => ?_
        show Cuts (if flagOn S.flags GF.CONTINUE_ON_FAILURE then _ else _) (if flagOn S.flags GF.CONTINUE_ON_FAILURE then _ else _)
        split
        · exact .pure _
        · exact .raise _
      | ok p => exact .bind (both_logSyncStatus ..).2 fun _ => .pure _

theorem both_enterElem (S : SyncCtx V E) (e : Elem V) : Blind (enterElem S e) ∧ Cuts (enterElem S e) (enterElem S.upTo e) :=
  ⟨.bind (.ofOption _ _) fun _ => .bind (.ofOption _ _) fun _ => .bind (.modify fun _ _ => rfl) fun _ => .pure _,
   .bind (.ofOption _ _) fun _ => .bind (.ofOption _ _) fun _ => .bind (.modify (fun _ _ => rfl) fun _ => rfl) fun _ => .pure _⟩

theorem both_dstFlags (dst : Option Ref) : Blind (V := V) (E := E) (dstFlags dst) ∧ Cuts (V := V) (E := E) (dstFlags dst) (dstFlags dst) := by
  cases dst with
  | none => exact ⟨.pure _, .pure _⟩
  | some r => exact ⟨.bind (.deref r) fun _ => .pure _, .bind (.deref r) fun _ => .pure _⟩

theorem both_addChildRef (p c : Ref) : Blind (V := V) (E := E) (addChildRef p c) ∧ Cuts (V := V) (E := E) (addChildRef p c) (addChildRef p c) :=
  ⟨.bind (.deref p) fun _ => .bind (.deref c) fun _ => .bind (.ofExcept _) fun _ => .writeObj _ _,
   .bind (.deref p) fun _ => .bind (.deref c) fun _ => .bind (.ofExcept _) fun _ => .writeObj _ _⟩

theorem both_removeChildRef (p c : Ref) : Blind (V := V) (E := E) (removeChildRef p c) ∧ Cuts (V := V) (E := E) (removeChildRef p c) (removeChildRef p c) :=
  ⟨.bind (.deref p) fun _ => .bind (.deref c) fun _ => .bind (.ofExcept _) fun _ => .writeObj _ _,
   .bind (.deref p) fun _ => .bind (.deref c) fun _ => .bind (.ofExcept _) fun _ => .writeObj _ _⟩

theorem both_withParent {f : Ref → M V E Unit} {f' : Ref → M V (Nat × E) Unit} (h : ∀ p, Blind (f p) ∧ Cuts (f p) (f' p)) (p : Option Ref) :
    Blind (withParent p f) ∧ Cuts (withParent p f) (withParent p f') := by
  cases p with
  | none => exact ⟨.pure _, .pure _⟩
  | some p => exact h p

theorem both_incrElements : Blind (V := V) (E := E) incrElements ∧ Cuts (V := V) (E := E) incrElements incrElements :=
  ⟨.modify fun _ _ => rfl, .modify (fun _ _ => rfl) fun _ => rfl⟩

theorem both_localModel (sid : Nat) (t : String) : Blind (V := V) (E := E) (localModel sid t) ∧ Cuts (V := V) (E := E) (localModel sid t) (localModel sid t) :=
  ⟨fun _ _ => rfl, .none (fun _ _ => rfl) fun _ => rfl⟩

theorem both_getRaw_local (A : Adapter V) {sid : Nat} (hA : A.ref.store = .local sid) (t u : String) :
    Blind (V := V) (E := E) (getRaw A t u) ∧ Cuts (V := V) (E := E) (getRaw A t u) (getRaw A t u) := by
  unfold getRaw
  rw [hA]
  exact ⟨.bind (both_localModel ..).1 fun _ => .ofOption _ _, .bind (both_localModel ..).2 fun _ => .ofOption _ _⟩

/-! ### those that go to the server -/

theorem cuts_redisLoad (A : Adapter V) (key : String) : Cuts (V := V) (E := E) (redisLoad A key) (redisLoad A key) :=
  fun w => by
    have h : ∀ k, redisLoad A key (w.upTo k) = ((redisLoad A key w).1, (redisLoad A key w).2.upTo k) := fun k => by
      unfold redisLoad
      show (match Dict.get? w.redis key with | some o => alloc _ (w.upTo k) | none => _) = _
      cases Dict.get? w.redis key <;> rfl
    refine ⟨?_, 0, fun k => by rw [Nat.zero_add]; exact h k⟩
    unfold redisLoad
    cases Dict.get? w.redis key with
    | none => exact Nat.le_refl _
    | some o => exact Nat.le_succ _

theorem cuts_getRaw (A : Adapter V) (t u : String) : Cuts (V := V) (E := E) (getRaw A t u) (getRaw A t u) := by
  cases hA : A.ref.store with
  | «local» sid => exact (both_getRaw_local A hA t u).2
  | redis sid => unfold getRaw; rw [hA]; exact cuts_redisLoad A _

theorem cuts_get (A : Adapter V) (m : ModelArg V) (i : Ident V) : Cuts (V := V) (E := E) (get A m i) (get A m i) :=
  .bind (.ofExcept _) fun _ => cuts_getRaw _ _ _

theorem cuts_getOrNone (A : Adapter V) (m : ModelArg V) (i : Ident V) : Cuts (V := V) (E := E) (getOrNone A m i) (getOrNone A m i) :=
  .tryCatch (.bind (cuts_get _ _ _) fun _ => .pure _) fun _ => .pure _

theorem cuts_fetchDst (S : SyncCtx V E) (c : ModelClass V) (ids : Dict V) : Cuts (fetchDst S c ids) (fetchDst S.upTo c ids) :=
  .tryCatch (.bind (cuts_get _ _ _) fun _ => .bind (both_setStatus ..).2 fun _ => .pure _) fun _ => .pure _

theorem cuts_add (A : Adapter V) {sid : String} (hA : A.ref.store = .redis sid) (r : Ref) : Cuts (V := V) (E := E) (add A r) (add A r) := by
  unfold add
  rw [hA]
  refine .bind (.deref r) fun o => .read fun w => ?_
  cases h : Dict.get? w.redis (redisKey sid o.m.type o.m.uid) with
  | none => exact ⟨_, .modify (fun _ _ => rfl) fun _ => rfl, fun k => by show (match Dict.get? w.redis _ with | some _ => _ | none => _) = _; rw [h]⟩
  | some o' =>
    refine ⟨if o'.m.dictEq o.m then Pure.pure () else M.raise .objectAlreadyExists, ?_, fun k => by show (match Dict.get? w.redis _ with | some _ => _ | none => _) = _; rw [h]⟩
    dsimp only
    split
    · exact .pure _
    · exact .raise _

theorem cuts_removeItem (A : Adapter V) {sid : String} (hA : A.ref.store = .redis sid) (t u : String) : Cuts (V := V) (E := E) (removeItem A t u) (removeItem A t u) := by
  unfold removeItem
  rw [hA]
  refine .read fun w => ?_
  by_cases h : Dict.has w.redis (redisKey sid t u) = true
  · exact ⟨M.modify (fun w => { w with redis := Dict.erase w.redis (redisKey sid t u) }), by rw [if_pos h]; exact .modify (fun _ _ => rfl) fun _ => rfl,
      fun k => by show (if Dict.has w.redis _ = true then _ else _) = _; rw [if_pos h]⟩
  · exact ⟨M.raise .objectNotFound, by rw [if_neg h]; exact .raise _, fun k => by show (if Dict.has w.redis _ = true then _ else _) = _; rw [if_neg h]⟩

theorem truthy_upTo (a : Option AdRef) (w : World V E) (k : Nat) : adapterTruthy a (w.upTo k) = adapterTruthy a w := by
  unfold adapterTruthy
  cases a with
  | none => rfl
  | some r => show (countStore r.store _ != 0) = (countStore r.store w != 0); unfold countStore; cases r.store <;> rfl

theorem cuts_removeOne (A : Adapter V) {sid : String} (hA : A.ref.store = .redis sid) (r : Ref) : Cuts (V := V) (E := E) (removeOne A r) (removeOne A r) := by
  refine .bind (.deref r) fun o => .bind (cuts_removeItem A hA _ _) fun _ => .read fun w => ?_
  by_cases h : adapterTruthy o.adapter w = true
  · exact ⟨writeObj r { o with adapter := none }, by rw [if_pos h]; exact .writeObj _ _, fun k => by rw [truthy_upTo, if_pos h]⟩
  · exact ⟨Pure.pure (), by rw [if_neg h]; exact .pure _, fun k => by rw [truthy_upTo, if_neg h]⟩

theorem cuts_remove (A : Adapter V) {sid : String} (hA : A.ref.store = .redis sid) : ∀ (n : Nat) (r : Ref) (rc : Bool), Cuts (V := V) (E := E) (remove A n r rc) (remove A n r rc)
  | 0, _, _ => .raise _
  | n + 1, r, rc => by
    unfold remove
    refine .bind (.deref r) fun o => .bind (cuts_removeOne A hA r) fun _ => ?_
    cases rc with
    | false => exact .pure _
    | true => exact .forEach (fun c => .tryCatch (.bind (cuts_getRaw _ _ _) fun k => cuts_remove A hA n k true) fun _ => .emit _) _

theorem cuts_applyStore (S : SyncCtx V E) {sid : String} (hS : S.dst.ref.store = .redis sid) (a : Option Action) (p : Option Ref) (r : Ref) (sk : Bool) :
    Cuts (applyStore S a p r sk) (applyStore S.upTo a p r sk) := by
  cases a with
  | none => exact .pure _
  | some a =>
    cases a with
    | create => exact .bind (both_withParent (fun p => both_addChildRef p r) p).2 fun _ => cuts_add S.dst hS r
    | update => exact .pure _
    | delete => exact .bind (both_withParent (fun p => both_removeChildRef p r) p).2 fun _ => cuts_remove S.dst hS _ r sk

/-! ### `sync_diff_element` -/

/-- `self.action` and `self.model_class`. -/
def peek : M V E (Option Action × Option (ModelClass V)) := fun w => (.ok (w.sact, w.scls), w)

/-- "No object resulted from sync". -/
def noObj : M V E Unit := fun w => M.emit (.noObject w.slog) w

/-- What follows `sync_model`. -/
def afterModel (S : SyncCtx V E) (n : Nat) (e : Elem V) (parent : Option Ref) (fl : Bool × Bool) (act : Option Action) (x : Bool × Option Ref) : M V E Bool :=
  match x.2 with
  | none => noObj >>= fun _ => M.pure x.1
  | some r =>
    applyStore S act parent r fl.2 >>= fun _ =>
    if act == some .delete && fl.2 then M.pure x.1
    else incrElements >>= fun _ =>
      if !fl.1 || !(act == some .delete) then M.orEach (fun k => syncElem S n k (some r)) (getChildren S.dc e.kids) x.1
      else M.pure x.1

/-- The children that are visited before. -/
def before (S : SyncCtx V E) (n : Nat) (e : Elem V) (dst : Option Ref) (fl : Bool × Bool) : M V E Unit :=
  if fl.1 && e.action == some .delete && !fl.2 then M.orEach (fun k => syncElem S n k dst) (getChildren S.dc e.kids) false >>= fun _ => M.pure ()
  else M.pure ()

theorem syncElem_eq (S : SyncCtx V E) (n : Nat) (e : Elem V) (parent : Option Ref) :
    syncElem S (n + 1) e parent =
      (enterElem S e >>= fun c => getOrNone S.src (.cls c) (.dict e.keys) >>= fun _ => fetchDst S c e.keys >>= fun dst => dstFlags dst >>= fun fl =>
        before S n e dst fl >>= fun _ => peek >>= fun a => syncModel S (a.2.getD c) a.1 dst e.keys (e.plus.getD []) >>= fun x =>
        afterModel S n e parent fl a.1 x) := by
  show (enterElem S e >>= _) = _
  congr; funext c; congr; funext _; congr; funext dst; congr; funext fl
  funext w
  have tail : ∀ w : World V E, (do
      let w ← M.read
      let (changed, modified) ← syncModel S (w.scls.getD c) w.sact dst e.keys (e.plus.getD [])
      match modified with
      | none => do
        let w' ← M.read
        M.emit (.noObject w'.slog)
        pure changed
      | some r => do
        applyStore S w.sact parent r fl.2
        if w.sact == some .delete && fl.2 then pure changed
        else do
          incrElements
          if !fl.1 || !(w.sact == some .delete) then
            M.orEach (fun k => syncElem S n k (some r)) (getChildren S.dc e.kids) changed
          else pure changed : M V E Bool) w = (peek >>= fun a => syncModel S (a.2.getD c) a.1 dst e.keys (e.plus.getD []) >>= fun x =>
        afterModel S n e parent fl a.1 x) w := by
    intro w
    show (syncModel S (w.scls.getD c) w.sact dst e.keys (e.plus.getD []) >>= _) w = (syncModel S (w.scls.getD c) w.sact dst e.keys (e.plus.getD []) >>= _) w
    congr
  obtain ⟨nat, sk⟩ := fl
  unfold before
  dsimp only at tail ⊢
  cases hc : nat && e.action == some .delete && !sk with
  | false => exact tail w
  | true =>
    have h1 : ∀ {γ : Type} (x : M V E γ) (g : M V E Bool) (w : World V E), (x >>= fun _ => g) w = ((x >>= fun _ => M.pure ()) >>= fun _ => g) w := by
      intro γ x g w
      show M.bind x (fun _ => g) w = M.bind (M.bind x fun _ => M.pure ()) (fun _ => g) w
      unfold M.bind
      cases x w with
      | mk r w' => cases r <;> rfl
    refine Eq.trans ?_ (h1 _ _ w)
    rw [if_pos rfl]
    exact congrFun (congrArg (M.bind (M.orEach (fun k => syncElem S n k dst) (getChildren S.dc e.kids) false)) (funext fun _ => funext tail)) w

theorem both_peek : Blind (V := V) (E := E) peek ∧ Cuts (V := V) (E := E) peek peek := ⟨fun _ _ => rfl, .none (fun _ _ => rfl) fun _ => rfl⟩

theorem both_noObj : Blind (V := V) (E := E) noObj ∧ Cuts (V := V) (E := E) noObj noObj := ⟨fun _ _ => rfl, .none (fun _ _ => rfl) fun _ => rfl⟩

theorem cuts_afterModel (S : SyncCtx V E) {sid : String} (hS : S.dst.ref.store = .redis sid) {n : Nat} (ih : ∀ e p, Cuts (syncElem S n e p) (syncElem S.upTo n e p)) (e : Elem V) (parent : Option Ref)
    (fl : Bool × Bool) (act : Option Action) (x : Bool × Option Ref) : Cuts (afterModel S n e parent fl act x) (afterModel S.upTo n e parent fl act x) := by
  obtain ⟨ch, md⟩ := x
  cases md with
  | none => exact .bind both_noObj.2 fun _ => .mpure _
  | some r =>
    refine .bind (cuts_applyStore S hS act parent r fl.2) fun _ => ?_
    split
    · exact .mpure _
    · refine .bind both_incrElements.2 fun _ => ?_
      split
      · exact .orEach (fun k => ih k (some r)) _ _
      · exact .mpure _

theorem cuts_before (S : SyncCtx V E) {n : Nat} (ih : ∀ e p, Cuts (syncElem S n e p) (syncElem S.upTo n e p)) (e : Elem V) (dst : Option Ref) (fl : Bool × Bool) :
    Cuts (before S n e dst fl) (before S.upTo n e dst fl) := by
  unfold before
  split
  · exact .bind (.orEach (fun k => ih k dst) _ _) fun _ => .mpure _
  · exact .mpure _

theorem cuts_syncElem (S : SyncCtx V E) {sid : String} (hS : S.dst.ref.store = .redis sid) : ∀ (n : Nat) (e : Elem V) (p : Option Ref), Cuts (syncElem S n e p) (syncElem S.upTo n e p)
  | 0, _, _ => .raise _
  | n + 1, e, p => by
    rw [syncElem_eq, syncElem_eq]
    exact .bind (both_enterElem S e).2 fun c => .bind (cuts_getOrNone _ _ _) fun _ => .bind (cuts_fetchDst S c _) fun dst => .bind (both_dstFlags dst).2 fun fl =>
      .bind (cuts_before S (cuts_syncElem S hS n) e dst fl) fun _ => .bind both_peek.2 fun a => .bind (both_syncModel ..).2 fun x =>
      cuts_afterModel S hS (cuts_syncElem S hS n) e p fl a.1 x

/-! ## The client does what the model says -/

/-- Whenever the client ends, it does so with the result, the memory and the contents of the server that the computation has. -/
def RunsAs (q : Cl V E α) (m : M V E α) : Prop := ∀ w d r d1, Solo (q w, d) (.ret r, d1) →
  r = .ok ((m (w.at d)).1, (m (w.at d)).2.at w.redis) ∧ d1 = (m (w.at d)).2.redis

theorem RunsAs.lift {x : M V E α} (h : Blind x) : RunsAs (Cl.lift x) x := by
  intro w d r d1 hs
  cases solo_ret hs
  have h1 := h (w.at d) w.redis
  rw [World.at_at, World.at_self] at h1
  exact ⟨congrArg _ h1, ((h.redis (w.at d))).symm⟩

theorem RunsAs.bind {q : Cl V E α} {m : M V E α} {g : α → Cl V E β} {f : α → M V E β} (h : RunsAs q m) (hf : ∀ a, RunsAs (g a) (f a)) : RunsAs (Cl.bind q g) (m >>= f) := by
  intro w d r d1 hs
  have key : ∀ p d2, Solo (q w, d) (.ret (.ok p), d2) → Solo ((match p with
      | (.ok a, w') => g a w'
      | (.error e, w') => .ret (.ok (.error e, w'))), d2) (.ret r, d1) →
      r = .ok (((m >>= f) (w.at d)).1, ((m >>= f) (w.at d)).2.at w.redis) ∧ d1 = ((m >>= f) (w.at d)).2.redis := by
    intro p d2 h1 h2
    obtain ⟨e1, e2⟩ := h w d _ _ h1
    show r = .ok ((M.bind m f (w.at d)).1, (M.bind m f (w.at d)).2.at w.redis) ∧ d1 = (M.bind m f (w.at d)).2.redis
    unfold M.bind
    cases hm : m (w.at d) with
    | mk r0 w' =>
      rw [hm] at e1 e2
      cases e1
      cases r0 with
      | error e => cases solo_ret h2; exact ⟨rfl, e2⟩
      | ok a =>
        subst e2
        obtain ⟨e3, e4⟩ := hf a (w'.at w.redis) w'.redis r d1 h2
        exact ⟨e3, e4⟩
  rcases solo_bind hs with ⟨p', h1, h2⟩ | ⟨a, d2, h1, h2⟩
  · cases p' with
    | cmd c k => cases h2
    | ret r0 =>
      have := (h w d _ _ h1).1
      subst this
      refine key _ _ h1 ?_
      have h2 := h2.symm
      unfold Proc.bind at h2
      dsimp only at h2
      exact h2 ▸ .done _
  · exact key a d2 h1 h2

theorem RunsAs.tryCatch {q : Cl V E α} {m : M V E α} {p : Err → Bool} {g : Err → Cl V E α} {f : Err → M V E α} (h : RunsAs q m) (hf : ∀ a, RunsAs (g a) (f a)) :
    RunsAs (Cl.tryCatch q p g) (M.tryCatch m p f) := by
  intro w d r d1 hs
  have key : ∀ q' d2, Solo (q w, d) (.ret (.ok q'), d2) → Solo ((match q' with
      | (.ok a, w') => .ret (.ok (.ok a, w'))
      | (.error e, w') => if p e then g e w' else .ret (.ok (.error e, w'))), d2) (.ret r, d1) →
      r = .ok ((M.tryCatch m p f (w.at d)).1, (M.tryCatch m p f (w.at d)).2.at w.redis) ∧ d1 = (M.tryCatch m p f (w.at d)).2.redis := by
    intro q' d2 h1 h2
    obtain ⟨e1, e2⟩ := h w d _ _ h1
    unfold M.tryCatch
    cases hm : m (w.at d) with
    | mk r0 w' =>
      rw [hm] at e1 e2
      cases e1
      cases r0 with
      | ok a => cases solo_ret h2; exact ⟨rfl, e2⟩
      | error e =>
        dsimp only at h2 ⊢
        cases hp : p e with
        | false => rw [hp] at h2; cases solo_ret h2; exact ⟨rfl, e2⟩
        | true =>
          rw [hp] at h2
          subst e2
          exact hf e (w'.at w.redis) w'.redis r d1 h2
  rcases solo_bind hs with ⟨p', h1, h2⟩ | ⟨a, d2, h1, h2⟩
  · cases p' with
    | cmd c k => cases h2
    | ret r0 =>
      have := (h w d _ _ h1).1
      subst this
      refine key _ _ h1 ?_
      have h2 := h2.symm
      unfold Proc.bind at h2
      dsimp only at h2
      exact h2 ▸ .done _
  · exact key a d2 h1 h2

theorem RunsAs.forEach {γ : Type} {g : γ → Cl V E Unit} {f : γ → M V E Unit} (h : ∀ a, RunsAs (g a) (f a)) : ∀ l, RunsAs (Cl.forEach g l) (M.forEach f l)
  | [] => .lift (.mpure ())
  | a :: l => .bind (h a) (fun _ => forEach h l)

theorem RunsAs.orEach {γ : Type} {g : γ → Cl V E Bool} {f : γ → M V E Bool} (h : ∀ a, RunsAs (g a) (f a)) : ∀ l b, RunsAs (Cl.orEach g l b) (M.orEach f l b)
  | [], _ => .lift (.mpure _)
  | a :: l, _ => .bind (h a) (fun _ => orEach h l _)

theorem solo_send {c : Cmd V} (hc : ¬ c.isScan) {f : c.Reply → Cl V E β} {w : World V E} {d d' : Dict (Obj V)} {q : Proc V (Except Err β × World V E)}
    (h : Solo (Cl.bind (Cl.send c) f w, d) (q, d')) : (q, d') = (Cl.bind (Cl.send c) f w, d) ∨ Solo (f (c.exec d).1 w, (c.exec d).2) (q, d') := by
  change Solo (Proc.cmd c (fun x => f x w), d) (q, d') at h
  cases h with
  | done => exact .inl rfl
  | cmd _ h => exact .inr h
  | scan => exact (hc trivial).elim

theorem solo_send_ret {c : Cmd V} (hc : ¬ c.isScan) {f : c.Reply → Cl V E β} {w : World V E} {d d' : Dict (Obj V)} {r : Except Err (Except Err β × World V E)}
    (h : Solo (Cl.bind (Cl.send c) f w, d) (.ret r, d')) : Solo (f (c.exec d).1 w, (c.exec d).2) (.ret r, d') := by
  rcases solo_send hc h with h | h
  · cases h
  · exact h

theorem runs_load (A : Adapter V) (key : String) : RunsAs (V := V) (E := E) (cLoad A key) (redisLoad A key) := by
  intro w d r d1 hs
  have hs := solo_send_ret id hs
  simp only [Cmd.exec] at hs
  unfold redisLoad
  rw [World.at_redis]
  cases h : Dict.get? d key with
  | none => rw [h] at hs; cases solo_ret hs; exact ⟨rfl, rfl⟩
  | some o => rw [h] at hs; cases solo_ret hs; exact ⟨rfl, rfl⟩

theorem runs_getRaw (A : Adapter V) (t u : String) : RunsAs (V := V) (E := E) (cGetRaw A t u) (getRaw A t u) := by
  unfold cGetRaw
  cases hA : A.ref.store with
  | «local» sid => exact .lift (both_getRaw_local A hA t u).1
  | redis sid => unfold getRaw; rw [hA]; exact runs_load A _

theorem runs_get (A : Adapter V) (m : ModelArg V) (i : Ident V) : RunsAs (V := V) (E := E) (cGet A m i) (get A m i) :=
  .bind (.lift (.ofExcept _)) fun _ => runs_getRaw _ _ _

theorem runs_getOrNone (A : Adapter V) (m : ModelArg V) (i : Ident V) : RunsAs (V := V) (E := E) (cGetOrNone A m i) (getOrNone A m i) :=
  .tryCatch (.bind (runs_get _ _ _) fun _ => .lift (.pure _)) fun _ => .lift (.pure _)

theorem runs_fetchDst (S : SyncCtx V E) (c : ModelClass V) (ids : Dict V) : RunsAs (cFetchDst S c ids) (fetchDst S c ids) :=
  .tryCatch (.bind (runs_get _ _ _) fun _ => .bind (.lift (both_setStatus ..).1) fun _ => .lift (.pure _)) fun _ => .lift (.pure _)

theorem runs_send_last {c : Cmd V} (hc : ¬ c.isScan) {w : World V E} {d d1 : Dict (Obj V)} {r : Except Err (Except Err c.Reply × World V E)}
    (h : Solo (Cl.send c w, d) (.ret r, d1)) : r = .ok (.ok (c.exec d).1, w) ∧ d1 = (c.exec d).2 := by
  change Solo (Proc.cmd c (fun x => .ret (.ok (.ok x, w))), d) (.ret r, d1) at h
  cases h with
  | cmd _ h => cases solo_ret h; exact ⟨rfl, rfl⟩
  | scan => exact (hc trivial).elim

theorem runs_add (A : Adapter V) {sid : String} (hA : A.ref.store = .redis sid) (r : Ref) : RunsAs (V := V) (E := E) (cAdd sid r) (add A r) := by
  unfold add
  rw [hA]
  refine .bind (.lift (.deref r)) fun o => ?_
  intro w d r d1 hs
  have hs := solo_send_ret id hs
  simp only [Cmd.exec] at hs
  dsimp only
  rw [show ∀ f : World V E → M V E Unit, (M.read >>= f) (w.at d) = f (w.at d) (w.at d) from fun _ => rfl, World.at_redis]
  cases h : Dict.get? d (redisKey sid o.m.type o.m.uid) with
  | none =>
    rw [h] at hs
    obtain ⟨h1, h2⟩ := runs_send_last id hs
    exact ⟨h1, h2⟩
  | some o' =>
    rw [h] at hs
    dsimp only at hs ⊢
    split at hs
    · rename_i h1; rw [if_pos h1]; cases solo_ret hs; exact ⟨rfl, rfl⟩
    · rename_i h1; rw [if_neg h1]; cases solo_ret hs; exact ⟨rfl, rfl⟩

theorem runs_removeItem (A : Adapter V) {sid : String} (hA : A.ref.store = .redis sid) (t u : String) : RunsAs (V := V) (E := E) (cRemoveItem sid t u) (removeItem A t u) := by
  unfold removeItem
  rw [hA]
  intro w d r d1 hs
  have hs := solo_send_ret id hs
  simp only [Cmd.exec] at hs
  dsimp only
  rw [show ∀ f : World V E → M V E Unit, (M.read >>= f) (w.at d) = f (w.at d) (w.at d) from fun _ => rfl, World.at_redis]
  cases h : Dict.has d (redisKey sid t u) with
  | false =>
    rw [h] at hs
    cases solo_ret hs; exact ⟨rfl, rfl⟩
  | true =>
    rw [h] at hs
    obtain ⟨h1, h2⟩ := runs_send_last id hs
    exact ⟨h1, h2⟩

/-- The truth value of an adapter. -/
def truthy (a : Option AdRef) : M V E Bool := fun w => (.ok (adapterTruthy a w), w)

theorem scan_length {d : Dict (Obj V)} {pfx : String} {ks : List String} (hk : ∀ y, y ∈ ks ↔ Found d pfx y) : (ks.length != 0) = ((scanKeys d pfx).length != 0) := by
  have h : ks = [] ↔ scanKeys d pfx = [] := by
    have hs : ∀ y, y ∈ scanKeys d pfx ↔ Found d pfx y := fun y => by unfold scanKeys Found; rw [List.mem_filter]
    rw [List.eq_nil_iff_forall_not_mem, List.eq_nil_iff_forall_not_mem]
    exact ⟨fun h y hy => h y ((hk y).2 ((hs y).1 hy)), fun h y hy => h y ((hs y).2 ((hk y).1 hy))⟩
  cases ks <;> cases hs : scanKeys d pfx <;> simp_all

theorem runs_truthy (a : Option AdRef) : RunsAs (V := V) (E := E) (cTruthy a) (truthy a) := by
  cases a with
  | none => exact .lift (fun _ _ => rfl)
  | some ar =>
    obtain ⟨i, st⟩ := ar
    cases st with
    | «local» sid => exact .lift (fun _ _ => rfl)
    | redis sid =>
      intro w d r d1 hs
      change Solo ((Proc.cmd (.scan (storeLabel sid ++ ":")) (fun ks => .ret (.ok ((.ok (List.length ks != 0) : Except Err Bool), w))) : Proc V (Except Err Bool × World V E)), d) _ at hs
      cases hs with
      | cmd hc _ => exact (hc trivial).elim
      | scan ks hk hs =>
        cases solo_ret hs
        rw [scan_length hk]
        exact ⟨rfl, rfl⟩

theorem removeOne_eq (A : Adapter V) (r : Ref) : (removeOne A r : M V E Unit) = (deref r >>= fun o => removeItem A o.m.type o.m.uid >>= fun _ => truthy o.adapter >>= fun b =>
    if b then writeObj r { o with adapter := none } else M.pure ()) := rfl

theorem runs_removeOne (A : Adapter V) {sid : String} (hA : A.ref.store = .redis sid) (r : Ref) : RunsAs (V := V) (E := E) (cRemoveOne sid r) (removeOne A r) := by
  rw [removeOne_eq]
  refine .bind (.lift (.deref r)) fun o => .bind (runs_removeItem A hA _ _) fun _ => .bind (runs_truthy _) fun b => .lift ?_
  split
  · exact .writeObj _ _
  · exact .mpure _

theorem runs_remove (A : Adapter V) {sid : String} (hA : A.ref.store = .redis sid) : ∀ (n : Nat) (r : Ref) (rc : Bool), RunsAs (V := V) (E := E) (cRemove A sid n r rc) (remove A n r rc)
  | 0, _, _ => .lift (.raise _)
  | n + 1, r, rc => by
    unfold remove cRemove
    refine .bind (.lift (.deref r)) fun o => .bind (runs_removeOne A hA r) fun _ => ?_
    cases rc with
    | false => exact .lift (.mpure _)
    | true =>
      refine .forEach (fun c => .tryCatch (.bind ?_ fun k => runs_remove A hA n k true) fun _ => .lift (.emit _)) _
      rw [show (getRaw A c.1 c.2 : M V E Ref) = redisLoad A (redisKey sid c.1 c.2) by unfold getRaw; rw [hA]]
      exact runs_load A _

theorem runs_applyStore (S : SyncCtx V E) {sid : String} (hS : S.dst.ref.store = .redis sid) (a : Option Action) (p : Option Ref) (r : Ref) (sk : Bool) :
    RunsAs (cApplyStore S sid a p r sk) (applyStore S a p r sk) := by
  cases a with
  | none => exact .lift (.pure _)
  | some a =>
    cases a with
    | create => exact .bind (.lift (both_withParent (fun p => both_addChildRef p r) p).1) fun _ => runs_add S.dst hS r
    | update => exact .lift (.pure _)
    | delete => exact .bind (.lift (both_withParent (fun p => both_removeChildRef p r) p).1) fun _ => runs_remove S.dst hS _ r sk

/-- What follows `sync_model`, as a client. -/
def cAfterModel (S : SyncCtx V E) (sid : String) (n : Nat) (e : Elem V) (parent : Option Ref) (fl : Bool × Bool) (act : Option Action) (x : Bool × Option Ref) : Cl V E Bool :=
  match x.2 with
  | none => Cl.bind (Cl.lift noObj) fun _ => Cl.lift (M.pure x.1)
  | some r =>
    Cl.bind (cApplyStore S sid act parent r fl.2) fun _ =>
    if act == some .delete && fl.2 then Cl.lift (M.pure x.1)
    else Cl.bind (Cl.lift incrElements) fun _ =>
      if !fl.1 || !(act == some .delete) then Cl.orEach (fun k => cSyncElem S sid n k (some r)) (getChildren S.dc e.kids) x.1
      else Cl.lift (M.pure x.1)

/-- The children that are visited before, as a client. -/
def cBefore (S : SyncCtx V E) (sid : String) (n : Nat) (e : Elem V) (dst : Option Ref) (fl : Bool × Bool) : Cl V E Unit :=
  if fl.1 && e.action == some .delete && !fl.2 then Cl.bind (Cl.orEach (fun k => cSyncElem S sid n k dst) (getChildren S.dc e.kids) false) fun _ => Cl.lift (M.pure ())
  else Cl.lift (M.pure ())

theorem cSyncElem_eq (S : SyncCtx V E) (sid : String) (n : Nat) (e : Elem V) (parent : Option Ref) :
    cSyncElem S sid (n + 1) e parent =
      Cl.bind (Cl.lift (enterElem S e)) fun c => Cl.bind (cGetOrNone S.src (.cls c) (.dict e.keys)) fun _ => Cl.bind (cFetchDst S c e.keys) fun dst =>
        Cl.bind (Cl.lift (dstFlags dst)) fun fl => Cl.bind (cBefore S sid n e dst fl) fun _ => Cl.bind (Cl.lift peek) fun a =>
        Cl.bind (Cl.lift (syncModel S (a.2.getD c) a.1 dst e.keys (e.plus.getD []))) fun x => cAfterModel S sid n e parent fl a.1 x := rfl

theorem runs_syncElem (S : SyncCtx V E) {sid : String} (hS : S.dst.ref.store = .redis sid) : ∀ (n : Nat) (e : Elem V) (p : Option Ref), RunsAs (cSyncElem S sid n e p) (syncElem S n e p)
  | 0, _, _ => .lift (.raise _)
  | n + 1, e, p => by
    rw [syncElem_eq, cSyncElem_eq]
    refine .bind (.lift (both_enterElem S e).1) fun c => .bind (runs_getOrNone _ _ _) fun _ => .bind (runs_fetchDst S c _) fun dst => .bind (.lift (both_dstFlags dst).1) fun fl =>
      .bind ?_ fun _ => .bind (.lift both_peek.1) fun a => .bind (.lift (both_syncModel ..).1) fun x => ?_
    · unfold before cBefore
      split
      · exact .bind (.orEach (fun k => runs_syncElem S hS n k dst) _ _) fun _ => .lift (.mpure _)
      · exact .lift (.mpure _)
    · obtain ⟨ch, md⟩ := x
      cases md with
      | none => exact .bind (.lift both_noObj.1) fun _ => .lift (.mpure _)
      | some r =>
        refine .bind (runs_applyStore S hS _ _ _ _) fun _ => ?_
        split
        · exact .lift (.mpure _)
        · refine .bind (.lift both_incrElements.1) fun _ => ?_
          split
          · exact .orEach (fun k => runs_syncElem S hS n k (some r)) _ _
          · exact .lift (.mpure _)

theorem runs_performSync (S : SyncCtx V E) {sid : String} (hS : S.dst.ref.store = .redis sid) (n : Nat) (d : Diff V) : RunsAs (cPerformSync S sid n d) (performSync S n d) :=
  .bind (.lift (.modify fun _ _ => rfl)) fun _ => .orEach (fun e => runs_syncElem S hS n e none) _ _

theorem cuts_performSync (S : SyncCtx V E) {sid : String} (hS : S.dst.ref.store = .redis sid) (n : Nat) (d : Diff V) : Cuts (performSync S n d) (performSync S.upTo n d) :=
  .bind (.modify (fun _ _ => rfl) fun _ => rfl) fun _ => .orEach (fun e => cuts_syncElem S hS n e none) _ _

end

end DS
