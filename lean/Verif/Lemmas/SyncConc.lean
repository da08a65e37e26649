import Verif.Spec.SyncConc
import Verif.Lemmas.SyncKilled
import Verif.Lemmas.Compared
import Verif.Props.Concurrent
/-! # What a sync into a Redis store sends, whatever the server replies -/
set_option linter.unusedSectionVars false

namespace DS
variable {V E α β γ : Type}

/-! ## Clients -/

/-- Replies that a command may get: those of `GET` satisfy `Q`, those of `SCAN` match the pattern. -/
def Cmd.Answer (Q : String → Option (Obj V) → Prop) : (c : Cmd V) → c.Reply → Prop
  | .get key, x => Q key x
  | .scan pfx, ks => Cmd.Possible (.scan pfx) ks
  | _, _ => True

/-- A client all of whose commands satisfy `P`, and whose result satisfies `R`, when the replies are as `Q` says. -/
inductive Talks (Q : String → Option (Obj V) → Prop) (P : Cmd V → Prop) (R : α → Prop) : Proc V α → Prop
  | ret {r} (h : ∀ a, r = .ok a → R a) : Talks Q P R (.ret r)
  | cmd {c k} (h : P c) (hk : ∀ x, c.Answer Q x → Talks Q P R (k x)) : Talks Q P R (.cmd c k)

variable {Q : String → Option (Obj V) → Prop} {P : Cmd V → Prop}

theorem Talks.bind {R : α → Prop} {R' : β → Prop} {p : Proc V α} {f : α → Proc V β} (h : Talks Q P R p) (hf : ∀ a, R a → Talks Q P R' (f a)) :
    Talks Q P R' (p.bind f) := by
  induction h with
  | @ret r h =>
    cases r with
    | ok a => exact hf a (h a rfl)
    | error e => exact .ret fun a ha => by cases ha
  | cmd hc _ ih => exact .cmd hc fun x hx => ih x hx

theorem Talks.mono {R R' : α → Prop} {p : Proc V α} (h : Talks Q P R p) (hr : ∀ a, R a → R' a) : Talks Q P R' p := by
  induction h with
  | ret h => exact .ret fun a ha => hr a (h a ha)
  | cmd hc _ ih => exact .cmd hc fun x hx => ih x hx

theorem Talks.weaken {R : α → Prop} {P' : Cmd V → Prop} {p : Proc V α} (h : Talks Q P R p) (hp : ∀ c, P c → P' c) : Talks Q P' R p := by
  induction h with
  | ret h => exact .ret h
  | cmd hc _ ih => exact .cmd (hp _ hc) fun x hx => ih x hx

theorem answer_of_possible {c : Cmd V} {x : c.Reply} (h : c.Possible x) : c.Answer (fun _ _ => True) x := by
  cases c <;> first | exact h | exact trivial

theorem Talks.sends {R : α → Prop} {p : Proc V α} (h : Talks (fun _ _ => True) P R p) : Sends P p := by
  induction h with
  | ret h => exact .ret _
  | cmd hc _ ih => exact .cmd hc fun x hx => ih x (answer_of_possible hx)

theorem Sends.talks {p : Proc V α} (h : Sends P p) : Talks Q P (fun _ => True) p := by
  induction h with
  | ret r => exact .ret fun _ _ => trivial
  | @cmd c k hc _ ih =>
    refine .cmd hc fun x hx => ih x ?_
    cases c <;> first | exact hx | exact trivial

/-- The same for clients with a memory. -/
def ClT (Q : String → Option (Obj V) → Prop) (P : Cmd V → Prop) (x : Cl V E α) (w : World V E) (R : Except Err α → World V E → Prop) : Prop :=
  Talks Q P (fun p => R p.1 p.2) (x w)

theorem ClT.lift {x : M V E α} {w : World V E} {R : Except Err α → World V E → Prop} (h : R (x w).1 (x w).2) : ClT Q P (Cl.lift x) w R :=
  .ret fun a ha => by cases ha; exact h

theorem ClT.bind {x : Cl V E α} {f : α → Cl V E β} {w : World V E} {R : Except Err α → World V E → Prop} {R' : Except Err β → World V E → Prop} (h : ClT Q P x w R)
    (hf : ∀ a w', R (.ok a) w' → ClT Q P (f a) w' R') (he : ∀ e w', R (.error e) w' → R' (.error e) w') : ClT Q P (Cl.bind x f) w R' := by
  refine Talks.bind h fun p hp => ?_
  obtain ⟨r, w'⟩ := p
  cases r with
  | ok a => exact hf a w' hp
  | error e => exact .ret fun a ha => by cases ha; exact he e w' hp

theorem ClT.tryCatch {x : Cl V E α} {s : Err → Bool} {g : Err → Cl V E α} {w : World V E} {R R' : Except Err α → World V E → Prop} (h : ClT Q P x w R)
    (ho : ∀ a w', R (.ok a) w' → R' (.ok a) w') (he : ∀ e w', R (.error e) w' → R' (.error e) w' ∧ ClT Q P (g e) w' R') : ClT Q P (Cl.tryCatch x s g) w R' := by
  refine Talks.bind h fun p hp => ?_
  obtain ⟨r, w'⟩ := p
  cases r with
  | ok a => exact .ret fun b hb => by cases hb; exact ho a w' hp
  | error e =>
    dsimp only
    split
    · exact (he e w' hp).2
    · exact .ret fun b hb => by cases hb; exact (he e w' hp).1

theorem ClT.send {c : Cmd V} {w : World V E} {R : Except Err c.Reply → World V E → Prop} (h : P c) (hr : ∀ x, c.Answer Q x → R (.ok x) w) : ClT Q P (Cl.send c) w R :=
  .cmd h fun x hx => .ret fun a ha => by cases ha; exact hr x hx

theorem ClT.mono {x : Cl V E α} {w : World V E} {R R' : Except Err α → World V E → Prop} (h : ClT Q P x w R) (hr : ∀ a w', R a w' → R' a w') : ClT Q P x w R' :=
  Talks.mono h fun p hp => hr _ _ hp

theorem ClT.forEach {f : γ → Cl V E Unit} {I : World V E → Prop} : ∀ {l : List γ} {w : World V E}, (∀ a ∈ l, ∀ w, I w → ClT Q P (f a) w (fun _ w' => I w')) → I w →
    ClT Q P (Cl.forEach f l) w (fun _ w' => I w')
  | [], _, _, hw => .lift hw
  | a :: l, w, h, hw => .bind (h a (List.mem_cons_self ..) w hw) (fun _ _ hw' => forEach (fun b hb => h b (List.mem_cons_of_mem _ hb)) hw') (fun _ _ h => h)

theorem ClT.orEach {f : γ → Cl V E Bool} {I : World V E → Prop} : ∀ {l : List γ} {b : Bool} {w : World V E}, (∀ a ∈ l, ∀ w, I w → ClT Q P (f a) w (fun _ w' => I w')) → I w →
    ClT Q P (Cl.orEach f l b) w (fun _ w' => I w')
  | [], _, _, _, hw => .lift hw
  | a :: l, _, w, h, hw => .bind (h a (List.mem_cons_self ..) w hw) (fun _ _ hw' => orEach (fun b hb => h b (List.mem_cons_of_mem _ hb)) hw') (fun _ _ h => h)

/-! ## What the client's memory keeps -/

section
variable [PyVal V]

/-- The instances that are there stay, with the adapter that they have or none; and (`G`) keep their types and unique ids, and `self.action` stays `delete`. -/
structure MemFr (G : Prop) (w w' : World V E) : Prop where
  next_le : w.next ≤ w'.next
  heap : ∀ r, r < w.next → ((w'.heap r).adapter = (w.heap r).adapter ∨ (w'.heap r).adapter = none) ∧ (G → (w'.heap r).m.type = (w.heap r).m.type ∧ (w'.heap r).m.uid = (w.heap r).m.uid)
  sact : G → w.sact = some .delete → w'.sact = some .delete

theorem MemFr.refl (G : Prop) (w : World V E) : MemFr G w w := ⟨Nat.le_refl _, fun _ _ => ⟨.inl rfl, fun _ => ⟨rfl, rfl⟩⟩, fun _ h => h⟩

theorem MemFr.trans {G : Prop} {w w' w'' : World V E} (h : MemFr G w w') (h' : MemFr G w' w'') : MemFr G w w'' :=
  ⟨Nat.le_trans h.next_le h'.next_le, fun r hr => by
    obtain ⟨a1, a2⟩ := h.heap r hr
    obtain ⟨b1, b2⟩ := h'.heap r (Nat.lt_of_lt_of_le hr h.next_le)
    refine ⟨?_, fun g => ⟨(b2 g).1.trans (a2 g).1, (b2 g).2.trans (a2 g).2⟩⟩
    rcases b1 with b1 | b1
    · rw [b1]; exact a1
    · exact .inr b1, fun g hs => h'.sact g (h.sact g hs)⟩

theorem MemFr.mono {G G' : Prop} {w w' : World V E} (h : MemFr G w w') (hg : G' → G) : MemFr G' w w' :=
  ⟨h.next_le, fun r hr => ⟨(h.heap r hr).1, fun g => (h.heap r hr).2 (hg g)⟩, fun g => h.sact (hg g)⟩

theorem MemFr.of_eq {G : Prop} {w w' : World V E} (h1 : w'.next = w.next) (h2 : w'.heap = w.heap) (h3 : w'.sact = w.sact) : MemFr G w w' :=
  ⟨Nat.le_of_eq h1.symm, fun _ _ => by rw [h2]; exact ⟨.inl rfl, fun _ => ⟨rfl, rfl⟩⟩, fun _ h => h3.trans h⟩

theorem MemFr.setObj {G : Prop} {w : World V E} {r : Ref} {o : Obj V} (h1 : o.adapter = (w.heap r).adapter ∨ o.adapter = none)
    (h2 : G → o.m.type = (w.heap r).m.type ∧ o.m.uid = (w.heap r).m.uid) : MemFr G w (w.setObj r o) := by
  refine ⟨Nat.le_refl _, fun x _ => ?_, fun _ h => h⟩
  show ((if x = r then o else w.heap x).adapter = _ ∨ (if x = r then o else w.heap x).adapter = _) ∧ (G → (if x = r then o else w.heap x).m.type = _ ∧ (if x = r then o else w.heap x).m.uid = _)
  by_cases hx : x = r
  · rw [if_pos hx, hx]; exact ⟨h1, h2⟩
  · rw [if_neg hx]; exact ⟨.inl rfl, fun _ => ⟨rfl, rfl⟩⟩

theorem MemFr.alloc {G : Prop} (w : World V E) (o : Obj V) : MemFr G w (alloc o w).2 := by
  refine ⟨Nat.le_succ _, fun x hx => ?_, fun _ h => h⟩
  show ((if x = w.next then o else w.heap x).adapter = _ ∨ (if x = w.next then o else w.heap x).adapter = _) ∧
    (G → (if x = w.next then o else w.heap x).m.type = _ ∧ (if x = w.next then o else w.heap x).m.uid = _)
  rw [if_neg (Nat.ne_of_lt hx)]
  exact ⟨.inl rfl, fun _ => ⟨rfl, rfl⟩⟩

/-- Work in the client's own memory that keeps this. -/
structure Kp (G : Prop) (x : M V E α) : Prop where
  go : ∀ w, MemFr G w (x w).2

section
variable {G : Prop}

theorem Kp.same {x : M V E α} (h : ∀ w, (x w).2 = w) : Kp G x := .mk fun w => by rw [h w]; exact MemFr.refl _ _
theorem Kp.pure (a : α) : Kp (V := V) (E := E) G (Pure.pure a) := .same fun _ => rfl
theorem Kp.mpure (a : α) : Kp (V := V) (E := E) G (M.pure a) := .same fun _ => rfl
theorem Kp.raise (e : Err) : Kp (V := V) (E := E) G (M.raise e : M V E α) := .same fun _ => rfl
theorem Kp.ofExcept (r : Except Err α) : Kp (V := V) (E := E) G (M.ofExcept r) := .same fun _ => rfl
theorem Kp.ofOption (e : Err) (r : Option α) : Kp (V := V) (E := E) G (M.ofOption e r) := .same fun _ => by cases r <;> rfl
theorem Kp.deref (r : Ref) : Kp (V := V) (E := E) G (DS.deref r) := .same fun _ => rfl
theorem Kp.alloc (o : Obj V) : Kp (V := V) (E := E) G (DS.alloc o) := ⟨fun w => MemFr.alloc w o⟩
theorem Kp.emit (ev : Event V) : Kp (V := V) (E := E) G (M.emit ev) := ⟨fun _ => MemFr.of_eq rfl rfl rfl⟩

theorem Kp.bind {x : M V E α} {f : α → M V E β} (hx : Kp G x) (hf : ∀ a, Kp G (f a)) : Kp G (x >>= f) := by
  refine ⟨fun w => ?_⟩
  show MemFr G w (M.bind x f w).2
  have h := hx.go w
  unfold M.bind
  cases hr : x w with
  | mk r w' =>
    rw [hr] at h
    cases r with
    | ok a => exact h.trans ((hf a).go w')
    | error e => exact h

theorem Kp.attempt {x : M V E α} {p : Err → Bool} (hx : Kp G x) : Kp G (M.attempt x p) := by
  refine ⟨fun w => ?_⟩
  have h := hx.go w
  unfold M.attempt
  cases hr : x w with
  | mk r w' =>
    rw [hr] at h
    cases r with
    | ok a => exact h
    | error e => dsimp only; split <;> exact h

theorem Kp.setStatus (r : Ref) (s : Status) (msg : String) : Kp (V := V) (E := E) G (setStatus r s msg) := .mk fun w => by
  rw [setStatus_apply]
  exact MemFr.setObj (.inl rfl) fun _ => ⟨rfl, rfl⟩

theorem Kp.overrideStatus (r : Ref) (o : Option (Status × String)) : Kp (V := V) (E := E) G (overrideStatus r o) := by
  cases o with
  | none => exact .pure _
  | some p => exact .setStatus ..

theorem Kp.callHook (h : Hooks V E) (c : CrudCall V) : Kp G (DS.callHook h c) := ⟨fun _ => MemFr.of_eq rfl rfl rfl⟩

theorem Kp.finishHook (r : Ref) (out : Outcome) : Kp (V := V) (E := E) G (finishHook r out) := by
  refine .bind (.overrideStatus ..) fun _ => ?_
  cases out.result with
  | raises e => exact .raise _
  | none => exact .pure _
  | object => exact .pure _

theorem Kp.hookCreate (S : SyncCtx V E) (c : ModelClass V) (ids attrs : Dict V) : Kp G (hookCreate S c ids attrs) := by
  refine .bind (.callHook ..) fun out => ?_
  cases out.result with
  | raises e => exact .raise _
  | none => exact .pure _
  | object => exact .bind (.ofExcept _) fun _ => .bind (.alloc _) fun _ => .bind (.overrideStatus ..) fun _ => .pure _

theorem Kp.setattrsRef (hg : ¬ G) (r : Ref) (attrs : Dict V) : Kp (V := V) (E := E) G (setattrsRef r attrs) := .mk fun w => by
  have h : MemFr G w (w.setObj r { w.heap r with m := ((w.heap r).m.setattrs attrs).1 }) := MemFr.setObj (.inl rfl) fun g => (hg g).elim
  have hx : DS.setattrsRef r attrs w = ((match ((w.heap r).m.setattrs attrs).2 with
    | none => Pure.pure ()
    | some e => M.raise e : M V E Unit) (w.setObj r { w.heap r with m := ((w.heap r).m.setattrs attrs).1 })) := rfl
  rw [hx]
  cases ((w.heap r).m.setattrs attrs).2 <;> exact h

theorem Kp.hookUpdate (hg : ¬ G) (S : SyncCtx V E) (r : Ref) (attrs : Dict V) : Kp G (hookUpdate S r attrs) := by
  refine .bind (.deref r) fun o => .bind (.callHook _ _) fun out => ?_
  dsimp only
  split
  · exact .bind (.bind (.setattrsRef hg ..) fun _ => .setStatus ..) fun _ => .finishHook r out
  · exact .finishHook r out

theorem Kp.hookDelete (S : SyncCtx V E) (r : Ref) : Kp G (hookDelete S r) := by
  refine .bind (.deref r) fun o => .bind (.callHook _ _) fun out => ?_
  dsimp only
  split
  · exact .bind (.setStatus ..) fun _ => .finishHook r out
  · exact .finishHook r out

theorem Kp.logSyncStatus (flags : Nat) (a : Option Action) (s : Status) : Kp (V := V) (E := E) G (logSyncStatus flags a s) := .mk fun w => by
  obtain ⟨t, ht⟩ := logSyncStatus_keeps (V := V) (E := E) flags a s w
  rw [ht]
  exact MemFr.of_eq rfl rfl rfl

theorem Kp.syncModel (S : SyncCtx V E) (c : ModelClass V) (a : Option Action) (dst : Option Ref) (ids attrs : Dict V) (ha : G → a ≠ some .update) : Kp G (syncModel S c a dst ids attrs) := by
  cases a with
  | none => exact .bind (.logSyncStatus ..) fun _ => .pure _
  | some a =>
    refine .bind (.attempt (.bind ?_ fun r? => ?_)) fun res => ?_
    · cases a <;> cases dst
      · exact .hookCreate ..
      · exact .raise _
      · exact .raise _
      · exact .hookUpdate (fun g => ha g rfl) ..
      · exact .raise _
      · exact .hookDelete ..
    · cases r? with
      | none => exact .pure _
      | some r => exact .bind (.deref r) fun _ => .pure _
    · cases res with
      | error e =>
        refine .bind (.logSyncStatus ..) fun _ => ?_
        split
        · exact .pure _
        · exact .raise _
      | ok p => exact .bind (.logSyncStatus ..) fun _ => .pure _

theorem kidsOnly_same {m m' : Model V} (h : KidsOnly m m') : m'.type = m.type ∧ m'.uid = m.uid := by
  refine ⟨by unfold Model.type; rw [h.cls_eq], ?_⟩
  have : m'.strField = m.strField := by funext k; unfold Model.strField; rw [h.vals_eq]
  unfold Model.uid
  rw [h.cls_eq, this]

/-- What the bookkeeping in a parent changes: nothing but the parent. -/
theorem child_step {f : Model V → String → String → Except Err (Model V)} (hf : ∀ {m m' : Model V} {t u}, f m t u = .ok m' → KidsOnly m m') (p r : Ref) (w : World V E) :
    let x : M V E Unit := do
      let p' ← DS.deref p
      let c ← DS.deref r
      let m ← M.ofExcept (f p'.m c.m.type c.m.uid)
      DS.writeObj p { p' with m := m }
    MemFr G w (x w).2 ∧ ∀ r', r' ≠ p → (x w).2.heap r' = w.heap r' := by
  intro x
  have hx : x w = (M.bind (M.ofExcept (f (w.heap p).m (w.heap r).m.type (w.heap r).m.uid)) fun m => writeObj p { w.heap p with m := m }) w := rfl
  rw [hx]
  unfold M.bind M.ofExcept
  cases hm : f (w.heap p).m (w.heap r).m.type (w.heap r).m.uid with
  | error e => exact ⟨MemFr.refl _ _, fun _ _ => rfl⟩
  | ok m => exact ⟨MemFr.setObj (.inl rfl) fun _ => kidsOnly_same (hf hm), fun r' hr => if_neg hr⟩

theorem withParent_step {p : Option Ref} {f : Ref → M V E Unit} {r : Ref} {w : World V E} (hf : ∀ q, p = some q → MemFr G w (f q w).2 ∧ ∀ r', r' ≠ q → (f q w).2.heap r' = w.heap r')
    (hr : p ≠ some r) : MemFr G w (withParent p f w).2 ∧ (withParent p f w).2.heap r = w.heap r := by
  cases p with
  | none => exact ⟨MemFr.refl _ _, rfl⟩
  | some q =>
    obtain ⟨h1, h2⟩ := hf q rfl
    exact ⟨h1, h2 r (fun h => hr (by rw [h]))⟩

theorem Kp.dstFlags (dst : Option Ref) : Kp (V := V) (E := E) G (dstFlags dst) := by
  cases dst with
  | none => exact .pure _
  | some r => exact .same fun _ => rfl

theorem Kp.incrElements : Kp (V := V) (E := E) G incrElements := ⟨fun _ => MemFr.of_eq rfl rfl rfl⟩

theorem Kp.getRaw_local {A : Adapter V} {s : Nat} (h : A.ref.store = .local s) (t u : String) : Kp (V := V) (E := E) G (getRaw A t u) := by
  unfold getRaw
  rw [h]
  refine .bind ⟨fun w => ?_⟩ fun d => .ofOption _ _
  unfold localModel
  exact MemFr.of_eq rfl rfl rfl

end

/-! ## The parts of a sync -/

/-- What a sync of the diff elements `es` into the store `sid` may send: `g` is what is assumed of the replies. -/
structure Allows (g : Prop) (S : SyncCtx V E) (sid : String) (es : List (Elem V)) (Q : String → Option (Obj V) → Prop) (P : Cmd V → Prop) : Prop where
  get : ∀ t u, P (.get (redisKey sid t u))
  exist : ∀ t u, P (.exist (redisKey sid t u))
  scan : P (.scan (storeLabel sid ++ ":"))
  src : ∀ s, S.src.ref.store = .redis s → ∀ t u, P (.get (redisKey s t u))
  set : ∀ o : Obj V, o.adapter = none → (∃ e u, InTree e es ∧ CreatesAs S.dst e o.m ∧ ElemKey S.dst e (e.type, u)) → Q (redisKey sid o.m.type o.m.uid) none → P (.set (redisKey sid o.m.type o.m.uid) o)
  del : ∀ t u, (g → (∃ e t' u', InTree e es ∧ e.action = some .delete ∧ ElemKey S.dst e (t', u') ∧ redisKey sid t' u' = redisKey sid t u) ∨
    AlongWith S.dst (fun key o => Q key (some o)) sid es (redisKey sid t u)) → P (.del (redisKey sid t u))

/-- Objects come with the types and unique ids of their keys. -/
def Right (sid : String) (Q : String → Option (Obj V) → Prop) : Prop := ∀ t u o, Q (redisKey sid t u) (some o) → redisKey sid t u = redisKey sid o.m.type o.m.uid

section
variable {G : Prop} {A : Adapter V} {sid : String}

theorem ClT.load {key : String} (h : P (.get key)) (w : World V E) :
    ClT Q P (cLoad A key) w (fun r w' => (MemFr G w w' ∧ w'.sact = w.sact ∧ w'.scls = w.scls) ∧ ∀ x, r = .ok x → x = w.next ∧ x < w'.next ∧
      ∃ o, Q key (some o) ∧ w'.heap x = { o with adapter := some A.ref }) := by
  refine .bind (.send (c := .get key) (R := fun x w' => w' = w ∧ ∀ o, x = .ok o → Q key o) h fun x hx => ⟨rfl, fun o ho => by cases ho; exact hx⟩) ?_ (fun e w' hw => ?_)
  · rintro o? w' ⟨rfl, hq⟩
    have hq := hq _ rfl
    cases o? with
    | none => exact .lift ⟨⟨MemFr.refl _ _, rfl, rfl⟩, fun x hx => by cases hx⟩
    | some o =>
      refine .lift ⟨⟨MemFr.alloc _ _, rfl, rfl⟩, fun x hx => ?_⟩
      cases hx
      exact ⟨rfl, Nat.lt_succ_self _, o, hq, if_pos rfl⟩
  · obtain ⟨rfl, _⟩ := hw
    exact ⟨⟨MemFr.refl _ _, rfl, rfl⟩, fun x hx => by cases hx⟩

theorem ClT.truthy {a : Option AdRef} (hA : A.ref.store = .redis sid) (ha : a = none ∨ a = some A.ref) (h : P (.scan (storeLabel sid ++ ":"))) (w : World V E) :
    ClT Q P (cTruthy a) w (fun _ w' => w' = w) := by
  rcases ha with rfl | rfl
  · exact .lift rfl
  · unfold cTruthy
    dsimp only
    rw [hA]
    exact .bind (.send (R := fun _ w' => w' = w) h fun _ _ => rfl) (fun _ _ hw => .lift hw) (fun _ _ hw => hw)

theorem ClT.removeOne (hA : A.ref.store = .redis sid) {r : Ref} {w : World V E} (ha : (w.heap r).adapter = none ∨ (w.heap r).adapter = some A.ref)
    (h1 : P (.exist (redisKey sid (w.heap r).m.type (w.heap r).m.uid))) (h2 : P (.del (redisKey sid (w.heap r).m.type (w.heap r).m.uid))) (h3 : P (.scan (storeLabel sid ++ ":"))) :
    ClT Q P (cRemoveOne sid r) w (fun _ w' => MemFr G w w') := by
  refine .bind (R := fun o w' => w' = w ∧ o = .ok (w.heap r)) (.lift ⟨rfl, rfl⟩) ?_ (fun e w' hw => by cases hw.2)
  rintro o w' ⟨rfl, ho⟩
  cases ho
  refine .bind (R := fun _ w2 => w2 = w') ?_ ?_ (fun e w2 hw => by rw [hw]; exact MemFr.refl _ _)
  · refine .bind (R := fun _ w2 => w2 = w') (.send h1 fun _ _ => rfl) ?_ (fun _ _ h => h)
    intro b w2 hw2
    cases b with
    | true => exact .send h2 fun _ _ => hw2
    | false => exact .lift hw2
  · rintro _ w2 rfl
    refine .bind (R := fun _ w3 => w3 = w2) (ClT.truthy hA ha h3 w2) ?_ (fun e w3 hw => by rw [hw]; exact MemFr.refl _ _)
    rintro b w3 rfl
    refine .lift ?_
    cases b with
    | true => exact MemFr.setObj (.inr rfl) fun _ => ⟨rfl, rfl⟩
    | false => exact MemFr.refl _ _

/-- `remove`: the keys that it deletes are in `D`. -/
theorem ClT.remove (hA : A.ref.store = .redis sid) {g : Prop} {D : String → Prop} {rc : Bool} (h1 : ∀ t u, P (.exist (redisKey sid t u)) ∧ P (.get (redisKey sid t u)))
    (h2 : ∀ t u, (g → D (redisKey sid t u)) → P (.del (redisKey sid t u))) (h3 : P (.scan (storeLabel sid ++ ":"))) (hq : g → Right sid Q)
    (hd : rc = true → ∀ key o t u, D key → Q key (some o) → ListsChild o.m t u → D (redisKey sid t u)) :
    ∀ n r (w : World V E), (w.heap r).adapter = none ∨ (w.heap r).adapter = some A.ref → (g → D (redisKey sid (w.heap r).m.type (w.heap r).m.uid)) →
      (g → rc = true → ∀ t u, ListsChild (w.heap r).m t u → D (redisKey sid t u)) → ClT Q P (cRemove A sid n r rc) w (fun _ w' => MemFr G w w')
  | 0, _, _, _, _, _ => .lift (MemFr.refl _ _)
  | n + 1, r, w, ha, hk, hc => by
    refine .bind (R := fun o w' => w' = w ∧ o = .ok (w.heap r)) (.lift ⟨rfl, rfl⟩) ?_ (fun e w' hw => by cases hw.2)
    rintro o w' ⟨rfl, ho⟩
    cases ho
    refine .bind (ClT.removeOne (G := G) hA ha (h1 _ _).1 (h2 _ _ hk) h3) ?_ (fun _ _ h => h)
    intro _ w2 hw2
    cases hrc : rc with
    | false => exact .lift hw2
    | true =>
      refine ClT.forEach (I := fun w3 => MemFr G w' w3) (fun c hcm w3 hw3 => ?_) hw2
      refine .tryCatch (R := fun _ w4 => MemFr G w' w4) ?_ (fun _ _ h => h) (fun e w4 h => ⟨h, .lift (h.trans (MemFr.of_eq rfl rfl rfl))⟩)
      refine .bind (ClT.load (G := G) (h1 _ _).2 w3) ?_ (fun _ _ h => hw3.trans h.1.1)
      rintro k w4 ⟨⟨hf, _⟩, hok⟩
      obtain ⟨_, _, o, ho, hh⟩ := hok k rfl
      have hl : ListsChild (w'.heap r).m c.1 c.2 := by
        obtain ⟨f, h1, l, h2, h3⟩ := mem_childRefs_iff.1 (show (c.1, c.2) ∈ childRefs (w'.heap r).m from hcm)
        exact ⟨f, l, h1, h2, h3⟩
      have hD : g → D (redisKey sid c.1 c.2) := fun hg => hc hg hrc _ _ hl
      have := ClT.remove (rc := rc) hA h1 h2 h3 hq hd n k w4 (.inr (by rw [hh])) (fun hg => by rw [hh]; rw [← hq hg _ _ _ ho]; exact hD hg)
        (fun hg hr t u hl => hd hr _ o t u (hD hg) ho (by rw [hh] at hl; exact hl))
      rw [hrc] at this
      exact this.mono fun _ _ h => (hw3.trans hf).trans h

theorem resolveCls_ok {c : ModelClass V} {ids : Dict V} {p : String × String} (h : resolve A (.cls c) (.dict ids) = .ok p) : p.1 = c.name ∧ c.createUniqueId ids = some p.2 := by
  change (match c.createUniqueId ids with
    | some u => Except.ok (c.name, u)
    | none => .error Err.keyError) = _ at h
  cases hu : c.createUniqueId ids with
  | none => rw [hu] at h; cases h
  | some u => rw [hu] at h; cases h; exact ⟨rfl, rfl⟩

theorem ClT.getSrc {c : ModelClass V} {ids : Dict V} (h : ∀ s, A.ref.store = .redis s → ∀ t u, P (.get (redisKey s t u))) (w : World V E) :
    ClT Q P (cGetOrNone A (.cls c) (.dict ids)) w (fun _ w' => MemFr G w w' ∧ w'.sact = w.sact ∧ w'.scls = w.scls) := by
  refine .tryCatch (R := fun _ w' => MemFr G w w' ∧ w'.sact = w.sact ∧ w'.scls = w.scls) ?_ (fun _ _ h => h) (fun _ _ h => ⟨h, .lift h⟩)
  refine .bind (R := fun _ w' => MemFr G w w' ∧ w'.sact = w.sact ∧ w'.scls = w.scls) ?_ (fun _ _ h => .lift h) (fun _ _ h => h)
  refine .bind (R := fun _ w' => w' = w) (.lift rfl) ?_ (fun _ _ h => by rw [h]; exact ⟨MemFr.refl _ _, rfl, rfl⟩)
  rintro p w' rfl
  unfold cGetRaw
  cases hs : A.ref.store with
  | «local» s =>
    refine .lift ⟨(Kp.getRaw_local hs ..).go _, ?_⟩
    unfold getRaw
    rw [hs]
    show (M.bind (localModel s p.1) (fun d => M.ofOption .objectNotFound (Dict.get? d p.2)) w').2.sact = _ ∧ (M.bind (localModel s p.1) (fun d => M.ofOption .objectNotFound (Dict.get? d p.2)) w').2.scls = _
    unfold M.bind localModel M.ofOption
    dsimp only
    split <;> exact ⟨rfl, rfl⟩
  | redis s => exact (ClT.load (G := G) (h s hs _ _) w').mono fun _ _ h => h.1

theorem ClT.fetchDst {S : SyncCtx V E} (hS : S.dst.ref.store = .redis sid) {c : ModelClass V} {ids : Dict V} (h : ∀ t u, P (.get (redisKey sid t u))) (w : World V E) :
    ClT Q P (cFetchDst S c ids) w (fun r w' => (MemFr G w w' ∧ w'.sact = w.sact ∧ w'.scls = w.scls) ∧ ∀ d, r = .ok (some d) → w.next ≤ d ∧ d < w'.next ∧ (w'.heap d).adapter = some S.dst.ref ∧
      ∃ o u, c.createUniqueId ids = some u ∧ Q (redisKey sid c.name u) (some o) ∧ (w'.heap d).m = o.m) := by
  refine .tryCatch (R := fun r w' => (MemFr G w w' ∧ w'.sact = w.sact ∧ w'.scls = w.scls) ∧ ∀ d, r = .ok (some d) → w.next ≤ d ∧ d < w'.next ∧ (w'.heap d).adapter = some S.dst.ref ∧
      ∃ o u, c.createUniqueId ids = some u ∧ Q (redisKey sid c.name u) (some o) ∧ (w'.heap d).m = o.m) ?_ (fun _ _ h => h)
    (fun _ _ h => ⟨⟨h.1, fun d hd => by cases hd⟩, .lift ⟨h.1, fun d hd => by cases hd⟩⟩)
  refine .bind (R := fun r w' => (MemFr G w w' ∧ w'.sact = w.sact ∧ w'.scls = w.scls) ∧ ∀ d, r = .ok d → d = w.next ∧ d < w'.next ∧
      ∃ o u, c.createUniqueId ids = some u ∧ Q (redisKey sid c.name u) (some o) ∧ w'.heap d = { o with adapter := some S.dst.ref }) ?_ ?_ (fun _ _ h => ⟨h.1, fun d hd => by cases hd⟩)
  · refine .bind (R := fun p w' => w' = w ∧ p = resolve S.dst (.cls c) (.dict ids)) (.lift ⟨rfl, rfl⟩) ?_ (fun _ _ h => by rw [h.1]; exact ⟨⟨MemFr.refl _ _, rfl, rfl⟩, fun d hd => by cases hd⟩)
    rintro p w' ⟨rfl, hp⟩
    obtain ⟨h1, h2⟩ := resolveCls_ok hp.symm
    unfold cGetRaw
    rw [hS]
    refine (ClT.load (G := G) (h _ _) w').mono fun r w2 hr => ⟨hr.1, fun d hd => ?_⟩
    obtain ⟨a1, a2, o, a3, a4⟩ := hr.2 d hd
    exact ⟨a1, a2, o, p.2, h2, by rw [← h1]; exact a3, a4⟩
  · rintro r w' ⟨hf, hr⟩
    obtain ⟨a1, a2, o, u, a3, a4, a5⟩ := hr r rfl
    refine .bind (R := fun _ w2 => w2 = w'.setObj r { w'.heap r with status := .unknown, msg := "" }) (.lift rfl) ?_ (fun e w2 h => ?_)
    · rintro _ w2 rfl
      refine .lift ⟨⟨hf.1.trans (MemFr.setObj (.inl rfl) fun _ => ⟨rfl, rfl⟩), hf.2⟩, fun d hd => ?_⟩
      cases hd
      refine ⟨Nat.le_of_eq a1.symm, a2, ?_, o, u, a3, a4, ?_⟩
      · show (if r = r then _ else _ : Obj V).adapter = _
        rw [if_pos rfl, a5]
      · show (if r = r then _ else _ : Obj V).m = _
        rw [if_pos rfl, a5]
    · subst h
      exact ⟨⟨hf.1.trans (MemFr.setObj (.inl rfl) fun _ => ⟨rfl, rfl⟩), hf.2⟩, fun d hd => by cases hd⟩

end

/-! ## One element -/

theorem enterElem_mem {S : SyncCtx V E} {e : Elem V} {w : World V E} {G : Prop} (hG : G → e.action = some .delete) :
    MemFr G w (enterElem S e w).2 ∧ ∀ c, (enterElem S e w).1 = .ok c → Dict.get? S.dst.classes e.type = some c ∧ (∃ u, c.createUniqueId e.keys = some u) ∧ (enterElem S e w).2.sact = e.action ∧ (enterElem S e w).2.scls = some c := by
  unfold enterElem
  cases hc : Dict.get? S.dst.classes e.type with
  | none => exact ⟨MemFr.refl _ _, fun c h => by cases h⟩
  | some c =>
    cases hu : c.createUniqueId e.keys with
    | none =>
      have : (do
          let c ← M.ofOption .attributeError (some c)
          let u ← M.ofOption .keyError (c.createUniqueId e.keys)
          M.modify (fun w => { w with scls := some c, slog := ⟨e.action, e.type, u⟩, sact := e.action })
          Pure.pure c : M V E (ModelClass V)) w = (.error .keyError, w) := by
        show M.bind (M.ofOption .keyError (c.createUniqueId e.keys)) _ w = _
        rw [hu]
        rfl
      rw [this]
      exact ⟨MemFr.refl _ _, fun c h => by cases h⟩
    | some u =>
      have : (do
          let c ← M.ofOption .attributeError (some c)
          let u ← M.ofOption .keyError (c.createUniqueId e.keys)
          M.modify (fun w => { w with scls := some c, slog := ⟨e.action, e.type, u⟩, sact := e.action })
          Pure.pure c : M V E (ModelClass V)) w = (.ok c, { w with scls := some c, slog := ⟨e.action, e.type, u⟩, sact := e.action }) := by
        show M.bind (M.ofOption .keyError (c.createUniqueId e.keys)) _ w = _
        rw [hu]
        rfl
      rw [this]
      refine ⟨⟨Nat.le_refl _, fun _ _ => ⟨.inl rfl, fun _ => ⟨rfl, rfl⟩⟩, fun g _ => hG g⟩, fun c' h => ?_⟩
      cases h
      exact ⟨rfl, ⟨u, hu⟩, rfl, rfl⟩

section
variable {g : Prop} {S : SyncCtx V E} {sid : String} {es : List (Elem V)}

/-- What is known of the destination object of an element when `sync_model` is about to be called. -/
structure DstKnown (g : Prop) (S : SyncCtx V E) (sid : String) (Q : String → Option (Obj V) → Prop) (e : Elem V) (c : ModelClass V) (w0 w : World V E) (fl : Bool × Bool) (d : Ref) : Prop where
  lo : w0.next ≤ d
  hi : d < w.next
  ad : (w.heap d).adapter = none ∨ (w.heap d).adapter = some S.dst.ref
  seen : ∃ o u, c.createUniqueId e.keys = some u ∧ Q (redisKey sid c.name u) (some o) ∧ (g → e.action = some .delete → (w.heap d).m.type = o.m.type ∧ (w.heap d).m.uid = o.m.uid) ∧
    (fl.2 = true → (w.heap d).m = o.m ∧ flagOn o.m.flags MF.SKIP_CHILDREN_ON_DELETE = true)

/-- What is known then of the client's memory. -/
structure Before (g : Prop) (S : SyncCtx V E) (sid : String) (Q : String → Option (Obj V) → Prop) (e : Elem V) (c : ModelClass V) (w0 w : World V E) (dst : Option Ref) (fl : Bool × Bool) : Prop where
  fr : MemFr (g ∧ e.action = some .delete) w0 w
  known : ∀ d, dst = some d → DstKnown g S sid Q e c w0 w fl d
  act : (w.sact = e.action ∧ w.scls = some c) ∨ (e.action = some .delete ∧ dst ≠ none ∧ (g → w.sact = some .delete))

theorem ClT.applyStore (hS : S.dst.ref.store = .redis sid) (hn : g → ∀ t c, Dict.get? S.dst.classes t = some c → c.name = t) (hq : g → Right sid Q) (hA : Allows g S sid es Q P)
    {e : Elem V} (he : InTree e es) {c : ModelClass V} (hc : Dict.get? S.dst.classes e.type = some c) (hcu : ∃ u, c.createUniqueId e.keys = some u) {parent : Option Ref} {w0 w w1 : World V E} {dst : Option Ref} {fl : Bool × Bool}
    (hp : ∀ p, parent = some p → p < w0.next) (hb : Before g S sid Q e c w0 w dst fl) {ch : Bool} {r : Ref}
    (hm : syncModel S (w.scls.getD c) w.sact dst e.keys (e.plus.getD []) w = (.ok (ch, some r), w1)) (hf : MemFr (g ∧ e.action = some .delete) w0 w1) (hf' : MemFr (g ∧ e.action = some .delete) w w1) :
    ClT Q P (cApplyStore S sid w.sact parent r fl.2) w1 (fun _ w2 => MemFr (g ∧ e.action = some .delete) w0 w2 ∧ r < w2.next) := by
  obtain ⟨h1, h2, h3⟩ := syncModel_post hm
  have hr : r < w1.next := by
    by_cases ha : w.sact = some .create
    · exact (h1 ha).2.2.1
    · exact Nat.lt_of_lt_of_le (hb.known r (h2 ha)).hi hf'.next_le
  refine ClT.mono (R := fun _ w2 => MemFr (g ∧ e.action = some .delete) w1 w2) ?_ fun _ _ h => ⟨hf.trans h, Nat.lt_of_lt_of_le hr h.next_le⟩
  have hpr : w0.next ≤ r → parent ≠ some r := fun h hh => Nat.lt_irrefl _ (Nat.lt_of_lt_of_le (hp r hh) h)
  cases ha : w.sact with
  | none => exact .lift (MemFr.refl _ _)
  | some a =>
    cases a with
    | update => exact .lift (MemFr.refl _ _)
    | create =>
      obtain ⟨g1, g2, g3, g4⟩ := h1 ha
      have hact : e.action = some .create ∧ w.scls = some c := by
        rcases hb.act with ⟨h1, h2⟩ | ⟨_, h2, _⟩
        · exact ⟨h1.symm.trans ha, h2⟩
        · exact (h2 g1).elim
      rw [hact.2] at g4
      obtain ⟨k1, k2⟩ := withParent_step (G := g ∧ e.action = some .delete) (w := w1) (p := parent) (r := r) (f := fun p => addChildRef p r)
        (fun q _ => child_step (f := Model.addChild) (fun h => addChild_kidsOnly h) q r w1) (hpr (by rw [g2]; exact hb.fr.next_le))
      refine .bind (R := fun _ w2 => w2 = (withParent parent (fun p => addChildRef p r) w1).2) (.lift rfl) ?_ (fun _ _ h => by rw [h]; exact k1)
      rintro _ w2 rfl
      refine .bind (R := fun o w3 => w3 = (withParent parent (fun p => addChildRef p r) w1).2 ∧ o = .ok (w1.heap r)) (.lift ⟨rfl, congrArg _ k2⟩) ?_ (fun _ _ h => by cases h.2)
      rintro o w3 ⟨rfl, ho⟩
      cases ho
      refine .bind (R := fun x w4 => w4 = (withParent parent (fun p => addChildRef p r) w1).2 ∧ ∀ o?, x = .ok o? → Q (redisKey sid (w1.heap r).m.type (w1.heap r).m.uid) o?)
        (.send (c := .get _) (hA.get _ _) fun x hx => ⟨rfl, fun o? ho => by cases ho; exact hx⟩) ?_ (fun _ _ h => by rw [h.1]; exact k1)
      rintro o? w4 ⟨rfl, ho⟩
      have ho := ho _ rfl
      cases o? with
      | some o' =>
        dsimp only
        split
        · exact .lift k1
        · exact .lift k1
      | none => exact .send (hA.set { w1.heap r with adapter := none } rfl ⟨e, _, he, ⟨hact.1, c, hc, g4⟩, c, _, hc, hcu.choose_spec, rfl⟩ ho) fun _ _ => k1
    | delete =>
      have hd : dst = some r := h2 (by rw [ha]; intro h; cases h)
      have hk := hb.known r hd
      have hm' : (w1.heap r).m = (w.heap r).m := h3 ha
      have hact : e.action = some .delete := by
        rcases hb.act with ⟨h1, _⟩ | ⟨h1, _⟩
        · exact h1.symm.trans ha
        · exact h1
      obtain ⟨k1, k2⟩ := withParent_step (G := g ∧ e.action = some .delete) (w := w1) (p := parent) (r := r) (f := fun p => removeChildRef p r)
        (fun q _ => child_step (f := Model.removeChild) (fun h => removeChild_kidsOnly h) q r w1) (hpr hk.lo)
      refine .bind (R := fun _ w2 => w2 = (withParent parent (fun p => removeChildRef p r) w1).2) (.lift rfl) ?_ (fun _ _ h => by rw [h]; exact k1)
      rintro _ w2 rfl
      obtain ⟨o, u, s1, s2, s3, s4⟩ := hk.seen
      have had : ((withParent parent (fun p => removeChildRef p r) w1).2.heap r).adapter = none ∨ ((withParent parent (fun p => removeChildRef p r) w1).2.heap r).adapter = some S.dst.ref := by
        rw [k2]
        rcases (hf'.heap r hk.hi).1 with h | h
        · rw [h]; exact hk.ad
        · exact .inl h
      have hkey : g → redisKey sid e.type u = redisKey sid (w1.heap r).m.type (w1.heap r).m.uid := fun hg => by
        rw [hm', (s3 hg hact).1, (s3 hg hact).2, ← hq hg _ _ _ s2, hn hg _ _ hc]
      have hek : ElemKey S.dst e (e.type, u) := ⟨c, u, hc, s1, rfl⟩
      cases hfl : fl.2 with
      | false =>
        refine (ClT.remove (G := g ∧ e.action = some .delete) hS (g := g) (D := fun key => redisKey sid e.type u = key) (rc := false) (fun t u => ⟨hA.exist t u, hA.get t u⟩)
          (fun t' u' h => hA.del t' u' fun hg => .inl ⟨e, e.type, u, he, hact, hek, h hg⟩) hA.scan hq (fun h => by cases h) S.rlimit r _ had (fun hg => by rw [k2]; exact hkey hg)
          (fun _ h => by cases h)).mono fun _ _ h => k1.trans h
      | true =>
        obtain ⟨t1, t2⟩ := s4 hfl
        have hroot : g → AlongWith S.dst (fun key o => Q key (some o)) sid es (redisKey sid e.type u) := fun hg =>
          .root he hact hek (by rw [← hn hg _ _ hc]; exact s2) t2
        refine (ClT.remove (G := g ∧ e.action = some .delete) hS (g := g) (D := AlongWith S.dst (fun key o => Q key (some o)) sid es) (rc := true) (fun t u => ⟨hA.exist t u, hA.get t u⟩)
          (fun t' u' h => hA.del t' u' fun hg => .inr (h hg)) hA.scan hq (fun _ key o t u h1 h2 h3 => .down h1 h2 h3) S.rlimit r _ had (fun hg => by rw [k2, ← hkey hg]; exact hroot hg)
          (fun hg _ t u hl => ?_)).mono fun _ _ h => k1.trans h
        rw [k2, hm', t1] at hl
        exact .down (hroot hg) (by rw [← hn hg _ _ hc]; exact s2) hl

theorem ClT.syncElem (hS : S.dst.ref.store = .redis sid) (hn : g → ∀ t c, Dict.get? S.dst.classes t = some c → c.name = t) (hq : g → Right sid Q) (hd : g → DelClosed es)
    (hA : Allows g S sid es Q P) : ∀ n e parent (w : World V E), InTree e es → (∀ p, parent = some p → p < w.next) →
      ClT Q P (cSyncElem S sid n e parent) w (fun _ w' => MemFr (g ∧ e.action = some .delete) w w')
  | 0, _, _, _, _, _ => .lift (MemFr.refl _ _)
  | n + 1, e, parent, w0, he, hp => by
    have ih := ClT.syncElem hS hn hq hd hA n
    have kids : ∀ (p : Option Ref) {b : Bool} {w : World V E}, MemFr (g ∧ e.action = some .delete) w0 w → (∀ r, p = some r → r < w.next) →
        ClT Q P (Cl.orEach (fun k => cSyncElem S sid n k p) (getChildren S.dc e.kids) b) w (fun _ w' => MemFr (g ∧ e.action = some .delete) w0 w' ∧ MemFr (g ∧ e.action = some .delete) w w') := by
      intro p b w hw hpw
      refine ClT.orEach (I := fun w' => MemFr (g ∧ e.action = some .delete) w0 w' ∧ MemFr (g ∧ e.action = some .delete) w w') (fun k hk w' hw' => ?_) ⟨hw, MemFr.refl _ _⟩
      have hke : k ∈ e.kids := mem_of_getChildren hk
      refine (ih k p w' (he.kid hke) (fun r hr => Nat.lt_of_lt_of_le (hpw r hr) hw'.2.next_le)).mono fun _ w2 h2 => ?_
      have h2 := h2.mono (G' := g ∧ e.action = some .delete) fun h => ⟨h.1, hd h.1 e he h.2 k (.here hke)⟩
      exact ⟨hw'.1.trans h2, hw'.2.trans h2⟩
    have hent := enterElem_mem (S := S) (e := e) (w := w0) (G := g ∧ e.action = some .delete) fun h => h.2
    refine .bind (R := fun x w => MemFr (g ∧ e.action = some .delete) w0 w ∧ ∀ c, x = .ok c → Dict.get? S.dst.classes e.type = some c ∧ (∃ u, c.createUniqueId e.keys = some u) ∧ w.sact = e.action ∧ w.scls = some c) (.lift hent) ?_ (fun _ _ h => h.1)
    rintro c w1 ⟨hf1, h1⟩
    obtain ⟨hc, hcu, ha1, hs1⟩ := h1 c rfl
    refine .bind (ClT.getSrc (G := g ∧ e.action = some .delete) hA.src w1) ?_ (fun _ _ h => hf1.trans h.1)
    rintro _ w2 ⟨hf2, ha2, hs2⟩
    refine .bind (ClT.fetchDst (G := g ∧ e.action = some .delete) hS hA.get w2) ?_ (fun _ _ h => (hf1.trans hf2).trans h.1.1)
    rintro dst w3 ⟨⟨hf3, ha3, hs3⟩, hdst⟩
    have hf := (hf1.trans hf2).trans hf3
    refine .bind (R := fun fl w4 => w4 = w3 ∧ ∀ p, fl = .ok p → (dst = none → p.1 = false ∧ p.2 = false) ∧ ∀ d, dst = some d → p.2 = flagOn (w3.heap d).m.flags MF.SKIP_CHILDREN_ON_DELETE) (.lift ?_) ?_
      (fun _ _ h => by rw [h.1]; exact hf)
    · cases dst with
      | none => exact ⟨rfl, fun p hp => by cases hp; exact ⟨fun _ => ⟨rfl, rfl⟩, fun d hd => by cases hd⟩⟩
      | some d =>
        refine ⟨rfl, fun p hp => ?_⟩
        cases hp
        exact ⟨fun h => (nomatch h), fun d' hd' => by cases hd'; rfl⟩
    rintro fl w4 ⟨rfl, hfl⟩
    obtain ⟨hfn, hfs⟩ := hfl fl rfl
    have hb0 : Before g S sid Q e c w0 w4 dst fl := by
      refine ⟨hf, fun d hd => ?_, .inl ⟨ha3.trans (ha2.trans ha1), hs3.trans (hs2.trans hs1)⟩⟩
      obtain ⟨b1, b2, b3, o, u, b4, b5, b6⟩ := hdst d (by rw [hd])
      exact ⟨Nat.le_trans (hf1.trans hf2).next_le b1, b2, .inr b3, o, u, b4, b5, fun _ _ => by rw [b6]; exact ⟨rfl, rfl⟩, fun h => ⟨b6, by rw [← b6, ← hfs d hd]; exact h⟩⟩
    refine .bind (R := fun x w5 => MemFr (g ∧ e.action = some .delete) w0 w5 ∧ (x = .ok () → Before g S sid Q e c w0 w5 dst fl)) ?_ ?_ (fun _ _ h => h.1)
    · split
      · rename_i hcond
        rw [Bool.and_eq_true, Bool.and_eq_true] at hcond
        obtain ⟨⟨c1, c2⟩, c3⟩ := hcond
        have hact : e.action = some .delete := by simpa using c2
        have hsk : fl.2 = false := by simpa using c3
        have hne : dst ≠ none := fun h => by rw [(hfn h).1] at c1; cases c1
        refine .bind (kids dst hf fun r hr => (hb0.known r hr).hi) ?_ (fun _ _ h => ⟨h.1, fun h => by cases h⟩)
        rintro _ w5 ⟨k1, k2⟩
        refine .lift ⟨k1, fun _ => ⟨k1, fun d hd => ?_, .inr ⟨hact, hne, fun hg => k2.sact ⟨hg, hact⟩ (by rcases hb0.act with h | h; exact h.1.trans hact; exact h.2.2 hg)⟩⟩⟩
        have hk := hb0.known d hd
        obtain ⟨o, u, s1, s2, s3, _⟩ := hk.seen
        refine ⟨hk.lo, Nat.lt_of_lt_of_le hk.hi k2.next_le, ?_, o, u, s1, s2, fun hg ha => ?_, fun h => by rw [hsk] at h; cases h⟩
        · show (w5.heap d).adapter = none ∨ (w5.heap d).adapter = some S.dst.ref
          rcases (k2.heap d hk.hi).1 with h | h
          · rw [h]; exact hk.ad
          · exact .inl h
        · obtain ⟨x1, x2⟩ := (k2.heap d hk.hi).2 ⟨hg, ha⟩
          exact ⟨x1.trans (s3 hg ha).1, x2.trans (s3 hg ha).2⟩
      · exact .lift ⟨hf, fun _ => hb0⟩
    rintro _ w5 ⟨hf5, hb⟩
    have hb := hb rfl
    refine .bind (R := fun a w6 => w6 = w5 ∧ a = .ok (w5.sact, w5.scls)) (.lift ⟨rfl, rfl⟩) ?_ (fun _ _ h => by cases h.2)
    rintro a w6 ⟨rfl, ha⟩
    cases ha
    have hnu : (g ∧ e.action = some .delete) → w6.sact ≠ some .update := fun h hh => by
      rcases hb.act with h' | h'
      · rw [h'.1, h.2] at hh; cases hh
      · rw [h'.2.2 h.1] at hh; cases hh
    have hf7 := (Kp.syncModel S (w6.scls.getD c) w6.sact dst e.keys (e.plus.getD []) hnu).go w6
    refine .bind (R := fun x w7 => (x, w7) = syncModel S (w6.scls.getD c) w6.sact dst e.keys (e.plus.getD []) w6) (.lift rfl) ?_ (fun _ w7 h => by rw [← h] at hf7; exact hf5.trans hf7)
    rintro ⟨ch, md⟩ w7 hm
    rw [← hm] at hf7
    cases md with
    | none =>
      refine .bind (R := fun _ w8 => MemFr (g ∧ e.action = some .delete) w0 w8) (.lift ((hf5.trans hf7).trans (MemFr.of_eq rfl rfl rfl))) (fun _ _ h => .lift h) (fun _ _ h => h)
    | some r =>
      have hst := ClT.applyStore hS hn hq hA he hc hcu hp hb hm.symm (hf5.trans hf7) hf7
      refine .bind (R := fun _ w8 => MemFr (g ∧ e.action = some .delete) w0 w8 ∧ r < w8.next) ?_ ?_ (fun _ _ h => h.1)
      · exact hst
      rintro _ w8 ⟨hf8, hr8⟩
      dsimp only
      split
      · exact .lift hf8
      · refine .bind (R := fun _ w9 => MemFr (g ∧ e.action = some .delete) w0 w9 ∧ r < w9.next) (.lift ⟨hf8.trans (Kp.incrElements.go w8), hr8⟩) ?_ (fun _ _ h => h.1)
        rintro _ w9 ⟨hf9, hr9⟩
        split
        · exact (kids (some r) hf9 fun r' hr' => by cases hr'; exact hr9).mono fun _ _ h => h.1
        · exact .lift hf9

end

end

end DS
