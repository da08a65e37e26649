import Verif.Model.SyncerOpen
import Verif.Lemmas.SyncFacts
/-! What a sync with arbitrary user code does, as a grammar of its events. -/
set_option linter.unusedSectionVars false

namespace DS
variable {V E α β : Type} [PyVal V]

/-! ## the parts in which no user code runs -/

/-- No events, and the registers of the syncer are unchanged. -/
structure Mute (w w' : World V E) : Prop where
  trace_eq : w'.trace = w.trace
  regs : Regs w w'

theorem Mute.preOrd : PreOrd (Mute (V := V) (E := E)) :=
  ⟨fun _ => ⟨rfl, .refl _⟩, fun _ _ _ h k => ⟨k.trace_eq.trans h.trace_eq, h.regs.trans k.regs⟩⟩

/-- No events but missing children, and the registers of the syncer are unchanged. -/
structure Warns (w w' : World V E) : Prop where
  trace_eq : ∃ ws, ChildWarn ws ∧ w'.trace = w.trace ++ ws
  regs : Regs w w'

theorem Mute.warns {w w' : World V E} (h : Mute w w') : Warns w w' := ⟨⟨[], fun _ h => (by cases h), by rw [h.trace_eq, List.append_nil]⟩, h.regs⟩

theorem Warns.preOrd : PreOrd (Warns (V := V) (E := E)) := by
  refine ⟨fun _ => Mute.warns (Mute.preOrd.refl _), fun a b c h k => ?_⟩
  obtain ⟨ws, h1, h2⟩ := h.trace_eq
  obtain ⟨vs, k1, k2⟩ := k.trace_eq
  refine ⟨⟨ws ++ vs, ?_, by rw [k2, h2, List.append_assoc]⟩, h.regs.trans k.regs⟩
  intro ev hm
  rcases List.mem_append.1 hm with hm | hm
  · exact h1 ev hm
  · exact k1 ev hm

theorem mute_of (f : World V E → Except Err α × World V E) (h : ∀ w, Mute w (f w).2) : Pres Mute (f : M V E α) := h

theorem mute_writeObj (r : Ref) (o : Obj V) : Pres Mute (writeObj r o : M V E Unit) := fun _ => ⟨rfl, rfl, rfl, rfl, rfl, rfl⟩
theorem mute_deref (r : Ref) : Pres Mute (deref r : M V E _) := fun _ => ⟨rfl, rfl, rfl, rfl, rfl, rfl⟩
theorem mute_alloc (o : Obj V) : Pres Mute (alloc o : M V E Ref) := fun _ => ⟨rfl, rfl, rfl, rfl, rfl, rfl⟩
theorem mute_localModel (sid : Nat) (t : String) : Pres Mute (localModel sid t : M V E _) := fun _ => ⟨rfl, rfl, rfl, rfl, rfl, rfl⟩
theorem mute_setLoc (f : World V E → Nat × Dict (Dict Ref)) : Pres Mute (M.modify (fun w : World V E => w.setLoc (f w).1 (f w).2)) := fun _ => ⟨rfl, rfl, rfl, rfl, rfl, rfl⟩
theorem mute_redis (f : World V E → Dict (Obj V)) : Pres Mute (M.modify (fun w : World V E => { w with redis := f w })) := fun _ => ⟨rfl, rfl, rfl, rfl, rfl, rfl⟩

theorem mute_getRaw (A : Adapter V) (t u : String) : Pres Mute (getRaw A t u : M V E Ref) := by
  unfold getRaw
  split
  · exact Pres.bind Mute.preOrd (mute_localModel _ _) (fun _ => Pres.ofOption Mute.preOrd _ _)
  · intro w
    unfold redisLoad
    split
    · exact mute_alloc _ w
    · exact Mute.preOrd.refl _

theorem mute_get (A : Adapter V) (model : ModelArg V) (ident : Ident V) : Pres Mute (get A model ident : M V E Ref) := by
  unfold get
  exact Pres.bind Mute.preOrd (Pres.ofExcept Mute.preOrd _) (fun p => mute_getRaw A p.1 p.2)

theorem mute_getOrNone (A : Adapter V) (model : ModelArg V) (ident : Ident V) : Pres Mute (getOrNone A model ident : M V E _) := by
  unfold getOrNone
  exact Pres.tryCatch Mute.preOrd (Pres.bind Mute.preOrd (mute_get A model ident) (fun _ => Pres.pure Mute.preOrd _)) (fun _ => Pres.pure Mute.preOrd _)

theorem mute_setStatus (r : Ref) (s : Status) (msg : String) : Pres Mute (setStatus r s msg : M V E Unit) := fun _ => ⟨rfl, rfl, rfl, rfl, rfl, rfl⟩

theorem mute_fetchDst (S : SyncCtx V E) (c : ModelClass V) (ids : Dict V) : Pres Mute (fetchDst S c ids) := by
  unfold fetchDst
  exact Pres.tryCatch Mute.preOrd (Pres.bind Mute.preOrd (mute_get _ _ _) (fun r => Pres.bind Mute.preOrd (mute_setStatus _ _ _) (fun _ => Pres.pure Mute.preOrd _)))
    (fun _ => Pres.pure Mute.preOrd _)

theorem mute_dstFlags (o : Option Ref) : Pres Mute (dstFlags (V := V) (E := E) o) := by
  unfold dstFlags
  split
  · exact Pres.pure Mute.preOrd _
  · exact Pres.bind Mute.preOrd (mute_deref _) (fun _ => Pres.pure Mute.preOrd _)

theorem mute_add (A : Adapter V) (r : Ref) : Pres Mute (add A r : M V E Unit) := by
  unfold add
  refine Pres.bind Mute.preOrd (mute_deref _) (fun o => ?_)
  split
  · refine Pres.bind Mute.preOrd (mute_localModel _ _) (fun d => ?_)
    split
    · split
      · exact Pres.pure Mute.preOrd _
      · exact Pres.raise Mute.preOrd _
    · refine Pres.bind Mute.preOrd (Pres.read Mute.preOrd) (fun w => ?_)
      intro w1
      split <;> exact ⟨rfl, rfl, rfl, rfl, rfl, rfl⟩
  · refine Pres.bind Mute.preOrd (Pres.read Mute.preOrd) (fun w => ?_)
    split
    · split
      · exact Pres.pure Mute.preOrd _
      · exact Pres.raise Mute.preOrd _
    · exact mute_redis (fun w => Dict.set w.redis _ _)

theorem mute_removeItem (A : Adapter V) (t u : String) : Pres Mute (removeItem A t u : M V E Unit) := by
  unfold removeItem
  split
  · refine Pres.bind Mute.preOrd (mute_localModel _ _) (fun d => ?_)
    split
    · exact mute_setLoc (fun w => (_, Dict.set (w.loc _) _ _))
    · exact Pres.raise Mute.preOrd _
  · refine Pres.bind Mute.preOrd (Pres.read Mute.preOrd) (fun w => ?_)
    split
    · exact mute_redis (fun w => Dict.erase w.redis _)
    · exact Pres.raise Mute.preOrd _

theorem mute_removeOne (A : Adapter V) (r : Ref) : Pres Mute (removeOne A r : M V E Unit) := by
  unfold removeOne
  refine Pres.bind Mute.preOrd (mute_deref _) (fun o => Pres.bind Mute.preOrd (mute_removeItem _ _ _) (fun _ => Pres.bind Mute.preOrd (Pres.read Mute.preOrd) (fun w => ?_)))
  split
  · exact mute_writeObj _ _
  · exact Pres.pure Mute.preOrd _

theorem Pres.warns {m : M V E α} (h : Pres Mute m) : Pres Warns m := fun w => (h w).warns

theorem warns_remove (A : Adapter V) : ∀ (n : Nat) (r : Ref) (b : Bool), Pres Warns (remove A n r b : M V E Unit)
  | 0, _, _ => Pres.raise Warns.preOrd _
  | n + 1, r, b => by
    unfold remove
    refine Pres.bind Warns.preOrd (mute_deref _).warns (fun o => Pres.bind Warns.preOrd (mute_removeOne _ _).warns (fun _ => ?_))
    split
    · refine Pres.forEach Warns.preOrd _ (fun c _ => Pres.tryCatch Warns.preOrd ?_ (fun _ => ?_))
      · exact Pres.bind Warns.preOrd (mute_getRaw _ _ _).warns (fun k => warns_remove A n k b)
      · intro w
        exact ⟨⟨[_], fun ev h => ⟨_, _, _, _, List.mem_singleton.1 h⟩, rfl⟩, rfl, rfl, rfl, rfl, rfl⟩
    · exact Pres.pure Warns.preOrd _

theorem mute_addChildRef (p c : Ref) : Pres Mute (addChildRef p c : M V E Unit) := by
  unfold addChildRef
  exact Pres.bind Mute.preOrd (mute_deref _) (fun _ => Pres.bind Mute.preOrd (mute_deref _) (fun _ => Pres.bind Mute.preOrd (Pres.ofExcept Mute.preOrd _) (fun _ => mute_writeObj _ _)))

theorem mute_removeChildRef (p c : Ref) : Pres Mute (removeChildRef p c : M V E Unit) := by
  unfold removeChildRef
  exact Pres.bind Mute.preOrd (mute_deref _) (fun _ => Pres.bind Mute.preOrd (mute_deref _) (fun _ => Pres.bind Mute.preOrd (Pres.ofExcept Mute.preOrd _) (fun _ => mute_writeObj _ _)))

theorem mute_withParent (p : Option Ref) {f : Ref → M V E Unit} (hf : ∀ r, Pres Mute (f r)) : Pres Mute (withParent p f) := by
  unfold withParent
  split
  · exact Pres.pure Mute.preOrd _
  · exact hf _

theorem warns_applyStore (S : SyncCtx V E) (a : Option Action) (p : Option Ref) (r : Ref) (b : Bool) : Pres Warns (applyStore S a p r b) := by
  unfold applyStore
  split
  · exact (Pres.bind Mute.preOrd (mute_withParent _ (fun _ => mute_addChildRef _ _)) (fun _ => mute_add _ _)).warns
  · exact Pres.bind Warns.preOrd (mute_withParent _ (fun _ => mute_removeChildRef _ _)).warns (fun _ => warns_remove _ _ _ _)
  · exact Pres.pure Warns.preOrd _

/-! ## running user code -/

theorem mute_runUser (m : M V E α) : Pres Mute (runUser m) := by
  intro w
  unfold runUser
  exact ⟨rfl, rfl, rfl, rfl, rfl, rfl⟩

theorem openCall_run (c : CrudCall V) (m : M V E (Option Ref)) {w w' : World V E} {r} (h : openCall c m w = (r, w')) :
    w'.trace = w.trace ++ [.call c { result := endOf r }] ∧ Regs w w' := by
  unfold openCall at h
  have hm := mute_runUser m w
  cases hr : runUser m w with
  | mk r1 w1 =>
    rw [hr] at h hm
    cases h
    exact ⟨by show w1.trace ++ _ = _; rw [hm.trace_eq], hm.regs.sproc_eq, hm.regs.stotal_eq, hm.regs.sact_eq, hm.regs.scls_eq, hm.regs.slog_eq⟩

/-! ## the grammar -/

/-- The call that an action leads to, on an element; `t` is the name of the model class. -/
def Made (a : Action) (t : String) (e : Elem V) (c : CrudCall V) : Prop :=
  match a with
  | .create => c = .create t e.keys (e.plus.getD [])
  | .update => ∃ t' u, c = .update t' u (e.plus.getD [])
  | .delete => ∃ t' u, c = .delete t' u

/-- What the grammar depends on. -/
structure OCtx (V : Type) where
  A : Adapter V
  flags : Nat
  dc : DiffClass V
  total : Nat
  /-- the progress callback may return -/
  passes : Nat → Nat → Prop
  /-- the progress callback may raise this -/
  stops : Nat → Nat → Err → Prop

/-- Events of the action on one object; the result says whether there is an object. -/
inductive OwnO (T : OCtx V) (e : Elem V) : List (Event V) → Except Err Bool → Prop where
  | idle {evs b} : e.action = none → (∀ ev ∈ evs, ∃ ctx, ev = .log .debug ctx .success) → OwnO T e evs (.ok b)
  | stale {a ctx} : e.action = some a → OwnO T e [.log .error ctx .error] (failRes T.flags (staleErr a))
  | crud {a c t call out ctx x} : e.action = some a → Dict.get? T.A.classes e.type = some c → (a = .create → t = c.name) → Made a t e call → out.result = .raises x → x.isCrud = true →
      OwnO T e [.call call out, .log .error ctx .error] (failRes T.flags x)
  | fatal {a c t call out x} : e.action = some a → Dict.get? T.A.classes e.type = some c → (a = .create → t = c.name) → Made a t e call → out.result = .raises x → x.isCrud = false →
      OwnO T e [.call call out] (.error x)
  | failed {a c t call out ctx} : e.action = some a → Dict.get? T.A.classes e.type = some c → (a = .create → t = c.name) → Made a t e call → out.result = .none →
      OwnO T e [.call call out, .log .warning ctx .failure] (.ok false)
  | done {a c t call out ctx st} : e.action = some a → Dict.get? T.A.classes e.type = some c → (a = .create → t = c.name) → Made a t e call → out.result = .object →
      OwnO T e [.call call out, .log (levelOf st) ctx st] (.ok true)

/-- Events of the action on one object and the bookkeeping after it; `ok true` when there is an object. -/
inductive BodyO (T : OCtx V) (e : Elem V) : List (Event V) → Except Err Bool → Prop where
  | raised {evs x} : OwnO T e evs (.error x) → BodyO T e evs (.error x)
  | noObject {evs ctx} : OwnO T e evs (.ok false) → BodyO T e (evs ++ [.noObject ctx]) (.ok false)
  | storeFail {evs ws x} : OwnO T e evs (.ok true) → ChildWarn ws → BodyO T e (evs ++ ws) (.error x)
  | obj {evs ws} : OwnO T e evs (.ok true) → ChildWarn ws → BodyO T e (evs ++ ws) (.ok true)

/-- Events of a sync of a list of elements, with arbitrary user code: `OTr T l p evs p' res`, with `p` and `p'` the values of the progress
counter. -/
inductive OTr (T : OCtx V) : List (Elem V) → Nat → List (Event V) → Nat → Except Err Bool → Prop where
  | nil {p} : OTr T [] p [] p (.ok false)
  | seqErr {e l p evs p' x} : OTr T [e] p evs p' (.error x) → OTr T (e :: l) p evs p' (.error x)
  | seq {e l p evs p1 b evs' p' r} : OTr T [e] p evs p1 (.ok b) → OTr T l p1 evs' p' r → OTr T (e :: l) p (evs ++ evs') p' (orRes b r)
  | bad {e p x} : OTr T [e] p [] p (.error x)
  | natFail {e p evs p' x} : e.action = some .delete → OTr T (getChildren T.dc e.kids) p evs p' (.error x) → OTr T [e] p evs p' (.error x)
  | nat {e p evs p1 b evs' rb} : e.action = some .delete → OTr T (getChildren T.dc e.kids) p evs p1 (.ok b) → BodyO T e evs' rb → rb ≠ .ok true →
      OTr T [e] p (evs ++ evs') p1 (didRes true rb)
  | natObj {e p evs p1 b evs' res} : e.action = some .delete → OTr T (getChildren T.dc e.kids) p evs p1 (.ok b) → BodyO T e evs' (.ok true) →
      (res = .ok true ∧ T.passes (p1 + 1) T.total) ∨ (∃ x, res = .error x ∧ T.stops (p1 + 1) T.total x) → OTr T [e] p (evs ++ (evs' ++ [.syncProgress (p1 + 1) T.total])) (p1 + 1) res
  | leaf {e p evs rb} : BodyO T e evs rb → (rb = .ok true → e.action = some .delete) → OTr T [e] p evs p (didRes e.action.isSome rb)
  | preStop {e p evs x} : BodyO T e evs (.ok true) → T.stops (p + 1) T.total x → OTr T [e] p (evs ++ [.syncProgress (p + 1) T.total]) (p + 1) (.error x)
  | pre {e p evs evs' p' r} : BodyO T e evs (.ok true) → T.passes (p + 1) T.total → OTr T (getChildren T.dc e.kids) (p + 1) evs' p' r →
      OTr T [e] p (evs ++ .syncProgress (p + 1) T.total :: evs') p' (orRes e.action.isSome r)

/-! ## a run is described by the grammar -/

theorem logSyncStatus_run (flags : Nat) (a : Option Action) (st : Status) {w w' : World V E} {r} (h : logSyncStatus flags a st w = (r, w')) :
    r = .ok () ∧ Regs w w' ∧ w'.trace = w.trace ++ (match a with
      | none => if flagOn flags GF.LOG_UNCHANGED_RECORDS then [.log .debug w.slog st] else []
      | some _ => [.log (levelOf st) w.slog st]) := by
  unfold logSyncStatus at h
  rw [M.read_bind] at h
  cases a with
  | none =>
    dsimp only at h ⊢
    split at h
    · rename_i hf
      cases h
      rw [if_pos hf]
      exact ⟨rfl, ⟨rfl, rfl, rfl, rfl, rfl⟩, rfl⟩
    · rename_i hf
      cases h
      rw [if_neg hf]
      exact ⟨rfl, .refl _, (List.append_nil _).symm⟩
  | some a =>
    cases st <;> cases h <;> exact ⟨rfl, ⟨rfl, rfl, rfl, rfl, rfl⟩, rfl⟩

theorem oTry_of_ok {S : OpenCtx V E} {c : ModelClass V} {a : Action} {dst : Option Ref} {ids attrs : Dict V} {w w1 : World V E} {r? : Option Ref}
    (h : oApplyAction S c a dst ids attrs w = (.ok r?, w1)) :
    oTryAction S c a dst ids attrs w = (.ok (r?, r?.elim .failure (fun r => (w1.heap r).status)), w1) := by
  unfold oTryAction
  rw [M.bind_ok h]
  cases r? <;> rfl

theorem oTry_of_err {S : OpenCtx V E} {c : ModelClass V} {a : Action} {dst : Option Ref} {ids attrs : Dict V} {w w1 : World V E} {x : Err}
    (h : oApplyAction S c a dst ids attrs w = (.error x, w1)) : oTryAction S c a dst ids attrs w = (.error x, w1) := by
  unfold oTryAction
  rw [M.bind_err h]

/-- Either the action is refused, or a call is made. -/
theorem oApplyAction_run {S : OpenCtx V E} {c : ModelClass V} {a : Action} {dst : Option Ref} {e : Elem V} {w w1 : World V E} {r}
    (h : oApplyAction S c a dst e.keys (e.plus.getD []) w = (r, w1)) :
    (r = .error (staleErr a) ∧ w1 = w) ∨
    ∃ call, Made a c.name e call ∧ w1.trace = w.trace ++ [.call call { result := endOf r }] ∧ Regs w w1 := by
  unfold oApplyAction at h
  cases a <;> cases dst <;> dsimp only at h
  · obtain ⟨h1, h2⟩ := openCall_run _ _ h
    exact .inr ⟨_, rfl, h1, h2⟩
  · cases h; exact .inl ⟨rfl, rfl⟩
  · cases h; exact .inl ⟨rfl, rfl⟩
  · have h' : openCall (.update (w.heap _).m.type (w.heap _).m.uid _) _ w = (r, w1) := h
    obtain ⟨h1, h2⟩ := openCall_run _ _ h'
    exact .inr ⟨_, ⟨_, _, rfl⟩, h1, h2⟩
  · cases h; exact .inl ⟨rfl, rfl⟩
  · have h' : openCall (.delete (w.heap _).m.type (w.heap _).m.uid) _ w = (r, w1) := h
    obtain ⟨h1, h2⟩ := openCall_run _ _ h'
    exact .inr ⟨_, ⟨_, _, rfl⟩, h1, h2⟩

/-- The grammar of a sync. -/
def OpenCtx.tr (S : OpenCtx V E) (total : Nat) : OCtx V :=
  ⟨S.dst, S.flags, S.dc, total, fun a b => ∃ w, (S.hooks.callback a b w).1 = .ok (), fun a b x => ∃ w, (S.hooks.callback a b w).1 = .error x⟩

theorem oSyncModel_run {S : OpenCtx V E} (total : Nat) {c c0 : ModelClass V} {dst : Option Ref} {e : Elem V}
    (hc0 : Dict.get? S.dst.classes e.type = some c0) (hc : e.action = some .create → c = c0) {w w' : World V E} {res}
    (h : oSyncModel S c e.action dst e.keys (e.plus.getD []) w = (res, w')) :
    ∃ evs, w'.trace = w.trace ++ evs ∧ Regs w w' ∧ OwnO (S.tr total) e evs (ownRes res) ∧ (∀ b r, res = .ok (b, r) → b = e.action.isSome) := by
  unfold oSyncModel at h
  cases ha : e.action with
  | none =>
    rw [ha] at h
    dsimp only at h
    cases hl : logSyncStatus S.flags none .success w with
    | mk r1 w1 =>
      obtain ⟨rfl, h2, h3⟩ := logSyncStatus_run _ _ _ hl
      rw [M.bind_ok hl] at h
      cases h
      refine ⟨_, h3, h2, .idle ha ?_, ?_⟩
      · intro ev hm
        dsimp only at hm
        split at hm
        · exact ⟨_, List.mem_singleton.1 hm⟩
        · cases hm
      · intro b r hb; cases hb; rfl
  | some a =>
    rw [ha] at h
    dsimp only at h
    have hcn : a = .create → c.name = c0.name := fun hcr => by rw [hc (by rw [ha, hcr])]
    cases hap : oApplyAction S c a dst e.keys (e.plus.getD []) w with
    | mk r1 w1 =>
      cases r1 with
      | ok r? =>
        have hres := oTry_of_ok hap
        rw [M.bind_ok (a := .ok (r?, _)) (w' := w1) (by unfold M.attempt; rw [hres])] at h
        dsimp only at h
        rcases oApplyAction_run hap with ⟨h1, _⟩ | ⟨call, hm, ht, hr⟩
        · cases h1
        · cases hl : logSyncStatus S.flags (some a) (r?.elim .failure (fun r => (w1.heap r).status)) w1 with
          | mk r2 w2 =>
            obtain ⟨rfl, h2, h3⟩ := logSyncStatus_run _ _ _ hl
            rw [M.bind_ok hl] at h
            cases h
            refine ⟨_, by rw [h3, ht, List.append_assoc], hr.trans h2, ?_, fun b r hb => by cases hb; rfl⟩
            cases r? with
            | none => exact .failed ha hc0 hcn hm rfl
            | some r => exact .done ha hc0 hcn hm rfl
      | error x =>
        have hres := oTry_of_err hap
        by_cases hx : x.isCrud = true
        · rw [M.bind_ok (a := .error x) (w' := w1) (by unfold M.attempt; rw [hres]; simp [hx])] at h
          dsimp only at h
          cases hl : logSyncStatus S.flags (some a) .error w1 with
          | mk r2 w2 =>
            obtain ⟨rfl, h2, h3⟩ := logSyncStatus_run _ _ _ hl
            rw [M.bind_ok hl] at h
            have hres' : w2 = w' ∧ ownRes res = failRes S.flags x ∧ (∀ b r, res = .ok (b, r) → b = true) := by
              unfold failRes
              split at h
              · rename_i hf; cases h; rw [if_pos hf]; exact ⟨rfl, rfl, fun b r hb => by cases hb; rfl⟩
              · rename_i hf; cases h; rw [if_neg hf]; exact ⟨rfl, rfl, fun b r hb => by cases hb⟩
            obtain ⟨rfl, h4, h5⟩ := hres'
            rw [h4]
            rcases oApplyAction_run hap with ⟨h1, rfl⟩ | ⟨call, hm, ht, hr⟩
            · cases h1
              exact ⟨_, h3, h2, .stale ha, h5⟩
            · exact ⟨[_, _], by rw [h3, ht, List.append_assoc]; rfl, hr.trans h2, .crud ha hc0 hcn hm rfl hx, h5⟩
        · have hx' : x.isCrud = false := by simpa using hx
          rw [M.bind_err (e := x) (w' := w1) (by unfold M.attempt; rw [hres]; simp [hx'])] at h
          cases h
          rcases oApplyAction_run hap with ⟨h1, _⟩ | ⟨call, hm, ht, hr⟩
          · cases h1
            cases a <;> cases hx'
          · exact ⟨_, ht, hr, .fatal ha hc0 hcn hm rfl hx', fun b r hb => by cases hb⟩

/-- The action stays `delete`. -/
def StaysDel (w w' : World V E) : Prop := w.sact = some .delete → w'.sact = some .delete

theorem StaysDel.preOrd : PreOrd (StaysDel (V := V) (E := E)) := ⟨fun _ h => h, fun _ _ _ h k hs => k (h hs)⟩
theorem Mute.del {w w' : World V E} (h : Mute w w') : StaysDel w w' := fun hs => h.regs.sact_eq.trans hs
theorem Pres.del {m : M V E α} (h : Pres Mute m) : Pres StaysDel m := fun w => (h w).del

theorem del_oSyncModel (S : OpenCtx V E) (c : ModelClass V) (a : Option Action) (dst : Option Ref) (ids attrs : Dict V) :
    Pres StaysDel (oSyncModel S c a dst ids attrs) := by
  have hlog : ∀ a st, Pres StaysDel (logSyncStatus S.flags a st : M V E Unit) := fun a st w hs => by
    cases hl : logSyncStatus S.flags a st w with
    | mk r w1 => exact (logSyncStatus_run _ _ _ hl).2.1.sact_eq.trans hs
  have hcall : ∀ c m, Pres StaysDel (openCall c m : M V E _) := fun c m w hs => by
    cases hl : openCall c m w with
    | mk r w1 => exact (openCall_run _ _ hl).2.sact_eq.trans hs
  unfold oSyncModel
  split
  · exact Pres.bind StaysDel.preOrd (hlog _ _) (fun _ => Pres.pure StaysDel.preOrd _)
  · refine Pres.bind StaysDel.preOrd (Pres.attempt StaysDel.preOrd ?_) (fun res => ?_)
    · unfold oTryAction
      refine Pres.bind StaysDel.preOrd ?_ (fun r? => ?_)
      · unfold oApplyAction
        split
        · exact Pres.raise StaysDel.preOrd _
        · exact hcall _ _
        · exact Pres.raise StaysDel.preOrd _
        · exact Pres.bind StaysDel.preOrd (mute_deref _).del (fun _ => hcall _ _)
        · exact Pres.raise StaysDel.preOrd _
        · exact Pres.bind StaysDel.preOrd (mute_deref _).del (fun _ => hcall _ _)
      · split
        · exact Pres.bind StaysDel.preOrd (mute_deref _).del (fun _ => Pres.pure StaysDel.preOrd _)
        · exact Pres.pure StaysDel.preOrd _
    · split
      · refine Pres.bind StaysDel.preOrd (hlog _ _) (fun _ => ?_)
        split
        · exact Pres.pure StaysDel.preOrd _
        · exact Pres.raise StaysDel.preOrd _
      · exact Pres.bind StaysDel.preOrd (hlog _ _) (fun _ => Pres.pure StaysDel.preOrd _)

theorem enterElem_run (S : SyncCtx V E) (e : Elem V) {w w' : World V E} {r} (h : enterElem S e w = (r, w')) :
    (∃ x, r = .error x ∧ w' = w) ∨
    ∃ c u, r = .ok c ∧ Dict.get? S.dst.classes e.type = some c ∧ w' = { w with scls := some c, slog := ⟨e.action, e.type, u⟩, sact := e.action } := by
  unfold enterElem at h
  cases hc : Dict.get? S.dst.classes e.type with
  | none =>
    rw [hc] at h
    cases h
    exact .inl ⟨_, rfl, rfl⟩
  | some c =>
    rw [hc] at h
    cases hu : c.createUniqueId e.keys with
    | none =>
      have h' : (M.ofOption .keyError (c.createUniqueId e.keys) >>= fun u => _ : M V E _) w = (r, w') := h
      rw [hu] at h'
      cases h'
      exact .inl ⟨_, rfl, rfl⟩
    | some u =>
      have h' : (M.ofOption .keyError (c.createUniqueId e.keys) >>= fun u => _ : M V E _) w = (r, w') := h
      rw [hu] at h'
      cases h'
      exact .inr ⟨c, u, rfl, rfl, rfl⟩

theorem del_oSyncElem (S : OpenCtx V E) : ∀ (n : Nat) (e : Elem V) (p : Option Ref), e.action = some .delete → (∀ k, InTree k e.kids → k.action = some .delete) →
    Pres StaysDel (oSyncElem S n e p)
  | 0, _, _, _, _ => Pres.raise StaysDel.preOrd _
  | n + 1, e, p, he, hk => by
    have hkids : ∀ q acc, Pres StaysDel (M.orEach (fun k => oSyncElem S n k q) (getChildren S.dc e.kids) acc : M V E Bool) := by
      intro q acc
      refine Pres.orEach StaysDel.preOrd _ (fun k hkm => ?_) acc
      have hm := mem_of_getChildren hkm
      exact del_oSyncElem S n k q (hk k (.here hm)) (fun y hy => hk y (.under hm hy))
    unfold oSyncElem
    refine Pres.bind StaysDel.preOrd ?_ (fun c => ?_)
    · intro w hs
      cases hen : enterElem S.closed e w with
      | mk r w1 =>
        rcases enterElem_run _ _ hen with ⟨x, _, rfl⟩ | ⟨c, u, _, _, rfl⟩
        · exact hs
        · exact he
    refine Pres.bind StaysDel.preOrd (mute_getOrNone _ _ _).del (fun _ => Pres.bind StaysDel.preOrd (mute_fetchDst _ _ _).del (fun dst => Pres.bind StaysDel.preOrd (mute_dstFlags _).del (fun fl => ?_)))
    refine Pres.bind StaysDel.preOrd ?_ (fun _ => Pres.bind StaysDel.preOrd (Pres.read StaysDel.preOrd) (fun w => Pres.bind StaysDel.preOrd (del_oSyncModel _ _ _ _ _ _) (fun q => ?_)))
    · unfold oFirst
      split
      · exact Pres.bind StaysDel.preOrd (hkids _ _) (fun _ => Pres.pure StaysDel.preOrd _)
      · exact Pres.pure StaysDel.preOrd _
    · obtain ⟨changed, modified⟩ := q
      cases modified with
      | none => intro w h; exact h
      | some r =>
        unfold oRest
        refine Pres.bind StaysDel.preOrd ?_ (fun _ => ?_)
        · intro w hs
          exact (warns_applyStore _ _ _ _ _ w).regs.sact_eq.trans hs
        · split
          · exact Pres.pure StaysDel.preOrd _
          · refine Pres.bind StaysDel.preOrd ?_ (fun _ => ?_)
            · unfold oIncrElements
              exact Pres.bind StaysDel.preOrd (x := incrElements (V := V) (E := E)) (fun _ h => h) (fun _ => Pres.bind StaysDel.preOrd (Pres.read StaysDel.preOrd) (fun w => (mute_runUser _).del))
            · split
              · exact hkids _ _
              · exact Pres.pure StaysDel.preOrd _

/-- A computation whose events follow the grammar. -/
def FollowsO (T : OCtx V) (l : List (Elem V)) (w w' : World V E) (res : Except Err Bool) : Prop :=
  ∃ evs, w'.trace = w.trace ++ evs ∧ w'.stotal = T.total ∧ OTr T l w.sproc evs w'.sproc res

theorem orEach_tr {T : OCtx V} {f : Elem V → M V E Bool} :
    ∀ (l : List (Elem V)), (∀ k ∈ l, ∀ (w w' : World V E) res, w.stotal = T.total → f k w = (res, w') → FollowsO T [k] w w' res) →
      ∀ (acc : Bool) (w w' : World V E) res, w.stotal = T.total → M.orEach f l acc w = (res, w') → ∃ res0, FollowsO T l w w' res0 ∧ res = orRes acc res0
  | [], _, acc, w, w', res, ht, h => by
    cases h
    exact ⟨.ok false, ⟨[], (List.append_nil _).symm, ht, .nil⟩, by simp [orRes]⟩
  | k :: l, hf, acc, w, w', res, ht, h => by
    rw [M.orEach_cons] at h
    cases hk : f k w with
    | mk r1 w1 =>
      obtain ⟨evs, e1, e2, e3⟩ := hf k (by simp) _ _ _ ht hk
      cases r1 with
      | error x =>
        rw [M.bind_err hk] at h
        cases h
        exact ⟨.error x, ⟨evs, e1, e2, .seqErr e3⟩, rfl⟩
      | ok b =>
        rw [M.bind_ok hk] at h
        obtain ⟨res0, ⟨evs', f1, f2, f3⟩, f4⟩ := orEach_tr l (fun k' hk' => hf k' (List.mem_cons_of_mem _ hk')) _ _ _ _ e2 h
        refine ⟨orRes b res0, ⟨evs ++ evs', by rw [f1, e1, List.append_assoc], f2, .seq e3 f3⟩, ?_⟩
        rw [f4, orRes_orRes]

theorem oIncrElements_run (S : OpenCtx V E) {w w' : World V E} {r} (h : oIncrElements S w = (r, w')) :
    w'.trace = w.trace ++ [.syncProgress (w.sproc + 1) w.stotal] ∧ w'.sproc = w.sproc + 1 ∧ w'.stotal = w.stotal ∧
    ∃ w0, (S.hooks.callback (w.sproc + 1) w.stotal w0).1 = r := by
  unfold oIncrElements at h
  have h' : runUser (S.hooks.callback (w.sproc + 1) w.stotal) { w with sproc := w.sproc + 1, trace := w.trace ++ [.syncProgress (w.sproc + 1) w.stotal] } = (r, w') := h
  have hm := mute_runUser (S.hooks.callback (w.sproc + 1) w.stotal) { w with sproc := w.sproc + 1, trace := w.trace ++ [.syncProgress (w.sproc + 1) w.stotal] }
  rw [h'] at hm
  exact ⟨hm.trace_eq, hm.regs.sproc_eq, hm.regs.stotal_eq, _, congrArg Prod.fst h'⟩

theorem oSyncElem_tr (S : OpenCtx V E) (total : Nat) : ∀ (n : Nat) (e : Elem V) (parent : Option Ref) (w w' : World V E) (res : Except Err Bool), DelClosed [e] →
    w.stotal = total → oSyncElem S n e parent w = (res, w') → FollowsO (S.tr total) [e] w w' res
  | 0, e, parent, w, w', res, _, ht, h => by
    cases h
    exact ⟨[], (List.append_nil _).symm, ht, .bad⟩
  | n + 1, e, parent, w, w', res, hd, ht, h => by
    have hkids : ∀ q acc (w w' : World V E) res, w.stotal = total → M.orEach (fun k => oSyncElem S n k q) (getChildren S.dc e.kids) acc w = (res, w') →
        ∃ res0, FollowsO (S.tr total) (getChildren S.dc e.kids) w w' res0 ∧ res = orRes acc res0 := by
      intro q acc w w' res ht h
      exact orEach_tr _ (fun k hk w w' res ht h => oSyncElem_tr S total n k q w w' res (hd.kid (mem_of_getChildren hk)) ht h) acc w w' res ht h
    unfold oSyncElem at h
    cases hen : enterElem S.closed e w with
    | mk r0 we =>
      rcases enterElem_run _ _ hen with ⟨x, rfl, rfl⟩ | ⟨c, u, rfl, hc, rfl⟩
      · rw [M.bind_err hen] at h
        cases h
        exact ⟨[], (List.append_nil _).symm, ht, .bad⟩
      rw [M.bind_ok hen] at h
      generalize hwe : ({ w with scls := some c, slog := ⟨e.action, e.type, u⟩, sact := e.action } : World V E) = we at h
      have t0 : we.trace = w.trace ∧ we.sproc = w.sproc ∧ we.stotal = total ∧ we.sact = e.action ∧ we.scls = some c := by subst hwe; exact ⟨rfl, rfl, ht, rfl, rfl⟩
      -- reading
      cases hg : getOrNone S.src (.cls c) (.dict e.keys) we with
      | mk r1 w1 =>
      have m1 := mute_getOrNone S.src (.cls c) (.dict e.keys) we
      rw [hg] at m1
      cases r1 with
      | error x =>
        rw [M.bind_err hg] at h
        cases h
        exact ⟨[], by rw [List.append_nil]; exact m1.trace_eq.trans t0.1, m1.regs.stotal_eq.trans t0.2.2.1, by rw [show w'.sproc = w.sproc from m1.regs.sproc_eq.trans t0.2.1]; exact .bad⟩
      | ok x =>
      rw [M.bind_ok hg] at h
      cases hf : fetchDst S.closed c e.keys w1 with
      | mk r2 w2 =>
      have m2 := Mute.preOrd.trans _ _ _ m1 (hf ▸ mute_fetchDst S.closed c e.keys w1 : Mute w1 (r2, w2).2)
      cases r2 with
      | error x =>
        rw [M.bind_err hf] at h
        cases h
        exact ⟨[], by rw [List.append_nil]; exact m2.trace_eq.trans t0.1, m2.regs.stotal_eq.trans t0.2.2.1, by rw [show w'.sproc = w.sproc from m2.regs.sproc_eq.trans t0.2.1]; exact .bad⟩
      | ok dst =>
      rw [M.bind_ok hf] at h
      obtain ⟨natural, skip, hfl⟩ : ∃ a b, dstFlags dst w2 = (.ok (a, b), w2) := by
        unfold dstFlags
        cases dst with
        | none => exact ⟨_, _, rfl⟩
        | some r => exact ⟨_, _, rfl⟩
      rw [M.bind_ok hfl] at h
      dsimp only at h
      have b0 : w2.trace = w.trace ∧ w2.sproc = w.sproc ∧ w2.stotal = total ∧ w2.sact = e.action ∧ w2.scls = some c :=
        ⟨m2.trace_eq.trans t0.1, m2.regs.sproc_eq.trans t0.2.1, m2.regs.stotal_eq.trans t0.2.2.1, m2.regs.sact_eq.trans t0.2.2.2.1, m2.regs.scls_eq.trans t0.2.2.2.2⟩
      -- what happens from `sync_model` on
      have body : ∀ (w3 w' : World V E) (res : Except Err Bool), w3.stotal = total → w3.sact = e.action → (e.action = some .create → w3.scls = some c) →
          (M.read >>= fun w : World V E => oSyncModel S (w.scls.getD c) w.sact dst e.keys (e.plus.getD []) >>= fun q => match q.2 with
            | none => M.read >>= fun w' => M.emit (.noObject w'.slog) >>= fun _ => pure q.1
            | some r => oRest S (fun k => oSyncElem S n k (some r)) w.sact parent r natural skip q.1 (getChildren S.dc e.kids)) w3 = (res, w') →
          ∃ evs rb w4, BodyO (S.tr total) e evs rb ∧ w4.trace = w3.trace ++ evs ∧ w4.sproc = w3.sproc ∧ w4.stotal = total ∧
            ((rb ≠ .ok true ∧ w' = w4 ∧ res = didRes e.action.isSome rb) ∨
             (rb = .ok true ∧ e.action = some .delete ∧ skip = true ∧ w' = w4 ∧ res = .ok true) ∨
             (rb = .ok true ∧ (e.action == some .delete && skip) = false ∧ ∃ r w5 r5, oIncrElements S w4 = (r5, w5) ∧ ((∃ x, r5 = .error x ∧ res = .error x ∧ w' = w5) ∨
               (r5 = .ok () ∧ ((natural = true ∧ e.action = some .delete ∧ w' = w5 ∧ res = .ok true) ∨
                 ((natural && e.action == some .delete) = false ∧ M.orEach (fun k => oSyncElem S n k (some r)) (getChildren S.dc e.kids) e.action.isSome w5 = (res, w'))))))) := by
        intro w3 w' res ht3 ha3 hc3 h
        rw [M.read_bind, ha3] at h
        cases hm : oSyncModel S (w3.scls.getD c) e.action dst e.keys (e.plus.getD []) w3 with
        | mk r3 w4 =>
          obtain ⟨evs, g1, g2, g3, g4⟩ := oSyncModel_run total hc (fun hcr => by rw [hc3 hcr]; rfl) hm
          cases r3 with
          | error x =>
            rw [M.bind_err hm] at h
            cases h
            exact ⟨evs, .error x, _, .raised g3, g1, g2.sproc_eq, g2.stotal_eq.trans ht3, .inl ⟨by simp, rfl, rfl⟩⟩
          | ok q =>
            rw [M.bind_ok hm] at h
            obtain ⟨changed, modified⟩ := q
            have hch := g4 _ _ rfl
            subst hch
            cases modified with
            | none =>
              cases h
              refine ⟨evs ++ [.noObject w4.slog], .ok false, { w4 with trace := w4.trace ++ [.noObject w4.slog] }, .noObject g3, ?_, g2.sproc_eq, g2.stotal_eq.trans ht3, .inl ⟨by simp, rfl, rfl⟩⟩
              show w4.trace ++ _ = _
              rw [g1, List.append_assoc]
            | some r =>
              dsimp only at h
              unfold oRest at h
              have hw := warns_applyStore S.closed e.action parent r skip w4
              cases has : applyStore S.closed e.action parent r skip w4 with
              | mk r5 w5 =>
                rw [has] at hw
                obtain ⟨ws, k1, k2⟩ := hw.trace_eq
                have tr5 : w5.trace = w3.trace ++ (evs ++ ws) := by rw [← List.append_assoc, ← g1]; exact k2
                have sp5 : w5.sproc = w3.sproc := hw.regs.sproc_eq.trans g2.sproc_eq
                have st5 : w5.stotal = total := (hw.regs.stotal_eq.trans g2.stotal_eq).trans ht3
                cases r5 with
                | error x =>
                  rw [M.bind_err has] at h
                  cases h
                  exact ⟨_, .error x, _, .storeFail g3 k1, tr5, sp5, st5, .inl ⟨by simp, rfl, rfl⟩⟩
                | ok _ =>
                  rw [M.bind_ok has] at h
                  refine ⟨_, .ok true, w5, .obj g3 k1, tr5, sp5, st5, .inr ?_⟩
                  by_cases hsk : (e.action == some .delete && skip) = true
                  · rw [if_pos hsk] at h
                    simp only [Bool.and_eq_true, beq_iff_eq] at hsk
                    cases h
                    exact .inl ⟨rfl, hsk.1, hsk.2, rfl, by rw [hsk.1]; rfl⟩
                  · rw [if_neg hsk] at h
                    refine .inr ⟨rfl, by simpa using hsk, r, ?_⟩
                    cases hin : oIncrElements S w5 with
                    | mk r6 w6 =>
                      refine ⟨w6, r6, rfl, ?_⟩
                      cases r6 with
                      | error x =>
                        rw [M.bind_err hin] at h
                        cases h
                        exact .inl ⟨x, rfl, rfl, rfl⟩
                      | ok _ =>
                        rw [M.bind_ok hin] at h
                        refine .inr ⟨rfl, ?_⟩
                        by_cases hn : (!natural || !(e.action == some .delete)) = true
                        · rw [if_pos hn] at h
                          exact .inr ⟨by revert hn; cases natural <;> cases (e.action == some .delete) <;> simp, h⟩
                        · rw [if_neg hn] at h
                          cases h
                          have : natural = true ∧ e.action = some .delete := by
                            revert hn; cases natural <;> simp
                          exact .inl ⟨this.1, this.2, rfl, by rw [this.2]; rfl⟩
      by_cases hnat : (natural && e.action == some .delete && !skip) = true
      · have hdel : e.action = some .delete := by
          simp only [Bool.and_eq_true, beq_iff_eq] at hnat; exact hnat.1.2
        have hn : natural = true := by
          simp only [Bool.and_eq_true, beq_iff_eq] at hnat; exact hnat.1.1
        rw [hnat] at h
        cases hk : M.orEach (fun k => oSyncElem S n k dst) (getChildren S.dc e.kids) false w2 with
        | mk rk w3 =>
          obtain ⟨res0, ⟨evs, k1, k2, k3⟩, k4⟩ := hkids _ _ _ _ _ b0.2.2.1 hk
          rw [orRes_false] at k4
          subst k4
          rw [b0.1] at k1
          rw [b0.2.1] at k3
          cases rk with
          | error x =>
            have : oFirst (fun k => oSyncElem S n k dst) true (getChildren S.dc e.kids) w2 = (.error x, w3) := by
              unfold oFirst
              rw [if_pos rfl]
              show (M.orEach _ _ _ >>= _) w2 = _
              rw [M.bind_err hk]
            rw [M.bind_err this] at h
            cases h
            exact ⟨evs, k1, k2, .natFail hdel k3⟩
          | ok b =>
            have : oFirst (fun k => oSyncElem S n k dst) true (getChildren S.dc e.kids) w2 = (.ok (), w3) := by
              unfold oFirst
              rw [if_pos rfl]
              show (M.orEach _ _ _ >>= _) w2 = _
              rw [M.bind_ok hk]; rfl
            rw [M.bind_ok this] at h
            have hsact : w3.sact = e.action := by
              have hp : Pres StaysDel (M.orEach (fun k => oSyncElem S n k dst) (getChildren S.dc e.kids) false) := by
                refine Pres.orEach StaysDel.preOrd _ (fun k hkm => ?_) _
                have hm := mem_of_getChildren hkm
                have hdk := hd e (inTree_self e) hdel
                exact del_oSyncElem S n k dst (hdk k (.here hm)) (fun y hy => hdk y (.under hm hy))
              have := hp w2 (b0.2.2.2.1.trans hdel)
              rw [hk] at this
              exact this.trans hdel.symm
            obtain ⟨evs', rb, w4, c1, c2, c3, c4, c5⟩ := body w3 w' res k2 hsact (fun hcr => by rw [hdel] at hcr; cases hcr) h
            rcases c5 with ⟨d1, rfl, rfl⟩ | ⟨rfl, _, d0, rfl, rfl⟩ | ⟨rfl, _, r, w5, r5, d1, d2⟩
            · refine ⟨evs ++ evs', by rw [c2, k1, List.append_assoc], c4, ?_⟩
              rw [c3, hdel]
              exact .nat hdel k3 c1 d1
            · simp only [Bool.and_eq_true, beq_iff_eq, Bool.not_eq_true'] at hnat
              exact absurd d0 (by rw [hnat.2]; simp)
            · obtain ⟨i1, i2, i3, w0, i4⟩ := oIncrElements_run S d1
              rw [c2, c3, c4, k1] at i1
              rw [c3] at i2
              rw [c3, c4] at i4
              have fin : ∀ res, (res = .ok true ∧ (S.tr total).passes (w3.sproc + 1) total) ∨ (∃ x, res = .error x ∧ (S.tr total).stops (w3.sproc + 1) total x) → FollowsO (S.tr total) [e] w w5 res := fun res hres =>
                ⟨evs ++ (evs' ++ [.syncProgress (w3.sproc + 1) total]), by rw [i1]; simp only [List.append_assoc], i3.trans c4, by
                  rw [i2]; exact .natObj hdel k3 c1 hres⟩
              rcases d2 with ⟨x, rfl, rfl, rfl⟩ | ⟨rfl, ⟨_, _, rfl, rfl⟩ | ⟨hh, _⟩⟩
              · exact fin _ (.inr ⟨x, rfl, w0, i4⟩)
              · exact fin _ (.inl ⟨rfl, w0, i4⟩)
              · rw [hn, hdel] at hh; cases hh
      · have hnf : (natural && e.action == some .delete && !skip) = false := by simpa using hnat
        rw [hnf] at h
        have : oFirst (fun k => oSyncElem S n k dst) false (getChildren S.dc e.kids) w2 = (.ok (), w2) := rfl
        rw [M.bind_ok this] at h
        obtain ⟨evs', rb, w4, c1, c2, c3, c4, c5⟩ := body w2 w' res b0.2.2.1 b0.2.2.2.1 (fun _ => b0.2.2.2.2) h
        rw [b0.1] at c2
        rw [b0.2.1] at c3
        rcases c5 with ⟨d1, rfl, rfl⟩ | ⟨rfl, hdel, d0, rfl, rfl⟩ | ⟨rfl, hns, r, w5, r5, d1, d2⟩
        · exact ⟨evs', c2, c4, by rw [c3]; exact .leaf c1 (fun h => absurd h d1)⟩
        · refine ⟨evs', c2, c4, ?_⟩
          have := OTr.leaf (p := w.sproc) c1 (fun _ => hdel)
          rw [hdel] at this
          rw [c3]; exact this
        · obtain ⟨i1, i2, i3, w0, i4⟩ := oIncrElements_run S d1
          rw [c2, c3, c4] at i1
          rw [c3] at i2
          rw [c3, c4] at i4
          rcases d2 with ⟨x, rfl, rfl, rfl⟩ | ⟨rfl, ⟨d3, d4, rfl, rfl⟩ | ⟨_, hh⟩⟩
          · exact ⟨evs' ++ [.syncProgress (w.sproc + 1) total], by rw [i1, List.append_assoc], i3.trans c4, by rw [i2]; exact .preStop c1 ⟨w0, i4⟩⟩
          · rw [d3, d4] at hnf
            rw [d4] at hns
            simp at hnf hns
            rw [hnf] at hns; cases hns
          · obtain ⟨res0, ⟨evs, k1, k2, k3⟩, k4⟩ := hkids _ _ _ _ _ (i3.trans c4) hh
            refine ⟨evs' ++ .syncProgress (w.sproc + 1) total :: evs, by rw [k1, i1]; simp, k2, ?_⟩
            rw [i2] at k3
            rw [k4]
            exact .pre c1 ⟨w0, i4⟩ k3

end DS
