import Verif.Lemmas.SyncDone
import Verif.Spec.Status
/-! `get_status()` during a sync. -/
set_option linter.unusedSectionVars false

namespace DS
variable {V E α : Type} [PyVal V]

/-! ## programs that set no status -/

/-- No status of an allocated object changes. -/
structure SameStat (w w' : World V E) : Prop where
  next_le : w.next ≤ w'.next
  stat : ∀ r, r < w.next → w'.stat r = w.stat r

theorem SameStat.preOrd : PreOrd (SameStat (V := V) (E := E)) where
  refl _ := ⟨Nat.le_refl _, fun _ _ => rfl⟩
  trans _ _ _ h k := ⟨Nat.le_trans h.next_le k.next_le, fun r hr => (k.stat r (Nat.lt_of_lt_of_le hr h.next_le)).trans (h.stat r hr)⟩

theorem SameStat.refl (w : World V E) : SameStat w w := SameStat.preOrd.refl w
theorem SameStat.trans {a b c : World V E} (h : SameStat a b) (k : SameStat b c) : SameStat a c := SameStat.preOrd.trans _ _ _ h k
theorem SameStat.of_eq {w w' : World V E} (h1 : w'.heap = w.heap) (h2 : w'.next = w.next) : SameStat w w' :=
  ⟨by rw [h2]; exact Nat.le_refl _, fun r _ => by unfold World.stat; rw [h1]⟩

theorem SameStat.writeObj (w : World V E) (r : Ref) (o : Obj V) (h : o.getStatus = (w.heap r).getStatus) : SameStat w (w.setObj r o) := by
  refine ⟨Nat.le_refl _, fun r' _ => ?_⟩
  unfold World.stat World.setObj
  simp only
  split
  · rename_i h'; rw [h', h]
  · rfl

theorem Pres.derefWrite {r : Ref} {f : Obj V → M V E α} (h : ∀ w : World V E, SameStat w (f (w.heap r) w).2) : Pres SameStat (deref r >>= f) := by
  intro w; rw [deref_bind]; exact h w

theorem addChildRef_stat (p c : Ref) : Pres SameStat (addChildRef (V := V) (E := E) p c) := by
  intro w
  rw [addChildRef_eq]
  split
  · exact SameStat.writeObj w p _ rfl
  · exact SameStat.refl w

theorem removeChildRef_stat (p c : Ref) : Pres SameStat (removeChildRef (V := V) (E := E) p c) := by
  intro w
  rw [removeChildRef_eq]
  split
  · exact SameStat.writeObj w p _ rfl
  · exact SameStat.refl w

theorem localModel_stat (sid : Nat) (t : String) : Pres SameStat (localModel (V := V) (E := E) sid t) := by
  intro w; rw [localModel_eq]; exact SameStat.of_eq rfl rfl

theorem add_stat (A : Adapter V) (r : Ref) : Pres (SameStat (E := E)) (add A r) := by
  intro w
  unfold add
  rw [deref_bind]
  cases A.ref.store with
  | «local» sid =>
    dsimp only
    rw [M.bind_ok (localModel_eq sid _ w)]
    have h0 : SameStat w (w.setLoc sid (touch (w.loc sid) (w.heap r).m.type)) := SameStat.of_eq rfl rfl
    cases Dict.get? (tbl w sid (w.heap r).m.type) (w.heap r).m.uid with
    | some r' =>
      dsimp only
      by_cases hr : r' = r
      · rw [if_pos hr]; exact h0
      · rw [if_neg hr]; exact h0
    | none =>
      dsimp only
      rw [M.read_bind]
      split
      · exact SameStat.of_eq rfl rfl
      · have h1 := SameStat.writeObj (w.setLoc sid (touch (w.loc sid) (w.heap r).m.type)) r { w.heap r with adapter := some A.ref } rfl
        exact h0.trans (h1.trans (SameStat.of_eq rfl rfl))
  | redis sid =>
    dsimp only
    rw [M.read_bind]
    cases Dict.get? w.redis (redisKey sid (w.heap r).m.type (w.heap r).m.uid) with
    | some o =>
      dsimp only
      split <;> exact SameStat.refl w
    | none => exact SameStat.of_eq rfl rfl

theorem alloc_stat (o : Obj V) : Pres (SameStat (E := E)) (alloc o) := by
  intro w
  refine ⟨Nat.le_succ _, fun r hr => ?_⟩
  unfold World.stat
  rw [(RRel.alloc w o).heap_eq r hr]

theorem getRaw_stat (A : Adapter V) (t u : String) : Pres (SameStat (E := E)) (getRaw A t u) := by
  unfold getRaw
  split
  · exact Pres.bind SameStat.preOrd (localModel_stat _ _) (fun _ => Pres.ofOption SameStat.preOrd _ _)
  · intro w
    unfold redisLoad
    split
    · exact alloc_stat _ w
    · exact SameStat.refl w

theorem removeItem_stat (A : Adapter V) (t u : String) : Pres (SameStat (E := E)) (removeItem A t u) := by
  unfold removeItem
  split
  · refine Pres.bind SameStat.preOrd (localModel_stat _ _) (fun d => Pres.ite ?_ (Pres.raise SameStat.preOrd _))
    exact Pres.modify (fun w => SameStat.of_eq rfl rfl)
  · refine Pres.bind SameStat.preOrd (Pres.read SameStat.preOrd) (fun d => Pres.ite ?_ (Pres.raise SameStat.preOrd _))
    exact Pres.modify (fun w => SameStat.of_eq rfl rfl)

theorem removeItem_heap (A : Adapter V) (t u : String) (w : World V E) : (removeItem A t u w).2.heap = w.heap := by
  unfold removeItem
  cases A.ref.store with
  | «local» sid =>
    dsimp only
    rw [M.bind_ok (localModel_eq sid _ w)]
    split <;> rfl
  | redis sid =>
    dsimp only
    rw [M.read_bind]
    split <;> rfl

theorem removeOne_stat (A : Adapter V) (r : Ref) : Pres (SameStat (E := E)) (removeOne A r) := by
  intro w
  unfold removeOne
  rw [deref_bind, M.bind_def]
  have h1 := removeItem_stat A (w.heap r).m.type (w.heap r).m.uid w
  have h2 := removeItem_heap A (w.heap r).m.type (w.heap r).m.uid w
  generalize removeItem A (w.heap r).m.type (w.heap r).m.uid w = p at h1 h2
  obtain ⟨x, w1⟩ := p
  dsimp only at h1 h2
  cases x with
  | error x => exact h1
  | ok _ =>
    dsimp only
    rw [M.read_bind]
    split
    · exact h1.trans (SameStat.writeObj w1 r _ (by rw [h2]; rfl))
    · exact h1

theorem remove_stat (A : Adapter V) (b : Bool) : ∀ (n : Nat) (r : Ref), Pres (SameStat (E := E)) (remove A n r b) := by
  intro n
  induction n with
  | zero => intro r; exact Pres.raise SameStat.preOrd _
  | succ n ih =>
    intro r
    unfold remove
    refine Pres.derefWrite (fun w => ?_)
    refine Pres.bind SameStat.preOrd (removeOne_stat A r) (fun _ => Pres.ite ?_ (Pres.pure SameStat.preOrd _)) w
    refine Pres.forEach SameStat.preOrd _ (fun c _ => Pres.tryCatch SameStat.preOrd ?_ (fun _ => Pres.emit (fun w => SameStat.of_eq rfl rfl)))
    exact Pres.bind SameStat.preOrd (getRaw_stat A _ _) (fun k => ih k)

theorem applyStore_stat (S : SyncCtx V E) (a : Option Action) (parent : Option Ref) (r : Ref) (skip : Bool) : Pres SameStat (applyStore S a parent r skip) := by
  unfold applyStore withParent
  split
  · refine Pres.bind SameStat.preOrd ?_ (fun _ => add_stat _ _)
    split
    · exact Pres.pure SameStat.preOrd _
    · exact addChildRef_stat _ _
  · refine Pres.bind SameStat.preOrd ?_ (fun _ => remove_stat _ _ _ _)
    split
    · exact Pres.pure SameStat.preOrd _
    · exact removeChildRef_stat _ _
  · exact Pres.pure SameStat.preOrd _

/-! ## the methods of the user -/

theorem overrideStatus_stat (r : Ref) (o : Option (Status × String)) (w : World V E) :
    (overrideStatus r o w).1 = .ok () ∧ (overrideStatus r o w).2.next = w.next ∧ (∀ r', (overrideStatus r o w).2.stat r' = if r' = r then o.getD (w.stat r) else w.stat r') := by
  cases o with
  | none => refine ⟨rfl, rfl, fun r' => ?_⟩; show w.stat r' = _; split <;> simp_all
  | some p =>
    refine ⟨rfl, rfl, fun r' => ?_⟩
    show World.stat (w.setObj r _) r' = _
    unfold World.stat World.setObj
    simp only
    split
    · rfl
    · rfl

/-- What a call of user code that has an instance does to the statuses. -/
def CalledStat (r : Ref) (call : CrudCall V) (out : Outcome) (w w' : World V E) : Prop :=
  w'.stat r = out.status.getD (if out.applied = true then (.success, call.doneMsg) else w.stat r) ∧ ∀ r', r' ≠ r → w'.stat r' = w.stat r'

theorem finishHook_stat (r : Ref) (out : Outcome) (w : World V E) :
    (∀ r', (finishHook r out w).2.stat r' = if r' = r then out.status.getD (w.stat r) else w.stat r') := by
  obtain ⟨h1, _, h2⟩ := overrideStatus_stat r out.status w
  intro r'
  rw [← h2 r']
  unfold finishHook
  rw [M.bind_ok (Prod.ext h1 rfl : overrideStatus r out.status w = (.ok (), (overrideStatus r out.status w).2))]
  cases out.result <;> rfl

theorem hookDelete_stat (S : SyncCtx V E) (r : Ref) (w : World V E) :
    CalledStat r (.delete (w.heap r).m.type (w.heap r).m.uid) (S.hooks w.env (.delete (w.heap r).m.type (w.heap r).m.uid)).1 w (hookDelete S r w).2 := by
  unfold hookDelete
  rw [deref_bind, M.bind_ok (callHook_eq _ _ w)]
  generalize (S.hooks w.env (.delete (w.heap r).m.type (w.heap r).m.uid)).2 = env
  generalize (S.hooks w.env (.delete (w.heap r).m.type (w.heap r).m.uid)).1 = out
  unfold CalledStat
  cases ha : out.applied with
  | false =>
    simp only [Bool.false_eq_true, if_false]
    constructor
    · rw [finishHook_stat, if_pos rfl]; rfl
    · intro r' hr; rw [finishHook_stat, if_neg hr]; rfl
  | true =>
    simp only [if_true]
    rw [M.bind_ok (setStatus_eq _ _ _ _)]
    constructor
    · rw [finishHook_stat, if_pos rfl]; simp [World.stat, World.setObj, Obj.getStatus, CrudCall.doneMsg]
    · intro r' hr; rw [finishHook_stat, if_neg hr]; simp [World.stat, World.setObj, hr]

theorem hookUpdate_stat (S : SyncCtx V E) (r : Ref) (attrs : Dict V) (w : World V E) (hs : ((w.heap r).m.setattrs attrs).2 = none) :
    CalledStat r (.update (w.heap r).m.type (w.heap r).m.uid attrs) (S.hooks w.env (.update (w.heap r).m.type (w.heap r).m.uid attrs)).1 w (hookUpdate S r attrs w).2 := by
  unfold hookUpdate
  rw [deref_bind, M.bind_ok (callHook_eq _ _ w)]
  generalize (S.hooks w.env (.update (w.heap r).m.type (w.heap r).m.uid attrs)).2 = env
  generalize (S.hooks w.env (.update (w.heap r).m.type (w.heap r).m.uid attrs)).1 = out
  unfold CalledStat
  cases ha : out.applied with
  | false =>
    simp only [Bool.false_eq_true, if_false]
    constructor
    · rw [finishHook_stat, if_pos rfl]; rfl
    · intro r' hr; rw [finishHook_stat, if_neg hr]; rfl
  | true =>
    simp only [if_true]
    unfold updateBase
    rw [M.bind_assoc', M.bind_ok ((setattrsRef_eq _ _ _).trans (by rw [show ((World.heap { w with env := env, trace := _ } r).m.setattrs attrs).2 = none from hs])),
      M.bind_ok (setStatus_eq _ _ _ _)]
    constructor
    · rw [finishHook_stat, if_pos rfl]; simp [World.stat, World.setObj, Obj.getStatus, CrudCall.doneMsg]
    · intro r' hr; rw [finishHook_stat, if_neg hr]; simp [World.stat, World.setObj, hr]

theorem hookCreate_stat (S : SyncCtx V E) (c : ModelClass V) (ids attrs : Dict V) (w : World V E) :
    SameStat w (hookCreate S c ids attrs w).2 ∧ ∀ r, (hookCreate S c ids attrs w).1 = .ok (some r) →
      (hookCreate S c ids attrs w).2.stat r = (S.hooks w.env (.create c.name ids attrs)).1.status.getD (.success, "Created successfully") := by
  unfold hookCreate
  rw [M.bind_ok (callHook_eq _ _ w)]
  generalize (S.hooks w.env (.create c.name ids attrs)).2 = env
  generalize (S.hooks w.env (.create c.name ids attrs)).1 = out
  generalize hw1 : ({ w with env := env, trace := w.trace ++ [.call (.create c.name ids attrs) out] } : World V E) = w1
  have s1 : SameStat w w1 := by rw [← hw1]; exact SameStat.of_eq rfl rfl
  cases out.result with
  | raises e => exact ⟨s1, fun r h => by cases h⟩
  | none => exact ⟨s1, fun r h => by cases h⟩
  | object =>
    dsimp only
    cases c.construct ids attrs with
    | error e => exact ⟨s1, fun r h => by cases h⟩
    | ok m =>
      rw [show (M.ofExcept (.ok m) : M V E (Model V)) = Pure.pure m from rfl, M.pure_bind']
      generalize ho : ({ m := m, adapter := some S.dst.ref, status := .success, msg := "Created successfully" } : Obj V) = o
      have s2 := alloc_stat o w1
      have e2 : alloc o w1 = (.ok w1.next, (alloc o w1).2) := rfl
      have hho : (alloc o w1).2.stat w1.next = (.success, "Created successfully") := by rw [← ho]; simp [alloc, World.setObj, World.stat, Obj.getStatus]
      generalize (alloc o w1).2 = w2 at e2 s2 hho
      obtain ⟨g1, g2, g3⟩ := overrideStatus_stat w1.next out.status w2
      rw [M.bind_ok e2, M.bind_ok (Prod.ext g1 rfl : overrideStatus w1.next out.status w2 = (.ok (), (overrideStatus w1.next out.status w2).2))]
      refine ⟨s1.trans ⟨?_, fun r hr => ?_⟩, fun r hr => ?_⟩
      · show w1.next ≤ (overrideStatus w1.next out.status w2).2.next
        rw [g2]; exact s2.next_le
      · show (overrideStatus w1.next out.status w2).2.stat r = _
        rw [g3, if_neg (Nat.ne_of_lt hr)]; exact s2.stat r hr
      · cases hr
        show (overrideStatus w1.next out.status w2).2.stat w1.next = _
        rw [g3, if_pos rfl, hho]

/-- `sync_model` and the statuses of objects. -/
structure ModelStat (S : SyncCtx V E) (c : ModelClass V) (a : Option Action) (dst : Option Ref) (ids attrs : Dict V) (w w' : World V E) (res : Except Err (Bool × Option Ref)) : Prop where
  others : ∀ r, r < w.next → dst ≠ some r → w'.stat r = w.stat r
  idle : ∀ r, dst = some r → a = none → w'.stat r = w.stat r
  stale : ∀ r x, dst = some r → a = some x → callFor c x (some (w.heap r).m) ids attrs = none → w'.stat r = w.stat r
  called : ∀ r x call, dst = some r → a = some x → callFor c x (some (w.heap r).m) ids attrs = some call → (x = .update → ((w.heap r).m.setattrs attrs).2 = none) →
    CalledStat r call (S.hooks w.env call).1 w w'
  created : ∀ ch r, res = .ok (ch, some r) → dst = none → a = some .create →
    w'.stat r = (S.hooks w.env (.create c.name ids attrs)).1.status.getD (.success, "Created successfully")

theorem tryAction_world (S : SyncCtx V E) (c : ModelClass V) (a : Action) (dst : Option Ref) (ids attrs : Dict V) (w : World V E) :
    (tryAction S c a dst ids attrs w).2 = (applyAction S c a dst ids attrs w).2 ∧
    ∀ r st, (tryAction S c a dst ids attrs w).1 = .ok (some r, st) → (applyAction S c a dst ids attrs w).1 = .ok (some r) := by
  unfold tryAction
  rw [M.bind_def]
  generalize applyAction S c a dst ids attrs w = p
  obtain ⟨x, w1⟩ := p
  cases x with
  | error x => exact ⟨rfl, fun r st h => by cases h⟩
  | ok x =>
    cases x with
    | none => exact ⟨rfl, fun r st h => by cases h⟩
    | some r => exact ⟨rfl, fun r st h => by cases h; rfl⟩

theorem stat_emit (w : World V E) (evs : List (Event V)) (r : Ref) : World.stat { w with trace := evs } r = w.stat r := rfl

theorem syncModel_world (S : SyncCtx V E) (c : ModelClass V) (a : Action) (dst : Option Ref) (ids attrs : Dict V) (w : World V E) :
    (∀ r, (syncModel S c (some a) dst ids attrs w).2.stat r = (applyAction S c a dst ids attrs w).2.stat r) ∧
    ∀ ch r, (syncModel S c (some a) dst ids attrs w).1 = .ok (ch, some r) → (applyAction S c a dst ids attrs w).1 = .ok (some r) := by
  obtain ⟨h1, h2⟩ := tryAction_world S c a dst ids attrs w
  rw [← h1]
  unfold syncModel M.attempt
  dsimp only
  rw [M.bind_def]
  generalize tryAction S c a dst ids attrs w = p at h1 h2
  obtain ⟨x, w1⟩ := p
  cases x with
  | error x =>
    dsimp only
    split
    · rename_i heq
      split at heq
      · cases heq
        dsimp only
        rw [M.bind_ok (logSyncStatus_some _ _ _ _)]
        split
        · exact ⟨fun r => rfl, fun ch r h => by cases h⟩
        · exact ⟨fun r => rfl, fun ch r h => by cases h⟩
      · cases heq
    · rename_i heq
      split at heq
      · cases heq
      · cases heq; exact ⟨fun r => rfl, fun ch r h => by cases h⟩
  | ok x =>
    obtain ⟨r?, st⟩ := x
    dsimp only
    rw [M.bind_ok (logSyncStatus_some _ _ _ _)]
    exact ⟨fun r => rfl, fun ch r h => by cases h; exact h2 r st rfl⟩

theorem syncModel_stat (S : SyncCtx V E) (c : ModelClass V) (a : Option Action) (dst : Option Ref) (ids attrs : Dict V) (w : World V E)
    (hset : ∀ r, dst = some r → a = some .update → ((w.heap r).m.setattrs attrs).2 = none) :
    ModelStat S c a dst ids attrs w (syncModel S c a dst ids attrs w).2 (syncModel S c a dst ids attrs w).1 := by
  cases a with
  | none =>
    have h : ∀ r, (syncModel S c none dst ids attrs w).2.stat r = w.stat r := by
      intro r
      unfold syncModel logSyncStatus
      simp only
      rw [M.bind_assoc', M.read_bind]
      split <;> rfl
    exact ⟨fun r _ _ => h r, fun r _ _ => h r, fun r x _ hx => (by cases hx), fun r x call _ hx => (by cases hx), fun ch r _ _ hx => (by cases hx)⟩
  | some a =>
    obtain ⟨h1, h2⟩ := syncModel_world S c a dst ids attrs w
    cases dst with
    | none =>
      have h3 : SameStat w (applyAction S c a none ids attrs w).2 := by
        cases a with
        | create => exact (hookCreate_stat S c ids attrs w).1
        | update => exact SameStat.refl w
        | delete => exact SameStat.refl w
      refine ⟨fun r hr _ => (h1 r).trans (h3.stat r hr), fun r h => (by cases h), fun r x h => (by cases h), fun r x call h => (by cases h), fun ch r hr _ ha => ?_⟩
      cases ha
      rw [h1]
      exact (hookCreate_stat S c ids attrs w).2 r (h2 ch r hr)
    | some r =>
      refine ⟨fun r' hr hne => ?_, fun r' _ h => (by cases h), fun r' x h hx hcf => ?_, fun r' x call h hx hcf hs => ?_, fun ch r' _ h => (by cases h)⟩
      · have hne' : r' ≠ r := fun h => hne (by rw [h])
        rw [h1]
        cases a with
        | create => rfl
        | update => exact (hookUpdate_stat S r attrs w (hset r rfl rfl)).2 r' hne'
        | delete => exact (hookDelete_stat S r w).2 r' hne'
      · cases h; cases hx
        rw [h1]
        cases a with
        | create => rfl
        | update => cases hcf
        | delete => cases hcf
      · cases h; cases hx
        have : CalledStat r call (S.hooks w.env call).1 w (applyAction S c a (some r) ids attrs w).2 := by
          cases a with
          | create => cases hcf
          | update => cases hcf; exact hookUpdate_stat S r attrs w (hs rfl)
          | delete => cases hcf; exact hookDelete_stat S r w
        exact ⟨(h1 r).trans this.1, fun r' hr => (h1 r').trans (this.2 r' hr)⟩

end DS
