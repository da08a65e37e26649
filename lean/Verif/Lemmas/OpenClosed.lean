import Verif.Lemmas.OpenFacts
/-! The syncer of `Verif.Model.Syncer` is the one of `Verif.Model.SyncerOpen` with user code that leaves the adapters alone. -/
set_option linter.unusedSectionVars false

namespace DS
variable {V E α β : Type} [PyVal V]

theorem Twin.iff {w w' : World V E} : Twin w w' ↔ ∃ t, w' = { w with trace := t } ∧ t.map Event.bare = w.trace.map Event.bare := by
  constructor
  · intro h
    refine ⟨w'.trace, ?_, (congrArg World.trace h).symm⟩
    have h1 := congrArg (fun v : World V E => ({ v with trace := w'.trace } : World V E)) h
    exact h1.symm
  · rintro ⟨t, rfl, ht⟩
    unfold Twin World.bare
    rw [ht]

theorem Twin.refl (w : World V E) : Twin w w := rfl

/-- Computations that do the same to worlds that differ only in the recorded ends of calls. -/
def Twins (m m' : M V E α) : Prop := ∀ w w', Twin w w' → (m w).1 = (m' w').1 ∧ Twin (m w).2 (m' w').2

namespace Twins

theorem pure (a : α) : Twins (Pure.pure a : M V E α) (Pure.pure a) := fun _ _ h => ⟨rfl, h⟩
theorem raise (e : Err) : Twins (M.raise e : M V E α) (M.raise e) := fun _ _ h => ⟨rfl, h⟩
theorem ofExcept (r : Except Err α) : Twins (M.ofExcept r : M V E α) (M.ofExcept r) := by
  cases r with
  | ok a => exact pure a
  | error e => exact raise e
theorem ofOption (e : Err) (r : Option α) : Twins (M.ofOption e r : M V E α) (M.ofOption e r) := by
  cases r with
  | some a => exact pure a
  | none => exact raise e

theorem bind {m m' : M V E α} {f f' : α → M V E β} (h : Twins m m') (hf : ∀ a, Twins (f a) (f' a)) : Twins (m >>= f) (m' >>= f') := by
  intro w w' hw
  obtain ⟨h1, h2⟩ := h w w' hw
  cases hm : m w with
  | mk r v =>
    cases hm' : m' w' with
    | mk r' v' =>
      rw [hm, hm'] at h1 h2
      dsimp only at h1 h2
      subst h1
      cases r with
      | ok a => rw [M.bind_ok hm, M.bind_ok hm']; exact hf a v v' h2
      | error e => rw [M.bind_err hm, M.bind_err hm']; exact ⟨rfl, h2⟩

theorem readBind {g g' : World V E → M V E α} (h : ∀ w w', Twin w w' → Twins (g w) (g' w')) : Twins (M.read >>= g) (M.read >>= g') :=
  fun w w' hw => h w w' hw w w' hw

theorem modify {f f' : World V E → World V E} (h : ∀ w w', Twin w w' → Twin (f w) (f' w')) : Twins (M.modify f) (M.modify f') := fun w w' hw => ⟨rfl, h w w' hw⟩

theorem emit (ev : Event V) : Twins (M.emit ev : M V E Unit) (M.emit ev) := by
  rintro w w' hw
  obtain ⟨t, rfl, ht⟩ := Twin.iff.1 hw
  refine ⟨rfl, Twin.iff.2 ⟨t ++ [ev], rfl, ?_⟩⟩
  show (t ++ [ev]).map _ = (w.trace ++ [ev]).map _
  rw [List.map_append, List.map_append, ht]

theorem forEach {f f' : α → M V E Unit} : ∀ (l : List α), (∀ a ∈ l, Twins (f a) (f' a)) → Twins (M.forEach f l) (M.forEach f' l)
  | [], _ => pure ()
  | a :: l, h => bind (h a (by simp)) (fun _ => forEach l (fun x hx => h x (by simp [hx])))

theorem tryCatch {m m' : M V E α} {p : Err → Bool} {k k' : Err → M V E α} (h : Twins m m') (hk : ∀ e, Twins (k e) (k' e)) : Twins (M.tryCatch m p k) (M.tryCatch m' p k') := by
  intro w w' hw
  obtain ⟨h1, h2⟩ := h w w' hw
  unfold M.tryCatch
  cases hm : m w with
  | mk r v =>
    cases hm' : m' w' with
    | mk r' v' =>
      rw [hm, hm'] at h1 h2
      dsimp only at h1 h2
      subst h1
      cases r with
      | ok a => exact ⟨rfl, h2⟩
      | error e =>
        dsimp only
        split
        · exact hk e v v' h2
        · exact ⟨rfl, h2⟩

theorem attempt {m m' : M V E α} {p : Err → Bool} (h : Twins m m') : Twins (M.attempt m p) (M.attempt m' p) := by
  intro w w' hw
  obtain ⟨h1, h2⟩ := h w w' hw
  unfold M.attempt
  cases hm : m w with
  | mk r v =>
    cases hm' : m' w' with
    | mk r' v' =>
      rw [hm, hm'] at h1 h2
      dsimp only at h1 h2
      subst h1
      cases r with
      | ok a => exact ⟨rfl, h2⟩
      | error e =>
        dsimp only
        split
        · exact ⟨rfl, h2⟩
        · exact ⟨rfl, h2⟩

theorem orEach {f f' : α → M V E Bool} : ∀ (l : List α) (acc : Bool), (∀ a ∈ l, Twins (f a) (f' a)) → Twins (M.orEach f l acc) (M.orEach f' l acc)
  | [], _, _ => pure _
  | a :: l, acc, h => bind (h a (by simp)) (fun _ => orEach l _ (fun x hx => h x (by simp [hx])))

/-! ## stores -/

theorem deref (r : Ref) : Twins (DS.deref r : M V E _) (DS.deref r) := by
  intro w w' hw
  obtain ⟨t, rfl, ht⟩ := Twin.iff.1 hw
  exact ⟨rfl, hw⟩

theorem writeObj (r : Ref) (o : Obj V) : Twins (DS.writeObj r o : M V E _) (DS.writeObj r o) := by
  intro w w' hw
  obtain ⟨t, rfl, ht⟩ := Twin.iff.1 hw
  exact ⟨rfl, Twin.iff.2 ⟨t, rfl, ht⟩⟩

theorem alloc (o : Obj V) : Twins (DS.alloc o : M V E _) (DS.alloc o) := by
  intro w w' hw
  obtain ⟨t, rfl, ht⟩ := Twin.iff.1 hw
  exact ⟨rfl, Twin.iff.2 ⟨t, rfl, ht⟩⟩

theorem localModel (sid : Nat) (s : String) : Twins (DS.localModel sid s : M V E _) (DS.localModel sid s) := by
  intro w w' hw
  obtain ⟨t, rfl, ht⟩ := Twin.iff.1 hw
  exact ⟨rfl, Twin.iff.2 ⟨t, rfl, ht⟩⟩

theorem getRaw (A : Adapter V) (t u : String) : Twins (DS.getRaw A t u : M V E _) (DS.getRaw A t u) := by
  unfold DS.getRaw
  split
  · exact bind (localModel _ _) (fun _ => ofOption _ _)
  · rename_i sid _
    intro w w' hw
    obtain ⟨s, rfl, ht⟩ := Twin.iff.1 hw
    unfold redisLoad
    show (match Dict.get? w.redis _ with | some o => _ | none => _ : Except Err Ref × World V E).1 = _ ∧ _
    cases Dict.get? w.redis (redisKey sid t u) with
    | none => exact ⟨rfl, hw⟩
    | some o => exact alloc _ _ _ hw

theorem get (A : Adapter V) (model : ModelArg V) (ident : Ident V) : Twins (DS.get A model ident : M V E _) (DS.get A model ident) := by
  unfold DS.get
  exact bind (ofExcept _) (fun p => getRaw A p.1 p.2)

theorem getOrNone (A : Adapter V) (model : ModelArg V) (ident : Ident V) : Twins (DS.getOrNone A model ident : M V E _) (DS.getOrNone A model ident) := by
  unfold DS.getOrNone
  exact tryCatch (bind (get _ _ _) (fun _ => pure _)) (fun _ => pure _)

theorem setStatus (r : Ref) (s : Status) (msg : String) : Twins (DS.setStatus r s msg : M V E _) (DS.setStatus r s msg) := by
  unfold DS.setStatus
  exact bind (deref _) (fun _ => writeObj _ _)

theorem fetchDst (S : SyncCtx V E) (c : ModelClass V) (ids : Dict V) : Twins (DS.fetchDst S c ids) (DS.fetchDst S c ids) := by
  unfold DS.fetchDst
  exact tryCatch (bind (get _ _ _) (fun _ => bind (setStatus _ _ _) (fun _ => pure _))) (fun _ => pure _)

theorem dstFlags (o : Option Ref) : Twins (DS.dstFlags (V := V) (E := E) o) (DS.dstFlags o) := by
  unfold DS.dstFlags
  split
  · exact pure _
  · exact bind (deref _) (fun _ => pure _)

theorem truthy {w w' : World V E} (h : Twin w w') (a : Option AdRef) : adapterTruthy a w = adapterTruthy a w' := by
  obtain ⟨t, rfl, ht⟩ := Twin.iff.1 h
  rfl

theorem redis_eq {w w' : World V E} (h : Twin w w') : w'.redis = w.redis := by
  obtain ⟨t, rfl, ht⟩ := Twin.iff.1 h
  rfl

theorem setLocs (sid : Nat) (f : Dict (Dict Ref) → Dict (Dict Ref)) : Twins (M.modify (fun w : World V E => w.setLoc sid (f (w.loc sid)))) (M.modify (fun w => w.setLoc sid (f (w.loc sid)))) := by
  intro w w' hw
  obtain ⟨t, rfl, ht⟩ := Twin.iff.1 hw
  exact ⟨rfl, Twin.iff.2 ⟨t, rfl, ht⟩⟩

theorem setRedis (f : Dict (Obj V) → Dict (Obj V)) : Twins (M.modify (fun w : World V E => { w with redis := f w.redis })) (M.modify (fun w => { w with redis := f w.redis })) := by
  intro w w' hw
  obtain ⟨t, rfl, ht⟩ := Twin.iff.1 hw
  exact ⟨rfl, Twin.iff.2 ⟨t, rfl, ht⟩⟩

theorem add (A : Adapter V) (r : Ref) : Twins (DS.add A r : M V E _) (DS.add A r) := by
  unfold DS.add
  refine bind (deref _) (fun o => ?_)
  split
  · refine bind (localModel _ _) (fun d => ?_)
    split
    · split
      · exact pure _
      · exact raise _
    · refine readBind (fun w w' hw => ?_)
      rw [truthy hw]
      split
      · exact setLocs _ (fun l => Dict.set l _ _)
      · exact bind (writeObj _ _) (fun _ => setLocs _ (fun l => Dict.set l _ _))
  · refine readBind (fun w w' hw => ?_)
    rw [redis_eq hw]
    split
    · split
      · exact pure _
      · exact raise _
    · exact setRedis (fun l => Dict.set l _ _)

theorem removeItem (A : Adapter V) (t u : String) : Twins (DS.removeItem A t u : M V E _) (DS.removeItem A t u) := by
  unfold DS.removeItem
  split
  · refine bind (localModel _ _) (fun d => ?_)
    split
    · exact setLocs _ (fun l => Dict.set l _ _)
    · exact raise _
  · refine readBind (fun w w' hw => ?_)
    rw [redis_eq hw]
    split
    · exact setRedis (fun l => Dict.erase l _)
    · exact raise _

theorem removeOne (A : Adapter V) (r : Ref) : Twins (DS.removeOne A r : M V E _) (DS.removeOne A r) := by
  unfold DS.removeOne
  refine bind (deref _) (fun o => bind (removeItem _ _ _) (fun _ => readBind (fun w w' hw => ?_)))
  rw [truthy hw]
  split
  · exact writeObj _ _
  · exact pure _

theorem remove (A : Adapter V) : ∀ (n : Nat) (r : Ref) (b : Bool), Twins (DS.remove A n r b : M V E _) (DS.remove A n r b)
  | 0, _, _ => raise _
  | n + 1, r, b => by
    unfold DS.remove
    refine bind (deref _) (fun o => bind (removeOne _ _) (fun _ => ?_))
    split
    · exact forEach _ (fun c _ => tryCatch (bind (getRaw _ _ _) (fun k => remove A n k b)) (fun _ => emit _))
    · exact pure _

theorem addChildRef (p c : Ref) : Twins (DS.addChildRef p c : M V E Unit) (DS.addChildRef p c) := by
  unfold DS.addChildRef
  exact bind (deref _) (fun _ => bind (deref _) (fun _ => bind (ofExcept _) (fun _ => writeObj _ _)))

theorem removeChildRef (p c : Ref) : Twins (DS.removeChildRef p c : M V E Unit) (DS.removeChildRef p c) := by
  unfold DS.removeChildRef
  exact bind (deref _) (fun _ => bind (deref _) (fun _ => bind (ofExcept _) (fun _ => writeObj _ _)))

theorem withParent (p : Option Ref) {f : Ref → M V E Unit} (hf : ∀ r, Twins (f r) (f r)) : Twins (DS.withParent p f) (DS.withParent p f) := by
  unfold DS.withParent
  split
  · exact pure _
  · exact hf _

theorem applyStore (S : SyncCtx V E) (a : Option Action) (p : Option Ref) (r : Ref) (b : Bool) : Twins (DS.applyStore S a p r b) (DS.applyStore S a p r b) := by
  unfold DS.applyStore
  split
  · exact bind (withParent _ (fun _ => addChildRef _ _)) (fun _ => add _ _)
  · exact bind (withParent _ (fun _ => removeChildRef _ _)) (fun _ => remove _ _ _ _)
  · exact pure _

/-! ## user code -/

theorem callHook (h : Hooks V E) (c : CrudCall V) : Twins (DS.callHook h c) (DS.callHook h c) := by
  intro w w' hw
  obtain ⟨t, rfl, ht⟩ := Twin.iff.1 hw
  refine ⟨rfl, Twin.iff.2 ⟨t ++ [.call c (h w.env c).1], rfl, ?_⟩⟩
  show (t ++ [_]).map _ = (w.trace ++ [_]).map _
  rw [List.map_append, List.map_append, ht]

theorem overrideStatus (r : Ref) (o : Option (Status × String)) : Twins (DS.overrideStatus r o : M V E Unit) (DS.overrideStatus r o) := by
  unfold DS.overrideStatus
  split
  · exact pure _
  · exact setStatus _ _ _

theorem hookCreate (S : SyncCtx V E) (c : ModelClass V) (ids attrs : Dict V) : Twins (DS.hookCreate S c ids attrs) (DS.hookCreate S c ids attrs) := by
  unfold DS.hookCreate
  refine bind (callHook _ _) (fun out => ?_)
  split
  · exact raise _
  · exact pure _
  · exact bind (ofExcept _) (fun _ => bind (alloc _) (fun _ => bind (overrideStatus _ _) (fun _ => pure _)))

theorem setattrsRef (r : Ref) (attrs : Dict V) : Twins (DS.setattrsRef r attrs : M V E Unit) (DS.setattrsRef r attrs) := by
  unfold DS.setattrsRef
  refine bind (deref _) (fun o => ?_)
  dsimp only
  refine bind (writeObj _ _) (fun _ => ?_)
  split
  · exact pure _
  · exact raise _

theorem updateBase (r : Ref) (attrs : Dict V) : Twins (DS.updateBase r attrs : M V E Unit) (DS.updateBase r attrs) := by
  unfold DS.updateBase
  exact bind (setattrsRef _ _) (fun _ => setStatus _ _ _)

theorem finishHook (r : Ref) (out : Outcome) : Twins (DS.finishHook r out : M V E _) (DS.finishHook r out) := by
  unfold DS.finishHook
  refine bind (overrideStatus _ _) (fun _ => ?_)
  split
  · exact raise _
  · exact pure _
  · exact pure _

theorem hookUpdate (S : SyncCtx V E) (r : Ref) (attrs : Dict V) : Twins (DS.hookUpdate S r attrs) (DS.hookUpdate S r attrs) := by
  unfold DS.hookUpdate
  refine bind (deref _) (fun o => bind (callHook _ _) (fun out => ?_))
  split
  · exact bind (updateBase _ _) (fun _ => finishHook _ _)
  · exact finishHook _ _

theorem hookDelete (S : SyncCtx V E) (r : Ref) : Twins (DS.hookDelete S r) (DS.hookDelete S r) := by
  unfold DS.hookDelete
  refine bind (deref _) (fun o => bind (callHook _ _) (fun out => ?_))
  split
  · exact bind (setStatus _ _ _) (fun _ => finishHook _ _)
  · exact finishHook _ _


/-- Exactly one call is recorded, and the registers of the syncer are left alone. -/
def OneCall (c : CrudCall V) (w : World V E) (w' : World V E) : Prop := (∃ out, w'.trace = w.trace ++ [.call c out]) ∧ Regs w w'

theorem oneCall_of {c : CrudCall V} {m : M V E α} {k : α → M V E β} {w w1 : World V E} {a : α} (hm : m w = (.ok a, w1)) (h1 : OneCall c w w1) (hk : Pres Mute (k a)) :
    OneCall c w ((m >>= k) w).2 := by
  rw [M.bind_ok hm]
  have := hk w1
  obtain ⟨⟨out, h⟩, hr⟩ := h1
  exact ⟨⟨out, this.trace_eq.trans h⟩, hr.trans this.regs⟩

theorem callHook_one (h : Hooks V E) (c : CrudCall V) (w : World V E) : OneCall c w (DS.callHook h c w).2 := ⟨⟨_, rfl⟩, rfl, rfl, rfl, rfl, rfl⟩

theorem mute_overrideStatus (r : Ref) (o : Option (Status × String)) : Pres Mute (DS.overrideStatus r o : M V E Unit) := by
  unfold DS.overrideStatus
  split
  · exact Pres.pure Mute.preOrd _
  · exact mute_setStatus _ _ _

theorem mute_finishHook (r : Ref) (out : Outcome) : Pres Mute (DS.finishHook r out : M V E _) := by
  unfold DS.finishHook
  refine Pres.bind Mute.preOrd (mute_overrideStatus _ _) (fun _ => ?_)
  split
  · exact Pres.raise Mute.preOrd _
  · exact Pres.pure Mute.preOrd _
  · exact Pres.pure Mute.preOrd _

theorem mute_setattrsRef (r : Ref) (attrs : Dict V) : Pres Mute (DS.setattrsRef r attrs : M V E Unit) := by
  unfold DS.setattrsRef
  refine Pres.bind Mute.preOrd (mute_deref _) (fun o => ?_)
  dsimp only
  refine Pres.bind Mute.preOrd (mute_writeObj _ _) (fun _ => ?_)
  split
  · exact Pres.pure Mute.preOrd _
  · exact Pres.raise Mute.preOrd _

theorem hookCreate_one (S : SyncCtx V E) (c : ModelClass V) (ids attrs : Dict V) (w : World V E) : OneCall (.create c.name ids attrs) w (DS.hookCreate S c ids attrs w).2 := by
  unfold DS.hookCreate
  refine oneCall_of (a := _) rfl (callHook_one S.hooks _ w) ?_
  split
  · exact Pres.raise Mute.preOrd _
  · exact Pres.pure Mute.preOrd _
  · exact Pres.bind Mute.preOrd (Pres.ofExcept Mute.preOrd _) (fun _ => Pres.bind Mute.preOrd (mute_alloc _) (fun _ =>
      Pres.bind Mute.preOrd (mute_overrideStatus _ _) (fun _ => Pres.pure Mute.preOrd _)))

theorem hookUpdate_one (S : SyncCtx V E) (r : Ref) (attrs : Dict V) (w : World V E) :
    OneCall (.update (w.heap r).m.type (w.heap r).m.uid attrs) w (DS.hookUpdate S r attrs w).2 := by
  unfold DS.hookUpdate
  rw [M.bind_ok (show DS.deref r w = (.ok (w.heap r), w) from rfl)]
  refine oneCall_of (a := _) rfl (callHook_one S.hooks _ w) ?_
  split
  · exact Pres.bind Mute.preOrd (Pres.bind Mute.preOrd (mute_setattrsRef _ _) (fun _ => mute_setStatus _ _ _)) (fun _ => mute_finishHook _ _)
  · exact mute_finishHook _ _

theorem hookDelete_one (S : SyncCtx V E) (r : Ref) (w : World V E) : OneCall (.delete (w.heap r).m.type (w.heap r).m.uid) w (DS.hookDelete S r w).2 := by
  unfold DS.hookDelete
  rw [M.bind_ok (show DS.deref r w = (.ok (w.heap r), w) from rfl)]
  refine oneCall_of (a := _) rfl (callHook_one S.hooks _ w) ?_
  split
  · exact Pres.bind Mute.preOrd (mute_setStatus _ _ _) (fun _ => mute_finishHook _ _)
  · exact mute_finishHook _ _

theorem openCall {c : CrudCall V} {m : M V E (Option Ref)} (hm : Twins m m) {w w' : World V E} (hw : Twin w w') (h1 : OneCall c w (m w).2) :
    (DS.openCall c m w).1 = (m w').1 ∧ Twin (DS.openCall c m w).2 (m w').2 := by
  obtain ⟨g1, g2⟩ := hm w w' hw
  unfold DS.openCall runUser
  cases h : m w with
  | mk r v =>
    rw [h] at g1 g2 h1
    refine ⟨g1, ?_⟩
    obtain ⟨⟨out, ht⟩, hr⟩ := h1
    dsimp only at ht hr g2 ⊢
    refine Eq.trans ?_ g2
    obtain ⟨s1, s2, s3, s4, s5⟩ := hr
    unfold Twin World.bare at *
    cases v
    dsimp only at *
    subst ht s1 s2 s3 s4 s5
    simp [Event.bare]


/-- The context with user code that leaves the adapters alone. -/
def opened (S : SyncCtx V E) : OpenCtx V E := ⟨S.src, S.dst, S.flags, S.dc, OpenHooks.ofHooks S.hooks S.dst, S.rlimit⟩

theorem applyAction (S : SyncCtx V E) (c : ModelClass V) (a : Action) (dst : Option Ref) (ids attrs : Dict V) :
    Twins (oApplyAction (opened S) c a dst ids attrs) (DS.applyAction S c a dst ids attrs) := by
  unfold oApplyAction DS.applyAction
  cases a <;> cases dst <;> dsimp only
  · intro w w' hw
    exact openCall (hookCreate S c ids attrs) hw (hookCreate_one S c ids attrs w)
  · exact raise _
  · exact raise _
  · intro w w' hw
    exact openCall (hookUpdate S _ attrs) hw (hookUpdate_one S _ attrs w)
  · exact raise _
  · intro w w' hw
    exact openCall (hookDelete S _) hw (hookDelete_one S _ w)

theorem tryAction (S : SyncCtx V E) (c : ModelClass V) (a : Action) (dst : Option Ref) (ids attrs : Dict V) :
    Twins (oTryAction (opened S) c a dst ids attrs) (DS.tryAction S c a dst ids attrs) := by
  unfold oTryAction DS.tryAction
  refine bind (applyAction _ _ _ _ _ _) (fun r => ?_)
  split
  · exact bind (deref _) (fun _ => pure _)
  · exact pure _

theorem slog_eq {w w' : World V E} (h : Twin w w') : w'.slog = w.slog := by
  obtain ⟨t, rfl, ht⟩ := Twin.iff.1 h
  rfl
theorem sact_eq {w w' : World V E} (h : Twin w w') : w'.sact = w.sact := by
  obtain ⟨t, rfl, ht⟩ := Twin.iff.1 h
  rfl
theorem scls_eq {w w' : World V E} (h : Twin w w') : w'.scls = w.scls := by
  obtain ⟨t, rfl, ht⟩ := Twin.iff.1 h
  rfl

theorem logSyncStatus (flags : Nat) (a : Option Action) (st : Status) : Twins (DS.logSyncStatus flags a st : M V E Unit) (DS.logSyncStatus flags a st) := by
  unfold DS.logSyncStatus
  refine readBind (fun w w' hw => ?_)
  rw [slog_eq hw]
  split
  · split
    · exact emit _
    · exact pure _
  · split <;> exact emit _

theorem syncModel (S : SyncCtx V E) (c : ModelClass V) (a : Option Action) (dst : Option Ref) (ids attrs : Dict V) :
    Twins (oSyncModel (opened S) c a dst ids attrs) (DS.syncModel S c a dst ids attrs) := by
  unfold oSyncModel DS.syncModel
  cases a with
  | none => exact bind (logSyncStatus _ _ _) (fun _ => pure _)
  | some a =>
    dsimp only
    refine bind (attempt (tryAction S c a dst ids attrs)) (fun res => ?_)
    cases res with
    | error x =>
      dsimp only
      refine bind (logSyncStatus _ _ _) (fun _ => ?_)
      show Twins (if flagOn S.flags _ = true then _ else _) _
      split
      · exact pure _
      · exact raise _
    | ok q => exact bind (logSyncStatus _ _ _) (fun _ => pure _)

theorem enterElem (S : SyncCtx V E) (e : Elem V) : Twins (DS.enterElem S e) (DS.enterElem S e) := by
  unfold DS.enterElem
  refine bind (ofOption _ _) (fun c => bind (ofOption _ _) (fun u => bind (modify (fun w w' hw => ?_)) (fun _ => pure _)))
  obtain ⟨t, rfl, ht⟩ := Twin.iff.1 hw
  exact Twin.iff.2 ⟨t, rfl, ht⟩

theorem incr (S : SyncCtx V E) : Twins (oIncrElements (opened S)) (incrElements : M V E Unit) := by
  intro w w' hw
  obtain ⟨t, rfl, ht⟩ := Twin.iff.1 hw
  refine ⟨rfl, Twin.iff.2 ⟨t ++ [.syncProgress (w.sproc + 1) w.stotal], rfl, ?_⟩⟩
  show (t ++ [_]).map _ = (w.trace ++ [_]).map _
  rw [List.map_append, List.map_append, ht]

theorem syncElem (S : SyncCtx V E) : ∀ (n : Nat) (e : Elem V) (p : Option Ref), Twins (oSyncElem (opened S) n e p) (DS.syncElem S n e p)
  | 0, _, _ => raise _
  | n + 1, e, p => by
    unfold oSyncElem DS.syncElem
    refine bind (enterElem S e) (fun c => bind (getOrNone _ _ _) (fun _ => bind (fetchDst _ _ _) (fun dst => bind (dstFlags dst) (fun fl => ?_))))
    obtain ⟨natural, skip⟩ := fl
    dsimp only
    have rest : Twins (M.read >>= fun w : World V E => oSyncModel (opened S) (w.scls.getD c) w.sact dst e.keys (e.plus.getD []) >>= fun q => match q.2 with
          | none => M.read >>= fun w' => M.emit (.noObject w'.slog) >>= fun _ => Pure.pure q.1
          | some r => oRest (opened S) (fun k => oSyncElem (opened S) n k (some r)) w.sact p r natural skip q.1 (getChildren S.dc e.kids))
        (M.read >>= fun w : World V E => DS.syncModel S (w.scls.getD c) w.sact dst e.keys (e.plus.getD []) >>= fun q => match q.2 with
          | none => M.read >>= fun w' => M.emit (.noObject w'.slog) >>= fun _ => Pure.pure q.1
          | some r => DS.applyStore S w.sact p r skip >>= fun _ => 
            if w.sact == some .delete && skip then Pure.pure q.1
            else incrElements >>= fun _ =>
              if !natural || !(w.sact == some .delete) then M.orEach (fun k => DS.syncElem S n k (some r)) (getChildren S.dc e.kids) q.1
              else Pure.pure q.1) := by
      refine readBind (fun w w' hw => ?_)
      rw [sact_eq hw, scls_eq hw]
      refine bind (syncModel S _ _ _ _ _) (fun q => ?_)
      split
      · refine readBind (fun v v' hv => ?_)
        rw [slog_eq hv]
        exact bind (emit _) (fun _ => pure _)
      · unfold oRest
        refine bind (applyStore S _ _ _ _) (fun _ => ?_)
        split
        · exact pure _
        · refine bind (incr S) (fun _ => ?_)
          split
          · exact orEach _ _ (fun k _ => syncElem S n k _)
          · exact pure _
    by_cases h : (natural && e.action == some .delete && !skip) = true
    · rw [h]
      rw [if_pos rfl]
      unfold oFirst
      rw [if_pos rfl]
      intro w w' hw
      show ((M.bind (M.orEach _ _ _) _ >>= _) w).1 = _ ∧ Twin ((M.bind (M.orEach _ _ _) _ >>= _) w).2 _
      rw [show (M.bind (M.orEach (fun k => oSyncElem (opened S) n k dst) (getChildren (opened S).dc e.kids) false) (fun _ => (Pure.pure () : M V E Unit))) =
        (M.orEach (fun k => oSyncElem (opened S) n k dst) (getChildren S.dc e.kids) false >>= fun _ => (Pure.pure () : M V E Unit)) from rfl, M.bind_assoc']
      exact bind (orEach _ _ (fun k _ => syncElem S n k _)) (fun _ => rest) w w' hw
    · rw [if_neg h]
      unfold oFirst
      rw [if_neg (by simpa using h)]
      exact rest

theorem performSync (S : SyncCtx V E) (n : Nat) (d : Diff V) : Twins (oPerformSync (opened S) n d) (DS.performSync S n d) := by
  unfold oPerformSync DS.performSync
  refine bind (modify (fun w w' hw => ?_)) (fun _ => orEach _ _ (fun k _ => syncElem S n k _))
  obtain ⟨t, rfl, ht⟩ := Twin.iff.1 hw
  exact Twin.iff.2 ⟨t, rfl, ht⟩

end Twins

theorem oSyncFrom_twin (n rl : Nat) (hooks : Hooks V E) (dst src : Adapter V) (dc : DiffClass V) (flags : Nat) (diff : Option (Diff V)) (w : World V E) :
    (oSyncFrom n rl (OpenHooks.ofHooks hooks dst) dst src dc flags diff w).1 = (syncFrom n rl hooks dst src dc flags diff w).1 ∧
    Twin (oSyncFrom n rl (OpenHooks.ofHooks hooks dst) dst src dc flags diff w).2 (syncFrom n rl hooks dst src dc flags diff w).2 := by
  unfold oSyncFrom syncFrom
  have step : ∀ {α β : Type} (m : M V E α) (f f' : α → M V E β) (w : World V E), (∀ a v, (f a v).1 = (f' a v).1 ∧ Twin (f a v).2 (f' a v).2) →
      ((m >>= f) w).1 = ((m >>= f') w).1 ∧ Twin ((m >>= f) w).2 ((m >>= f') w).2 := by
    intro α β m f f' w h
    cases hm : m w with
    | mk r v =>
      cases r with
      | error e => rw [M.bind_err hm, M.bind_err hm]; exact ⟨rfl, rfl⟩
      | ok a => rw [M.bind_ok hm, M.bind_ok hm]; exact h a v
  refine step _ _ _ w (fun _ v => step _ _ _ v (fun d v => ?_))
  refine Twins.bind (Twins.performSync ⟨src, dst, flags, d.cls, hooks, rl⟩ n d) (fun b => ?_) v v rfl
  cases b with
  | false => exact Twins.pure _
  | true => exact Twins.bind (Twins.emit _) (fun _ => Twins.pure _)

/-! ## no comparison while a diff is applied -/

/-- No progress of a comparison is reported. -/
def NoCmp (w w' : World V E) : Prop := ∃ evs, w'.trace = w.trace ++ evs ∧ ∀ a b, Event.diffProgress a b ∉ evs

theorem NoCmp.preOrd : PreOrd (NoCmp (V := V) (E := E)) := by
  refine ⟨fun _ => ⟨[], (List.append_nil _).symm, fun _ _ h => by cases h⟩, fun a b c h k => ?_⟩
  obtain ⟨ws, h1, h2⟩ := h
  obtain ⟨vs, k1, k2⟩ := k
  refine ⟨ws ++ vs, by rw [k1, h1, List.append_assoc], fun x y hm => ?_⟩
  rcases List.mem_append.1 hm with hm | hm
  · exact h2 x y hm
  · exact k2 x y hm

theorem Pres.noCmp {m : M V E α} (h : Pres Warns m) : Pres NoCmp m := by
  intro w
  obtain ⟨⟨ws, h1, h2⟩, _⟩ := h w
  refine ⟨ws, h2, fun a b hm => ?_⟩
  obtain ⟨_, _, _, _, h⟩ := h1 _ hm
  cases h

theorem noCmp_one {w w' : World V E} {ev : Event V} (h : w'.trace = w.trace ++ [ev]) (hn : ∀ a b, ev ≠ .diffProgress a b) : NoCmp w w' :=
  ⟨[ev], h, fun a b hm => hn a b (List.mem_singleton.1 hm).symm⟩

theorem noCmp_emit {ev : Event V} (hn : ∀ a b, ev ≠ .diffProgress a b) : Pres NoCmp (M.emit ev : M V E Unit) := fun _ => noCmp_one rfl hn

theorem noCmp_openCall (c : CrudCall V) (m : M V E (Option Ref)) : Pres NoCmp (openCall c m) := by
  intro w
  obtain ⟨h, _⟩ := openCall_run c m (w := w) (w' := (openCall c m w).2) rfl
  exact noCmp_one h (fun _ _ => nofun)

theorem noCmp_log (flags : Nat) (a : Option Action) (st : Status) : Pres NoCmp (logSyncStatus flags a st : M V E Unit) := by
  unfold logSyncStatus
  refine Pres.bind NoCmp.preOrd (Pres.read NoCmp.preOrd) (fun w => ?_)
  split
  · split
    · exact noCmp_emit (fun _ _ => nofun)
    · exact Pres.pure NoCmp.preOrd _
  · split <;> exact noCmp_emit (fun _ _ => nofun)

theorem noCmp_oSyncModel (S : OpenCtx V E) (c : ModelClass V) (a : Option Action) (dst : Option Ref) (ids attrs : Dict V) : Pres NoCmp (oSyncModel S c a dst ids attrs) := by
  unfold oSyncModel
  split
  · exact Pres.bind NoCmp.preOrd (noCmp_log _ _ _) (fun _ => Pres.pure NoCmp.preOrd _)
  · rename_i a
    have h1 : Pres NoCmp (oApplyAction S c a dst ids attrs) := by
      unfold oApplyAction
      split
      · exact Pres.raise NoCmp.preOrd _
      · exact noCmp_openCall _ _
      · exact Pres.raise NoCmp.preOrd _
      · exact Pres.bind NoCmp.preOrd (mute_deref _).warns.noCmp (fun _ => noCmp_openCall _ _)
      · exact Pres.raise NoCmp.preOrd _
      · exact Pres.bind NoCmp.preOrd (mute_deref _).warns.noCmp (fun _ => noCmp_openCall _ _)
    have h2 : Pres NoCmp (oTryAction S c a dst ids attrs) := by
      unfold oTryAction
      refine Pres.bind NoCmp.preOrd h1 (fun r => ?_)
      split
      · exact Pres.bind NoCmp.preOrd (mute_deref _).warns.noCmp (fun _ => Pres.pure NoCmp.preOrd _)
      · exact Pres.pure NoCmp.preOrd _
    refine Pres.bind NoCmp.preOrd (Pres.attempt NoCmp.preOrd h2) (fun res => ?_)
    split
    · refine Pres.bind NoCmp.preOrd (noCmp_log _ _ _) (fun _ => ?_)
      split
      · exact Pres.pure NoCmp.preOrd _
      · exact Pres.raise NoCmp.preOrd _
    · exact Pres.bind NoCmp.preOrd (noCmp_log _ _ _) (fun _ => Pres.pure NoCmp.preOrd _)

theorem noCmp_oIncr (S : OpenCtx V E) : Pres NoCmp (oIncrElements S) := by
  intro w
  obtain ⟨h, _⟩ := oIncrElements_run S (w := w) (w' := (oIncrElements S w).2) rfl
  exact noCmp_one h (fun _ _ => nofun)

theorem noCmp_oSyncElem (S : OpenCtx V E) : ∀ (n : Nat) (e : Elem V) (p : Option Ref), Pres NoCmp (oSyncElem S n e p)
  | 0, _, _ => Pres.raise NoCmp.preOrd _
  | n + 1, e, p => by
    have kids : ∀ q acc, Pres NoCmp (M.orEach (fun k => oSyncElem S n k q) (getChildren S.dc e.kids) acc) := fun q acc =>
      Pres.orEach NoCmp.preOrd _ (fun k _ => noCmp_oSyncElem S n k q) _
    unfold oSyncElem
    refine Pres.bind NoCmp.preOrd ?_ (fun c => Pres.bind NoCmp.preOrd (mute_getOrNone _ _ _).warns.noCmp (fun _ => Pres.bind NoCmp.preOrd (mute_fetchDst _ _ _).warns.noCmp (fun dst =>
      Pres.bind NoCmp.preOrd (mute_dstFlags _).warns.noCmp (fun fl => ?_))))
    · unfold enterElem
      exact Pres.bind NoCmp.preOrd (Pres.ofOption NoCmp.preOrd _ _) (fun c => Pres.bind NoCmp.preOrd (Pres.ofOption NoCmp.preOrd _ _) (fun u =>
        Pres.bind NoCmp.preOrd (Pres.modify (fun w => ⟨[], (List.append_nil _).symm, fun _ _ h => by cases h⟩)) (fun _ => Pres.pure NoCmp.preOrd _)))
    · dsimp only
      refine Pres.bind NoCmp.preOrd ?_ (fun _ => Pres.bind NoCmp.preOrd (Pres.read NoCmp.preOrd) (fun w => Pres.bind NoCmp.preOrd (noCmp_oSyncModel _ _ _ _ _ _) (fun q => ?_)))
      · unfold oFirst
        split
        · exact Pres.bind NoCmp.preOrd (kids _ _) (fun _ => Pres.pure NoCmp.preOrd _)
        · exact Pres.pure NoCmp.preOrd _
      · split
        · exact Pres.bind NoCmp.preOrd (Pres.read NoCmp.preOrd) (fun _ => Pres.bind NoCmp.preOrd (noCmp_emit (fun _ _ => nofun)) (fun _ => Pres.pure NoCmp.preOrd _))
        · unfold oRest
          refine Pres.bind NoCmp.preOrd (warns_applyStore _ _ _ _ _).noCmp (fun _ => ?_)
          split
          · exact Pres.pure NoCmp.preOrd _
          · refine Pres.bind NoCmp.preOrd (noCmp_oIncr S) (fun _ => ?_)
            split
            · exact kids _ _
            · exact Pres.pure NoCmp.preOrd _

theorem oSyncFrom_supplied (n rl : Nat) (hooks : OpenHooks V E) (dst src : Adapter V) (dc : DiffClass V) (flags : Nat) {d : Diff V} (hl : d.len ≠ 0) (w : World V E) :
    NoCmp w (oSyncFrom n rl hooks dst src dc flags (some d) w).2 ∧ ∀ d', (oSyncFrom n rl hooks dst src dc flags (some d) w).1 = .ok d' → d' = d := by
  have ht : d.truthy = true := by unfold Diff.truthy; simpa using hl
  have hc : chooseDiff n dst src dc flags (some d) = (pure d : M V E (Diff V)) := by
    unfold chooseDiff
    dsimp only
    rw [if_pos ht]
  have hck : Pres Mute (checkDiffClass dc (some d) : M V E Unit) := by
    unfold checkDiffClass
    dsimp only
    split
    · exact Pres.raise Mute.preOrd _
    · exact Pres.pure Mute.preOrd _
  constructor
  · revert w
    show Pres NoCmp _
    unfold oSyncFrom
    rw [hc]
    refine Pres.bind NoCmp.preOrd hck.warns.noCmp (fun _ => Pres.bind NoCmp.preOrd (Pres.pure NoCmp.preOrd _) (fun d => ?_))
    refine Pres.bind NoCmp.preOrd ?_ (fun b => ?_)
    · unfold oPerformSync
      exact Pres.bind NoCmp.preOrd (Pres.modify (fun w => ⟨[], (List.append_nil _).symm, fun _ _ h => by cases h⟩)) (fun _ =>
        Pres.orEach NoCmp.preOrd _ (fun k _ => noCmp_oSyncElem _ _ _ _) _)
    · split
      · exact Pres.bind NoCmp.preOrd (noCmp_emit (fun _ _ => nofun)) (fun _ => Pres.bind NoCmp.preOrd (mute_runUser _).warns.noCmp (fun _ => Pres.pure NoCmp.preOrd _))
      · exact Pres.pure NoCmp.preOrd _
  · intro d' h
    unfold oSyncFrom at h
    rw [hc] at h
    cases h1 : checkDiffClass dc (some d) w with
    | mk r1 w1 =>
      cases r1 with
      | error x => rw [M.bind_err h1] at h; cases h
      | ok _ =>
        rw [M.bind_ok h1, M.pure_bind'] at h
        cases h2 : oPerformSync ⟨src, dst, flags, d.cls, hooks, rl⟩ n d w1 with
        | mk r2 w2 =>
          cases r2 with
          | error x => rw [M.bind_err h2] at h; cases h
          | ok b =>
            rw [M.bind_ok h2] at h
            cases b with
            | false => cases h; rfl
            | true =>
              have h' : ((runUser (hooks.complete d) >>= fun _ => (pure d : M V E (Diff V))) { w2 with trace := w2.trace ++ [.syncComplete dst.ref.id src.ref.id] }).1 = .ok d' := h
              cases h3 : runUser (hooks.complete d) { w2 with trace := w2.trace ++ [.syncComplete dst.ref.id src.ref.id] } with
              | mk r3 w3 =>
                cases r3 with
                | error x => rw [M.bind_err h3] at h'; cases h'
                | ok _ => rw [M.bind_ok h3] at h'; cases h'; rfl

theorem bare_diffProgress (ev : Event V) (a b : Nat) (h : ev.bare = .diffProgress a b) : ev = .diffProgress a b := by
  cases ev <;> first | exact h | (cases h)

theorem syncFrom_supplied (n rl : Nat) (hooks : Hooks V E) (dst src : Adapter V) (dc : DiffClass V) (flags : Nat) {d : Diff V} (hl : d.len ≠ 0) (w : World V E) :
    (∀ a b, Event.diffProgress a b ∉ newEvents w (syncFrom n rl hooks dst src dc flags (some d) w).2) ∧
    ∀ d', (syncFrom n rl hooks dst src dc flags (some d) w).1 = .ok d' → d' = d := by
  obtain ⟨h1, h2⟩ := oSyncFrom_supplied n rl (OpenHooks.ofHooks hooks dst) dst src dc flags hl w
  obtain ⟨t1, t2⟩ := oSyncFrom_twin n rl hooks dst src dc flags (some d) w
  rw [t1] at h2
  refine ⟨fun a b hm => ?_, h2⟩
  obtain ⟨evs, h3, h4⟩ := h1
  have ht : ((syncFrom n rl hooks dst src dc flags (some d) w).2.trace).map Event.bare = (w.trace ++ evs).map Event.bare := by rw [← h3]; exact (congrArg World.trace t2).symm
  have hd : (newEvents w (syncFrom n rl hooks dst src dc flags (some d) w).2).map Event.bare = evs.map Event.bare := by
    unfold newEvents
    rw [List.map_drop, ht, ← List.map_drop]
    simp
  have : Event.diffProgress a b ∈ evs.map Event.bare := by
    rw [← hd]
    exact List.mem_map.2 ⟨_, hm, rfl⟩
  obtain ⟨ev, he, hb⟩ := List.mem_map.1 this
  rw [bare_diffProgress ev a b hb] at he
  exact h4 a b he

end DS
