import Verif.Lemmas.Remove
import Verif.Lemmas.Obj
import Verif.Spec.Sync
/-! The parts of `sync_diff_element`: what each may do to the world. -/
set_option linter.unusedSectionVars false

namespace DS
variable {V E α β : Type} [PyVal V]

/-! ## relations between worlds -/

/-- Events, user code and the counters of the syncer are unchanged. -/
structure Quiet (w w' : World V E) : Prop where
  trace_eq : w'.trace = w.trace
  env_eq : w'.env = w.env
  sproc_eq : w'.sproc = w.sproc
  stotal_eq : w'.stotal = w.stotal
  sact_eq : w'.sact = w.sact
  scls_eq : w'.scls = w.scls
  slog_eq : w'.slog = w.slog

theorem Quiet.refl (w : World V E) : Quiet w w := ⟨rfl, rfl, rfl, rfl, rfl, rfl, rfl⟩
theorem Quiet.trans {a b c : World V E} (h1 : Quiet a b) (h2 : Quiet b c) : Quiet a c :=
  ⟨h2.trace_eq.trans h1.trace_eq, h2.env_eq.trans h1.env_eq, h2.sproc_eq.trans h1.sproc_eq,
   h2.stotal_eq.trans h1.stotal_eq, h2.sact_eq.trans h1.sact_eq, h2.scls_eq.trans h1.scls_eq, h2.slog_eq.trans h1.slog_eq⟩

/-- The registers of the syncer are unchanged. -/
structure Regs (w w' : World V E) : Prop where
  sproc_eq : w'.sproc = w.sproc
  stotal_eq : w'.stotal = w.stotal
  sact_eq : w'.sact = w.sact
  scls_eq : w'.scls = w.scls
  slog_eq : w'.slog = w.slog

theorem Regs.refl (w : World V E) : Regs w w := ⟨rfl, rfl, rfl, rfl, rfl⟩
theorem Regs.trans {a b c : World V E} (h1 : Regs a b) (h2 : Regs b c) : Regs a c :=
  ⟨h2.sproc_eq.trans h1.sproc_eq, h2.stotal_eq.trans h1.stotal_eq, h2.sact_eq.trans h1.sact_eq,
   h2.scls_eq.trans h1.scls_eq, h2.slog_eq.trans h1.slog_eq⟩
theorem Quiet.regs {w w' : World V E} (h : Quiet w w') : Regs w w' :=
  ⟨h.sproc_eq, h.stotal_eq, h.sact_eq, h.scls_eq, h.slog_eq⟩

/-- What is stored, and the data of every existing object, is unchanged. -/
structure Still (w w' : World V E) : Prop where
  next_le : w.next ≤ w'.next
  redis_eq : w'.redis = w.redis
  tbl_eq : TblSame w w'
  loc_wf : ∀ sid, Dict.WF (w.loc sid) → Dict.WF (w'.loc sid)
  heap_m : ∀ r, r < w.next → (w'.heap r).m = (w.heap r).m

theorem Still.refl (w : World V E) : Still w w := ⟨Nat.le_refl _, rfl, fun _ _ => rfl, fun _ h => h, fun _ _ => rfl⟩
theorem Still.trans {a b c : World V E} (h1 : Still a b) (h2 : Still b c) : Still a c :=
  ⟨Nat.le_trans h1.next_le h2.next_le, h2.redis_eq.trans h1.redis_eq, fun s t => (h2.tbl_eq s t).trans (h1.tbl_eq s t),
   fun s h => h2.loc_wf s (h1.loc_wf s h),
   fun r hr => (h2.heap_m r (Nat.lt_of_lt_of_le hr h1.next_le)).trans (h1.heap_m r hr)⟩

theorem Still.of_eq {w w' : World V E} (hn : w'.next = w.next) (hr : w'.redis = w.redis) (hl : w'.loc = w.loc) (hh : w'.heap = w.heap) :
    Still w w' :=
  ⟨by rw [hn]; exact Nat.le_refl _, hr, fun s t => by unfold tbl; rw [hl], fun s h => by rw [hl]; exact h, fun r _ => by rw [hh]⟩

theorem RRel.still {w w' : World V E} (h : RRel w w') : Still w w' :=
  ⟨h.next_le, h.redis_eq, h.tbl_eq, fun s hs => (h.touched s).wf hs, fun r hr => by rw [h.heap_eq r hr]⟩
theorem RRel.quiet {w w' : World V E} (h : RRel w w') : Quiet w w' :=
  ⟨h.trace_eq, h.env_eq, h.sproc_eq, h.stotal_eq, h.sact_eq, h.scls_eq, h.slog_eq⟩
theorem Frame.quiet {w w' : World V E} (h : Frame w w') : Quiet w w' :=
  ⟨h.trace_eq, h.env_eq, h.sproc_eq, h.stotal_eq, h.sact_eq, h.scls_eq, h.slog_eq⟩
theorem Frame.still {w w' : World V E} (h : Frame w w') (t : TblSame w w') : Still w w' :=
  ⟨by rw [h.next_eq]; exact Nat.le_refl _, h.redis_eq, t, h.loc_wf, fun r _ => h.heap_m r⟩

theorem Still.ok {w w' : World V E} (h : Still w w') (hw : w.OK) : w'.OK where
  loc_wf sid := h.loc_wf sid (hw.loc_wf sid)
  tbl_wf s t := by rw [h.tbl_eq]; exact hw.tbl_wf s t
  refs_lt s t u r hr := by
    rw [h.tbl_eq.findRef] at hr; exact Nat.lt_of_lt_of_le (hw.refs_lt _ _ _ _ hr) h.next_le
  key_ok s t u r hr := by
    rw [h.tbl_eq.findRef] at hr; rw [h.heap_m r (hw.refs_lt _ _ _ _ hr)]; exact hw.key_ok _ _ _ _ hr

theorem Still.snap_eq {w w' : World V E} (h : Still w w') (hw : w.OK) (A : Adapter V) : snap A w' = snap A w := by
  unfold snap
  split
  · congr 1
    · funext t
      rw [h.tbl_eq]
      apply List.map_congr_left
      intro r hr
      obtain ⟨u, hu⟩ := mem_values_findRef hw.tbl_wf hr
      rw [h.heap_m r (hw.refs_lt _ _ _ _ hu)]
    · funext t u
      rw [h.tbl_eq.findRef]
      cases hf : findRef w _ t u with
      | none => rfl
      | some r => simp only [Option.map_some]; rw [h.heap_m r (hw.refs_lt _ _ _ _ hf)]
  · rw [h.redis_eq]

/-- Only the object `r` has changed, by taking attribute values. -/
structure Upd (r : Ref) (attrs : Dict V) (w w' : World V E) : Prop where
  next_le : w.next ≤ w'.next
  redis_eq : w'.redis = w.redis
  tbl_eq : TblSame w w'
  loc_wf : ∀ sid, Dict.WF (w.loc sid) → Dict.WF (w'.loc sid)
  heap_m : ∀ r', r' < w.next → r' ≠ r → (w'.heap r').m = (w.heap r').m
  heap_r : (w'.heap r).m = ((w.heap r).m.setattrs attrs).1

/-- `get_status()` of an object. -/
def World.stat (w : World V E) (r : Ref) : Status × String := (w.heap r).getStatus

theorem setStatus_eq (r : Ref) (s : Status) (msg : String) (w : World V E) :
    setStatus r s msg w = (.ok (), w.setObj r { w.heap r with status := s, msg := msg }) := rfl

theorem Still.setObj (w : World V E) (r : Ref) (o : Obj V) (h : o.m = (w.heap r).m) : Still w (w.setObj r o) :=
  ⟨Nat.le_refl _, rfl, fun _ _ => rfl, fun _ h => h, fun r' _ => by
    simp only [World.setObj]; split
    · rename_i h'; rw [h', h]
    · rfl⟩
theorem Quiet.setObj (w : World V E) (r : Ref) (o : Obj V) : Quiet w (w.setObj r o) := ⟨rfl, rfl, rfl, rfl, rfl, rfl, rfl⟩

/-! ## the steps before the object is synced -/

theorem getOrNone_spec (A : Adapter V) (c : ModelClass V) (ids : Dict V) {u : String} (hu : c.createUniqueId ids = some u)
    (w : World V E) (hw : RefsLt w) :
    ∃ x w', getOrNone A (.cls c) (.dict ids) w = (.ok x, w') ∧ RRel w w' := by
  have hres : resolve A (.cls c) (.dict ids) = .ok (c.name, u) := by unfold resolve; simp only [hu]; rfl
  have hg : get (E := E) A (.cls c) (.dict ids) w = getRaw A c.name u w := by
    unfold get; rw [hres]; rfl
  obtain ⟨h1, h2⟩ := getRaw_spec A c.name u w hw
  unfold getOrNone M.tryCatch
  cases hs : (rawSnap A w).find c.name u with
  | none =>
    rw [hs] at h2
    rw [M.bind_err (show get A (.cls c) (.dict ids) w = _ from hg.trans (Prod.ext h2 rfl : getRaw A c.name u w = (.error .objectNotFound, _)))]
    exact ⟨none, _, rfl, h1⟩
  | some m =>
    rw [hs] at h2
    obtain ⟨r, h2, _⟩ := h2
    rw [M.bind_ok (show get A (.cls c) (.dict ids) w = _ from hg.trans (Prod.ext h2 rfl : getRaw A c.name u w = (.ok r, _)))]
    exact ⟨some r, _, rfl, h1⟩

theorem fetchDst_spec {S : SyncCtx V E} {sid : Nat} (hA : S.dst.ref.store = .local sid) (c : ModelClass V) (ids : Dict V)
    {u : String} (hu : c.createUniqueId ids = some u) (w : World V E) :
    ∃ w', fetchDst S c ids w = (.ok (findRef w sid c.name u), w') ∧ Still w w' ∧ Quiet w w' ∧
      (∀ r, r < w.next → findRef w sid c.name u ≠ some r → w'.stat r = w.stat r) ∧ ∀ r, findRef w sid c.name u = some r → w'.stat r = (.unknown, "") := by
  have hres : resolve S.dst (.cls c) (.dict ids) = .ok (c.name, u) := by unfold resolve; simp only [hu]; rfl
  have hg : get (E := E) S.dst (.cls c) (.dict ids) w = (match findRef w sid c.name u with
      | some r => (.ok r, w.setLoc sid (touch (w.loc sid) c.name))
      | none => (.error .objectNotFound, w.setLoc sid (touch (w.loc sid) c.name))) := by
    unfold get
    rw [hres]
    show getRaw S.dst c.name u w = _
    unfold getRaw
    simp only [hA]
    rw [M.bind_ok (localModel_eq sid c.name w)]
    show M.ofOption .objectNotFound (findRef w sid c.name u) _ = _
    cases findRef w sid c.name u <;> rfl
  unfold fetchDst M.tryCatch
  cases hf : findRef w sid c.name u with
  | none =>
    rw [hf] at hg
    rw [M.bind_err hg]
    exact ⟨_, rfl, (RRel.setLoc_touch w sid c.name).still, (RRel.setLoc_touch w sid c.name).quiet, fun _ _ _ => rfl, fun r h => by cases h⟩
  | some r =>
    rw [hf] at hg
    rw [M.bind_ok hg]
    refine ⟨_, rfl, (RRel.setLoc_touch w sid c.name).still.trans (Still.setObj _ r _ rfl), (RRel.setLoc_touch w sid c.name).quiet.trans (Quiet.setObj _ _ _),
      fun r' _ hne => ?_, fun r' h => ?_⟩
    · have : r' ≠ r := fun h => hne (by rw [h])
      simp [World.stat, Obj.getStatus, World.setObj, World.setLoc, this]
    · cases h; simp [World.stat, Obj.getStatus, World.setObj]

/-! ## `sync_model` -/

/-- The call that `sync_model` makes for an action, given the destination object found; `none` when it refuses. -/
def callFor (c : ModelClass V) (a : Action) (m : Option (Model V)) (ids attrs : Dict V) : Option (CrudCall V) :=
  match a, m with
  | .create, none => some (.create c.name ids attrs)
  | .update, some m => some (.update m.type m.uid attrs)
  | .delete, some m => some (.delete m.type m.uid)
  | _, _ => none

/-- What a call of user code may have changed by the time it ends. -/
def CallEff (a : Action) (dst : Option Ref) (attrs : Dict V) (out : Outcome) (w w' : World V E) : Prop :=
  match a, dst with
  | .update, some r => if out.applied then Upd r attrs w w' else Still w w'
  | _, _ => Still w w'

/-- `sync_model` in all its cases: events, result, and effect on the world. -/
inductive Own (S : SyncCtx V E) (c : ModelClass V) (ids attrs : Dict V) (w w' : World V E) :
    Option Action → Option Ref → List (Event V) → Except Err (Bool × Option Ref) → Prop where
  | idle {dst} : Still w w' → w'.env = w.env →
      Own S c ids attrs w w' none dst (if flagOn S.flags GF.LOG_UNCHANGED_RECORDS then [.log .debug w.slog .success] else [])
        (.ok (false, dst))
  | stale {a dst} : callFor c a (dst.map (fun r => (w.heap r).m)) ids attrs = none → Still w w' → w'.env = w.env →
      Own S c ids attrs w w' (some a) dst [.log .error w.slog .error]
        (if flagOn S.flags GF.CONTINUE_ON_FAILURE then .ok (true, none) else .error (staleErr a))
  | crud {a dst call out e} : callFor c a (dst.map (fun r => (w.heap r).m)) ids attrs = some call → S.hooks w.env call = (out, w'.env) →
      out.result = .raises e → e.isCrud = true → CallEff a dst attrs out w w' →
      Own S c ids attrs w w' (some a) dst [.call call out, .log .error w.slog .error]
        (if flagOn S.flags GF.CONTINUE_ON_FAILURE then .ok (true, none) else .error e)
  | fatal {a dst call out e} : callFor c a (dst.map (fun r => (w.heap r).m)) ids attrs = some call → S.hooks w.env call = (out, w'.env) →
      e.isCrud = false →
      (out.result = .raises e ∨ (a = .create ∧ out.result = .object ∧ c.construct ids attrs = .error e) ∨
        ∃ r, a = .update ∧ dst = some r ∧ out.applied = true ∧ ((w.heap r).m.setattrs attrs).2 = some e) →
      CallEff a dst attrs out w w' →
      Own S c ids attrs w w' (some a) dst [.call call out] (.error e)
  | failed {a dst call out} : callFor c a (dst.map (fun r => (w.heap r).m)) ids attrs = some call → S.hooks w.env call = (out, w'.env) →
      out.result = .none → CallEff a dst attrs out w w' →
      Own S c ids attrs w w' (some a) dst [.call call out, .log .warning w.slog .failure] (.ok (true, none))
  | created {out m r st} : S.hooks w.env (.create c.name ids attrs) = (out, w'.env) → out.result = .object →
      c.construct ids attrs = .ok m → Still w w' → w.next ≤ r → r < w'.next → (w'.heap r).m = m →
      st = (out.status.map Prod.fst).getD .success →
      Own S c ids attrs w w' (some .create) none [.call (.create c.name ids attrs) out, .log (levelOf st) w.slog st] (.ok (true, some r))
  | kept {a r call out st} : callFor c a (some (w.heap r).m) ids attrs = some call → S.hooks w.env call = (out, w'.env) →
      out.result = .object → (a = .update → out.applied = true → ((w.heap r).m.setattrs attrs).2 = none) →
      CallEff a (some r) attrs out w w' →
      st = (out.status.map Prod.fst).getD (if out.applied then .success else (w.heap r).status) →
      Own S c ids attrs w w' (some a) (some r) [.call call out, .log (levelOf st) w.slog st] (.ok (true, some r))

theorem logSyncStatus_some (flags : Nat) (a : Action) (st : Status) (w : World V E) :
    logSyncStatus flags (some a) st w = (.ok (), { w with trace := w.trace ++ [.log (levelOf st) w.slog st] }) := by
  unfold logSyncStatus
  rw [M.read_bind]
  cases st <;> rfl

theorem callHook_eq (h : Hooks V E) (c : CrudCall V) (w : World V E) :
    callHook h c w = (.ok (h w.env c).1, { w with env := (h w.env c).2, trace := w.trace ++ [.call c (h w.env c).1] }) := rfl

theorem overrideStatus_spec (r : Ref) (o : Option (Status × String)) (w : World V E) :
    ∃ w', overrideStatus r o w = (.ok (), w') ∧ Still w w' ∧ Quiet w w' ∧ w'.next = w.next ∧ (∀ r', (w'.heap r').m = (w.heap r').m) ∧
      (w'.heap r).status = (o.map Prod.fst).getD (w.heap r).status := by
  cases o with
  | none => exact ⟨w, rfl, Still.refl _, Quiet.refl _, rfl, fun _ => rfl, rfl⟩
  | some p =>
    refine ⟨_, rfl, Still.setObj w r _ rfl, Quiet.setObj _ _ _, rfl, fun r' => ?_, ?_⟩
    · simp only [World.setObj]; split
      · rename_i h; rw [h]
      · rfl
    · simp [World.setObj]

/-- The world after a call was recorded. -/
theorem call_still (w : World V E) (c : CrudCall V) (out : Outcome) (env : E) :
    Still w { w with env := env, trace := w.trace ++ [.call c out] } := Still.of_eq rfl rfl rfl rfl


theorem finishHook_spec (r : Ref) (out : Outcome) (w : World V E) :
    ∃ w', finishHook r out w = ((match out.result with
        | .raises e => .error e
        | .none => .ok none
        | .object => .ok (some r)), w') ∧ Still w w' ∧ Quiet w w' ∧ w'.next = w.next ∧ (∀ r', (w'.heap r').m = (w.heap r').m) ∧
      (w'.heap r).status = (out.status.map Prod.fst).getD (w.heap r).status := by
  obtain ⟨w', h1, h2, h3, h4, h5, h6⟩ := overrideStatus_spec r out.status w
  refine ⟨w', ?_, h2, h3, h4, h5, h6⟩
  unfold finishHook
  rw [M.bind_ok h1]
  cases out.result <;> rfl

/-- Ends of the `try` block of `sync_model`. -/
inductive Tried (S : SyncCtx V E) (c : ModelClass V) (a : Action) (dst : Option Ref) (ids attrs : Dict V) (w w' : World V E) :
    Except Err (Option Ref × Status) → Prop where
  | stale : callFor c a (dst.map (fun r => (w.heap r).m)) ids attrs = none → w' = w →
      Tried S c a dst ids attrs w w' (.error (staleErr a))
  | raised {call out e} : callFor c a (dst.map (fun r => (w.heap r).m)) ids attrs = some call → S.hooks w.env call = (out, w'.env) →
      w'.trace = w.trace ++ [.call call out] →
      (out.result = .raises e ∨ e.isCrud = false ∧ ((a = .create ∧ out.result = .object ∧ c.construct ids attrs = .error e) ∨
        ∃ r, a = .update ∧ dst = some r ∧ out.applied = true ∧ ((w.heap r).m.setattrs attrs).2 = some e)) →
      CallEff a dst attrs out w w' → Tried S c a dst ids attrs w w' (.error e)
  | failed {call out} : callFor c a (dst.map (fun r => (w.heap r).m)) ids attrs = some call → S.hooks w.env call = (out, w'.env) →
      w'.trace = w.trace ++ [.call call out] → out.result = .none → CallEff a dst attrs out w w' →
      Tried S c a dst ids attrs w w' (.ok (none, .failure))
  | created {out m r} : a = .create → dst = none → S.hooks w.env (.create c.name ids attrs) = (out, w'.env) →
      w'.trace = w.trace ++ [.call (.create c.name ids attrs) out] → out.result = .object →
      c.construct ids attrs = .ok m → Still w w' → w.next ≤ r → r < w'.next → (w'.heap r).m = m →
      Tried S c a dst ids attrs w w' (.ok (some r, (out.status.map Prod.fst).getD .success))
  | kept {r call out} : dst = some r → callFor c a (some (w.heap r).m) ids attrs = some call → S.hooks w.env call = (out, w'.env) →
      w'.trace = w.trace ++ [.call call out] →
      out.result = .object → (a = .update → out.applied = true → ((w.heap r).m.setattrs attrs).2 = none) →
      CallEff a (some r) attrs out w w' →
      Tried S c a dst ids attrs w w' (.ok (some r, (out.status.map Prod.fst).getD (if out.applied then .success else (w.heap r).status)))

theorem construct_notCrud {c : ModelClass V} {ids attrs : Dict V} {e : Err} (h : c.construct ids attrs = .error e) : e.isCrud = false := by
  rcases construct_isErr h with ⟨rfl, _⟩ | ⟨rfl, _⟩ <;> rfl

theorem setattrs_notCrud {m : Model V} {d : Dict V} {e : Err} (h : (m.setattrs d).2 = some e) : e.isCrud = false := by
  induction d generalizing m with
  | nil => cases h
  | cons p d ih =>
    obtain ⟨k, v⟩ := p
    unfold Model.setattrs at h
    split at h
    · exact ih h
    · rename_i e' h'
      cases h
      unfold Model.setattr at h'
      split at h'
      · cases h'
      · cases h'; rfl

theorem tryAction_create (S : SyncCtx V E) (c : ModelClass V) (ids attrs : Dict V) (w : World V E) :
    ∃ res w', tryAction S c .create none ids attrs w = (res, w') ∧ Regs w w' ∧ Tried S c .create none ids attrs w w' res := by
  have hcf : callFor c .create ((none : Option Ref).map (fun r => (w.heap r).m)) ids attrs = some (.create c.name ids attrs) := rfl
  generalize hh : S.hooks w.env (.create c.name ids attrs) = p
  obtain ⟨out, env⟩ := p
  have hcall : callHook S.hooks (.create c.name ids attrs) w = (.ok out, { w with env := env, trace := w.trace ++ [.call (.create c.name ids attrs) out] }) := by
    rw [callHook_eq, hh]
  unfold tryAction applyAction
  dsimp only
  unfold hookCreate
  rw [M.bind_assoc', M.bind_ok hcall]
  generalize hw1 : ({ w with env := env, trace := w.trace ++ [.call (.create c.name ids attrs) out] } : World V E) = w1
  have s1 : Still w w1 := by rw [← hw1]; exact call_still _ _ _ _
  have r1 : Regs w w1 := by rw [← hw1]; exact ⟨rfl, rfl, rfl, rfl, rfl⟩
  have t1 : w1.trace = w.trace ++ [.call (.create c.name ids attrs) out] := by rw [← hw1]
  have v1 : env = w1.env := by rw [← hw1]
  cases hr : out.result with
  | raises e =>
    dsimp only
    rw [M.raise_bind]
    exact ⟨_, w1, rfl, r1, .raised hcf (by rw [hh, v1]) t1 (.inl hr) s1⟩
  | none =>
    dsimp only
    rw [M.pure_bind']
    exact ⟨_, w1, rfl, r1, .failed hcf (by rw [hh, v1]) t1 hr s1⟩
  | object =>
    dsimp only
    cases hi : c.construct ids attrs with
    | error e =>
      exact ⟨_, w1, rfl, r1, .raised hcf (by rw [hh, v1]) t1 (.inr ⟨construct_notCrud hi, .inl ⟨rfl, hr, hi⟩⟩) s1⟩
    | ok m =>
      generalize ho : ({ m := m, adapter := some S.dst.ref, status := .success, msg := "Created successfully" } : Obj V) = o
      have e2 : alloc o w1 = (.ok w1.next, (alloc o w1).2) := rfl
      have r2 := RRel.alloc w1 o
      have hn : (alloc o w1).2.next = w1.next + 1 := rfl
      have hho : (alloc o w1).2.heap w1.next = o := by simp [alloc, World.setObj]
      generalize (alloc o w1).2 = w2 at e2 r2 hn hho
      obtain ⟨w3, h3, s3, q3, n3, m3, st3⟩ := overrideStatus_spec w1.next out.status w2
      refine ⟨_, w3, ?_, (r1.trans r2.quiet.regs).trans q3.regs, .created rfl rfl (by rw [hh, q3.env_eq, r2.env_eq, ← v1]) ?_ hr hi
        ((s1.trans r2.still).trans s3) s1.next_le ?_ ?_⟩
      · rw [M.bind_assoc']
        show (M.ofExcept (.ok m) >>= _) w1 = _
        rw [show (M.ofExcept (.ok m) : M V E (Model V)) = Pure.pure m from rfl, M.pure_bind', M.bind_assoc', ho, M.bind_ok e2, M.bind_assoc', M.bind_ok h3]
        rw [M.pure_bind']
        simp only
        rw [deref_bind]
        show (Except.ok (some w1.next, (w3.heap w1.next).status), w3) = _
        rw [st3, hho, ← ho]
      · rw [q3.trace_eq, r2.trace_eq, t1]
      · rw [n3, hn]; exact Nat.lt_succ_self _
      · rw [m3, hho, ← ho]

theorem setattrsRef_eq (r : Ref) (attrs : Dict V) (w : World V E) :
    setattrsRef r attrs w = ((match ((w.heap r).m.setattrs attrs).2 with | none => .ok () | some e => .error e),
      w.setObj r { w.heap r with m := ((w.heap r).m.setattrs attrs).1 }) := by
  unfold setattrsRef
  rw [deref_bind]
  generalize (w.heap r).m.setattrs attrs = p
  obtain ⟨m', e?⟩ := p
  simp only
  rw [writeObj_bind]
  cases e? <;> rfl

theorem Upd.setObj (r : Ref) (attrs : Dict V) (w : World V E) (o : Obj V) (ho : o.m = ((w.heap r).m.setattrs attrs).1) :
    Upd r attrs w (w.setObj r o) :=
  ⟨Nat.le_refl _, rfl, fun _ _ => rfl, fun _ h => h, fun r' _ hne => by simp only [World.setObj, if_neg hne],
   by simp only [World.setObj, if_true, ho]⟩

theorem Upd.trans_still {r : Ref} {attrs : Dict V} {a b c : World V E} (hr : r < b.next) (h1 : Upd r attrs a b) (h2 : Still b c) :
    Upd r attrs a c :=
  ⟨Nat.le_trans h1.next_le h2.next_le, h2.redis_eq.trans h1.redis_eq, fun s t => (h2.tbl_eq s t).trans (h1.tbl_eq s t),
   fun s h => h2.loc_wf s (h1.loc_wf s h),
   fun r' hr' hne => (h2.heap_m r' (Nat.lt_of_lt_of_le hr' h1.next_le)).trans (h1.heap_m r' hr' hne),
   (h2.heap_m r hr).trans h1.heap_r⟩

theorem tryAction_update (S : SyncCtx V E) (c : ModelClass V) (ids attrs : Dict V) (r : Ref) (w : World V E) (hlt : r < w.next) :
    ∃ res w', tryAction S c .update (some r) ids attrs w = (res, w') ∧ Regs w w' ∧ Tried S c .update (some r) ids attrs w w' res := by
  generalize hk : (CrudCall.update (w.heap r).m.type (w.heap r).m.uid attrs : CrudCall V) = call
  have hcf : callFor c .update ((some r).map (fun r => (w.heap r).m)) ids attrs = some call := by rw [← hk]; rfl
  generalize hh : S.hooks w.env call = p
  obtain ⟨out, env⟩ := p
  have hcall : callHook S.hooks call w = (.ok out, { w with env := env, trace := w.trace ++ [.call call out] }) := by
    rw [callHook_eq, hh]
  unfold tryAction applyAction
  dsimp only
  unfold hookUpdate
  rw [M.bind_assoc', deref_bind, hk, M.bind_assoc', M.bind_ok hcall]
  generalize hw1 : ({ w with env := env, trace := w.trace ++ [.call call out] } : World V E) = w1
  have r1 : Regs w w1 := by rw [← hw1]; exact ⟨rfl, rfl, rfl, rfl, rfl⟩
  have t1 : w1.trace = w.trace ++ [.call call out] := by rw [← hw1]
  have v1 : env = w1.env := by rw [← hw1]
  have hp1 : w1.heap = w.heap := by rw [← hw1]
  have n1 : w1.next = w.next := by rw [← hw1]
  have s1 : Still w w1 := by rw [← hw1]; exact call_still _ _ _ _
  have fin : ∀ w2 : World V E, Regs w1 w2 → w2.trace = w1.trace → w2.env = w1.env → r < w2.next →
      CallEff .update (some r) attrs out w w2 → (out.applied = true → ((w.heap r).m.setattrs attrs).2 = none) →
      (w2.heap r).status = (if out.applied then .success else (w.heap r).status) →
      ∃ res w', (finishHook r out >>= fun a => (match a with
        | some r => deref r >>= fun o => Pure.pure (some r, o.status)
        | none => Pure.pure (none, .failure) : M V E _)) w2 = (res, w') ∧ Regs w w' ∧ Tried S c .update (some r) ids attrs w w' res := by
    intro w2 r2 t2 v2 hl2 ce hsok hst
    obtain ⟨w3, h3, s3, q3, n3, m3, st3⟩ := finishHook_spec r out w2
    have ce3 : CallEff .update (some r) attrs out w w3 := by
      unfold CallEff at ce ⊢
      dsimp only at ce ⊢
      split
      · rename_i ha; rw [if_pos ha] at ce; exact ce.trans_still hl2 s3
      · rename_i ha; rw [if_neg ha] at ce; exact ce.trans s3
    have he : S.hooks w.env call = (out, w3.env) := by rw [hh, q3.env_eq, v2, ← v1]
    have ht : w3.trace = w.trace ++ [.call call out] := by rw [q3.trace_eq, t2, t1]
    have rr : Regs w w3 := (r1.trans r2).trans q3.regs
    cases hr : out.result with
    | raises e =>
      rw [hr] at h3
      rw [M.bind_err h3]
      exact ⟨_, w3, rfl, rr, .raised hcf he ht (.inl hr) ce3⟩
    | none =>
      rw [hr] at h3
      rw [M.bind_ok h3]
      exact ⟨_, w3, rfl, rr, .failed hcf he ht hr ce3⟩
    | object =>
      rw [hr] at h3
      rw [M.bind_ok h3]
      simp only
      rw [deref_bind]
      refine ⟨_, w3, rfl, rr, ?_⟩
      rw [st3, hst]
      exact .kept rfl hcf he ht hr (fun _ => hsok) ce3
  cases ha : out.applied with
  | false =>
    simp only [Bool.false_eq_true, if_false]
    exact fin w1 (Regs.refl _) rfl rfl (by rw [n1]; exact hlt) (by unfold CallEff; simp only [ha, Bool.false_eq_true, if_false]; exact s1)
      (by simp [ha]) (by simp only [ha, Bool.false_eq_true, if_false, hp1])
  | true =>
    simp only [if_true]
    unfold updateBase
    rw [M.bind_assoc', M.bind_assoc']
    have hsa := setattrsRef_eq r attrs w1
    rw [hp1] at hsa
    cases hse : ((w.heap r).m.setattrs attrs).2 with
    | some e =>
      rw [hse] at hsa
      rw [M.bind_err hsa]
      refine ⟨_, _, rfl, ⟨r1.sproc_eq, r1.stotal_eq, r1.sact_eq, r1.scls_eq, r1.slog_eq⟩, .raised (out := out) hcf (by rw [hh, v1]; rfl) t1
        (.inr ⟨setattrs_notCrud hse, .inr ⟨r, rfl, rfl, ha, hse⟩⟩) ?_⟩
      unfold CallEff
      simp only [ha, if_true]
      exact ⟨by rw [← n1]; exact Nat.le_refl _, s1.redis_eq, s1.tbl_eq, s1.loc_wf, fun r' _ hne => by simp only [World.setObj, if_neg hne, hp1],
        by simp only [World.setObj, if_true]⟩
    | none =>
      rw [hse] at hsa
      rw [M.bind_ok hsa]
      generalize hw2 : w1.setObj r { w.heap r with m := ((w.heap r).m.setattrs attrs).1 } = w2
      rw [M.bind_ok (setStatus_eq r .success "Updated successfully" w2)]
      generalize hw3 : w2.setObj r { w2.heap r with status := .success, msg := "Updated successfully" } = w3
      have q2 : Quiet w1 w2 := by rw [← hw2]; exact Quiet.setObj _ _ _
      have q3 : Quiet w2 w3 := by rw [← hw3]; exact Quiet.setObj _ _ _
      have u2 : Upd r attrs w w2 := by
        rw [← hw2]
        exact ⟨by rw [← n1]; exact Nat.le_refl _, s1.redis_eq, s1.tbl_eq, s1.loc_wf, fun r' _ hne => by simp only [World.setObj, if_neg hne, hp1],
          by simp only [World.setObj, if_true]⟩
      have s3 : Still w2 w3 := by rw [← hw3]; exact Still.setObj _ _ _ rfl
      have hl2 : r < w2.next := by rw [← hw2]; show r < w1.next; rw [n1]; exact hlt
      refine fin w3 (q2.trans q3).regs (q2.trans q3).trace_eq (q2.trans q3).env_eq (Nat.lt_of_lt_of_le hl2 s3.next_le) ?_ (fun _ => hse) ?_
      · unfold CallEff; simp only [ha, if_true]; exact u2.trans_still hl2 s3
      · rw [← hw3]; simp [World.setObj, ha]

theorem tryAction_delete (S : SyncCtx V E) (c : ModelClass V) (ids attrs : Dict V) (r : Ref) (w : World V E) :
    ∃ res w', tryAction S c .delete (some r) ids attrs w = (res, w') ∧ Regs w w' ∧ Tried S c .delete (some r) ids attrs w w' res := by
  generalize hk : (CrudCall.delete (w.heap r).m.type (w.heap r).m.uid : CrudCall V) = call
  have hcf : callFor c .delete ((some r).map (fun r => (w.heap r).m)) ids attrs = some call := by rw [← hk]; rfl
  generalize hh : S.hooks w.env call = p
  obtain ⟨out, env⟩ := p
  have hcall : callHook S.hooks call w = (.ok out, { w with env := env, trace := w.trace ++ [.call call out] }) := by
    rw [callHook_eq, hh]
  unfold tryAction applyAction
  dsimp only
  unfold hookDelete
  rw [M.bind_assoc', deref_bind, hk, M.bind_assoc', M.bind_ok hcall]
  generalize hw1 : ({ w with env := env, trace := w.trace ++ [.call call out] } : World V E) = w1
  have r1 : Regs w w1 := by rw [← hw1]; exact ⟨rfl, rfl, rfl, rfl, rfl⟩
  have t1 : w1.trace = w.trace ++ [.call call out] := by rw [← hw1]
  have v1 : env = w1.env := by rw [← hw1]
  have hp1 : w1.heap = w.heap := by rw [← hw1]
  have s1 : Still w w1 := by rw [← hw1]; exact call_still _ _ _ _
  have fin : ∀ w2 : World V E, Regs w1 w2 → w2.trace = w1.trace → w2.env = w1.env → Still w1 w2 →
      (w2.heap r).status = (if out.applied then .success else (w.heap r).status) →
      ∃ res w', (finishHook r out >>= fun a => (match a with
        | some r => deref r >>= fun o => Pure.pure (some r, o.status)
        | none => Pure.pure (none, .failure) : M V E _)) w2 = (res, w') ∧ Regs w w' ∧ Tried S c .delete (some r) ids attrs w w' res := by
    intro w2 r2 t2 v2 s2 hst
    obtain ⟨w3, h3, s3, q3, n3, m3, st3⟩ := finishHook_spec r out w2
    have ce3 : CallEff .delete (some r) attrs out w w3 := (s1.trans s2).trans s3
    have he : S.hooks w.env call = (out, w3.env) := by rw [hh, q3.env_eq, v2, ← v1]
    have ht : w3.trace = w.trace ++ [.call call out] := by rw [q3.trace_eq, t2, t1]
    have rr : Regs w w3 := (r1.trans r2).trans q3.regs
    cases hr : out.result with
    | raises e =>
      rw [hr] at h3
      rw [M.bind_err h3]
      exact ⟨_, w3, rfl, rr, .raised hcf he ht (.inl hr) ce3⟩
    | none =>
      rw [hr] at h3
      rw [M.bind_ok h3]
      exact ⟨_, w3, rfl, rr, .failed hcf he ht hr ce3⟩
    | object =>
      rw [hr] at h3
      rw [M.bind_ok h3]
      simp only
      rw [deref_bind]
      refine ⟨_, w3, rfl, rr, ?_⟩
      rw [st3, hst]
      exact .kept rfl hcf he ht hr (fun h => by cases h) ce3
  cases ha : out.applied with
  | false =>
    simp only [Bool.false_eq_true, if_false]
    exact fin w1 (Regs.refl _) rfl rfl (Still.refl _) (by simp only [ha, Bool.false_eq_true, if_false, hp1])
  | true =>
    simp only [if_true]
    rw [M.bind_assoc', M.bind_ok (setStatus_eq r .success "Deleted successfully" w1)]
    exact fin _ ⟨rfl, rfl, rfl, rfl, rfl⟩ rfl rfl (Still.setObj _ _ _ rfl) (by simp [World.setObj, ha])

theorem tryAction_spec (S : SyncCtx V E) (c : ModelClass V) (a : Action) (dst : Option Ref) (ids attrs : Dict V) (w : World V E)
    (hlt : ∀ r, dst = some r → r < w.next) :
    ∃ res w', tryAction S c a dst ids attrs w = (res, w') ∧ Regs w w' ∧ Tried S c a dst ids attrs w w' res := by
  cases a <;> cases dst
  · exact tryAction_create S c ids attrs w
  · exact ⟨_, w, rfl, Regs.refl _, .stale rfl rfl⟩
  · exact ⟨_, w, rfl, Regs.refl _, .stale rfl rfl⟩
  · exact tryAction_update S c ids attrs _ w (hlt _ rfl)
  · exact ⟨_, w, rfl, Regs.refl _, .stale rfl rfl⟩
  · exact tryAction_delete S c ids attrs _ w

theorem Still.emit (w : World V E) (evs : List (Event V)) : Still w { w with trace := w.trace ++ evs } := Still.of_eq rfl rfl rfl rfl

theorem CallEff.emit {a : Action} {dst : Option Ref} {attrs : Dict V} {out : Outcome} {w w' : World V E} (h : CallEff a dst attrs out w w')
    (evs : List (Event V)) : CallEff a dst attrs out w { w' with trace := w'.trace ++ evs } := by
  have hs : ∀ {w w' : World V E}, Still w w' → Still w { w' with trace := w'.trace ++ evs } := fun h => h.trans (Still.emit _ _)
  unfold CallEff at h ⊢
  split
  · rename_i r
    simp only at h
    by_cases ha : out.applied = true
    · rw [if_pos ha] at h ⊢
      exact ⟨h.next_le, h.redis_eq, h.tbl_eq, h.loc_wf, h.heap_m, h.heap_r⟩
    · rw [if_neg ha] at h ⊢; exact hs h
  · rename_i hne
    apply hs
    split at h
    · exact absurd rfl (hne _ rfl)
    · exact h

/-- `sync_model`: every case. -/
theorem syncModel_spec (S : SyncCtx V E) (c : ModelClass V) (a : Option Action) (dst : Option Ref) (ids attrs : Dict V) (w : World V E)
    (hlt : ∀ r, dst = some r → r < w.next) :
    ∃ res w' evs, syncModel S c a dst ids attrs w = (res, w') ∧ Regs w w' ∧ w'.trace = w.trace ++ evs ∧
      Own S c ids attrs w w' a dst evs res := by
  cases a with
  | none =>
    unfold syncModel logSyncStatus
    simp only
    rw [M.bind_assoc', M.read_bind]
    by_cases hl : flagOn S.flags GF.LOG_UNCHANGED_RECORDS = true
    · simp only [hl, if_true]
      rw [M.emit_bind]
      refine ⟨_, _, [.log .debug w.slog .success], rfl, ⟨rfl, rfl, rfl, rfl, rfl⟩, rfl, ?_⟩
      have := Own.idle (S := S) (c := c) (ids := ids) (attrs := attrs) (dst := dst) (Still.emit w [.log .debug w.slog .success]) rfl
      rw [if_pos hl] at this
      exact this
    · simp only [hl]
      refine ⟨_, w, [], rfl, Regs.refl _, by simp, ?_⟩
      have := Own.idle (S := S) (c := c) (ids := ids) (attrs := attrs) (dst := dst) (Still.refl w) rfl
      rw [if_neg hl] at this
      exact this
  | some a =>
    obtain ⟨res, w1, h1, r1, ht⟩ := tryAction_spec S c a dst ids attrs w hlt
    have hlog : ∀ st, logSyncStatus S.flags (some a) st w1 = (.ok (), { w1 with trace := w1.trace ++ [.log (levelOf st) w.slog st] }) := by
      intro st; rw [logSyncStatus_some, r1.slog_eq]
    have hcont : ∀ e, e.isCrud = true → res = .error e →
        syncModel S c (some a) dst ids attrs w =
          ((if flagOn S.flags GF.CONTINUE_ON_FAILURE then .ok (true, none) else .error e), { w1 with trace := w1.trace ++ [.log (levelOf .error) w.slog .error] }) := by
      intro e hc he
      subst he
      unfold syncModel
      simp only
      have ha : M.attempt (tryAction S c a dst ids attrs) Err.isCrud w = (.ok (.error e), w1) := by
        unfold M.attempt; rw [h1]; simp only [hc, if_true]
      rw [M.bind_ok ha]
      simp only
      rw [M.bind_ok (hlog .error)]
      by_cases hf : flagOn S.flags GF.CONTINUE_ON_FAILURE = true
      · simp only [hf, if_true]; rfl
      · simp only [hf]; rfl
    have hok : ∀ r? st, res = .ok (r?, st) → syncModel S c (some a) dst ids attrs w =
        (.ok (true, r?), { w1 with trace := w1.trace ++ [.log (levelOf st) w.slog st] }) := by
      intro r? st he
      subst he
      unfold syncModel
      simp only
      have ha : M.attempt (tryAction S c a dst ids attrs) Err.isCrud w = (.ok (.ok (r?, st)), w1) := by
        unfold M.attempt; rw [h1]
      rw [M.bind_ok ha]
      simp only
      rw [M.bind_ok (hlog st)]
      rfl
    have rr : ∀ evs, Regs w { w1 with trace := w1.trace ++ evs } := fun evs => ⟨r1.sproc_eq, r1.stotal_eq, r1.sact_eq, r1.scls_eq, r1.slog_eq⟩
    cases ht with
    | stale h hw =>
      subst hw
      refine ⟨_, _, _, hcont _ (by cases a <;> rfl) rfl, rr _, rfl, .stale h (Still.emit _ _) rfl⟩
    | @raised call out e hcf he ht hreason ce =>
      by_cases hc : e.isCrud = true
      · rcases hreason with hr | ⟨hn, _⟩
        · refine ⟨_, _, [.call call out, .log (levelOf .error) w.slog .error], hcont _ hc rfl, rr _, ?_, .crud hcf he hr hc (ce.emit _)⟩
          simp [ht]
        · rw [hn] at hc; cases hc
      · have hc' : e.isCrud = false := by simpa using hc
        refine ⟨.error e, w1, [.call call out], ?_, r1, ht, .fatal hcf he hc' ?_ ce⟩
        · unfold syncModel
          simp only
          have ha : M.attempt (tryAction S c a dst ids attrs) Err.isCrud w = (.error e, w1) := by
            unfold M.attempt; rw [h1]; simp [hc']
          rw [M.bind_err ha]
        · rcases hreason with hr | ⟨_, h⟩
          · exact .inl hr
          · exact .inr h
    | @failed call out hcf he ht hr ce =>
      refine ⟨_, _, [.call call out, .log .warning w.slog .failure], hok _ _ rfl, rr _, ?_, .failed hcf he hr (ce.emit _)⟩
      simp [ht, levelOf]
    | @created out m r ha hd he ht hr hi hs g1 g2 g3 =>
      subst ha hd
      refine ⟨_, _, [.call (.create c.name ids attrs) out, .log (levelOf _) w.slog _], hok _ _ rfl, rr _, ?_,
        .created he hr hi (hs.trans (Still.emit _ _)) g1 g2 g3 rfl⟩
      simp [ht]
    | @kept r call out hd hcf he ht hr hs ce =>
      subst hd
      refine ⟨_, _, [.call call out, .log (levelOf _) w.slog _], hok _ _ rfl, rr _, ?_, .kept hcf he hr hs (ce.emit _) rfl⟩
      simp [ht]

end DS
