import Verif.Spec.DifferOpen
import Verif.Lemmas.PDiff
/-! A diff with an arbitrary callback, and in lockstep with the diff without. -/
set_option linter.unusedSectionVars false

namespace DS
variable {V E α β : Type} [PyVal V]

/-! ## an arbitrary callback -/

/-- Nothing is reported and the counters stay. -/
structure DMute (w w' : World V E) : Prop where
  trace_eq : w'.trace = w.trace
  dproc_eq : w'.dproc = w.dproc
  dtotal_eq : w'.dtotal = w.dtotal

theorem DMute.preOrd : PreOrd (DMute (V := V) (E := E)) :=
  ⟨fun _ => ⟨rfl, rfl, rfl⟩, fun _ _ _ h k => ⟨k.1.trans h.1, k.2.trans h.2, k.3.trans h.3⟩⟩

theorem dmute_alloc (o : Obj V) : Pres DMute (alloc o : M V E Ref) := fun _ => ⟨rfl, rfl, rfl⟩
theorem dmute_localModel (sid : Nat) (t : String) : Pres DMute (localModel sid t : M V E _) := fun _ => ⟨rfl, rfl, rfl⟩

theorem dmute_getRaw (A : Adapter V) (t u : String) : Pres DMute (getRaw A t u : M V E Ref) := by
  unfold getRaw
  split
  · exact Pres.bind DMute.preOrd (dmute_localModel _ _) (fun _ => Pres.ofOption DMute.preOrd _ _)
  · intro w
    unfold redisLoad
    split
    · exact dmute_alloc _ w
    · exact DMute.preOrd.refl _

theorem dmute_getAll (A : Adapter V) (t : String) : Pres DMute (getAll A t : M V E _) := by
  unfold getAll
  split
  · exact Pres.bind DMute.preOrd (dmute_localModel _ _) (fun _ => Pres.pure DMute.preOrd _)
  · refine Pres.bind DMute.preOrd (Pres.read DMute.preOrd) (fun w => Pres.mapEach DMute.preOrd _ (fun k _ => ?_))
    intro w
    unfold redisLoad
    split
    · exact dmute_alloc _ w
    · exact DMute.preOrd.refl _

theorem dmute_derefs (rs : List Ref) : Pres DMute (M.mapEach (fun r => do let o ← deref r; pure o.m) rs : M V E (List (Model V))) := by
  intro w
  rw [mapEach_deref]
  exact DMute.preOrd.refl _

theorem dmute_getAllModels (A : Adapter V) (t : String) : Pres DMute (getAllModels A t : M V E _) := by
  unfold getAllModels
  exact Pres.bind DMute.preOrd (dmute_getAll _ _) (fun rs => dmute_derefs rs)

theorem dmute_childModels (A : Adapter V) (o : Option (Model V)) (ct f : String) : Pres DMute (childModels A o ct f : M V E _) := by
  unfold childModels
  split
  · exact Pres.pure DMute.preOrd _
  · refine Pres.bind DMute.preOrd (Pres.ofOption DMute.preOrd _ _) (fun us => ?_)
    unfold getModelsByUids getByUids
    exact Pres.bind DMute.preOrd (Pres.mapEach DMute.preOrd _ (fun _ _ => dmute_getRaw _ _ _)) (fun rs => dmute_derefs rs)

/-- The callback has been called for every event; only the last call may have raised, and then that is how it ended. -/
def Went (cb : Nat → Nat → M V E Unit) (w : World V E) (r : Except Err α × World V E) : Prop :=
  r.2.dtotal = w.dtotal ∧ ∃ evs, r.2.trace = w.trace ++ evs ∧ Chain w.dtotal w.dproc evs r.2.dproc ∧
    ((∀ c t, Event.diffProgress c t ∈ evs → Passed cb c t) ∨
      ∃ evs0 c e, evs = evs0 ++ [.diffProgress c w.dtotal] ∧ (∀ c t, Event.diffProgress c t ∈ evs0 → Passed cb c t) ∧
        Raised cb c w.dtotal e r.2 ∧ r.1 = .error e)

def Wents (cb : Nat → Nat → M V E Unit) (m : M V E α) : Prop := ∀ w, Went cb w (m w)

section
variable {cb : Nat → Nat → M V E Unit}

theorem Wents.of_mute {m : M V E α} (h : Pres DMute m) : Wents cb m := by
  intro w
  obtain ⟨h1, h2, h3⟩ := h w
  refine ⟨h3, [], by rw [h1, List.append_nil], by rw [h2]; exact .nil, .inl (fun _ _ h => by cases h)⟩

theorem Wents.pure (a : α) : Wents cb (Pure.pure a : M V E α) := .of_mute (Pres.pure DMute.preOrd a)
theorem Wents.raise (e : Err) : Wents cb (M.raise e : M V E α) := .of_mute (Pres.raise DMute.preOrd e)
theorem Wents.ofExcept (r : Except Err α) : Wents cb (M.ofExcept r : M V E α) := .of_mute (Pres.ofExcept DMute.preOrd r)

theorem Wents.bind {m : M V E α} {f : α → M V E β} (hm : Wents cb m) (hf : ∀ a, Wents cb (f a)) : Wents cb (m >>= f) := by
  intro w
  have h1 := hm w
  rw [M.bind_def]
  split
  · rename_i a w1 he
    rw [he] at h1
    obtain ⟨g1, evs, g2, g3, g4⟩ := h1
    simp only at g1 g2 g3 g4
    rcases g4 with g4 | ⟨_, _, _, _, _, _, g4⟩
    · obtain ⟨k1, evs', k2, k3, k4⟩ := hf a w1
      rw [g1] at k1 k3 k4
      refine ⟨k1, evs ++ evs', by rw [k2, g2, List.append_assoc], g3.trans k3, ?_⟩
      rcases k4 with k4 | ⟨evs0, c, e, rfl, k5, k6, k7⟩
      · refine .inl (fun c t hc => ?_)
        rcases List.mem_append.1 hc with hc | hc
        · exact g4 c t hc
        · exact k4 c t hc
      · refine .inr ⟨evs ++ evs0, c, e, (List.append_assoc _ _ _).symm, fun c t hc => ?_, k6, k7⟩
        rcases List.mem_append.1 hc with hc | hc
        · exact g4 c t hc
        · exact k5 c t hc
    · cases g4
  · rename_i e w1 he
    rw [he] at h1
    obtain ⟨g1, evs, g2, g3, g4⟩ := h1
    refine ⟨g1, evs, g2, g3, ?_⟩
    rcases g4 with g4 | ⟨evs0, c, e', g4, g5, g6, g7⟩
    · exact .inl g4
    · refine .inr ⟨evs0, c, e', g4, g5, g6, ?_⟩
      cases g7
      rfl

theorem runCallback_mute (m : M V E Unit) : Pres DMute (runCallback m) := fun _ => ⟨rfl, rfl, rfl⟩

/-- Counting and calling back. -/
theorem oIncrModels_eq (k : Nat) (hk : k ≠ 0) (w : World V E) :
    oIncrModels cb k w = runCallback (cb (w.dproc + k) w.dtotal) (incrModels k w).2 := by
  unfold oIncrModels incrModels
  rw [if_neg hk, if_neg hk]
  rfl

theorem incrModels_world (k : Nat) (hk : k ≠ 0) (w : World V E) :
    (incrModels k w).2 = { w with dproc := w.dproc + k, trace := w.trace ++ [.diffProgress (w.dproc + k) w.dtotal] } := by
  unfold incrModels
  rw [if_neg hk]
  rfl

theorem Wents.incr (k : Nat) : Wents cb (oIncrModels cb k) := by
  by_cases hk : k = 0
  · unfold oIncrModels
    rw [if_pos hk]
    exact Wents.pure ()
  · intro w
    obtain ⟨h1, h2, h3⟩ := runCallback_mute (cb (w.dproc + k) w.dtotal) (incrModels k w).2
    rw [oIncrModels_eq k hk]
    rw [incrModels_world k hk] at h1 h2 h3 ⊢
    simp only at h1 h2 h3
    refine ⟨h3, [.diffProgress (w.dproc + k) w.dtotal], h1, ?_, ?_⟩
    · rw [h2]
      exact .step (Nat.lt_add_of_pos_right (Nat.pos_of_ne_zero hk)) .nil
    · generalize hw : ({ w with dproc := w.dproc + k, trace := w.trace ++ [.diffProgress (w.dproc + k) w.dtotal] } : World V E) = w1
      cases hr : (runCallback (cb (w.dproc + k) w.dtotal) w1).1 with
      | ok a =>
        refine .inl (fun c t hc => ?_)
        cases hc with
        | tail _ h => cases h
        | head =>
          refine ⟨w1, (cb (w.dproc + k) w.dtotal w1).2, Prod.ext ?_ rfl⟩
          exact hr
      | error e => exact .inr ⟨[], _, e, rfl, fun _ _ h => (by cases h), ⟨w1, Prod.ext hr rfl⟩, rfl⟩

theorem Wents.forEach {f : α → M V E Unit} (l : List α) (h : ∀ a ∈ l, Wents cb (f a)) : Wents cb (M.forEach f l) := by
  induction l with
  | nil => exact Wents.pure ()
  | cons a l ih =>
    rw [M.forEach_cons]
    exact Wents.bind (h a (by simp)) (fun _ => ih (fun x hx => h x (List.mem_cons_of_mem _ hx)))

theorem Wents.mapping (s d : Option (Model V)) : Wents cb (oChildrenMapping cb s d) := by
  unfold oChildrenMapping
  cases s with
  | none => cases d with
    | none => exact Wents.raise _
    | some d => exact Wents.pure _
  | some s => cases d with
    | none => exact Wents.pure _
    | some d =>
      refine Wents.bind (Wents.forEach _ fun p _ => ?_) fun _ => Wents.bind (Wents.forEach _ fun p _ => ?_) fun _ => Wents.pure _
      · split
        · exact Wents.pure _
        · exact Wents.incr _
      · split
        · exact Wents.pure _
        · exact Wents.incr _

variable {C : DiffCtx V}

theorem Wents.childLoop {rec : List (Model V) → List (Model V) → M V E (List (Elem V))} (hrec : ∀ a b, Wents cb (rec a b))
    (s d : Option (Model V)) (mapping : Dict String) (kids : List (Elem V)) : Wents cb (diffChildLoop C rec s d mapping kids) := by
  induction mapping generalizing kids with
  | nil => exact Wents.pure _
  | cons p rest ih =>
    obtain ⟨ct, f⟩ := p
    unfold diffChildLoop
    exact Wents.bind (.of_mute (dmute_childModels _ _ _ _)) fun _ => Wents.bind (.of_mute (dmute_childModels _ _ _ _)) fun _ =>
      Wents.bind (hrec _ _) fun _ => Wents.bind (Wents.ofExcept _) fun _ => ih _

theorem Wents.pair {rec : List (Model V) → List (Model V) → M V E (List (Elem V))} (hrec : ∀ a b, Wents cb (rec a b))
    (s d : Option (Model V)) : Wents cb (oDiffPair cb C rec s d) := by
  unfold oDiffPair
  cases s.or d with
  | none => exact Wents.raise _
  | some m =>
    simp only
    split
    · exact Wents.bind (Wents.incr _) fun _ => Wents.pure _
    · exact Wents.bind (Wents.incr _) fun _ => Wents.bind (Wents.mapping _ _) fun _ =>
        Wents.bind (Wents.childLoop hrec _ _ _ _) fun _ => Wents.pure _

theorem Wents.pairs {f : Option (Model V) → Option (Model V) → M V E (Option (Elem V))} (h : ∀ a b, Wents cb (f a b))
    (ps : List (Option (Model V) × Option (Model V))) : Wents cb (diffPairs f ps) := by
  induction ps with
  | nil => exact Wents.pure _
  | cons p ps ih =>
    obtain ⟨s, d⟩ := p
    unfold diffPairs
    exact Wents.bind (h s d) fun _ => Wents.bind ih fun _ => Wents.pure _

theorem Wents.list (n : Nat) (s d : List (Model V)) : Wents cb (oDiffList cb C n s d) := by
  induction n generalizing s d with
  | zero => exact Wents.raise _
  | succ n ih =>
    unfold oDiffList
    exact Wents.bind (Wents.incr _) fun _ => Wents.bind (Wents.ofExcept _) fun _ => Wents.pairs (Wents.pair ih) _

theorem Wents.skipped (t : String) : Wents cb (oCountSkipped cb C t) := by
  unfold oCountSkipped
  split
  · exact Wents.bind (.of_mute (dmute_getAll _ _)) fun _ => Wents.incr _
  · split
    · exact Wents.bind (.of_mute (dmute_getAll _ _)) fun _ => Wents.incr _
    · exact Wents.pure _

theorem Wents.types (n : Nat) (ts : List String) (kids : List (Elem V)) : Wents cb (oDiffTypes cb C n ts kids) := by
  induction ts generalizing kids with
  | nil => exact Wents.pure _
  | cons t ts ih =>
    unfold oDiffTypes
    exact Wents.bind (.of_mute (dmute_getAllModels _ _)) fun _ => Wents.bind (.of_mute (dmute_getAllModels _ _)) fun _ =>
      Wents.bind (Wents.list n _ _) fun _ => Wents.bind (Wents.ofExcept _) fun _ => ih _

/-- The loops of `calculate_diffs`. -/
def oLoops (cb : Nat → Nat → M V E Unit) (C : DiffCtx V) (n : Nat) : M V E (List (Elem V)) :=
  M.forEach (oCountSkipped cb C) (symmetricDifference C.dst.topLevel C.src.topLevel) >>= fun _ =>
    oDiffTypes cb C n (intersection C.dst.topLevel C.src.topLevel) []

theorem Wents.loops (n : Nat) : Wents cb (oLoops cb C n) :=
  Wents.bind (Wents.forEach _ fun _ _ => Wents.skipped _) fun _ => Wents.types _ _ _

/-- What is returned at the end. -/
def finish (dc : DiffClass V) (kids : List (Elem V)) : M V E (Diff V) := do
  let w ← M.read
  pure { cls := dc, kids := kids, processed := w.dproc }

theorem oDiffFrom_eq (n : Nat) (dst src : Adapter V) (dc : DiffClass V) (flags : Nat) (w : World V E) :
    oDiffFrom cb n dst src dc flags w = (oLoops cb ⟨src, dst, flags⟩ n >>= finish dc) (startDiff dst src w) := by
  unfold oDiffFrom oLoops
  rw [M.bind_assoc']
  rfl

theorem Wents.finish (dc : DiffClass V) (kids : List (Elem V)) : Wents cb (finish dc kids : M V E _) :=
  .of_mute (Pres.bind DMute.preOrd (Pres.read DMute.preOrd) fun _ => Pres.pure DMute.preOrd _)

/-! ## a callback that only looks -/

/-- The stored objects stay as they are. -/
structure OLooks (w w' : World V E) : Prop where
  next_le : w.next ≤ w'.next
  heap_eq : ∀ r, r < w.next → w'.heap r = w.heap r
  tbl_eq : ∀ sid t, tbl w' sid t = tbl w sid t
  redis_eq : w'.redis = w.redis
  dtotal_eq : w'.dtotal = w.dtotal

theorem OLooks.trans {a b c : World V E} (h1 : OLooks a b) (h2 : OLooks b c) : OLooks a c :=
  ⟨Nat.le_trans h1.1 h2.1, fun r hr => by rw [h2.2 r (Nat.lt_of_lt_of_le hr h1.1), h1.2 r hr],
    fun s t => (h2.3 s t).trans (h1.3 s t), h2.4.trans h1.4, h2.5.trans h1.5⟩

theorem DRel.looks {w w' : World V E} (h : DRel w w') : OLooks w w' := ⟨h.next_le, h.heap_eq, h.tbl_eq, h.redis_eq, h.dtotal_eq⟩

theorem OLooks.findRef_eq {w w' : World V E} (h : OLooks w w') (sid : Nat) (t u : String) :
    findRef w' sid t u = findRef w sid t u := by unfold findRef; rw [h.tbl_eq]

theorem OLooks.rawSnap_eq {w w' : World V E} (h : OLooks w w') (h1 : RefsLt w) (h2 : TblWF w) (A : Adapter V) :
    rawSnap A w' = rawSnap A w := by
  unfold rawSnap
  split
  · congr 1
    · funext t
      rw [h.tbl_eq]
      apply List.map_congr_left
      intro r hr
      obtain ⟨u, hu⟩ := mem_values_findRef h2 hr
      rw [h.heap_eq r (h1 _ _ _ _ hu)]
    · funext t u
      rw [h.findRef_eq]
      cases hf : findRef w _ t u with
      | none => rfl
      | some r => simp only [Option.map_some]; rw [h.heap_eq r (h1 _ _ _ _ hf)]
  · rw [h.redis_eq]

theorem OLooks.snap_eq {w w' : World V E} (h : OLooks w w') (h1 : RefsLt w) (h2 : TblWF w) (A : Adapter V) :
    snap A w' = snap A w := by
  unfold snap
  split
  · congr 1
    · funext t
      rw [h.tbl_eq]
      apply List.map_congr_left
      intro r hr
      obtain ⟨u, hu⟩ := mem_values_findRef h2 hr
      rw [h.heap_eq r (h1 _ _ _ _ hu)]
    · funext t u
      rw [h.findRef_eq]
      cases hf : findRef w _ t u with
      | none => rfl
      | some r => simp only [Option.map_some]; rw [h.heap_eq r (h1 _ _ _ _ hf)]
  · rw [h.redis_eq]

variable {S D : Snap V}

theorem At.looks {w w' : World V E} (h : At C S D w) (hr : OLooks w w') : At C S D w' where
  refs sid t u r hu := by
    rw [hr.findRef_eq] at hu
    exact Nat.lt_of_lt_of_le (h.refs _ _ _ _ hu) hr.next_le
  wf sid t := by rw [hr.tbl_eq]; exact h.wf sid t
  src := by rw [hr.rawSnap_eq h.refs h.wf, h.src]
  dst := by rw [hr.rawSnap_eq h.refs h.wf, h.dst]

/-- Two runs in lockstep: with and without the callback. -/
def Lock (cb : Nat → Nat → M V E Unit) (C : DiffCtx V) (S D : Snap V) (mo mc : M V E α) : Prop :=
  ∀ w v, At C S D w → At C S D v → w.dproc = v.dproc → w.dtotal = v.dtotal →
    OLooks w (mo w).2 ∧ DRel v (mc v).2 ∧ ∃ evs evs', (mo w).2.trace = w.trace ++ evs ∧ (mc v).2.trace = v.trace ++ evs' ∧
      (((mo w).1 = (mc v).1 ∧ evs = evs' ∧ (mo w).2.dproc = (mc v).2.dproc) ∨
        (evs <+: evs' ∧ ∃ evs0 c e, evs = evs0 ++ [.diffProgress c w.dtotal] ∧ Raised cb c w.dtotal e (mo w).2 ∧ (mo w).1 = .error e))

theorem Lock.of_rrel {m : M V E α} {p : Except Err α} (h : ∀ w, At C S D w → RRel w (m w).2 ∧ (m w).1 = p) : Lock cb C S D m m := by
  intro w v hw hv hp _
  obtain ⟨h1, h2⟩ := h w hw
  obtain ⟨k1, k2⟩ := h v hv
  refine ⟨h1.toDRel.looks, k1.toDRel, [], [], by rw [h1.trace_eq, List.append_nil], by rw [k1.trace_eq, List.append_nil], .inl ⟨by rw [h2, k2], rfl, ?_⟩⟩
  rw [h1.dproc_eq, k1.dproc_eq, hp]

theorem Lock.pure (a : α) : Lock cb C S D (Pure.pure a : M V E α) (Pure.pure a) := .of_rrel (p := .ok a) fun w _ => ⟨RRel.refl w, rfl⟩
theorem Lock.raise (e : Err) : Lock cb C S D (M.raise e : M V E α) (M.raise e) := .of_rrel (p := .error e) fun w _ => ⟨RRel.refl w, rfl⟩
theorem Lock.ofExcept (r : Except Err α) : Lock cb C S D (M.ofExcept r : M V E α) (M.ofExcept r) :=
  .of_rrel (p := r) fun w _ => ⟨RRel.refl w, rfl⟩

/-- In the second run `f` is run too, so it must move the world along `DRel` from wherever the adapters have the same contents. -/
theorem Lock.bind {m m' : M V E α} {f f' : α → M V E β} (hm : Lock cb C S D m m') (hf : ∀ a, Lock cb C S D (f a) (f' a)) :
    Lock cb C S D (m >>= f) (m' >>= f') := by
  intro w v hw hv hp ht
  obtain ⟨h1, h2, evs, evs', h3, h4, h5⟩ := hm w v hw hv hp ht
  rcases h5 with ⟨h5, rfl, h6⟩ | ⟨h5, evs0, c, e, h6, h7, h8⟩
  · cases ho : (m w).1 with
    | error e =>
      have hc := h5.symm.trans ho
      rw [M.bind_err (Prod.ext ho rfl : m w = (.error e, (m w).2)), M.bind_err (Prod.ext hc rfl : m' v = (.error e, (m' v).2))]
      exact ⟨h1, h2, evs, evs, h3, h4, .inl ⟨rfl, rfl, h6⟩⟩
    | ok a =>
      have hc := h5.symm.trans ho
      rw [M.bind_ok (Prod.ext ho rfl : m w = (.ok a, (m w).2)), M.bind_ok (Prod.ext hc rfl : m' v = (.ok a, (m' v).2))]
      have ht' : (m w).2.dtotal = (m' v).2.dtotal := by rw [h1.dtotal_eq, h2.dtotal_eq, ht]
      obtain ⟨k1, k2, es, es', k3, k4, k5⟩ := hf a _ _ (hw.looks h1) (hv.mono h2) h6 ht'
      refine ⟨h1.trans k1, h2.trans k2, evs ++ es, evs ++ es', by rw [k3, h3, List.append_assoc], by rw [k4, h4, List.append_assoc], ?_⟩
      rcases k5 with ⟨k5, rfl, k6⟩ | ⟨k5, es0, c, e, rfl, k7, k8⟩
      · exact .inl ⟨k5, rfl, k6⟩
      · rw [h1.dtotal_eq] at k7 ⊢
        refine .inr ⟨?_, evs ++ es0, c, e, by rw [List.append_assoc], k7, k8⟩
        rw [h1.dtotal_eq] at k5
        exact (List.prefix_append_right_inj evs).2 k5
  · rw [M.bind_err (Prod.ext h8 rfl : m w = (.error e, (m w).2))]
    refine ⟨h1, ?_⟩
    cases hc : (m' v).1 with
    | error e' =>
      rw [M.bind_err (Prod.ext hc rfl : m' v = (.error e', (m' v).2))]
      exact ⟨h2, evs, evs', h3, h4, .inr ⟨h5, evs0, c, e, h6, h7, rfl⟩⟩
    | ok a =>
      rw [M.bind_ok (Prod.ext hc rfl : m' v = (.ok a, (m' v).2))]
      obtain ⟨_, k2, _, es', _, k4, _⟩ := hf a _ _ (hv.mono h2) (hv.mono h2) rfl rfl
      exact ⟨h2.trans k2, evs, evs' ++ es', h3, by rw [k4, h4, List.append_assoc],
        .inr ⟨h5.trans (List.prefix_append _ _), evs0, c, e, h6, h7, rfl⟩⟩

theorem Lock.incr (hcb : OnlyLooks cb) (k : Nat) : Lock cb C S D (oIncrModels cb k) (incrModels k) := by
  by_cases hk : k = 0
  · unfold oIncrModels incrModels
    rw [if_pos hk, if_pos hk]
    exact Lock.pure ()
  · intro w v hw hv hp ht
    have hv' := (Sim.incr (E := E) (C := C) (S := S) (D := D) k v hv).1
    obtain ⟨m1, m2, m3⟩ := runCallback_mute (cb (w.dproc + k) w.dtotal) (incrModels k w).2
    rw [oIncrModels_eq k hk, incrModels_world k hk v] at *
    rw [incrModels_world k hk w] at *
    refine ⟨⟨?_, ?_, ?_, ?_, m3⟩, hv', [.diffProgress (w.dproc + k) w.dtotal], [.diffProgress (w.dproc + k) w.dtotal], m1, by rw [hp, ht], ?_⟩
    · exact hcb.next (w.dproc + k) w.dtotal { w with dproc := w.dproc + k, trace := w.trace ++ [.diffProgress (w.dproc + k) w.dtotal] }
    · exact hcb.heap (w.dproc + k) w.dtotal { w with dproc := w.dproc + k, trace := w.trace ++ [.diffProgress (w.dproc + k) w.dtotal] }
    · exact hcb.tables (w.dproc + k) w.dtotal { w with dproc := w.dproc + k, trace := w.trace ++ [.diffProgress (w.dproc + k) w.dtotal] }
    · exact hcb.redis (w.dproc + k) w.dtotal { w with dproc := w.dproc + k, trace := w.trace ++ [.diffProgress (w.dproc + k) w.dtotal] }
    · cases hr : (runCallback (cb (w.dproc + k) w.dtotal)
          { w with dproc := w.dproc + k, trace := w.trace ++ [.diffProgress (w.dproc + k) w.dtotal] }).1 with
      | ok a =>
        refine .inl ⟨?_, rfl, ?_⟩
        · unfold incrModels
          rw [if_neg hk]
          rfl
        · rw [m2, hp]
      | error e =>
        exact .inr ⟨List.prefix_refl _, [], _, e, rfl, ⟨_, Prod.ext hr rfl⟩, rfl⟩

theorem Lock.forEach {f f' : α → M V E Unit} (l : List α) (h : ∀ a ∈ l, Lock cb C S D (f a) (f' a)) :
    Lock cb C S D (M.forEach f l) (M.forEach f' l) := by
  induction l with
  | nil => exact Lock.pure ()
  | cons a l ih =>
    rw [M.forEach_cons, M.forEach_cons]
    exact Lock.bind (h a (by simp)) (fun _ => ih (fun x hx => h x (List.mem_cons_of_mem _ hx)))

theorem Lock.mapping (hcb : OnlyLooks cb) (s d : Option (Model V)) : Lock cb C S D (oChildrenMapping cb s d) (childrenMapping s d) := by
  unfold oChildrenMapping childrenMapping
  cases s with
  | none => cases d with
    | none => exact Lock.raise _
    | some d => exact Lock.pure _
  | some s => cases d with
    | none => exact Lock.pure _
    | some d =>
      refine Lock.bind (Lock.forEach _ fun p _ => ?_) fun _ => Lock.bind (Lock.forEach _ fun p _ => ?_) fun _ => Lock.pure _
      · split
        · exact Lock.pure _
        · exact Lock.incr hcb _
      · split
        · exact Lock.pure _
        · exact Lock.incr hcb _

theorem Lock.childModels (A : Adapter V) (X : Snap V) (hX : ∀ w : World V E, At C S D w → rawSnap A w = X) (o : Option (Model V)) (ct f : String) :
    Lock cb C S D (childModels A o ct f) (childModels A o ct f) := by
  unfold DS.childModels
  cases o with
  | none => exact Lock.pure _
  | some m =>
    simp only
    cases m.kidList f with
    | none => exact .of_rrel (p := .error .attributeError) fun w _ => ⟨RRel.refl w, rfl⟩
    | some us =>
      refine .of_rrel (p := lookupAll X ct us) fun w hw => ?_
      have := getModelsByUids_spec A ct us w hw.refs hw.wf
      rw [hX w hw] at this
      exact this

theorem Lock.childLoop {rec rec' : List (Model V) → List (Model V) → M V E (List (Elem V))} (hrec : ∀ a b, Lock cb C S D (rec a b) (rec' a b))
    (s d : Option (Model V)) (mapping : Dict String) (kids : List (Elem V)) :
    Lock cb C S D (diffChildLoop C rec s d mapping kids) (diffChildLoop C rec' s d mapping kids) := by
  induction mapping generalizing kids with
  | nil => exact Lock.pure _
  | cons p rest ih =>
    obtain ⟨ct, f⟩ := p
    unfold diffChildLoop
    exact Lock.bind (Lock.childModels _ _ (fun w hw => hw.src) _ _ _) fun _ => Lock.bind (Lock.childModels _ _ (fun w hw => hw.dst) _ _ _) fun _ =>
      Lock.bind (hrec _ _) fun _ => Lock.bind (Lock.ofExcept _) fun _ => ih _

theorem Lock.pair (hcb : OnlyLooks cb) {rec rec' : List (Model V) → List (Model V) → M V E (List (Elem V))}
    (hrec : ∀ a b, Lock cb C S D (rec a b) (rec' a b)) (s d : Option (Model V)) :
    Lock cb C S D (oDiffPair cb C rec s d) (diffPair C rec' s d) := by
  unfold oDiffPair diffPair
  cases s.or d with
  | none => exact Lock.raise _
  | some m =>
    simp only
    split
    · exact Lock.bind (Lock.incr hcb _) fun _ => Lock.pure _
    · exact Lock.bind (Lock.incr hcb _) fun _ => Lock.bind (Lock.mapping hcb _ _) fun _ =>
        Lock.bind (Lock.childLoop hrec _ _ _ _) fun _ => Lock.pure _

theorem Lock.pairs {f f' : Option (Model V) → Option (Model V) → M V E (Option (Elem V))} (h : ∀ a b, Lock cb C S D (f a b) (f' a b))
    (ps : List (Option (Model V) × Option (Model V))) : Lock cb C S D (diffPairs f ps) (diffPairs f' ps) := by
  induction ps with
  | nil => exact Lock.pure _
  | cons p ps ih =>
    obtain ⟨s, d⟩ := p
    unfold diffPairs
    exact Lock.bind (h s d) fun _ => Lock.bind ih fun _ => Lock.pure _

theorem Lock.list (hcb : OnlyLooks cb) (n : Nat) (s d : List (Model V)) : Lock cb C S D (oDiffList cb C n s d) (diffList C n s d) := by
  induction n generalizing s d with
  | zero => exact Lock.raise _
  | succ n ih =>
    unfold oDiffList diffList
    exact Lock.bind (Lock.incr hcb _) fun _ => Lock.bind (Lock.ofExcept _) fun _ => Lock.pairs (Lock.pair hcb ih) _

/-- `len(get_all(t))` is counted. -/
theorem Lock.countAll (hcb : OnlyLooks cb) (A : Adapter V) (X : Snap V) (hX : ∀ w : World V E, At C S D w → rawSnap A w = X) (t : String) :
    Lock cb C S D (getAll A t >>= fun l => oIncrModels cb l.length) (getAll A t >>= fun l => incrModels l.length) := by
  have hl : Lock cb C S D ((getAll A t : M V E _) >>= fun l => (Pure.pure l.length : M V E Nat)) ((getAll A t : M V E _) >>= fun l => (Pure.pure l.length : M V E Nat)) := by
    refine .of_rrel (p := .ok (X.all t).length) fun w hw => ?_
    obtain ⟨rs, h1, h2, h3⟩ := getAll_length A t w hw.refs hw.wf
    rw [M.bind_ok h1, h3, hX w hw]
    exact ⟨h2, rfl⟩
  have := Lock.bind hl (fun k => Lock.incr hcb k)
  intro w v hw hv hp ht
  have := this w v hw hv hp ht
  rw [M.bind_assoc', M.bind_assoc'] at this
  exact this

theorem Lock.skipped (hcb : OnlyLooks cb) (t : String) : Lock cb C S D (oCountSkipped cb C t) (countSkippedType C t) := by
  unfold oCountSkipped countSkippedType
  split
  · exact Lock.countAll hcb _ _ (fun w hw => hw.dst) t
  · split
    · exact Lock.countAll hcb _ _ (fun w hw => hw.src) t
    · exact Lock.pure _

theorem Lock.allModels (A : Adapter V) (X : Snap V) (hX : ∀ w : World V E, At C S D w → rawSnap A w = X) (t : String) :
    Lock cb C S D (getAllModels A t) (getAllModels A t) := by
  refine .of_rrel (p := .ok (X.all t)) fun w hw => ?_
  have := getAllModels_spec A t w hw.refs hw.wf
  rw [hX w hw] at this
  exact this

theorem Lock.types (hcb : OnlyLooks cb) (n : Nat) (ts : List String) (kids : List (Elem V)) :
    Lock cb C S D (oDiffTypes cb C n ts kids) (diffTypes C n ts kids) := by
  induction ts generalizing kids with
  | nil => exact Lock.pure _
  | cons t ts ih =>
    unfold oDiffTypes diffTypes
    exact Lock.bind (Lock.allModels _ _ (fun w hw => hw.src) t) fun _ => Lock.bind (Lock.allModels _ _ (fun w hw => hw.dst) t) fun _ =>
      Lock.bind (Lock.list hcb n _ _) fun _ => Lock.bind (Lock.ofExcept _) fun _ => ih _

/-- The loops of `calculate_diffs` without callback. -/
def cLoops (C : DiffCtx V) (n : Nat) : M V E (List (Elem V)) :=
  M.forEach (countSkippedType C) (symmetricDifference C.dst.topLevel C.src.topLevel) >>= fun _ =>
    diffTypes C n (intersection C.dst.topLevel C.src.topLevel) []

theorem Lock.loops (hcb : OnlyLooks cb) (n : Nat) : Lock cb C S D (oLoops cb C n) (cLoops C n) :=
  Lock.bind (Lock.forEach _ fun _ _ => Lock.skipped hcb _) fun _ => Lock.types hcb _ _ _

theorem diffFrom_loops (n : Nat) (dst src : Adapter V) (dc : DiffClass V) (flags : Nat) (w : World V E) :
    diffFrom n dst src dc flags w = (cLoops ⟨src, dst, flags⟩ n >>= finish dc) (startDiff dst src w) := by
  unfold diffFrom cLoops
  rw [M.bind_assoc']
  rfl

theorem Lock.finish (dc : DiffClass V) (kids : List (Elem V)) : Lock cb C S D (finish dc kids) (finish dc kids) := by
  intro w v _ _ hp _
  refine ⟨(DRel.refl w).looks, DRel.refl v, [], [], (List.append_nil _).symm, (List.append_nil _).symm, .inl ⟨?_, rfl, hp⟩⟩
  show Except.ok _ = Except.ok _
  rw [hp]

end
end DS
