import Verif.Spec.World
import Verif.Lemmas.Dict
import Verif.Lemmas.Monad
/-! Reading from stores: what the differ can change. -/
set_option linter.unusedSectionVars false

namespace DS
variable {V E : Type} [PyVal V]

theorem deref_bind {β : Type} (r : Ref) (f : Obj V → M V E β) (w : World V E) : (deref r >>= f) w = f (w.heap r) w := rfl
theorem writeObj_bind {β : Type} (r : Ref) (o : Obj V) (f : Unit → M V E β) (w : World V E) :
    (writeObj r o >>= f) w = f () (w.setObj r o) := rfl
theorem alloc_bind {β : Type} (o : Obj V) (f : Ref → M V E β) (w : World V E) :
    (alloc o >>= f) w = f w.next { w.setObj w.next o with next := w.next + 1 } := rfl

/-! ## touch -/

/-- `d'` is `d` after some `defaultdict` reads. -/
def Touched (d d' : Dict (Dict Ref)) : Prop := ∃ ts : List String, d' = ts.foldl touch d

theorem Touched.refl (d : Dict (Dict Ref)) : Touched d d := ⟨[], rfl⟩
theorem Touched.trans {a b c : Dict (Dict Ref)} (h1 : Touched a b) (h2 : Touched b c) : Touched a c := by
  obtain ⟨t1, rfl⟩ := h1
  obtain ⟨t2, rfl⟩ := h2
  exact ⟨t1 ++ t2, by rw [List.foldl_append]⟩
theorem Touched.one (d : Dict (Dict Ref)) (t : String) : Touched d (touch d t) := ⟨[t], rfl⟩

theorem get?_touch (d : Dict (Dict Ref)) (t x : String) :
    (Dict.get? (touch d t) x).getD [] = (Dict.get? d x).getD [] := by
  unfold touch
  split
  · rfl
  · rename_i h
    rw [Dict.get?_set]
    split
    · rename_i he; subst he
      rw [Dict.has_iff] at h
      rw [Dict.get?_eq_none_iff.2 h]; rfl
    · rfl

theorem Touched.getD {d d' : Dict (Dict Ref)} (h : Touched d d') (x : String) :
    (Dict.get? d' x).getD [] = (Dict.get? d x).getD [] := by
  obtain ⟨ts, rfl⟩ := h
  induction ts generalizing d with
  | nil => rfl
  | cons t ts ih => rw [List.foldl_cons, ih, get?_touch]

theorem wf_touch {d : Dict (Dict Ref)} (h : Dict.WF d) (t : String) : Dict.WF (touch d t) := by
  unfold touch; split
  · exact h
  · exact Dict.wf_set h _ _

theorem Touched.wf {d d' : Dict (Dict Ref)} (h : Touched d d') (hd : Dict.WF d) : Dict.WF d' := by
  obtain ⟨ts, rfl⟩ := h
  induction ts generalizing d with
  | nil => exact hd
  | cons t ts ih => exact ih (wf_touch hd t)

theorem sum_touch (d : Dict (Dict Ref)) (t : String) :
    ((touch d t).map (fun p => p.2.length)).sum = (d.map (fun p => p.2.length)).sum := by
  unfold touch
  split
  · rfl
  · rename_i h
    rw [Dict.has_iff] at h
    rw [Dict.set_of_not_mem h]; simp

theorem Touched.sum {d d' : Dict (Dict Ref)} (h : Touched d d') :
    (d'.map (fun p => p.2.length)).sum = (d.map (fun p => p.2.length)).sum := by
  obtain ⟨ts, rfl⟩ := h
  induction ts generalizing d with
  | nil => rfl
  | cons t ts ih => rw [List.foldl_cons, ih, sum_touch]

/-! ## progress chains -/

/-- The `diffProgress` events taking the counter from `a` to `b` with strictly increasing values. -/
inductive Chain (tot : Nat) : Nat → List (Event V) → Nat → Prop where
  | nil {a} : Chain tot a [] a
  | step {a b c evs} : a < b → Chain tot b evs c → Chain tot a (.diffProgress b tot :: evs) c

theorem Chain.trans {tot a b c : Nat} {e1 e2 : List (Event V)} (h1 : Chain tot a e1 b) (h2 : Chain tot b e2 c) :
    Chain tot a (e1 ++ e2) c := by
  induction h1 with
  | nil => exact h2
  | step h _ ih => exact .step h (ih h2)

/-! ## what a diff may do to the world -/

/-- `w'` is `w` after computing (part of) a diff. -/
structure DRel (w w' : World V E) : Prop where
  next_le : w.next ≤ w'.next
  heap_eq : ∀ r, r < w.next → w'.heap r = w.heap r
  touched : ∀ sid, Touched (w.loc sid) (w'.loc sid)
  redis_eq : w'.redis = w.redis
  env_eq : w'.env = w.env
  dtotal_eq : w'.dtotal = w.dtotal
  trace : ∃ evs, w'.trace = w.trace ++ evs ∧ Chain w.dtotal w.dproc evs w'.dproc
  sproc_eq : w'.sproc = w.sproc
  stotal_eq : w'.stotal = w.stotal
  sact_eq : w'.sact = w.sact
  scls_eq : w'.scls = w.scls
  slog_eq : w'.slog = w.slog

theorem DRel.preOrd : PreOrd (DRel (V := V) (E := E)) where
  refl w := ⟨Nat.le_refl _, fun _ _ => rfl, fun _ => .refl _, rfl, rfl, rfl, ⟨[], by simp, .nil⟩, rfl, rfl, rfl, rfl, rfl⟩
  trans a b c h1 h2 := by
    refine ⟨Nat.le_trans h1.next_le h2.next_le, fun r hr => ?_, fun s => (h1.touched s).trans (h2.touched s),
      h2.redis_eq.trans h1.redis_eq, h2.env_eq.trans h1.env_eq, h2.dtotal_eq.trans h1.dtotal_eq, ?_,
      h2.sproc_eq.trans h1.sproc_eq, h2.stotal_eq.trans h1.stotal_eq, h2.sact_eq.trans h1.sact_eq,
      h2.scls_eq.trans h1.scls_eq, h2.slog_eq.trans h1.slog_eq⟩
    · rw [h2.heap_eq r (Nat.lt_of_lt_of_le hr h1.next_le), h1.heap_eq r hr]
    · obtain ⟨e1, t1, c1⟩ := h1.trace
      obtain ⟨e2, t2, c2⟩ := h2.trace
      rw [h1.dtotal_eq] at c2
      exact ⟨e1 ++ e2, by rw [t2, t1, List.append_assoc], c1.trans c2⟩

theorem DRel.refl (w : World V E) : DRel w w := DRel.preOrd.refl w
theorem DRel.trans {a b c : World V E} (h1 : DRel a b) (h2 : DRel b c) : DRel a c := DRel.preOrd.trans _ _ _ h1 h2

theorem DRel.tbl_eq {w w' : World V E} (h : DRel w w') (sid : Nat) (t : String) : tbl w' sid t = tbl w sid t :=
  (h.touched sid).getD t
theorem DRel.findRef_eq {w w' : World V E} (h : DRel w w') (sid : Nat) (t u : String) :
    findRef w' sid t u = findRef w sid t u := by unfold findRef; rw [h.tbl_eq]

/-- Stored references are allocated. -/
def RefsLt (w : World V E) : Prop := ∀ sid t u r, findRef w sid t u = some r → r < w.next
/-- Tables have no duplicate keys. -/
def TblWF (w : World V E) : Prop := ∀ sid t, Dict.WF (tbl w sid t)

theorem mem_values_findRef {w : World V E} (h : TblWF w) {sid : Nat} {t : String} {r : Ref}
    (hr : r ∈ Dict.values (tbl w sid t)) : ∃ u, findRef w sid t u = some r :=
  (Dict.mem_values_iff (h sid t)).1 hr

theorem DRel.refsLt {w w' : World V E} (h : DRel w w') (hw : RefsLt w) : RefsLt w' := by
  intro sid t u r hr
  rw [h.findRef_eq] at hr
  exact Nat.lt_of_lt_of_le (hw _ _ _ _ hr) h.next_le
theorem DRel.tblWF {w w' : World V E} (h : DRel w w') (hw : TblWF w) : TblWF w' := by
  intro sid t; rw [h.tbl_eq]; exact hw sid t

theorem DRel.ok {w w' : World V E} (h : DRel w w') (hw : w.OK) : w'.OK where
  loc_wf sid := (h.touched sid).wf (hw.loc_wf sid)
  tbl_wf := h.tblWF hw.tbl_wf
  refs_lt := h.refsLt hw.refs_lt
  key_ok sid t u r hr := by
    rw [h.findRef_eq] at hr
    rw [h.heap_eq r (hw.refs_lt _ _ _ _ hr)]
    exact hw.key_ok _ _ _ _ hr

/-- The contents as the store's methods see them, for every model name. -/
def rawSnap (A : Adapter V) (w : World V E) : Snap V :=
  match A.ref.store with
  | .local sid =>
    { all := fun t => (Dict.values (tbl w sid t)).map (fun r => (w.heap r).m)
      find := fun t u => (findRef w sid t u).map (fun r => (w.heap r).m) }
  | .redis sid =>
    { all := fun t => (scanKeys w.redis (storeLabel sid ++ (":" ++ (t ++ ":")))).filterMap
        (fun k => (Dict.get? w.redis k).map Obj.m)
      find := fun t u => (Dict.get? w.redis (redisKey sid t u)).map Obj.m }

theorem snap_all {A : Adapter V} {t : String} (h : A.Takes t) (w : World V E) : (snap A w).all t = (rawSnap A w).all t := by
  unfold Adapter.Takes at h
  unfold snap rawSnap
  cases hs : A.ref.store with
  | «local» sid => rfl
  | redis sid => rw [hs] at h; simp only; exact if_pos h
theorem snap_find {A : Adapter V} {t : String} (h : A.Takes t) (w : World V E) (u : String) : (snap A w).find t u = (rawSnap A w).find t u := by
  unfold Adapter.Takes at h
  unfold snap rawSnap
  cases hs : A.ref.store with
  | «local» sid => rfl
  | redis sid => rw [hs] at h; simp only; exact if_pos h
theorem takes_local {A : Adapter V} {sid : Nat} (h : A.ref.store = .local sid) (t : String) : A.Takes t := by
  unfold Adapter.Takes; rw [h]; trivial
theorem serves_local {A : Adapter V} {sid : Nat} (h : A.ref.store = .local sid) (S : Snap V) : Serves A S :=
  ⟨fun t _ => takes_local h t, fun _ _ _ ct _ => takes_local h ct, fun _ _ _ _ ct _ => takes_local h ct⟩
theorem rawSnap_local {A : Adapter V} {sid : Nat} (h : A.ref.store = .local sid) (w : World V E) : rawSnap A w = snap A w := by
  unfold snap rawSnap; rw [h]

theorem DRel.snap_eq {w w' : World V E} (h : DRel w w') (h1 : RefsLt w) (h2 : TblWF w) (A : Adapter V) :
    snap A w' = snap A w := by
  unfold snap
  split
  · congr 1
    · funext t
      rw [h.tbl_eq]
      apply List.map_congr_left
      intro r hr
      obtain ⟨u, hu⟩ := mem_values_findRef h2 hr
      rw [h.heap_eq r (h1 _ _ _ _ hu)]
    · funext t u
      rw [h.findRef_eq]
      cases hf : findRef w _ t u with
      | none => rfl
      | some r => simp only [Option.map_some]; rw [h.heap_eq r (h1 _ _ _ _ hf)]
  · rw [h.redis_eq]

theorem DRel.rawSnap_eq {w w' : World V E} (h : DRel w w') (h1 : RefsLt w) (h2 : TblWF w) (A : Adapter V) :
    rawSnap A w' = rawSnap A w := by
  unfold rawSnap
  split
  · congr 1
    · funext t
      rw [h.tbl_eq]
      apply List.map_congr_left
      intro r hr
      obtain ⟨u, hu⟩ := mem_values_findRef h2 hr
      rw [h.heap_eq r (h1 _ _ _ _ hu)]
    · funext t u
      rw [h.findRef_eq]
      cases hf : findRef w _ t u with
      | none => rfl
      | some r => simp only [Option.map_some]; rw [h.heap_eq r (h1 _ _ _ _ hf)]
  · rw [h.redis_eq]

theorem DRel.count_eq {w w' : World V E} (h : DRel w w') (k : StoreKind) : countStore k w' = countStore k w := by
  unfold countStore
  split
  · exact (h.touched _).sum
  · rw [h.redis_eq]

/-! ## primitive reads -/

theorem localModel_eq (sid : Nat) (t : String) (w : World V E) :
    localModel sid t w = (.ok (tbl w sid t), w.setLoc sid (touch (w.loc sid) t)) := by
  unfold localModel tbl
  simp only [get?_touch]

theorem DRel.setLoc_touch (w : World V E) (sid : Nat) (t : String) : DRel w (w.setLoc sid (touch (w.loc sid) t)) where
  next_le := Nat.le_refl _
  heap_eq _ _ := rfl
  touched s := by
    simp only [World.setLoc]
    split
    · rename_i h; subst h; exact .one _ _
    · exact .refl _
  redis_eq := rfl
  env_eq := rfl
  dtotal_eq := rfl
  trace := ⟨[], by simp [World.setLoc], .nil⟩
  sproc_eq := rfl
  stotal_eq := rfl
  sact_eq := rfl
  scls_eq := rfl
  slog_eq := rfl

theorem DRel.alloc (w : World V E) (o : Obj V) : DRel w (alloc o w).2 where
  next_le := Nat.le_succ _
  heap_eq r hr := by
    simp only [DS.alloc, World.setObj]
    rw [if_neg (Nat.ne_of_lt hr)]
  touched _ := .refl _
  redis_eq := rfl
  env_eq := rfl
  dtotal_eq := rfl
  trace := ⟨[], by simp [DS.alloc, World.setObj], .nil⟩
  sproc_eq := rfl
  stotal_eq := rfl
  sact_eq := rfl
  scls_eq := rfl
  slog_eq := rfl

/-- `w'` is `w` after reading from stores. -/
structure RRel (w w' : World V E) : Prop extends DRel w w' where
  dproc_eq : w'.dproc = w.dproc
  trace_eq : w'.trace = w.trace

theorem RRel.refl (w : World V E) : RRel w w := { DRel.refl w with dproc_eq := rfl, trace_eq := rfl }
theorem RRel.trans {a b c : World V E} (h1 : RRel a b) (h2 : RRel b c) : RRel a c :=
  { DRel.trans h1.toDRel h2.toDRel with
    dproc_eq := h2.dproc_eq.trans h1.dproc_eq, trace_eq := h2.trace_eq.trans h1.trace_eq }
theorem RRel.setLoc_touch (w : World V E) (sid : Nat) (t : String) : RRel w (w.setLoc sid (touch (w.loc sid) t)) :=
  { DRel.setLoc_touch w sid t with dproc_eq := rfl, trace_eq := rfl }
theorem RRel.alloc (w : World V E) (o : Obj V) : RRel w (alloc o w).2 :=
  { DRel.alloc w o with dproc_eq := rfl, trace_eq := rfl }

/-- `getRaw` finds exactly what the contents say. -/
theorem getRaw_spec (A : Adapter V) (t u : String) (w : World V E) (hw : RefsLt w) :
    RRel w (getRaw A t u w).2 ∧
    match (rawSnap A w).find t u with
    | none => (getRaw A t u w).1 = .error .objectNotFound
    | some m => ∃ r, (getRaw A t u w).1 = .ok r ∧ ((getRaw A t u w).2.heap r).m = m ∧ r < (getRaw A t u w).2.next ∧
        (∀ sid, A.ref.store = .local sid → findRef w sid t u = some r) := by
  unfold getRaw rawSnap
  cases hs : A.ref.store with
  | «local» sid =>
    simp only
    rw [M.bind_def, localModel_eq]
    simp only [M.ofOption]
    cases hf : findRef w sid t u with
    | none =>
      have : Dict.get? (tbl w sid t) u = none := hf
      simp only [this]
      exact ⟨RRel.setLoc_touch w sid t, trivial⟩
    | some r =>
      have : Dict.get? (tbl w sid t) u = some r := hf
      simp only [this]
      refine ⟨RRel.setLoc_touch w sid t, r, rfl, rfl, hw _ _ _ _ hf, ?_⟩
      intro s hs'
      cases hs'; exact hf
  | redis sid =>
    unfold redisLoad
    simp only
    cases hg : Dict.get? w.redis (redisKey sid t u) with
    | none => exact ⟨RRel.refl w, rfl⟩
    | some o =>
      refine ⟨RRel.alloc w _, w.next, rfl, ?_, Nat.lt_succ_self _, ?_⟩
      · simp [alloc, World.setObj]
      · intro s hs'; cases hs'

end DS
