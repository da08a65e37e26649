import Verif.Lemmas.PDiff
/-! What the write operations do to a local store. -/
set_option linter.unusedSectionVars false

namespace DS
variable {V E α β : Type} [PyVal V]

/-- Nothing but the `adapter` attribute of objects and the local tables changes. -/
structure Frame (w w' : World V E) : Prop where
  next_eq : w'.next = w.next
  redis_eq : w'.redis = w.redis
  env_eq : w'.env = w.env
  trace_eq : w'.trace = w.trace
  dproc_eq : w'.dproc = w.dproc
  dtotal_eq : w'.dtotal = w.dtotal
  sproc_eq : w'.sproc = w.sproc
  stotal_eq : w'.stotal = w.stotal
  sact_eq : w'.sact = w.sact
  scls_eq : w'.scls = w.scls
  slog_eq : w'.slog = w.slog
  heap_m : ∀ r, (w'.heap r).m = (w.heap r).m
  heap_status : ∀ r, (w'.heap r).status = (w.heap r).status
  loc_wf : ∀ sid, Dict.WF (w.loc sid) → Dict.WF (w'.loc sid)

theorem Frame.refl (w : World V E) : Frame w w :=
  ⟨rfl, rfl, rfl, rfl, rfl, rfl, rfl, rfl, rfl, rfl, rfl, fun _ => rfl, fun _ => rfl, fun _ h => h⟩

theorem Frame.trans {a b c : World V E} (h1 : Frame a b) (h2 : Frame b c) : Frame a c :=
  ⟨h2.next_eq.trans h1.next_eq, h2.redis_eq.trans h1.redis_eq, h2.env_eq.trans h1.env_eq,
   h2.trace_eq.trans h1.trace_eq, h2.dproc_eq.trans h1.dproc_eq, h2.dtotal_eq.trans h1.dtotal_eq,
   h2.sproc_eq.trans h1.sproc_eq, h2.stotal_eq.trans h1.stotal_eq, h2.sact_eq.trans h1.sact_eq,
   h2.scls_eq.trans h1.scls_eq, h2.slog_eq.trans h1.slog_eq,
   fun r => (h2.heap_m r).trans (h1.heap_m r), fun r => (h2.heap_status r).trans (h1.heap_status r),
   fun sid h => h2.loc_wf sid (h1.loc_wf sid h)⟩

theorem Frame.setLoc (w : World V E) (sid : Nat) (d : Dict (Dict Ref)) (h : Dict.WF (w.loc sid) → Dict.WF d) :
    Frame w (w.setLoc sid d) where
  next_eq := rfl
  redis_eq := rfl
  env_eq := rfl
  trace_eq := rfl
  dproc_eq := rfl
  dtotal_eq := rfl
  sproc_eq := rfl
  stotal_eq := rfl
  sact_eq := rfl
  scls_eq := rfl
  slog_eq := rfl
  heap_m _ := rfl
  heap_status _ := rfl
  loc_wf s hs := by
    simp only [World.setLoc]
    split
    · rename_i he; subst he; exact h hs
    · exact hs

theorem Frame.setAdapter (w : World V E) (r : Ref) (a : Option AdRef) :
    Frame w (w.setObj r { w.heap r with adapter := a }) where
  next_eq := rfl
  redis_eq := rfl
  env_eq := rfl
  trace_eq := rfl
  dproc_eq := rfl
  dtotal_eq := rfl
  sproc_eq := rfl
  stotal_eq := rfl
  sact_eq := rfl
  scls_eq := rfl
  slog_eq := rfl
  heap_m r' := by simp only [World.setObj]; split <;> simp_all
  heap_status r' := by simp only [World.setObj]; split <;> simp_all
  loc_wf _ h := h

theorem tbl_setObj (w : World V E) (r : Ref) (o : Obj V) (s : Nat) (t : String) : tbl (w.setObj r o) s t = tbl w s t := rfl
theorem findRef_setObj (w : World V E) (r : Ref) (o : Obj V) (s : Nat) (t u : String) :
    findRef (w.setObj r o) s t u = findRef w s t u := rfl

theorem tbl_setLoc_set (w : World V E) (sid : Nat) (t : String) (d : Dict Ref) (s : Nat) (t' : String) :
    tbl (w.setLoc sid (Dict.set (w.loc sid) t d)) s t' = if s = sid ∧ t' = t then d else tbl w s t' := by
  simp only [tbl, World.setLoc]
  by_cases hs : s = sid
  · subst hs
    simp only [if_true, true_and, Dict.get?_set]
    by_cases ht : t = t'
    · subst ht; simp
    · rw [if_neg ht, if_neg (fun h => ht h.symm)]
  · simp [hs]

theorem tbl_setLoc_touch (w : World V E) (sid : Nat) (t : String) (s : Nat) (t' : String) :
    tbl (w.setLoc sid (touch (w.loc sid) t)) s t' = tbl w s t' := (DRel.setLoc_touch w sid t).tbl_eq s t'

/-! ## add -/

/-- How tables look after storing `r`. -/
def TblSet (sid : Nat) (t u : String) (r : Ref) (w w' : World V E) : Prop :=
  ∀ s t', tbl w' s t' = if s = sid ∧ t' = t then Dict.set (tbl w sid t) u r else tbl w s t'
/-- How tables look after removing a key. -/
def TblErase (sid : Nat) (t u : String) (w w' : World V E) : Prop :=
  ∀ s t', tbl w' s t' = if s = sid ∧ t' = t then Dict.erase (tbl w sid t) u else tbl w s t'
/-- Tables are unchanged. -/
def TblSame (w w' : World V E) : Prop := ∀ s t, tbl w' s t = tbl w s t

theorem TblSet.findRef {sid : Nat} {t u : String} {r : Ref} {w w' : World V E} (h : TblSet sid t u r w w') (s : Nat) (t' u' : String) :
    findRef w' s t' u' = if s = sid ∧ t' = t ∧ u' = u then some r else findRef w s t' u' := by
  unfold DS.findRef
  rw [h]
  by_cases h1 : s = sid ∧ t' = t
  · obtain ⟨rfl, rfl⟩ := h1
    simp only [true_and, if_true, Dict.get?_set]
    by_cases h2 : u = u'
    · subst h2; simp
    · rw [if_neg h2, if_neg (fun h => h2 h.symm)]
  · rw [if_neg h1, if_neg (fun h => h1 ⟨h.1, h.2.1⟩)]

theorem TblErase.findRef {sid : Nat} {t u : String} {w w' : World V E} (h : TblErase sid t u w w') (s : Nat) (t' u' : String) :
    findRef w' s t' u' = if s = sid ∧ t' = t ∧ u' = u then none else findRef w s t' u' := by
  unfold DS.findRef
  rw [h]
  by_cases h1 : s = sid ∧ t' = t
  · obtain ⟨rfl, rfl⟩ := h1
    simp only [true_and, if_true, Dict.get?_erase]
    by_cases h2 : u = u'
    · subst h2; simp
    · rw [if_neg h2, if_neg (fun h => h2 h.symm)]
  · rw [if_neg h1, if_neg (fun h => h1 ⟨h.1, h.2.1⟩)]

theorem TblSame.findRef {w w' : World V E} (h : TblSame w w') (s : Nat) (t u : String) :
    findRef w' s t u = findRef w s t u := by unfold DS.findRef; rw [h]

section
variable {A : Adapter V} {sid : Nat} (hA : A.ref.store = .local sid)
include hA

theorem add_local_some (r r' : Ref) (w : World V E)
    (h : findRef w sid (w.heap r).m.type (w.heap r).m.uid = some r') :
    ∃ w', add A r w = (if r' = r then (.ok (), w') else (.error .objectAlreadyExists, w')) ∧ Frame w w' ∧ TblSame w w' ∧ w'.heap = w.heap := by
  refine ⟨w.setLoc sid (touch (w.loc sid) (w.heap r).m.type), ?_, Frame.setLoc _ _ _ (fun h => wf_touch h _), tbl_setLoc_touch _ _ _, rfl⟩
  unfold add
  rw [deref_bind]
  simp only [hA]
  rw [M.bind_ok (localModel_eq sid _ w)]
  have : Dict.get? (tbl w sid (w.heap r).m.type) (w.heap r).m.uid = some r' := h
  simp only [this]
  split <;> rfl

theorem add_local_none (r : Ref) (w : World V E)
    (h : findRef w sid (w.heap r).m.type (w.heap r).m.uid = none) :
    ∃ w', add A r w = (.ok (), w') ∧ Frame w w' ∧ TblSet sid (w.heap r).m.type (w.heap r).m.uid r w w' ∧
      (∀ r', r' ≠ r → w'.heap r' = w.heap r') := by
  unfold add
  rw [deref_bind]
  simp only [hA]
  rw [M.bind_ok (localModel_eq sid _ w)]
  have : Dict.get? (tbl w sid (w.heap r).m.type) (w.heap r).m.uid = none := h
  simp only [this]
  rw [M.read_bind]
  generalize hw1 : w.setLoc sid (touch (w.loc sid) (w.heap r).m.type) = w1
  have f1 : Frame w w1 := by rw [← hw1]; exact Frame.setLoc _ _ _ (fun h => wf_touch h _)
  have t1 : TblSame w w1 := by rw [← hw1]; exact tbl_setLoc_touch _ _ _
  have h1 : w1.heap = w.heap := by rw [← hw1]; rfl
  have key : ∀ w2 : World V E, Frame w w2 → TblSame w w2 → (∀ r', r' ≠ r → w2.heap r' = w.heap r') →
      ∃ w', (Except.ok (ε := Err) (), w2.setLoc sid (Dict.set (w2.loc sid) (w.heap r).m.type (Dict.set (tbl w sid (w.heap r).m.type) (w.heap r).m.uid r))) = (.ok (), w') ∧
        Frame w w' ∧ TblSet sid (w.heap r).m.type (w.heap r).m.uid r w w' ∧ (∀ r', r' ≠ r → w'.heap r' = w.heap r') := by
    intro w2 f2 t2 h2
    refine ⟨_, rfl, f2.trans (Frame.setLoc _ _ _ (fun h => Dict.wf_set h _ _)), ?_, h2⟩
    intro s t'
    rw [tbl_setLoc_set]
    split
    · rfl
    · exact t2 s t'
  split
  · exact key w1 f1 t1 (fun _ _ => by rw [h1])
  · rw [writeObj_bind]
    have : w1.setObj r { w.heap r with adapter := some A.ref } = w1.setObj r { w1.heap r with adapter := some A.ref } := by rw [h1]
    rw [this]
    refine key _ (f1.trans (Frame.setAdapter _ _ _)) (fun s t => t1 s t) ?_
    intro r' hr'
    simp only [World.setObj, if_neg hr', h1]

theorem update_local (r : Ref) (w : World V E) :
    ∃ w', update A r w = (.ok (), w') ∧ Frame w w' ∧ TblSet sid (w.heap r).m.type (w.heap r).m.uid r w w' ∧ w'.heap = w.heap := by
  unfold update
  rw [deref_bind]
  simp only [hA]
  rw [M.bind_ok (localModel_eq sid _ w)]
  generalize hw1 : w.setLoc sid (touch (w.loc sid) (w.heap r).m.type) = w1
  have f1 : Frame w w1 := by rw [← hw1]; exact Frame.setLoc _ _ _ (fun h => wf_touch h _)
  have t1 : TblSame w w1 := by rw [← hw1]; exact tbl_setLoc_touch _ _ _
  have h1 : w1.heap = w.heap := by rw [← hw1]; rfl
  split
  · rename_i hg
    refine ⟨w1, rfl, f1, ?_, h1⟩
    intro s t'
    rw [t1]
    split
    · rename_i hc
      obtain ⟨rfl, rfl⟩ := hc
      have hself : ∀ (d : Dict Ref) (u : String), Dict.get? d u = some r → Dict.set d u r = d := by
        intro d u
        induction d with
        | nil => intro h; cases h
        | cons p d ih =>
          intro h
          obtain ⟨k, v⟩ := p
          rw [Dict.get?_cons] at h
          unfold Dict.set
          by_cases hk : k = u
          · rw [if_pos hk] at h ⊢; cases h; rfl
          · rw [if_neg hk] at h ⊢; rw [ih h]
      exact (hself _ _ hg).symm
    · rfl
  · refine ⟨_, rfl, f1.trans (Frame.setLoc _ _ _ (fun h => Dict.wf_set h _ _)), ?_, h1⟩
    intro s t'
    rw [tbl_setLoc_set]
    split
    · rfl
    · exact t1 s t'

theorem removeItem_local (t u : String) (w : World V E) :
    ∃ w', removeItem A t u w = (if (findRef w sid t u).isSome then (.ok (), w') else (.error .objectNotFound, w')) ∧ Frame w w' ∧
      TblErase sid t u w w' ∧ w'.heap = w.heap := by
  unfold removeItem
  simp only [hA]
  rw [M.bind_ok (localModel_eq sid _ w)]
  generalize hw1 : w.setLoc sid (touch (w.loc sid) t) = w1
  have f1 : Frame w w1 := by rw [← hw1]; exact Frame.setLoc _ _ _ (fun h => wf_touch h _)
  have t1 : TblSame w w1 := by rw [← hw1]; exact tbl_setLoc_touch _ _ _
  have h1 : w1.heap = w.heap := by rw [← hw1]; rfl
  split
  · rename_i hh
    obtain ⟨v, hv⟩ := Dict.mem_keys_iff.1 (Dict.has_iff.1 hh)
    have : findRef w sid t u = some v := hv
    rw [this]
    refine ⟨_, rfl, f1.trans (Frame.setLoc _ _ _ (fun h => Dict.wf_set h _ _)), ?_, h1⟩
    intro s t'
    rw [tbl_setLoc_set]
    split
    · rfl
    · exact t1 s t'
  · rename_i hh
    have hk : u ∉ Dict.keys (tbl w sid t) := fun h => hh (Dict.has_iff.2 h)
    have : findRef w sid t u = none := Dict.get?_eq_none_iff.2 hk
    rw [this]
    refine ⟨w1, rfl, f1, ?_, h1⟩
    intro s t'
    rw [t1]
    split
    · rename_i hc
      obtain ⟨rfl, rfl⟩ := hc
      rw [Dict.erase_of_not_mem hk]
    · rfl

theorem removeOne_local (r : Ref) (w : World V E) :
    ∃ w', removeOne A r w = (if (findRef w sid (w.heap r).m.type (w.heap r).m.uid).isSome then (.ok (), w') else (.error .objectNotFound, w')) ∧
      Frame w w' ∧ TblErase sid (w.heap r).m.type (w.heap r).m.uid w w' ∧ (∀ r', r' ≠ r → w'.heap r' = w.heap r') := by
  unfold removeOne
  rw [deref_bind]
  obtain ⟨w1, h1, f1, t1, p1⟩ := removeItem_local hA (w.heap r).m.type (w.heap r).m.uid w
  split at h1
  · rename_i hs
    rw [M.bind_ok h1, M.read_bind]
    simp only [if_pos hs]
    split
    · have : writeObj r { w.heap r with adapter := none } w1 = (.ok (), w1.setObj r { w1.heap r with adapter := none }) := by
        rw [p1]; rfl
      rw [this]
      refine ⟨_, rfl, f1.trans (Frame.setAdapter _ _ _), fun s t => t1 s t, ?_⟩
      intro r' hr'
      simp only [World.setObj, if_neg hr', p1]
    · exact ⟨w1, rfl, f1, t1, fun _ _ => by rw [p1]⟩
  · rename_i hs
    rw [M.bind_err h1]
    simp only [if_neg hs]
    exact ⟨w1, rfl, f1, t1, fun _ _ => by rw [p1]⟩
end

/-! ## preservation of `World.OK` -/

theorem OK.of_same {w w' : World V E} (h : w.OK) (f : Frame w w') (t : TblSame w w') : w'.OK where
  loc_wf sid := f.loc_wf sid (h.loc_wf sid)
  tbl_wf s t' := by rw [t]; exact h.tbl_wf s t'
  refs_lt s t' u r hr := by rw [t.findRef] at hr; rw [f.next_eq]; exact h.refs_lt _ _ _ _ hr
  key_ok s t' u r hr := by rw [t.findRef] at hr; rw [f.heap_m]; exact h.key_ok _ _ _ _ hr

theorem OK.of_set {w w' : World V E} (h : w.OK) (f : Frame w w') {sid : Nat} {r : Ref} (hr : r < w.next)
    (t : TblSet sid (w.heap r).m.type (w.heap r).m.uid r w w') : w'.OK where
  loc_wf sid := f.loc_wf sid (h.loc_wf sid)
  tbl_wf s t' := by
    rw [t]; split
    · exact Dict.wf_set (h.tbl_wf _ _) _ _
    · exact h.tbl_wf s t'
  refs_lt s t' u r' hr' := by
    rw [t.findRef] at hr'; rw [f.next_eq]
    split at hr'
    · cases hr'; exact hr
    · exact h.refs_lt _ _ _ _ hr'
  key_ok s t' u r' hr' := by
    rw [t.findRef] at hr'; rw [f.heap_m]
    split at hr'
    · rename_i hc; cases hr'; exact ⟨hc.2.1.symm, hc.2.2.symm⟩
    · exact h.key_ok _ _ _ _ hr'

theorem OK.of_erase {w w' : World V E} (h : w.OK) (f : Frame w w') {sid : Nat} {t u : String}
    (t : TblErase sid t u w w') : w'.OK where
  loc_wf sid := f.loc_wf sid (h.loc_wf sid)
  tbl_wf s t' := by
    rw [t]; split
    · exact Dict.wf_erase (h.tbl_wf _ _) _
    · exact h.tbl_wf s t'
  refs_lt s t' u r' hr' := by
    rw [t.findRef] at hr'; rw [f.next_eq]
    split at hr'
    · cases hr'
    · exact h.refs_lt _ _ _ _ hr'
  key_ok s t' u r' hr' := by
    rw [t.findRef] at hr'; rw [f.heap_m]
    split at hr'
    · cases hr'
    · exact h.key_ok _ _ _ _ hr'

theorem OK.of_heap {w w' : World V E} (h : w.OK) (hn : w.next ≤ w'.next) (hl : w'.loc = w.loc)
    (hh : ∀ r, r < w.next → (w'.heap r).m.type = (w.heap r).m.type ∧ (w'.heap r).m.uid = (w.heap r).m.uid) : w'.OK where
  loc_wf sid := by rw [hl]; exact h.loc_wf sid
  tbl_wf s t' := by unfold tbl; rw [hl]; exact h.tbl_wf s t'
  refs_lt s t' u r hr := by
    unfold findRef tbl at hr; rw [hl] at hr
    exact Nat.lt_of_lt_of_le (h.refs_lt _ _ _ _ hr) hn
  key_ok s t' u r hr := by
    unfold findRef tbl at hr; rw [hl] at hr
    have hlt := h.refs_lt _ _ _ _ hr
    rw [(hh r hlt).1, (hh r hlt).2]
    exact h.key_ok _ _ _ _ hr

theorem OK.alloc {w : World V E} (h : w.OK) (o : Obj V) : (alloc o w).2.OK := (DRel.alloc w o).ok h

theorem OK.add {w : World V E} (h : w.OK) {A : Adapter V} {r : Ref} (hr : r < w.next) : (add A r w).2.OK := by
  cases hs : A.ref.store with
  | «local» sid =>
    cases hf : findRef w sid (w.heap r).m.type (w.heap r).m.uid with
    | none =>
      obtain ⟨w', h1, f, t, _⟩ := add_local_none hs r w hf
      rw [h1]; exact OK.of_set h f hr t
    | some r' =>
      obtain ⟨w', h1, f, t, _⟩ := add_local_some hs r r' w hf
      rw [h1]; split <;> exact OK.of_same h f t
  | redis sid =>
    unfold DS.add
    rw [deref_bind]
    simp only [hs]
    rw [M.read_bind]
    cases Dict.get? w.redis (redisKey sid (w.heap r).m.type (w.heap r).m.uid) with
    | some o' =>
      simp only
      split <;> exact h
    | none => exact OK.of_heap h (Nat.le_refl _) rfl (fun _ _ => ⟨rfl, rfl⟩)

end DS
