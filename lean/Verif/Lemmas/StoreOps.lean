import Verif.Lemmas.Redis
/-! Store operations refine operations on a map. -/
set_option linter.unusedSectionVars false

namespace DS
variable {V E : Type} [PyVal V]

/-! ## small facts -/

theorem Dict.values_map_some {α : Type} {d : Dict α} (hd : Dict.WF d) :
    (Dict.values d).map some = (Dict.keys d).map (Dict.get? d) := by
  unfold Dict.values Dict.keys
  rw [List.map_map, List.map_map]
  apply List.map_congr_left
  intro p hp
  exact (Dict.get?_of_mem hd hp).symm

theorem remove_one_eq (A : Adapter V) (r : Ref) (w : World V E) : remove A 1 r false w = removeOne A r w := by
  unfold remove
  rw [deref_bind, M.bind_def]
  cases h : removeOne A r w with
  | mk a w' => cases a <;> rfl

theorem TblSame.localMaps {w w' : World V E} (h : TblSame w w') : localMaps w' = localMaps w := by
  funext k t u
  unfold DS.localMaps
  cases k with
  | «local» sid => exact h.findRef sid t u
  | redis _ => rfl

theorem TblSet.localMaps {w w' : World V E} {sid : Nat} {t u : String} {r : Ref} (h : TblSet sid t u r w w') :
    localMaps w' = (localMaps w).put (.local sid) t u (some r) := by
  funext k t' u'
  unfold DS.localMaps Maps.put
  cases k with
  | «local» s => simp only [h.findRef, StoreKind.local.injEq]
  | redis _ => simp

theorem TblErase.localMaps {w w' : World V E} {sid : Nat} {t u : String} (h : TblErase sid t u w w') :
    localMaps w' = (localMaps w).put (.local sid) t u none := by
  funext k t' u'
  unfold DS.localMaps Maps.put
  cases k with
  | «local» s => simp only [h.findRef, StoreKind.local.injEq]
  | redis _ => simp

theorem Frame.ok_keys {w w' : World V E} (f : Frame w w') (r : Ref) :
    (w'.heap r).m.type = (w.heap r).m.type ∧ (w'.heap r).m.uid = (w.heap r).m.uid := by rw [f.heap_m]; exact ⟨rfl, rfl⟩

/-- What an operation on a local store does. -/
theorem runOp_local {A : Adapter V} {sid : Nat} (hA : A.ref.store = .local sid) (op : StoreOp) (w : World V E) (hw : w.OK)
    (hr : ∀ r, op.ref? = some r → r < w.next) :
    ∃ res w', runOp A op w = (res, w') ∧
      MapStep (fun r => ((w.heap r).m.type, (w.heap r).m.uid)) id (fun a b => a = b) (.local sid) op (localMaps w) res (localMaps w') ∧
      w'.OK ∧ Frame w w' := by
  cases op with
  | add r =>
    cases hf : findRef w sid (w.heap r).m.type (w.heap r).m.uid with
    | none =>
      obtain ⟨w', h1, f, t, _⟩ := add_local_none hA r w hf
      refine ⟨.ok [], w', ?_, ?_, OK.of_set hw f (hr r rfl) t, f⟩
      · exact M.bind_ok h1
      · rw [t.localMaps]; exact .addNew hf
    | some r' =>
      obtain ⟨w', h1, f, t, _⟩ := add_local_some hA r r' w hf
      by_cases h : r' = r
      · rw [if_pos h] at h1
        refine ⟨.ok [], w', M.bind_ok h1, ?_, OK.of_same hw f t, f⟩
        rw [t.localMaps]; exact .addSame hf h
      · rw [if_neg h] at h1
        refine ⟨.error .objectAlreadyExists, w', M.bind_err h1, ?_, OK.of_same hw f t, f⟩
        rw [t.localMaps]; exact .addOther hf h
  | update r =>
    obtain ⟨w', h1, f, t, _⟩ := update_local hA r w
    refine ⟨.ok [], w', M.bind_ok h1, ?_, OK.of_set hw f (hr r rfl) t, f⟩
    rw [t.localMaps]; exact .update
  | remove r =>
    obtain ⟨w', h1, f, t, _⟩ := removeOne_local hA r w
    have h2 : runOp A (.remove r) w = (removeOne A r >>= fun _ => Pure.pure []) w := by
      simp only [runOp]
      rw [M.bind_def, remove_one_eq, M.bind_def]
    rw [h2]
    cases hf : findRef w sid (w.heap r).m.type (w.heap r).m.uid with
    | none =>
      rw [hf] at h1
      refine ⟨.error .objectNotFound, w', M.bind_err h1, ?_, OK.of_erase hw f t, f⟩
      have : localMaps w' = localMaps w := by
        rw [t.localMaps]
        funext k t' u'
        unfold Maps.put
        split
        · rename_i h; obtain ⟨rfl, rfl, rfl⟩ := h; exact hf.symm
        · rfl
      rw [this]; exact .removeAbsent hf
    | some r' =>
      rw [hf] at h1
      refine ⟨.ok [], w', M.bind_ok h1, ?_, OK.of_erase hw f t, f⟩
      rw [t.localMaps]
      refine .remove ?_
      show findRef w sid _ _ ≠ none
      rw [hf]; simp
  | get t u =>
    have hg : get A (.name t) (.uid u) w = getRaw A t u w := rfl
    have ht : TblSame w (w.setLoc sid (touch (w.loc sid) t)) := tbl_setLoc_touch _ _ _
    have hfr : Frame w (w.setLoc sid (touch (w.loc sid) t)) := Frame.setLoc _ _ _ (fun h => wf_touch h _)
    have hraw : getRaw A t u w = M.ofOption .objectNotFound (findRef w sid t u) (w.setLoc sid (touch (w.loc sid) t)) := by
      unfold getRaw
      simp only [hA]
      rw [M.bind_ok (localModel_eq sid t w)]; rfl
    cases hf : findRef w sid t u with
    | none =>
      rw [hf] at hraw
      refine ⟨.error .objectNotFound, _, M.bind_err (hg.trans hraw), ?_, OK.of_same hw hfr ht, hfr⟩
      rw [ht.localMaps]; exact .getAbsent hf
    | some r =>
      rw [hf] at hraw
      refine ⟨.ok [r], _, M.bind_ok (hg.trans hraw), ?_, OK.of_same hw hfr ht, hfr⟩
      rw [ht.localMaps]; exact .get hf
  | getOrNone t u =>
    have hg : get A (.name t) (.uid u) w = getRaw A t u w := rfl
    have ht : TblSame w (w.setLoc sid (touch (w.loc sid) t)) := tbl_setLoc_touch _ _ _
    have hfr : Frame w (w.setLoc sid (touch (w.loc sid) t)) := Frame.setLoc _ _ _ (fun h => wf_touch h _)
    have hraw : getRaw A t u w = M.ofOption .objectNotFound (findRef w sid t u) (w.setLoc sid (touch (w.loc sid) t)) := by
      unfold getRaw
      simp only [hA]
      rw [M.bind_ok (localModel_eq sid t w)]; rfl
    cases hf : findRef w sid t u with
    | none =>
      rw [hf] at hraw
      have : getOrNone A (.name t) (.uid u) w = (.ok none, w.setLoc sid (touch (w.loc sid) t)) := by
        unfold getOrNone M.tryCatch
        rw [M.bind_err (hg.trans hraw)]; rfl
      refine ⟨.ok [], _, M.bind_ok this, ?_, OK.of_same hw hfr ht, hfr⟩
      rw [ht.localMaps]; exact .getOrNoneAbsent hf
    | some r =>
      rw [hf] at hraw
      have : getOrNone A (.name t) (.uid u) w = (.ok (some r), w.setLoc sid (touch (w.loc sid) t)) := by
        unfold getOrNone M.tryCatch
        rw [M.bind_ok (hg.trans hraw)]; rfl
      refine ⟨.ok [r], _, M.bind_ok this, ?_, OK.of_same hw hfr ht, hfr⟩
      rw [ht.localMaps]; exact .getOrNone hf
  | getAll t =>
    have ht : TblSame w (w.setLoc sid (touch (w.loc sid) t)) := tbl_setLoc_touch _ _ _
    have hfr : Frame w (w.setLoc sid (touch (w.loc sid) t)) := Frame.setLoc _ _ _ (fun h => wf_touch h _)
    refine ⟨.ok (Dict.values (tbl w sid t)), w.setLoc sid (touch (w.loc sid) t), ?_, ?_, OK.of_same hw hfr ht, hfr⟩
    · simp only [runOp, getAll]
      simp only [hA]
      rw [M.bind_ok (localModel_eq sid t w)]; rfl
    · rw [ht.localMaps]
      refine .getAll (Dict.keys (tbl w sid t)) (hw.tbl_wf sid t) (fun u => ?_) ?_
      · rw [Dict.mem_keys_iff]
        show _ ↔ findRef w sid t u ≠ none
        unfold findRef
        cases Dict.get? (tbl w sid t) u <;> simp
      · exact Dict.values_map_some (hw.tbl_wf sid t)

/-! ## Redis -/

theorem redisMaps_set {w : World V E} {sid t u : String} (h1 : Plain sid) (h2 : Plain t) (o : Obj V) :
    redisMaps { w with redis := Dict.set w.redis (redisKey sid t u) o } = (redisMaps w).put (.redis sid) t u (some o) := by
  funext k t' u'
  unfold redisMaps Maps.put
  cases k with
  | «local» _ => simp
  | redis sid' =>
    simp only [StoreKind.redis.injEq]
    by_cases hc : Plain sid' ∧ Plain t'
    · simp only [if_pos hc, Dict.get?_set]
      by_cases he : sid' = sid ∧ t' = t ∧ u' = u
      · obtain ⟨rfl, rfl, rfl⟩ := he; simp
      · rw [if_neg he, if_neg]
        intro h
        obtain ⟨a, b, c⟩ := redisKey_inj h1 hc.1 h2 hc.2 h
        exact he ⟨a.symm, b.symm, c.symm⟩
    · simp only [if_neg hc]
      rw [if_neg]
      rintro ⟨rfl, rfl, _⟩
      exact hc ⟨h1, h2⟩

theorem redisMaps_erase {w : World V E} {sid t u : String} (h1 : Plain sid) (h2 : Plain t) :
    redisMaps { w with redis := Dict.erase w.redis (redisKey sid t u) } = (redisMaps w).put (.redis sid) t u none := by
  funext k t' u'
  unfold redisMaps Maps.put
  cases k with
  | «local» _ => simp
  | redis sid' =>
    simp only [StoreKind.redis.injEq]
    by_cases hc : Plain sid' ∧ Plain t'
    · simp only [if_pos hc, Dict.get?_erase]
      by_cases he : sid' = sid ∧ t' = t ∧ u' = u
      · obtain ⟨rfl, rfl, rfl⟩ := he; simp
      · rw [if_neg he, if_neg]
        intro h
        obtain ⟨a, b, c⟩ := redisKey_inj h1 hc.1 h2 hc.2 h
        exact he ⟨a.symm, b.symm, c.symm⟩
    · simp only [if_neg hc]
      rw [if_neg]
      rintro ⟨rfl, rfl, _⟩
      exact hc ⟨h1, h2⟩

theorem redisOK_set {w : World V E} (hw : RedisOK w) {sid t : String} (u : String) (h1 : Plain sid) (h2 : Plain t) (o : Obj V) :
    RedisOK { w with redis := Dict.set w.redis (redisKey sid t u) o } where
  wf := Dict.wf_set hw.wf _ _
  keys k hk hp := by
    simp only [Dict.keys_set] at hk
    split at hk
    · exact hw.keys k hk hp
    · rcases List.mem_append.1 hk with hk | hk
      · exact hw.keys k hk hp
      · rw [List.mem_singleton] at hk; exact ⟨sid, t, u, h1, h2, hk⟩

theorem redisOK_erase {w : World V E} (hw : RedisOK w) (x : String) :
    RedisOK { w with redis := Dict.erase w.redis x } where
  wf := Dict.wf_erase hw.wf _
  keys k hk hp := by
    simp only [Dict.keys_erase] at hk
    exact hw.keys k (List.mem_filter.1 hk).1 hp

/-- The stored form of an instance: what `pickle` sees of it when `store.add` has set `adapter` aside. -/
def Obj.stored (o : Obj V) : Obj V := { o with adapter := none }

/-- The `adapter` attribute of objects may change and objects may be allocated. -/
structure HeapKept (w w' : World V E) : Prop where
  next_le : w.next ≤ w'.next
  heap : ∀ r, r < w.next → (w'.heap r).stored = (w.heap r).stored

theorem HeapKept.refl (w : World V E) : HeapKept w w := ⟨Nat.le_refl _, fun _ _ => rfl⟩
theorem HeapKept.trans {a b c : World V E} (h1 : HeapKept a b) (h2 : HeapKept b c) : HeapKept a c :=
  ⟨Nat.le_trans h1.next_le h2.next_le, fun r hr => (h2.heap r (Nat.lt_of_lt_of_le hr h1.next_le)).trans (h1.heap r hr)⟩

/-- Everything stored on the server has been stored without its adapter. -/
def RedisDetached (w : World V E) : Prop := ∀ k o, Dict.get? w.redis k = some o → o.adapter = none

theorem stored_eq_self {o : Obj V} (h : o.adapter = none) : o.stored = o := by
  cases o; simp only at h; subst h; rfl

theorem mapEach_load {A : Adapter V} (l : List String) (w : World V E) (hd : RedisDetached w) (hl : ∀ k ∈ l, k ∈ Dict.keys w.redis) :
    ∃ rs w', M.mapEach (redisLoad A) l w = (.ok rs, w') ∧ HeapKept w w' ∧ w'.redis = w.redis ∧ (∀ r ∈ rs, r < w'.next) ∧
      (rs.map (fun r => some (w'.heap r).stored)) = l.map (Dict.get? w.redis) := by
  induction l generalizing w with
  | nil => exact ⟨[], w, rfl, .refl w, rfl, by simp, rfl⟩
  | cons k l ih =>
    obtain ⟨o, ho⟩ := Dict.mem_keys_iff.1 (hl k (by simp))
    have h1 : redisLoad A k w = (.ok w.next, (alloc { o with adapter := some A.ref } w).2) := by
      unfold redisLoad; rw [ho]; rfl
    generalize hw1 : (alloc { o with adapter := some A.ref } w).2 = w1 at h1
    have hr1 : w1.redis = w.redis := by rw [← hw1]; rfl
    have hn1 : w1.next = w.next + 1 := by rw [← hw1]; rfl
    have hh1 : w1.heap w.next = { o with adapter := some A.ref } := by rw [← hw1]; simp [alloc, World.setObj]
    have k1 : HeapKept w w1 := by
      refine ⟨by rw [hn1]; exact Nat.le_succ _, fun r hr => ?_⟩
      rw [← hw1]
      simp only [alloc, World.setObj]
      rw [if_neg (Nat.ne_of_lt hr)]
    obtain ⟨rs, w', e', k', r', lt', m'⟩ := ih w1 (by unfold RedisDetached; rw [hr1]; exact hd) (fun x hx => by rw [hr1]; exact hl x (by simp [hx]))
    refine ⟨w.next :: rs, w', ?_, k1.trans k', r'.trans hr1, ?_, ?_⟩
    · rw [M.mapEach_cons, M.bind_ok h1, M.bind_ok e']; rfl
    · intro r hr
      rcases List.mem_cons.1 hr with rfl | hr
      · exact Nat.lt_of_lt_of_le (by rw [hn1]; exact Nat.lt_succ_self _) k'.next_le
      · exact lt' r hr
    · simp only [List.map_cons, ho, hr1] at m' ⊢
      rw [m', k'.heap _ (by rw [hn1]; exact Nat.lt_succ_self _), hh1]
      congr 2
      exact stored_eq_self (hd _ _ ho)

/-- What an operation on a Redis store does. -/
theorem runOp_redis {A : Adapter V} {sid : String} (hA : A.ref.store = .redis sid) (op : StoreOp) (w : World V E) (hw : RedisOK w)
    (hd : RedisDetached w) (hs : Plain sid) (hr : ∀ r, op.ref? = some r → r < w.next ∧ Plain (w.heap r).m.type)
    (ht : ∀ t, op.name? = some t → Plain t) :
    ∃ res w', runOp A op w = (res, w') ∧
      MapStep (fun r => ((w.heap r).m.type, (w.heap r).m.uid)) (fun r => (w.heap r).stored) (fun a b => a.m.dictEq b.m = true) (.redis sid) op
        (redisMaps w) (res.map (fun l => l.map (fun r => (w'.heap r).stored))) (redisMaps w') ∧
      RedisOK w' ∧ RedisDetached w' ∧ HeapKept w w' := by
  have hmap : ∀ t u, Plain t → redisMaps w (.redis sid) t u = Dict.get? w.redis (redisKey sid t u) := by
    intro t u h
    simp [redisMaps, hs, h]
  have hdet : ∀ k o, o.adapter = none → RedisDetached ({ w with redis := Dict.set w.redis k o } : World V E) := by
    intro k o ho k' o' h'
    simp only [Dict.get?_set] at h'
    split at h'
    · cases h'; exact ho
    · exact hd _ _ h'
  cases op with
  | add r =>
    obtain ⟨hlt, hn⟩ := hr r rfl
    cases hg : Dict.get? w.redis (redisKey sid (w.heap r).m.type (w.heap r).m.uid) with
    | none =>
      refine ⟨.ok [], { w with redis := Dict.set w.redis (redisKey sid (w.heap r).m.type (w.heap r).m.uid) (w.heap r).stored }, ?_, ?_,
        redisOK_set hw _ hs hn _, hdet _ _ rfl, ⟨Nat.le_refl _, fun _ _ => rfl⟩⟩
      · simp only [runOp, add]
        rw [M.bind_assoc', deref_bind]
        simp only [hA]
        rw [M.bind_assoc', M.read_bind, hg]
        rfl
      · rw [redisMaps_set hs hn]
        exact .addNew (by rw [hmap _ _ hn, hg])
    | some o' =>
      by_cases he : o'.m.dictEq (w.heap r).m = true
      · refine ⟨.ok [], w, ?_, .addSame (by rw [hmap _ _ hn, hg]) he, hw, hd, .refl w⟩
        simp only [runOp, add]
        rw [M.bind_assoc', deref_bind]
        simp only [hA]
        rw [M.bind_assoc', M.read_bind, hg]
        simp only [he, if_true]
        rfl
      · refine ⟨.error .objectAlreadyExists, w, ?_, .addOther (by rw [hmap _ _ hn, hg]) he, hw, hd, .refl w⟩
        simp only [runOp, add]
        rw [M.bind_assoc', deref_bind]
        simp only [hA]
        rw [M.bind_assoc', M.read_bind, hg]
        simp only [he, if_false, Bool.false_eq_true]
        rfl
  | update r =>
    obtain ⟨hlt, hn⟩ := hr r rfl
    refine ⟨.ok [], { w with redis := Dict.set w.redis (redisKey sid (w.heap r).m.type (w.heap r).m.uid) (w.heap r).stored }, ?_, ?_,
      redisOK_set hw _ hs hn _, hdet _ _ rfl, ⟨Nat.le_refl _, fun _ _ => rfl⟩⟩
    · simp only [runOp, update]
      rw [M.bind_assoc', deref_bind]
      simp only [hA]
      rfl
    · rw [redisMaps_set hs hn]; exact .update
  | remove r =>
    obtain ⟨hlt, hn⟩ := hr r rfl
    have h2 : runOp A (.remove r) w = (removeOne A r >>= fun _ => Pure.pure []) w := by
      simp only [runOp]
      rw [M.bind_def, remove_one_eq, M.bind_def]
    rw [h2]
    cases hg : Dict.get? w.redis (redisKey sid (w.heap r).m.type (w.heap r).m.uid) with
    | none =>
      refine ⟨.error .objectNotFound, w, ?_, .removeAbsent (by rw [hmap _ _ hn, hg]), hw, hd, .refl w⟩
      unfold removeOne removeItem
      rw [M.bind_assoc', deref_bind]
      simp only [hA]
      have : Dict.has w.redis (redisKey sid (w.heap r).m.type (w.heap r).m.uid) = false := by unfold Dict.has; rw [hg]; rfl
      rw [M.bind_assoc', M.bind_assoc', M.read_bind]
      simp only [this, if_false, Bool.false_eq_true]
      rfl
    | some o =>
      have hh : Dict.has w.redis (redisKey sid (w.heap r).m.type (w.heap r).m.uid) = true := by unfold Dict.has; rw [hg]; rfl
      generalize hw1 : ({ w with redis := Dict.erase w.redis (redisKey sid (w.heap r).m.type (w.heap r).m.uid) } : World V E) = w1
      have hrun : ∃ w', (removeOne A r >>= fun _ => Pure.pure []) w = ((.ok [] : Except Err (List Ref)), w') ∧ (w' = w1 ∨ w' = w1.setObj r { w.heap r with adapter := none }) := by
        unfold removeOne removeItem
        rw [M.bind_assoc', deref_bind]
        simp only [hA]
        rw [M.bind_assoc', M.bind_assoc', M.read_bind]
        simp only [hh, if_true]
        rw [M.modify_bind, M.bind_assoc', M.read_bind, hw1]
        split
        · exact ⟨_, rfl, .inr rfl⟩
        · exact ⟨_, rfl, .inl rfl⟩
      obtain ⟨w', hrun, hcase⟩ := hrun
      have hred : w'.redis = Dict.erase w.redis (redisKey sid (w.heap r).m.type (w.heap r).m.uid) := by
        rcases hcase with rfl | rfl
        · rw [← hw1]
        · rw [← hw1]; rfl
      have hk : HeapKept w w' := by
        rcases hcase with rfl | rfl
        · rw [← hw1]; exact ⟨Nat.le_refl _, fun _ _ => rfl⟩
        · rw [← hw1]
          refine ⟨Nat.le_refl _, fun r' _ => ?_⟩
          simp only [World.setObj]
          split
          · rename_i h; subst h; rfl
          · rfl
      have hmaps : redisMaps w' = (redisMaps w).put (.redis sid) (w.heap r).m.type (w.heap r).m.uid none := by
        rw [← redisMaps_erase hs hn]
        unfold redisMaps
        rw [hred]
      refine ⟨.ok [], w', hrun, ?_, ?_, ?_, hk⟩
      · rw [hmaps]; exact .remove (by rw [hmap _ _ hn, hg]; simp)
      · have := redisOK_erase hw (redisKey sid (w.heap r).m.type (w.heap r).m.uid)
        exact ⟨by rw [hred]; exact this.wf, by rw [hred]; exact this.keys⟩
      · intro k o' h'
        rw [hred, Dict.get?_erase] at h'
        split at h'
        · cases h'
        · exact hd _ _ h'
  | get t u =>
    have hn := ht t rfl
    have hg' : get A (.name t) (.uid u) w = redisLoad A (redisKey sid t u) w := by
      show getRaw A t u w = _
      unfold getRaw; rw [hA]
    cases hg : Dict.get? w.redis (redisKey sid t u) with
    | none =>
      refine ⟨.error .objectNotFound, w, M.bind_err (hg'.trans (by unfold redisLoad; rw [hg])), .getAbsent (by rw [hmap _ _ hn, hg]), hw, hd, .refl w⟩
    | some o =>
      have h1 : redisLoad A (redisKey sid t u) w = (.ok w.next, (alloc { o with adapter := some A.ref } w).2) := by
        unfold redisLoad; rw [hg]; rfl
      refine ⟨.ok [w.next], _, M.bind_ok (hg'.trans h1), ?_, ⟨hw.wf, hw.keys⟩, hd, ⟨Nat.le_succ _, fun r hr => ?_⟩⟩
      · have : ((alloc { o with adapter := some A.ref } w).2.heap w.next).stored = o := by
          simp [alloc, World.setObj, Obj.stored]
          exact stored_eq_self (hd _ _ hg)
        simp only [Except.map, List.map_cons, List.map_nil, this]
        exact .get (by rw [hmap _ _ hn, hg])
      · simp only [alloc, World.setObj]; rw [if_neg (Nat.ne_of_lt hr)]
  | getOrNone t u =>
    have hn := ht t rfl
    have hg' : get A (.name t) (.uid u) w = redisLoad A (redisKey sid t u) w := by
      show getRaw A t u w = _
      unfold getRaw; rw [hA]
    cases hg : Dict.get? w.redis (redisKey sid t u) with
    | none =>
      have : getOrNone A (.name t) (.uid u) w = (.ok none, w) := by
        unfold getOrNone M.tryCatch
        rw [M.bind_err (hg'.trans (by unfold redisLoad; rw [hg]))]; rfl
      exact ⟨.ok [], w, M.bind_ok this, .getOrNoneAbsent (by rw [hmap _ _ hn, hg]), hw, hd, .refl w⟩
    | some o =>
      have h1 : redisLoad A (redisKey sid t u) w = (.ok w.next, (alloc { o with adapter := some A.ref } w).2) := by
        unfold redisLoad; rw [hg]; rfl
      have h2 : getOrNone A (.name t) (.uid u) w = (.ok (some w.next), (alloc { o with adapter := some A.ref } w).2) := by
        unfold getOrNone M.tryCatch
        rw [M.bind_ok (hg'.trans h1)]; rfl
      refine ⟨.ok [w.next], _, M.bind_ok h2, ?_, ⟨hw.wf, hw.keys⟩, hd, ⟨Nat.le_succ _, fun r hr => ?_⟩⟩
      · have : ((alloc { o with adapter := some A.ref } w).2.heap w.next).stored = o := by
          simp [alloc, World.setObj, Obj.stored]
          exact stored_eq_self (hd _ _ hg)
        simp only [Except.map, List.map_cons, List.map_nil, this]
        exact .getOrNone (by rw [hmap _ _ hn, hg])
      · simp only [alloc, World.setObj]; rw [if_neg (Nat.ne_of_lt hr)]
  | getAll t =>
    have hn := ht t rfl
    obtain ⟨rs, w', e, hk, hrd, _, hm⟩ := mapEach_load (A := A) (scanKeys w.redis (storeLabel sid ++ (":" ++ (t ++ ":")))) w hd
      (fun k hk => (List.mem_filter.1 hk).1)
    refine ⟨.ok rs, w', ?_, ?_, ⟨by rw [hrd]; exact hw.wf, by rw [hrd]; exact hw.keys⟩, by unfold RedisDetached; rw [hrd]; exact hd, hk⟩
    · simp only [runOp, getAll]
      simp only [hA]
      rw [M.read_bind]; exact e
    · have hmaps : redisMaps w' = redisMaps w := by unfold redisMaps; rw [hrd]
      rw [hmaps]
      -- the unique ids, in the order of the keys
      have hscan : ∀ k ∈ scanKeys w.redis (storeLabel sid ++ (":" ++ (t ++ ":"))), ∃ u, k = redisKey sid t u := by
        intro k hk
        obtain ⟨u, hu, _⟩ := (mem_scan_type hw hs hn).1 hk
        exact ⟨u, hu⟩
      have hus : ∃ us : List String, scanKeys w.redis (storeLabel sid ++ (":" ++ (t ++ ":"))) = us.map (redisKey sid t) := by
        generalize scanKeys w.redis (storeLabel sid ++ (":" ++ (t ++ ":"))) = l at hscan
        induction l with
        | nil => exact ⟨[], rfl⟩
        | cons k l ih =>
          obtain ⟨u, hu⟩ := hscan k (by simp)
          obtain ⟨us, hus⟩ := ih (fun x hx => hscan x (by simp [hx]))
          exact ⟨u :: us, by rw [hu, hus]; rfl⟩
      obtain ⟨us, hus⟩ := hus
      have hnd : (us.map (redisKey sid t)).Nodup := by
        rw [← hus]; exact List.Pairwise.filter _ hw.wf
      refine .getAll us ?_ ?_ ?_
      · rw [List.nodup_iff_pairwise_ne, List.pairwise_map] at hnd
        exact hnd.imp (fun h he => h (by rw [he]))
      · intro u
        rw [hmap _ _ hn]
        have : u ∈ us ↔ redisKey sid t u ∈ us.map (redisKey sid t) := by
          constructor
          · exact fun h => List.mem_map.2 ⟨u, h, rfl⟩
          · intro h
            obtain ⟨u', h', he⟩ := List.mem_map.1 h
            rw [← (redisKey_inj hs hs hn hn he).2.2]; exact h'
        rw [this, ← hus, mem_scan_type hw hs hn]
        constructor
        · rintro ⟨_, _, hk⟩
          obtain ⟨v, hv⟩ := Dict.mem_keys_iff.1 hk
          rw [hv]; simp
        · intro h
          cases hg : Dict.get? w.redis (redisKey sid t u) with
          | none => exact absurd hg h
          | some v => exact ⟨u, rfl, Dict.mem_keys_iff.2 ⟨v, hg⟩⟩
      · rw [hus] at hm
        rw [List.map_map] at hm ⊢
        have h1 : (some ∘ fun r => (w'.heap r).stored) = fun r => some (w'.heap r).stored := rfl
        rw [h1, hm]
        apply List.map_congr_left
        intro u _
        exact (hmap _ _ hn).symm

end DS
