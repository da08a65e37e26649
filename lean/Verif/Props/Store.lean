import Verif.Lemmas.Remove
import Verif.Lemmas.Compared
import Verif.Lemmas.Obj
import Verif.Model.Tests
import Verif.Props.Differ
/-! # Properties of the stores: C36 - C41, C49 -/
set_option linter.unusedSectionVars false

namespace DS
variable {V E : Type} [PyVal V]

/-! ## C36, C41 -/

theorem MapStep.congr {α : Type} {key key' : Ref → String × String} {val val' : Ref → α} {same : α → α → Prop} {k : StoreKind}
    {op : StoreOp} {m m' : Maps α} {res : Except Err (List α)} (h : MapStep key val same k op m res m')
    (hk : ∀ r, op.ref? = some r → key r = key' r ∧ val r = val' r) : MapStep key' val' same k op m res m' := by
  cases h with
  | addNew h => obtain ⟨h1, h2⟩ := hk _ rfl; rw [h1] at h ⊢; rw [h2]; exact .addNew h
  | addSame h hs => obtain ⟨h1, h2⟩ := hk _ rfl; rw [h1] at h; rw [h2] at hs; exact .addSame h hs
  | addOther h hs => obtain ⟨h1, h2⟩ := hk _ rfl; rw [h1] at h; rw [h2] at hs; exact .addOther h hs
  | update => obtain ⟨h1, h2⟩ := hk _ rfl; rw [h1, h2]; exact .update
  | remove h => obtain ⟨h1, h2⟩ := hk _ rfl; rw [h1] at h ⊢; exact .remove h
  | removeAbsent h => obtain ⟨h1, h2⟩ := hk _ rfl; rw [h1] at h; exact .removeAbsent h
  | get h => exact .get h
  | getAbsent h => exact .getAbsent h
  | getOrNone h => exact .getOrNone h
  | getOrNoneAbsent h => exact .getOrNoneAbsent h
  | getAll us h1 h2 h3 => exact .getAll us h1 h2 h3

theorem runOps_local (key : Ref → String × String) (ops : List (Adapter V × StoreOp)) (w : World V E) (hw : w.OK)
    (hloc : ∀ p ∈ ops, ∃ sid, p.1.ref.store = .local sid)
    (hr : ∀ p ∈ ops, ∀ r, p.2.ref? = some r → r < w.next ∧ key r = ((w.heap r).m.type, (w.heap r).m.uid)) :
    MapRun key id (fun a b => a = b) (ops.map (fun p => (p.1.ref.store, p.2))) (localMaps w)
      (runOps (fun _ r => r) ops w).1 (localMaps (runOps (fun _ r => r) ops w).2) := by
  induction ops generalizing w with
  | nil => exact .nil
  | cons p ops ih =>
    obtain ⟨A, op⟩ := p
    obtain ⟨sid, hA⟩ := hloc (A, op) (by simp)
    obtain ⟨res, w', e, hstep, hok, f⟩ := runOp_local hA op w hw (fun r h => (hr (A, op) (by simp) r h).1)
    have hres : res.map (fun l => l.map (fun r : Ref => r)) = res := by cases res <;> simp [Except.map]
    have hih := ih w' hok (fun p hp => hloc p (by simp [hp])) (fun p hp r h => by
      obtain ⟨h1, h2⟩ := hr p (by simp [hp]) r h
      rw [f.next_eq, f.heap_m]
      exact ⟨h1, h2⟩)
    simp only [runOps, e, hres, List.map_cons]
    rw [show A.ref.store = .local sid from hA]
    exact .cons (hstep.congr (fun r h => ⟨(hr (A, op) (by simp) r h).2.symm, rfl⟩)) hih

/-- **C36** Every sequence of `add`, `update`, `remove`, `get`, `get_or_none` and `get_all` calls on any number of adapters
with local stores, going on after exceptions, behaves like the same sequence on maps from (model name, unique id) to
objects: same results, same exceptions, same final contents. -/
theorem C36_local_store_is_map (ops : List (Adapter V × StoreOp)) (w : World V E) (hw : w.OK)
    (hloc : ∀ p ∈ ops, ∃ sid, p.1.ref.store = .local sid) (hr : ∀ p ∈ ops, ∀ r, p.2.ref? = some r → r < w.next) :
    MapRun (fun r => ((w.heap r).m.type, (w.heap r).m.uid)) id (fun a b => a = b)
      (ops.map (fun p => (p.1.ref.store, p.2))) (localMaps w)
      (runOps (fun _ r => r) ops w).1 (localMaps (runOps (fun _ r => r) ops w).2) :=
  runOps_local _ ops w hw hloc (fun p hp r h => ⟨hr p hp r h, rfl⟩)

/-- **C36** An object can be fetched by its model class and its identifiers just as well as by model name and unique id. -/
theorem C36_get_by_identifiers (A : Adapter V) (m : Model V) (hc : m.cls.Valid) (hm : m.Complete) (w : World V E) :
    get A (.cls m.cls) (.dict m.identifiers) w = get A (.name m.type) (.uid m.uid) w := by
  simp only [get, resolve, ModelArg.modelName, Model.uid_eq_createUniqueId m hc hm]
  rfl

theorem runOps_redis (key : Ref → String × String) (val : Ref → Obj V) (ops : List (Adapter V × StoreOp)) (w : World V E) (hw : RedisOK w)
    (hd : RedisDetached w) (hred : ∀ p ∈ ops, ∃ sid, p.1.ref.store = .redis sid ∧ Plain sid)
    (hr : ∀ p ∈ ops, ∀ r, p.2.ref? = some r → r < w.next ∧ Plain (w.heap r).m.type ∧ key r = ((w.heap r).m.type, (w.heap r).m.uid) ∧
      val r = (w.heap r).stored)
    (ht : ∀ p ∈ ops, ∀ t, p.2.name? = some t → Plain t) :
    MapRun key val (fun a b => a.m.dictEq b.m = true) (ops.map (fun p => (p.1.ref.store, p.2))) (redisMaps w)
      (runOps (fun w r => (w.heap r).stored) ops w).1 (redisMaps (runOps (fun w r => (w.heap r).stored) ops w).2) := by
  induction ops generalizing w with
  | nil => exact .nil
  | cons p ops ih =>
    obtain ⟨A, op⟩ := p
    obtain ⟨sid, hA, hs⟩ := hred (A, op) (by simp)
    obtain ⟨res, w', e, hstep, hok, hd', f⟩ := runOp_redis hA op w hw hd hs
      (fun r h => ⟨(hr (A, op) (by simp) r h).1, (hr (A, op) (by simp) r h).2.1⟩) (ht (A, op) (by simp))
    have hih := ih w' hok hd' (fun p hp => hred p (by simp [hp])) (fun p hp r h => by
      obtain ⟨h1, h2, h3, h4⟩ := hr p (by simp [hp]) r h
      have hm : (w'.heap r).m = (w.heap r).m := (congrArg Obj.m (f.heap r h1) :)
      rw [hm, f.heap r h1]
      exact ⟨Nat.lt_of_lt_of_le h1 f.next_le, h2, h3, h4⟩) (fun p hp => ht p (by simp [hp]))
    simp only [runOps, e, List.map_cons]
    rw [show A.ref.store = .redis sid from hA]
    refine .cons (hstep.congr (fun r h => ?_)) hih
    obtain ⟨_, _, h3, h4⟩ := hr (A, op) (by simp) r h
    exact ⟨h3.symm, h4.symm⟩

/-- **C41** Every sequence of operations on any number of adapters with Redis stores sharing one server, going on after
exceptions, behaves like the same sequence on maps from (store id, model name, unique id) to object contents: same results,
same exceptions, same final contents; in particular an operation on one store never affects another.  (Adding an object
under a used key is a no-op if it has the same data.)  Store ids and model names must be free of `:`. -/
theorem C41_redis_store_is_map (ops : List (Adapter V × StoreOp)) (w : World V E) (hw : RedisOK w)
    (hd : RedisDetached w) (hred : ∀ p ∈ ops, ∃ sid, p.1.ref.store = .redis sid ∧ Plain sid)
    (hr : ∀ p ∈ ops, ∀ r, p.2.ref? = some r → r < w.next ∧ Plain (w.heap r).m.type)
    (ht : ∀ p ∈ ops, ∀ t, p.2.name? = some t → Plain t) :
    MapRun (fun r => ((w.heap r).m.type, (w.heap r).m.uid)) (fun r => (w.heap r).stored) (fun a b => a.m.dictEq b.m = true)
      (ops.map (fun p => (p.1.ref.store, p.2))) (redisMaps w)
      (runOps (fun w r => (w.heap r).stored) ops w).1 (redisMaps (runOps (fun w r => (w.heap r).stored) ops w).2) :=
  runOps_redis _ _ ops w hw hd hred (fun p hp r h => ⟨(hr p hp r h).1, (hr p hp r h).2, rfl, rfl⟩) ht

theorem MapRun.other_store {α : Type} {key : Ref → String × String} {val : Ref → α} {same : α → α → Prop} {ops : List (StoreKind × StoreOp)}
    {m m' : Maps α} {rs : List (Except Err (List α))} (h : MapRun key val same ops m rs m') (k : StoreKind) (hk : ∀ p ∈ ops, p.1 ≠ k) :
    m' k = m k := by
  induction h with
  | nil => rfl
  | cons hs _ ih =>
    rw [ih (fun p hp => hk p (by simp [hp]))]
    have hne := hk _ (List.mem_cons_self)
    have hput : ∀ (m : Maps α) (k' : StoreKind) t u a, k' ≠ k → (m.put k' t u a) k = m k := by
      intro m k' t u a hne
      funext t' u'
      unfold Maps.put
      rw [if_neg]
      rintro ⟨h, _⟩; exact hne h.symm
    cases hs <;> first | rfl | exact hput _ _ _ _ _ hne

/-- **C41** Stores with different ids are isolated: operations on stores other than `sid` leave what `sid` holds unchanged. -/
theorem C41_isolated (ops : List (Adapter V × StoreOp)) (w : World V E) (hw : RedisOK w)
    (hd : RedisDetached w) (sid : String) (hred : ∀ p ∈ ops, ∃ sid', p.1.ref.store = .redis sid' ∧ Plain sid' ∧ sid' ≠ sid)
    (hr : ∀ p ∈ ops, ∀ r, p.2.ref? = some r → r < w.next ∧ Plain (w.heap r).m.type)
    (ht : ∀ p ∈ ops, ∀ t, p.2.name? = some t → Plain t) :
    redisMaps (runOps (fun w r => (w.heap r).stored) ops w).2 (.redis sid) = redisMaps w (.redis sid) := by
  refine (C41_redis_store_is_map ops w hw hd (fun p hp => ?_) hr ht).other_store (.redis sid) ?_
  · obtain ⟨s, h1, h2, _⟩ := hred p hp; exact ⟨s, h1, h2⟩
  · intro p hp
    obtain ⟨q, hq, rfl⟩ := List.mem_map.1 hp
    obtain ⟨s, h1, _, h3⟩ := hred q hq
    simp only [h1]
    intro h; cases h; exact h3 rfl

/-! ## C37 -/

/-- The number `count(model)` returns, for either kind of store. -/
def countOf (A : Adapter V) (a : Option (ModelArg V)) (w : World V E) : Except Err Nat := (count A a w).1

/-- **C37** `len(adapter)` equals `count()`. -/
theorem C37_len_is_count (A : Adapter V) (w : World V E) : (lenAdapter A w).1 = countOf A none w := by
  unfold countOf count
  cases A.ref.store <;> rfl

/-- **C37**, partial: in a local store `count(model)` is the number of objects `get_all(model)` returns.  (Not for the empty
model name: `C37_empty_name_counts_all`.) -/
theorem C37_count_model_local_partial (A : Adapter V) {sid : Nat} (hA : A.ref.store = .local sid) (a : ModelArg V) (w : World V E)
    (ha : a.modelName ≠ "") : ∃ rs w', getAll A a.modelName w = (.ok rs, w') ∧ countOf A (some a) w = .ok rs.length := by
  refine ⟨Dict.values (tbl w sid a.modelName), w.setLoc sid (touch (w.loc sid) a.modelName), ?_, ?_⟩
  · unfold getAll
    simp only [hA]
    rw [M.bind_ok (localModel_eq sid _ w)]; rfl
  · unfold countOf count
    simp only [hA]
    cases a with
    | name s =>
      simp only [ModelArg.modelName] at ha ⊢
      rw [if_neg ha, localModel_eq]
      simp [Dict.values]
    | cls c =>
      simp only [ModelArg.modelName]
      rw [localModel_eq]
      simp [Dict.values]

/-- **C37**, partial: in a Redis store `count(model)` is the number of objects `get_all(model)` returns, for a lower-case model name.
(Not otherwise: `C37_redis_count_lowercases`.) -/
theorem C37_count_model_redis_partial (A : Adapter V) {sid : String} (hA : A.ref.store = .redis sid) (a : ModelArg V) (w : World V E)
    (hd : RedisDetached w) (ha : a.modelName.toLower = a.modelName) :
    ∃ rs w', getAll A a.modelName w = (.ok rs, w') ∧ countOf A (some a) w = .ok rs.length := by
  obtain ⟨rs, w', e, _, _, _, hm⟩ := mapEach_load (A := A) (scanKeys w.redis (storeLabel sid ++ (":" ++ (a.modelName ++ ":")))) w hd
    (fun k hk => (List.mem_filter.1 hk).1)
  refine ⟨rs, w', ?_, ?_⟩
  · unfold getAll
    simp only [hA]
    rw [M.read_bind]; exact e
  · unfold countOf count
    simp only [hA, ha]
    have := congrArg List.length hm
    simp only [List.length_map] at this
    rw [this]

theorem sum_filter_eq (l : List String) (f : String → String) (ts : List String) (hts : ts.Nodup) (hcov : ∀ x ∈ l, f x ∈ ts) :
    (ts.map (fun t => (l.filter (fun x => decide (f x = t))).length)).sum = l.length := by
  induction l with
  | nil =>
    simp only [List.filter_nil, List.length_nil]
    clear hts hcov
    induction ts with
    | nil => rfl
    | cons t ts ih => simpa using ih
  | cons a l ih =>
    have ih := ih (fun x hx => hcov x (by simp [hx]))
    have hone : ∀ ts : List String, ts.Nodup →
        (ts.map (fun t => ((a :: l).filter (fun x => decide (f x = t))).length)).sum =
        (ts.map (fun t => (l.filter (fun x => decide (f x = t))).length)).sum + (if f a ∈ ts then 1 else 0) := by
      intro ts hts
      induction ts with
      | nil => simp
      | cons t ts ih2 =>
        rw [List.nodup_cons] at hts
        rw [List.map_cons, List.sum_cons, ih2 hts.2, List.map_cons, List.sum_cons, List.filter_cons]
        by_cases h : f a = t
        · subst h
          simp only [decide_true, if_true, List.length_cons, List.mem_cons, true_or, if_neg hts.1]
          omega
        · simp only [h, decide_false, Bool.false_eq_true, if_false, List.mem_cons, false_or]
          omega
    rw [hone ts hts, ih, if_pos (hcov a (by simp)), List.length_cons]

theorem mem_dedup {x : String} {l : List String} : x ∈ dedup l ↔ x ∈ l := by
  induction l with
  | nil => simp [dedup]
  | cons a l ih =>
    unfold dedup
    split
    · rename_i h
      rw [ih, List.mem_cons]
      constructor
      · exact .inr
      · rintro (rfl | h')
        · simpa using h
        · exact h'
    · rw [List.mem_cons, ih, List.mem_cons]

theorem nodup_dedup (l : List String) : (dedup l).Nodup := by
  induction l with
  | nil => simp [dedup]
  | cons a l ih =>
    unfold dedup
    split
    · exact ih
    · rename_i h
      rw [List.nodup_cons, mem_dedup]
      exact ⟨by simpa using h, ih⟩

/-- **C37** `count()` is the sum of the numbers of objects of all models, in a local store. -/
theorem C37_count_is_sum_local (A : Adapter V) {sid : Nat} (hA : A.ref.store = .local sid) (w : World V E) (hw : w.OK) :
    ∃ names, getAllModelNames A w = (.ok names, w) ∧ names.Nodup ∧
      countOf A none w = .ok (names.map (fun t => ((snap A w).all t).length)).sum := by
  refine ⟨Dict.keys (w.loc sid), by unfold getAllModelNames; simp only [hA], hw.loc_wf sid, ?_⟩
  unfold countOf count lenAdapter countStore
  simp only [hA]
  congr 2
  unfold Dict.keys
  rw [List.map_map]
  apply List.map_congr_left
  intro p hp
  unfold snap
  simp only [hA, List.length_map, Function.comp_apply]
  unfold tbl
  rw [Dict.get?_of_mem (hw.loc_wf sid) hp]
  simp [Dict.values]

/-- The model name in a Redis key. -/
def typeOfKey (k : String) : Option String := (getAllModelNames.splitColon k.toList)[2]?.map String.ofList

/-- **C37** `count()` is the sum of the numbers of objects of all models, in a Redis store. -/
theorem C37_count_is_sum_redis (A : Adapter V) {sid : String} (hA : A.ref.store = .redis sid) (hs : Plain sid) (w : World V E)
    (hw : RedisOK w) :
    ∃ names, getAllModelNames A w = (.ok names, w) ∧ names.Nodup ∧
      countOf A none w = .ok (names.map (fun t => ((snap A w).all t).length)).sum := by
  have hkeys : ∀ k ∈ scanKeys w.redis (storeLabel sid ++ ":"), ∃ t u, Plain t ∧ k = redisKey sid t u ∧ typeOfKey k = some t := by
    intro k hk
    obtain ⟨t, u, h1, rfl, _⟩ := (mem_scan_store hw hs).1 hk
    exact ⟨t, u, h1, rfl, splitColon_redisKey hs h1⟩
  refine ⟨dedup ((scanKeys w.redis (storeLabel sid ++ ":")).filterMap typeOfKey), ?_, nodup_dedup _, ?_⟩
  · unfold getAllModelNames
    simp only [hA]
    rfl
  · unfold countOf count lenAdapter countStore
    simp only [hA]
    rw [← sum_filter_eq (scanKeys w.redis (storeLabel sid ++ ":")) (fun k => (typeOfKey k).getD "")
      (dedup ((scanKeys w.redis (storeLabel sid ++ ":")).filterMap typeOfKey)) (nodup_dedup _) (fun k hk => by
        obtain ⟨t, u, _, _, h⟩ := hkeys k hk
        simp only [h, Option.getD_some]
        exact mem_dedup.2 (List.mem_filterMap.2 ⟨k, hk, h⟩))]
    congr 2
    apply List.map_congr_left
    intro t ht
    obtain ⟨k, hk, hkt⟩ := List.mem_filterMap.1 (mem_dedup.1 ht)
    obtain ⟨t', u, hn, _, h⟩ := hkeys k hk
    rw [h] at hkt
    obtain rfl : t = t' := by cases hkt; rfl
    -- the keys of type `t` among all keys of the store are those found by `get_all(t)`
    have hlist : (scanKeys w.redis (storeLabel sid ++ ":")).filter (fun k => decide ((typeOfKey k).getD "" = t)) =
        scanKeys w.redis (storeLabel sid ++ (":" ++ (t ++ ":"))) := by
      unfold scanKeys
      rw [List.filter_filter]
      apply List.filter_congr
      intro k hk
      rw [Bool.eq_iff_iff, Bool.and_eq_true, decide_eq_true_iff]
      constructor
      · rintro ⟨h1, h2⟩
        obtain ⟨t2, u2, hn2, rfl, h3⟩ := hkeys k (List.mem_filter.2 ⟨hk, h2⟩)
        rw [h3] at h1; cases h1
        exact (globType_eq hs hn _).trans ((prefixType_iff hs hs hn hn).2 ⟨rfl, rfl⟩)
      · intro h1
        obtain ⟨u2, rfl, _⟩ := (mem_scan_type hw hs hn).1 (List.mem_filter.2 ⟨hk, h1⟩)
        refine ⟨?_, (globStore_eq hs _).trans ((prefixStore_iff hs hs).2 rfl)⟩
        show (((getAllModelNames.splitColon (redisKey sid t u2).toList)[2]?.map String.ofList).getD "") = t
        rw [splitColon_redisKey hs hn]; rfl
    rw [hlist]
    unfold snap
    simp only [hA, if_pos hn]
    have hall : ∀ l : List String, (∀ k ∈ l, k ∈ Dict.keys w.redis) →
        (l.filterMap (fun k => (Dict.get? w.redis k).map Obj.m)).length = l.length := by
      intro l hl
      induction l with
      | nil => rfl
      | cons a l ih =>
        obtain ⟨v, hv⟩ := Dict.mem_keys_iff.1 (hl a (by simp))
        simp only [List.filterMap_cons, hv, Option.map_some, List.length_cons, ih (fun k hk => hl k (by simp [hk]))]
    rw [hall (scanKeys _ _) (fun k hk => (List.mem_filter.1 hk).1)]

/-! ## C38 -/

/-- **C38** `get_by_uids` returns one object per given id, in order, each being the one stored under that id — or raises
`ObjectNotFound`, exactly if some id is not stored.  It changes nothing. -/
theorem C38_get_by_uids (A : Adapter V) (t : String) (ht : A.Takes t) (us : List String) (w : World V E) (hw : w.OK) :
    ((∃ u ∈ us, (snap A w).find t u = none) ∧ (getByUids A us t w).1 = .error .objectNotFound ∨
     (∀ u ∈ us, (snap A w).find t u ≠ none) ∧ ∃ rs, (getByUids A us t w).1 = .ok rs ∧
       rs.map (fun r => some ((getByUids A us t w).2.heap r).m) = us.map ((snap A w).find t) ∧
       ∀ sid, A.ref.store = .local sid → rs.map some = us.map (findRef w sid t)) ∧
    ∀ B : Adapter V, snap B (getByUids A us t w).2 = snap B w := by
  obtain ⟨h1, h2⟩ := getByUids_spec A t us w hw.refs_lt hw.tbl_wf
  rw [lookupAll_congr (agree_snap A w) ht] at h2
  have hl : ∀ us : List String, ((∃ u ∈ us, (snap A w).find t u = none) ∧ lookupAll (snap A w) t us = .error .objectNotFound) ∨
      ((∀ u ∈ us, (snap A w).find t u ≠ none) ∧ ∃ ms, lookupAll (snap A w) t us = .ok ms ∧ ms.map some = us.map ((snap A w).find t)) := by
    intro us
    induction us with
    | nil => exact .inr ⟨by simp, [], rfl, rfl⟩
    | cons u us ih =>
      unfold lookupAll
      cases hf : (snap A w).find t u with
      | none => exact .inl ⟨⟨u, by simp, hf⟩, rfl⟩
      | some m =>
        rcases ih with ⟨⟨u', hu', hn⟩, he⟩ | ⟨hall, ms, he, hms⟩
        · exact .inl ⟨⟨u', by simp [hu'], hn⟩, by simp only [he]⟩
        · refine .inr ⟨?_, m :: ms, by simp only [he], by simp [hms, hf]⟩
          intro x hx
          rcases List.mem_cons.1 hx with rfl | hx
          · rw [hf]; simp
          · exact hall x hx
  refine ⟨?_, fun B => h1.snap_eq hw.refs_lt hw.tbl_wf B⟩
  rcases hl us with ⟨hn, he⟩ | ⟨hall, ms, he, hms⟩
  · rw [he] at h2; exact .inl ⟨hn, h2⟩
  · rw [he] at h2
    obtain ⟨rs, h3, h4, _, h5⟩ := h2
    refine .inr ⟨hall, rs, h3, ?_, h5⟩
    rw [← hms, ← h4, List.map_map]; rfl

/-! ## C39 -/

/-- What the four helpers have in common: `res` is the object and whether it was created; an object is created exactly if none was
stored under model name `t` and id `u`; afterwards the returned object is stored there, no other entry of any store and
no other object has changed. -/
structure GotOrPut (sid : Nat) (t u : String) (w : World V E) (res : Ref × Bool) (w' : World V E) : Prop where
  created : res.2 = true ↔ findRef w sid t u = none
  found : res.2 = false → findRef w sid t u = some res.1
  stored : findRef w' sid t u = some res.1
  entries : ∀ s t' u', ¬ (s = sid ∧ t' = t ∧ u' = u) → findRef w' s t' u' = findRef w s t' u'
  objects : ∀ r, r < w.next → r ≠ res.1 → w'.heap r = w.heap r
  redis : w'.redis = w.redis

/-- Nothing has changed. -/
structure Untouched (w w' : World V E) : Prop where
  entries : ∀ s t u, findRef w' s t u = findRef w s t u
  objects : ∀ r, w'.heap r = w.heap r
  redis : w'.redis = w.redis

theorem get_local {A : Adapter V} {sid : Nat} (hA : A.ref.store = .local sid) (a : ModelArg V) (i : Ident V) (t u : String)
    (h : resolve A a i = .ok (t, u)) (w : World V E) :
    get A a i w = ((match findRef w sid t u with | some r => .ok r | none => .error .objectNotFound), w.setLoc sid (touch (w.loc sid) t)) := by
  unfold get
  rw [h, M.bind_ok (show M.ofExcept (.ok (t, u)) w = (.ok (t, u), w) from rfl)]
  simp only
  unfold getRaw
  simp only [hA]
  rw [M.bind_ok (localModel_eq sid t w)]
  show M.ofOption .objectNotFound (findRef w sid t u) _ = _
  cases findRef w sid t u <;> rfl

theorem Untouched.touch (w : World V E) (sid : Nat) (t : String) : Untouched w (w.setLoc sid (touch (w.loc sid) t)) :=
  ⟨fun s t' u => TblSame.findRef (tbl_setLoc_touch _ _ _) s t' u, fun _ => rfl, rfl⟩

/-- **C39** `get_or_instantiate`: an existing object is returned unchanged; otherwise an instance made of the given
identifiers and attributes is added and returned.  The only failures: an identifier is missing (`KeyError`), a field is
given both as identifier and as attribute (`TypeError`), or a required field is not given or a value refused (`ValidationError`); then
nothing changes.  The class is supposed to leave the identifiers as they read (if not: `C39_parsed_identifier`). -/
theorem C39_get_or_instantiate (A : Adapter V) {sid : Nat} (hA : A.ref.store = .local sid) (c : ModelClass V) (hc : c.Valid)
    (ids attrs : Dict V) (hids : c.KeepsIds ids) (w : World V E) (hw : w.OK) :
    (∃ u res w', c.createUniqueId ids = some u ∧ getOrInstantiate A c ids attrs w = (.ok res, w') ∧
      GotOrPut sid c.name u w res w' ∧
      (res.2 = false → w'.heap res.1 = w.heap res.1) ∧
      (res.2 = true → c.construct ids attrs = .ok (w'.heap res.1).m)) ∨
    (∃ e w', getOrInstantiate A c ids attrs w = (.error e, w') ∧ Untouched w w' ∧
      (e = .keyError ∧ c.createUniqueId ids = none ∨
       c.construct ids attrs = .error e ∧ (∃ u, c.createUniqueId ids = some u ∧ findRef w sid c.name u = none) ∧
       ((e = .typeError ∧ ∃ k, k ∈ Dict.keys ids ∧ k ∈ Dict.keys attrs) ∨
        (e = .validationError ∧ ((∃ f, (f, none) ∈ c.fields ∧ f ∉ Dict.keys ids ∧ f ∉ Dict.keys attrs) ∨
          ∃ f v, f ∈ c.fieldNames ∧ (Dict.get? ids f).or (Dict.get? attrs f) = some v ∧ c.reads f v = none))))) := by
  cases hu : c.createUniqueId ids with
  | none =>
    refine .inr ⟨.keyError, w, ?_, ⟨fun _ _ _ => rfl, fun _ => rfl, rfl⟩, .inl ⟨rfl, rfl⟩⟩
    unfold getOrInstantiate M.tryCatch
    have : get A (.cls c) (.dict ids) w = (.error .keyError, w) := by
      unfold get resolve
      simp only [hu]; rfl
    rw [M.bind_err this]
    rfl
  | some u =>
    have hres : resolve A (.cls c) (.dict ids) = .ok (c.name, u) := by unfold resolve; simp only [hu]; rfl
    have hg := get_local (E := E) hA (.cls c) (.dict ids) _ _ hres w
    have ht := Untouched.touch w sid c.name
    have hok1 : (w.setLoc sid (touch (w.loc sid) c.name)).OK := OK.of_same hw (Frame.setLoc _ _ _ (fun h => wf_touch h _)) (tbl_setLoc_touch _ _ _)
    generalize hw1 : w.setLoc sid (touch (w.loc sid) c.name) = w1 at hg ht hok1
    have hn1 : w1.next = w.next := by rw [← hw1]; rfl
    cases hf : findRef w sid c.name u with
    | some r =>
      rw [hf] at hg
      refine .inl ⟨u, (r, false), w1, rfl, ?_, ⟨by simp [hf], fun _ => hf, by rw [ht.entries]; exact hf, fun s t' u' _ => ht.entries s t' u', fun r _ _ => ht.objects r, ht.redis⟩,
        fun _ => ht.objects r, by simp⟩
      unfold getOrInstantiate M.tryCatch
      rw [M.bind_ok hg]; rfl
    | none =>
      rw [hf] at hg
      cases hi : c.construct ids attrs with
      | error e =>
        have hnf : e.isNotFound = false := by
          rcases construct_isErr hi with ⟨rfl, _⟩ | ⟨rfl, _⟩ <;> rfl
        refine .inr ⟨e, w1, ?_, ht, .inr ⟨rfl, ⟨u, rfl, hf⟩, construct_isErr hi⟩⟩
        unfold getOrInstantiate M.tryCatch
        rw [M.bind_err hg]
        simp only [Err.isNotFound, if_true, hi]
        rfl
      | ok m =>
        have hmt : m.type = c.name := by unfold Model.type; rw [(instantiate_ok (construct_ok hi)).1]
        have hmu : m.uid = u := construct_uid hc hi hids hu
        have hal : (alloc { m := m } w1).1 = .ok w.next := by rw [← hn1]; rfl
        generalize hw2 : (alloc { m := m } w1).2 = w2 at hal
        have hal2 : alloc { m := m } w1 = (.ok w.next, w2) := by rw [← hal, ← hw2]
        have hh2 : w2.heap w.next = { m := m } := by rw [← hw2, ← hn1]; simp [alloc, World.setObj]
        have hh3 : ∀ r, r ≠ w.next → w2.heap r = w.heap r := by
          intro r hr
          rw [← hw2]
          simp only [alloc, World.setObj]
          rw [if_neg (by rw [hn1]; exact hr)]
          exact ht.objects r
        have hf2 : ∀ s t u, findRef w2 s t u = findRef w s t u := by intro s t' u'; rw [← ht.entries, ← hw2]; rfl
        have hmm : (w2.heap w.next).m = m := by rw [hh2]
        obtain ⟨w3, e3, f3, t3, p3⟩ := add_local_none hA w.next w2 (by rw [hmm, hmt, hmu, hf2, hf])
        rw [hmm, hmt, hmu] at t3
        refine .inl ⟨u, (w.next, true), w3, rfl, ?_, ⟨by simp [hf], by simp, by rw [t3.findRef]; simp, ?_, ?_, ?_⟩, by simp, ?_⟩
        · unfold getOrInstantiate M.tryCatch
          rw [M.bind_err hg]
          simp only [Err.isNotFound, if_true, hi]
          rw [M.bind_ok (show M.ofExcept (.ok m) w1 = (.ok m, w1) from rfl), M.bind_ok hal2, M.bind_ok e3]
          rfl
        · intro s t' u' hne
          rw [t3.findRef, if_neg hne, hf2]
        · intro r hr hne
          rw [p3 r hne, hh3 r hne]
        · rw [f3.redis_eq, ← hw2]
          exact ht.redis
        · intro _
          rw [f3.heap_m, hmm]

/-- **C39** `get_or_add_model_instance`: an existing object with the same model and id is returned unchanged; otherwise the given
object is added and returned.  It never fails. -/
theorem C39_get_or_add (A : Adapter V) {sid : Nat} (hA : A.ref.store = .local sid) (r : Ref) (w : World V E) :
    ∃ res w', getOrAddInstance A r w = (.ok res, w') ∧ GotOrPut sid (w.heap r).m.type (w.heap r).m.uid w res w' ∧
      (res.2 = false → w'.heap = w.heap) ∧ (res.2 = true → res.1 = r ∧ ∀ r, (w'.heap r).m = (w.heap r).m) := by
  have hres : resolve A (.name (w.heap r).m.type) (.uid (w.heap r).m.uid) = .ok ((w.heap r).m.type, (w.heap r).m.uid) := rfl
  have hg := get_local (E := E) hA _ _ _ _ hres w
  have ht := Untouched.touch w sid (w.heap r).m.type
  have hh1 : (w.setLoc sid (touch (w.loc sid) (w.heap r).m.type)).heap = w.heap := rfl
  generalize hw1 : w.setLoc sid (touch (w.loc sid) (w.heap r).m.type) = w1 at hg ht hh1
  cases hf : findRef w sid (w.heap r).m.type (w.heap r).m.uid with
  | some r' =>
    rw [hf] at hg
    refine ⟨(r', false), w1, ?_, ⟨by simp [hf], fun _ => hf, by rw [ht.entries]; exact hf, fun s t' u' _ => ht.entries s t' u', fun r _ _ => ht.objects r, ht.redis⟩,
      fun _ => hh1, by simp⟩
    unfold getOrAddInstance
    rw [deref_bind]
    unfold M.tryCatch
    rw [M.bind_ok hg]; rfl
  | none =>
    rw [hf] at hg
    obtain ⟨w3, e3, f3, t3, p3⟩ := add_local_none hA r w1 (by rw [hh1, ht.entries, hf])
    rw [hh1] at t3
    refine ⟨(r, true), w3, ?_, ⟨by simp [hf], by simp, by rw [t3.findRef]; simp, ?_, ?_, ?_⟩, by simp, ?_⟩
    · unfold getOrAddInstance
      rw [deref_bind]
      unfold M.tryCatch
      rw [M.bind_err hg]
      simp only [Err.isNotFound, if_true]
      rw [M.bind_ok e3]; rfl
    · intro s t' u' hne; rw [t3.findRef, if_neg hne, ht.entries]
    · intro r' _ hne; rw [p3 r' hne, hh1]
    · rw [f3.redis_eq, ht.redis]
    · intro _; exact ⟨rfl, fun r' => by rw [f3.heap_m, hh1]⟩

/-- The values of `m'` are those of `m` except for the keys of `d`, where they are the given ones (or were already equal
in the sense of Python's `==`). -/
structure TakesValues (d : Dict V) (m m' : Model V) : Prop where
  given : ∀ k v, Dict.get? d k = some v → ∃ v', Dict.get? m'.vals k = some v' ∧ (v' = v ∨ PyVal.eq v' v = true)
  others : ∀ k, k ∉ Dict.keys d → Dict.get? m'.vals k = Dict.get? m.vals k
  cls_eq : m'.cls = m.cls
  kids_eq : m'.kids = m.kids
  flags_eq : m'.flags = m.flags

theorem setattrsIfDiff_spec (m : Model V) (d : Dict V) (hd : Dict.WF d) (hk : ∀ k ∈ Dict.keys d, k ∈ m.cls.fieldNames ∧ k ∈ Dict.keys m.vals) :
    (setattrsIfDiff m d).2 = none ∧ TakesValues d m (setattrsIfDiff m d).1 := by
  induction d generalizing m with
  | nil => exact ⟨rfl, ⟨by simp, fun _ _ => rfl, rfl, rfl, rfl⟩⟩
  | cons p d ih =>
    obtain ⟨k, v⟩ := p
    have hd' := List.nodup_cons.1 hd
    obtain ⟨hk1, hk2⟩ := hk k (by simp)
    obtain ⟨v0, hv0⟩ := Dict.mem_keys_iff.1 hk2
    unfold setattrsIfDiff
    simp only [hv0]
    by_cases he : PyVal.eq v0 v = true
    · rw [if_pos he]
      obtain ⟨h1, h2⟩ := ih m hd'.2 (fun x hx => hk x (List.mem_cons_of_mem _ hx))
      refine ⟨h1, ⟨fun x w hx => ?_, fun x hx => ?_, h2.cls_eq, h2.kids_eq, h2.flags_eq⟩⟩
      · rw [Dict.get?_cons] at hx
        split at hx
        · rename_i hh; subst hh; cases hx
          refine ⟨v0, ?_, .inr he⟩
          rw [h2.others k hd'.1, hv0]
        · exact h2.given x w hx
      · simp only [Dict.keys_cons, List.mem_cons, not_or] at hx
        exact h2.others x hx.2
    · rw [if_neg he]
      have hs : m.setattr k v = .ok { m with vals := Dict.set m.vals k v } := by
        unfold Model.setattr; rw [if_pos (by simpa using hk1)]
      rw [hs]
      obtain ⟨h1, h2⟩ := ih { m with vals := Dict.set m.vals k v } hd'.2 (fun x hx => ⟨(hk x (List.mem_cons_of_mem _ hx)).1, by
        have := (hk x (List.mem_cons_of_mem _ hx)).2
        simp only [Dict.keys_set]
        split
        · exact this
        · simp [this]⟩)
      refine ⟨h1, ⟨fun x w hx => ?_, fun x hx => ?_, h2.cls_eq, h2.kids_eq, h2.flags_eq⟩⟩
      · rw [Dict.get?_cons] at hx
        split at hx
        · rename_i hh; subst hh; cases hx
          refine ⟨v, ?_, .inl rfl⟩
          rw [h2.others k hd'.1]; simp
        · exact h2.given x w hx
      · simp only [Dict.keys_cons, List.mem_cons, not_or] at hx
        rw [h2.others x hx.2]; simp only; rw [Dict.get?_set_ne _ (Ne.symm hx.1)]

/-- **C39**, partial (local stores only; false on Redis: `C39_redis_update_lost`): `update_or_instantiate` is like `get_or_instantiate`, and afterwards the returned object has the given attribute values, and is
otherwise as before (or as instantiated).  Hypotheses: the attributes are a dictionary of fields, both of the class and of the
object already stored, if any; no field is given twice; all required fields are given, no value is refused; the class leaves the
identifiers as they read. -/
theorem C39_update_or_instantiate_partial (A : Adapter V) {sid : Nat} (hA : A.ref.store = .local sid) (c : ModelClass V) (hc : c.Valid)
    (ids attrs : Dict V) (w : World V E) (hw : w.OK) (u : String) (hu : c.createUniqueId ids = some u) (hd : Dict.WF attrs)
    (hold : ∀ r, findRef w sid c.name u = some r → (w.heap r).m.Complete ∧ ∀ k ∈ Dict.keys attrs, k ∈ (w.heap r).m.cls.fieldNames)
    (hsep : ∀ k, k ∈ Dict.keys ids → k ∉ Dict.keys attrs)
    (hnew : (∀ k ∈ Dict.keys attrs, k ∈ c.fieldNames) ∧ ∀ f, (f, none) ∈ c.fields → f ∈ Dict.keys ids ∨ f ∈ Dict.keys attrs)
    (hparse : ∀ f ∈ c.fieldNames, ∀ v, (Dict.get? ids f).or (Dict.get? attrs f) = some v → c.reads f v ≠ none) (hids : c.KeepsIds ids) :
    ∃ res w', updateOrInstantiate A c ids attrs w = (.ok res, w') ∧ GotOrPut sid c.name u w res w' ∧
      (res.2 = false → TakesValues attrs (w.heap res.1).m (w'.heap res.1).m) ∧
      (res.2 = true → ∃ m, c.construct ids attrs = .ok m ∧ TakesValues attrs m (w'.heap res.1).m) := by
  have hsplit : updateOrInstantiate (E := E) A c ids attrs w = (getOrInstantiate A c ids attrs >>= fun p => do
      let o ← deref p.1
      let (m', e?) := setattrsIfDiff o.m attrs
      writeObj p.1 { o with m := m' }
      match e? with
      | none => Pure.pure (p.1, p.2)
      | some e => M.raise e) w := rfl
  rcases C39_get_or_instantiate A hA c hc ids attrs hids w hw with ⟨u', res, w1, h1, e1, g, hf, ht⟩ | ⟨e, w1, _, _, h⟩
  · rw [hu] at h1
    obtain rfl := Option.some.inj h1
    have hM : (w1.heap res.1).m.Complete ∧ ∀ k ∈ Dict.keys attrs, k ∈ (w1.heap res.1).m.cls.fieldNames := by
      cases hb : res.2 with
      | false => rw [hf hb]; exact hold _ (g.found hb)
      | true =>
        have hi := ht hb
        refine ⟨instantiate_complete (construct_ok hi), ?_⟩
        rw [(instantiate_ok (construct_ok hi)).1]; exact hnew.1
    obtain ⟨h2, h3⟩ := setattrsIfDiff_spec (w1.heap res.1).m attrs hd (fun k hk => ⟨hM.2 k hk, by rw [hM.1.vals_keys]; exact hM.2 k hk⟩)
    generalize hm' : setattrsIfDiff (w1.heap res.1).m attrs = p at h2 h3
    obtain ⟨m', e?⟩ := p
    simp only at h2 h3
    subst h2
    refine ⟨res, w1.setObj res.1 { w1.heap res.1 with m := m' }, ?_, ⟨g.created, g.found, g.stored, g.entries, ?_, g.redis⟩, ?_, ?_⟩
    · rw [hsplit, M.bind_ok e1, deref_bind]
      simp only [hm']
      rfl
    · intro r hr hne
      simp only [World.setObj, if_neg hne]
      exact g.objects r hr hne
    · intro hb
      simp only [World.setObj, if_true]
      rw [← hf hb]; exact h3
    · intro hb
      refine ⟨_, ht hb, ?_⟩
      simp only [World.setObj, if_true]
      exact h3
  · exfalso
    rcases h with ⟨_, h⟩ | ⟨_, _, ⟨_, k, h1, h2⟩ | ⟨_, ⟨f, h1, h2, h3⟩ | ⟨f, v, h1, h2, h3⟩⟩⟩
    · rw [hu] at h; cases h
    · exact hsep k h1 h2
    · rcases hnew.2 f h1 with h | h
      · exact h2 h
      · exact h3 h
    · exact hparse f h1 v h2 h3

/-- **C39**, partial (local stores only; see `C39_redis_update_lost`): `update_or_add_model_instance` is like `get_or_add_model_instance`, and afterwards the returned object has the attribute values of the given
one.  Hypothesis: those attributes are fields of the object already stored, if any. -/
theorem C39_update_or_add_partial (A : Adapter V) {sid : Nat} (hA : A.ref.store = .local sid) (r : Ref) (w : World V E)
    (hc : (w.heap r).m.cls.Valid) (hm : (w.heap r).m.Complete)
    (hold : ∀ r', findRef w sid (w.heap r).m.type (w.heap r).m.uid = some r' → ∀ k ∈ (w.heap r).m.cls.attributes, k ∈ (w.heap r').m.cls.fieldNames) :
    ∃ res w', updateOrAddInstance A r w = (.ok res, w') ∧ GotOrPut sid (w.heap r).m.type (w.heap r).m.uid w res w' ∧
      TakesValues (w.heap r).m.attrs (w.heap res.1).m (w'.heap res.1).m ∧ (res.2 = true → res.1 = r) := by
  have hsplit : updateOrAddInstance (E := E) A r w = (getOrAddInstance A r >>= fun p => do
      setattrsRef p.1 (w.heap r).m.attrs
      Pure.pure (p.1, p.2)) w := rfl
  obtain ⟨res, w1, e1, g, hf, ht⟩ := C39_get_or_add A hA r w
  have hmm : (w1.heap res.1).m = (w.heap res.1).m := by
    cases hb : res.2 with
    | false => rw [hf hb]
    | true => exact (ht hb).2 _
  have hcl : ∀ k ∈ Dict.keys (w.heap r).m.attrs, k ∈ (w.heap res.1).m.cls.fieldNames := by
    intro k hk
    rw [Model.keys_attrs _ hm, List.mem_filter] at hk
    cases hb : res.2 with
    | false => exact hold _ (g.found hb) k (by simpa using hk.2)
    | true => rw [(ht hb).1]; exact hk.1
  obtain ⟨h2, h3⟩ := setattrs_all (w.heap res.1).m (w.heap r).m.attrs (Model.attrs_wf hm hc) hcl
  obtain ⟨h4, h5, h6, h7⟩ := setattrs_spec (w.heap res.1).m (w.heap r).m.attrs
  refine ⟨res, w1.setObj res.1 { w1.heap res.1 with m := ((w.heap res.1).m.setattrs (w.heap r).m.attrs).1 }, ?_,
    ⟨g.created, g.found, g.stored, g.entries, ?_, g.redis⟩, ?_, fun hb => (ht hb).1⟩
  · rw [hsplit, M.bind_ok e1]
    have : setattrsRef res.1 (w.heap r).m.attrs w1 = (.ok (), w1.setObj res.1 { w1.heap res.1 with m := ((w.heap res.1).m.setattrs (w.heap r).m.attrs).1 }) := by
      unfold setattrsRef
      rw [deref_bind, hmm]
      generalize hp : (w.heap res.1).m.setattrs (w.heap r).m.attrs = p at h2
      obtain ⟨m', e?⟩ := p
      simp only at h2
      subst h2
      rfl
    rw [M.bind_ok this]; rfl
  · intro x hx hne
    simp only [World.setObj, if_neg hne]
    exact g.objects x hx hne
  · simp only [World.setObj, if_true]
    exact ⟨fun k v hk => ⟨v, h3 k v hk, .inl rfl⟩, h7, h4, h5, h6⟩

/-! ## C40 -/

theorem mem_childRefs {m : Model V} (hm : (Dict.keys m.cls.children).Nodup) (ct v : String) :
    (ct, v) ∈ childRefs m ↔ m.lists ct v = true := by
  unfold childRefs Model.lists
  rw [List.mem_flatMap]
  constructor
  · rintro ⟨p, hp, h⟩
    obtain ⟨u, hu, he⟩ := List.mem_map.1 h
    cases he
    rw [Dict.get?_of_mem hm hp]
    simp only
    cases hk : m.kidList p.2 with
    | none => rw [hk] at hu; cases hu
    | some l => rw [hk] at hu; simpa using hu
  · intro h
    split at h
    · cases h
    · rename_i f hf
      refine ⟨(ct, f), Dict.mem_of_get? hf, List.mem_map.2 ⟨v, ?_, rfl⟩⟩
      split at h
      · cases h
      · rename_i l hl; rw [hl]; simpa using h

theorem reach_iff {S : Snap V} (hS : ∀ t u m, S.find t u = some m → (Dict.keys m.cls.children).Nodup) (a b : String × String) :
    Reach (fun t u => (t, u)) (fun k => S.find k.1 k.2) a b ↔ ∃ k, ListsChain S k a b := by
  constructor
  · intro h
    induction h with
    | refl => exact ⟨0, .refl _⟩
    | @step y m c _ hm hc ih =>
      obtain ⟨k, ih⟩ := ih
      exact ⟨k + 1, .step ih hm ((mem_childRefs (hS _ _ _ hm) _ _).1 hc)⟩
  · rintro ⟨k, h⟩
    induction h with
    | refl => exact .refl
    | step h hf hl ih => exact .step ih hf ((mem_childRefs (hS _ _ _ hf) _ _).2 hl)

/-- **C40** On a local store `remove(obj, remove_children=True)` of a stored object always returns, if the recursion limit is at least
the number of stored objects, whatever the child lists contain (missing ids, cycles).  It removes exactly the
objects reachable from `obj` through child lists; everything else, in this and all other stores, is as before. -/
theorem C40_remove_children_local (A : Adapter V) {sid : Nat} (hA : A.ref.store = .local sid) (w : World V E) (hw : w.OK)
    (hc : ∀ t u m, (snap A w).find t u = some m → (Dict.keys m.cls.children).Nodup)
    {t u : String} {r : Ref} (hr : findRef w sid t u = some r) (n : Nat) (hn : countStore A.ref.store w ≤ n) :
    ∃ w', remove A n r true w = (.ok (), w') ∧ w'.OK ∧
      (∀ t' u', (∃ k, ListsChain (snap A w) k (t, u) (t', u')) → findRef w' sid t' u' = none) ∧
      (∀ t' u', (¬ ∃ k, ListsChain (snap A w) k (t, u) (t', u')) → findRef w' sid t' u' = findRef w sid t' u') ∧
      (∀ s t' u', s ≠ sid → findRef w' s t' u' = findRef w s t' u') ∧ w'.redis = w.redis ∧ ∀ r, (w'.heap r).m = (w.heap r).m := by
  obtain ⟨hk1, hk2⟩ := hw.key_ok _ _ _ _ hr
  have hsn : ∀ w' : World V E, (fun k : String × String => (findRef w' sid k.1 k.2).map (fun r => (w'.heap r).m)) = fun k => (snap A w').find k.1 k.2 := by
    intro w'; funext k; simp only [snap, hA]
  rw [hA] at hn
  obtain ⟨w', e, hI, _, hh, hdel, hkeep⟩ := remove_exact (delSpec_local hA w) n r w (.refl hw) (.inl hn) (hw.refs_lt _ _ _ _ hr) trivial
    (by simp only [hk1, hk2, hr, Option.map_some])
  rw [hk1, hk2, hsn w] at hdel hkeep
  refine ⟨w', e, hI.ok, ?_, ?_, fun s t' u' hs => by unfold findRef; rw [hI.others s t' hs], hI.redis, hI.heap⟩
  · intro t' u' h
    have := hdel (t', u') ((reach_iff hc _ _).2 h)
    simpa using this
  · intro t' u' h
    have := hkeep (t', u') (fun hh => h ((reach_iff hc _ _).1 hh))
    rcases hI.mine t' u' with h1 | h1
    · exact h1
    · rw [h1]
      simp only [h1, Option.map_none] at this
      have := this.symm
      simp only [Option.map_eq_none_iff] at this
      exact this.symm

/-- **C40** The same on a Redis store, for an object obtained from it (or equal to the stored one). -/
theorem C40_remove_children_redis (A : Adapter V) {sid : String} (hA : A.ref.store = .redis sid) (w : World V E) (hw : RedisStoreOK sid w)
    (hc : ∀ t u m, Plain t → (snap A w).find t u = some m → (Dict.keys m.cls.children).Nodup)
    {t u : String} {r : Ref} (hr : r < w.next) (ht : Plain t) (hrt : (w.heap r).m.type = t) (hru : (w.heap r).m.uid = u)
    (hs : (snap A w).find t u = some (w.heap r).m) (n : Nat) (hn : countStore A.ref.store w ≤ n) :
    ∃ w', remove A n r true w = (.ok (), w') ∧
      (∀ t' u', Plain t' → (∃ k, ListsChain (snap A w) k (t, u) (t', u')) → (snap A w').find t' u' = none) ∧
      (∀ t' u', Plain t' → (¬ ∃ k, ListsChain (snap A w) k (t, u) (t', u')) → (snap A w').find t' u' = (snap A w).find t' u') ∧
      (∀ k, (∀ t u, k ≠ redisKey sid t u) → Dict.get? w'.redis k = Dict.get? w.redis k) ∧ w'.loc = w.loc := by
  subst hrt hru
  rw [hA] at hn
  have hsn : ∀ (w' : World V E) t u, Plain t → redisAt sid w' (t, u) = (snap A w').find t u := by
    intro w' t u h; simp only [redisAt, if_pos h, snap, hA]
  obtain ⟨w', e, hI, _, hh, hdel, hkeep⟩ := remove_exact (delSpec_redis hA w) n r w (.refl hw) (.inl hn) hr ht (by rw [hsn _ _ _ ht]; exact hs)
  have hreach : ∀ b : String × String, Reach (fun t u => (t, u)) (redisAt sid w) ((w.heap r).m.type, (w.heap r).m.uid) b ↔
      ∃ k, ListsChain (snap A w) k ((w.heap r).m.type, (w.heap r).m.uid) b := by
    intro b
    constructor
    · intro h
      induction h with
      | refl => exact ⟨0, .refl _⟩
      | @step y m c _ hm hcm ih =>
        obtain ⟨k, ih⟩ := ih
        have hny : Plain y.1 := by
          by_cases hn : Plain y.1
          · exact hn
          · unfold redisAt at hm; rw [if_neg hn] at hm; cases hm
        rw [show y = (y.1, y.2) from rfl, hsn _ _ _ hny] at hm
        exact ⟨k + 1, .step ih hm ((mem_childRefs (hc _ _ _ hny hm) _ _).1 hcm)⟩
    · rintro ⟨k, h⟩
      have aux : ∀ {k a b}, ListsChain (snap A w) k a b → Plain a.1 →
          Plain b.1 ∧ Reach (fun t u => (t, u)) (redisAt sid w) a b := by
        intro k a b h ha
        induction h with
        | refl => exact ⟨ha, .refl⟩
        | @step k a t u ct v m h hf hl ih =>
          have ih := ih ha
          have hm := hf
          rw [← hsn _ _ _ ih.1] at hm
          have hcm := (mem_childRefs (hc _ _ _ ih.1 hf) ct v).2 hl
          exact ⟨(delSpec_redis hA w).kids_ok w _ _ (.refl hw) hm _ hcm, .step ih.2 hm hcm⟩
      exact (aux h ht).2
  refine ⟨w', e, ?_, ?_, hI.others, hI.loc⟩
  · intro t' u' hn h
    rw [← hsn _ _ _ hn]
    exact hdel (t', u') ((hreach _).2 h)
  · intro t' u' hn h
    rw [← hsn _ _ _ hn, ← hsn _ _ _ hn]
    exact hkeep (t', u') (fun hh => h ((hreach _).1 hh))

/-- **C40** `remove(obj)` without `remove_children` removes exactly `obj`; if it is not stored it raises `ObjectNotFound` and
removes nothing.  (Any recursion limit `n + 1` will do.) -/
theorem C40_remove_only (A : Adapter V) {sid : Nat} (hA : A.ref.store = .local sid) (w : World V E) (r : Ref) (n : Nat) :
    ∃ w', remove A (n + 1) r false w =
        (if (findRef w sid (w.heap r).m.type (w.heap r).m.uid).isSome then (.ok (), w') else (.error .objectNotFound, w')) ∧
      (∀ s t u, findRef w' s t u = if s = sid ∧ t = (w.heap r).m.type ∧ u = (w.heap r).m.uid then none else findRef w s t u) ∧
      w'.redis = w.redis ∧ ∀ r, (w'.heap r).m = (w.heap r).m := by
  obtain ⟨w', e, f, t, _⟩ := removeOne_local hA r w
  refine ⟨w', ?_, t.findRef, f.redis_eq, f.heap_m⟩
  unfold remove
  rw [deref_bind]
  split at e
  · rename_i h; rw [M.bind_ok e, if_pos h]; rfl
  · rename_i h; rw [M.bind_err e, if_neg h]

/-! ## C49 -/

/-- **C49** In a Redis store `get_all_model_names()` is exactly the set of models with a stored object. -/
theorem C49_model_names_redis (A : Adapter V) {sid : String} (hA : A.ref.store = .redis sid) (hs : Plain sid) (w : World V E)
    (hw : RedisOK w) : ∃ names, getAllModelNames A w = (.ok names, w) ∧ names.Nodup ∧
      ∀ t, t ∈ names ↔ ∃ u, (snap A w).find t u ≠ none := by
  refine ⟨dedup ((scanKeys w.redis (storeLabel sid ++ ":")).filterMap typeOfKey), by unfold getAllModelNames; simp only [hA]; rfl,
    nodup_dedup _, fun t => ?_⟩
  rw [mem_dedup, List.mem_filterMap]
  simp only [snap, hA]
  constructor
  · rintro ⟨k, hk, h⟩
    obtain ⟨t', u, h1, rfl, h2⟩ := (mem_scan_store hw hs).1 hk
    rw [show typeOfKey _ = _ from splitColon_redisKey hs h1] at h; cases h
    obtain ⟨v, hv⟩ := Dict.mem_keys_iff.1 h2
    exact ⟨u, by rw [if_pos h1, hv]; simp⟩
  · rintro ⟨u, hu⟩
    have ht : Plain t := by apply Decidable.byContradiction; intro hc; rw [if_neg hc] at hu; exact hu rfl
    rw [if_pos ht] at hu
    refine ⟨redisKey sid t u, (mem_scan_store hw hs).2 ⟨t, u, ht, rfl, ?_⟩, splitColon_redisKey hs ht⟩
    cases hg : Dict.get? w.redis (redisKey sid t u) with
    | none => rw [hg] at hu; exact absurd rfl hu
    | some v => exact Dict.mem_keys_iff.2 ⟨v, hg⟩

/-- **C49**, partial: in a local store every model with a stored object is among `get_all_model_names()`.  The converse is false
(`C49_phantom_name`): looking up or removing objects leaves names of models without objects. -/
theorem C49_model_names_local_partial (A : Adapter V) {sid : Nat} (hA : A.ref.store = .local sid) (w : World V E) :
    ∃ names, getAllModelNames A w = (.ok names, w) ∧ ∀ t, (∃ u, (snap A w).find t u ≠ none) → t ∈ names := by
  refine ⟨Dict.keys (w.loc sid), by unfold getAllModelNames; simp only [hA], ?_⟩
  rintro t ⟨u, hu⟩
  simp only [snap, hA] at hu
  cases hg : Dict.get? (w.loc sid) t with
  | none => unfold findRef tbl at hu; rw [hg] at hu; exact absurd rfl hu
  | some v => exact Dict.mem_keys_iff.2 ⟨v, hg⟩

end DS

/-! ## Witnesses and examples -/

namespace DS.Ex

/-- **C37** fails for the empty model name on a local store: `count("")` counts everything, `get_all("")` returns nothing. -/
theorem C37_empty_name_counts_all : (count (ad 1) (some (.name "")) w1).1 = .ok 5 ∧ (getAll (ad 1) "" w1).1 = .ok [] := by decide +kernel

/-- A class with an upper-case name, an adapter with a Redis store, and one stored object. -/
def upperC : ModelClass String where
  name := "Site"
  fields := [("name", none)]
  identifiers := ["name"]
def wUpper : World String (List Outcome) := addModels (adR 1 "x") [⟨upperC, [("name", "nyc")], [], 0⟩] (world0 String _ [])

/-- **C37** fails on a Redis store for a model name with upper-case letters: `count` lower-cases it, `get_all` does not. -/
theorem C37_redis_count_lowercases : (count (adR 1 "x") (some (.cls upperC)) wUpper).1 = .ok 0 ∧
    (getAll (adR 1 "x") "Site" wUpper).1.map List.length = .ok 1 := by decide +kernel

/-- **C39** fails on a Redis store: `update_or_instantiate` sets the attributes of the instance it returns, but what is stored keeps the old
ones. -/
theorem C39_redis_update_lost :
    (updateOrInstantiate (adR 1 "x") deviceC [("name", "a")] [("role", "spine")]
      (addModels (adR 1 "x") [device "a" "leaf" []] (world0 String (List Outcome) []))).1 = .ok (1, false) ∧
    contents (adR 1 "x") [("device", "a")] (updateOrInstantiate (adR 1 "x") deviceC [("name", "a")] [("role", "spine")]
      (addModels (adR 1 "x") [device "a" "leaf" []] (world0 String (List Outcome) []))).2 = [some (device "a" "leaf" [])] := by decide +kernel

/-- **C41** needs plain store ids: the id is put into a `SCAN` pattern as it is, so a store with the id `a*` returns the objects of the
store `ab`, and a store with the id `[a]` does not find its own. -/
theorem C41_pattern_store_id :
    (getAll (adR 1 "a*") "site" (addModels (adR 2 "ab") [site "nyc" []] (world0 String (List Outcome) []))).1.map List.length = .ok 1 ∧
    (count (adR 1 "a*") none (addModels (adR 2 "ab") [site "nyc" []] (world0 String (List Outcome) []))).1 = .ok 1 ∧
    (count (adR 1 "[a]") none (addModels (adR 1 "[a]") [site "nyc" []] (world0 String (List Outcome) []))).1 = .ok 0 := by decide +kernel

/-- **C49** fails on a local store: looking up a model without objects makes it one of the model names. -/
theorem C49_phantom_name : (getAllModelNames (ad 1) (getOrNone (ad 1) (.name "rack") (.uid "r1") w1).2).1 = .ok ["site", "device", "interface", "rack"] ∧
    (getAll (ad 1) "rack" (getOrNone (ad 1) (.name "rack") (.uid "r1") w1).2).1 = .ok [] := by decide +kernel

/-- The hypotheses of C36 hold for a long sequence of operations on two stores. -/
def opsEx : List (Adapter String × StoreOp) :=
  [(ad 1, .add 0), (ad 1, .add 6), (ad 2, .remove 0), (ad 2, .remove 0), (ad 1, .get "site" "nyc"), (ad 1, .update 0), (ad 2, .getOrNone "site" "nyc"),
   (ad 1, .getAll "device"), (ad 2, .get "device" "zzz")]
example : (∀ p ∈ opsEx, ∃ sid, p.1.ref.store = .local sid) ∧ (∀ p ∈ opsEx, ∀ r, p.2.ref? = some r → r < w1.next) ∧ w1.OK := by
  refine ⟨?_, ?_, w1_ok⟩
  · intro p hp
    simp only [opsEx, List.mem_cons, List.not_mem_nil, or_false] at hp
    rcases hp with rfl | rfl | rfl | rfl | rfl | rfl | rfl | rfl | rfl <;> exact ⟨_, rfl⟩
  · have hn : w1.next = 11 := by decide +kernel
    intro p hp
    simp only [opsEx, List.mem_cons, List.not_mem_nil, or_false] at hp
    rw [hn]
    rcases hp with rfl | rfl | rfl | rfl | rfl | rfl | rfl | rfl | rfl <;> intro r h <;> cases h <;> decide
/-- What the sequence returns: existing entries, conflicts and missing objects all occur. -/
example : (runOps (fun _ r => r) opsEx w1).1 =
    [.error .objectAlreadyExists, .ok [], .ok [], .error .objectNotFound, .ok [6], .ok [], .ok [], .ok [7, 8], .error .objectNotFound] := by
  decide +kernel

/-- Redis worlds: everything in the server was put there by two stores. -/
def wRedis : World String (List Outcome) :=
  addModels (adR 1 "one") [site "nyc" ["a", "b"], device "a" "leaf" ["a__eth0"], interface "a" "eth0" "up"]
  (addModels (adR 2 "two") [site "nyc" ["a"], device "a" "spine" []] (world0 String _ []))

theorem redisOK_of_keys (w : World String (List Outcome)) (hwf : Dict.WF w.redis) (l : List (String × String × String))
    (hk : Dict.keys w.redis = l.map (fun k => redisKey k.1 k.2.1 k.2.2)) (hl : ∀ k ∈ l, Plain k.1 ∧ Plain k.2.1) : RedisOK w where
  wf := hwf
  keys k hk' _ := by
    rw [hk] at hk'
    obtain ⟨x, hx, rfl⟩ := List.mem_map.1 hk'
    exact ⟨x.1, x.2.1, x.2.2, (hl x hx).1, (hl x hx).2, rfl⟩

theorem wRedis_ok : RedisOK wRedis :=
  redisOK_of_keys _ (by unfold Dict.WF; decide +kernel) [("two", "site", "nyc"), ("two", "device", "a"), ("one", "site", "nyc"), ("one", "device", "a"), ("one", "interface", "a__eth0")]
    (by decide +kernel) (by decide +kernel)
theorem wRedis_detached : RedisDetached wRedis := by
  intro k o h
  have hm := Dict.mem_of_get? h
  have : ∀ p ∈ wRedis.redis, p.2.adapter = none := by decide +kernel
  exact this _ hm

/-- C41 applies to a sequence of operations on the two stores. -/
def opsR : List (Adapter String × StoreOp) :=
  [(adR 1 "one", .remove 2), (adR 2 "two", .get "site" "nyc"), (adR 1 "one", .add 2), (adR 1 "one", .add 0), (adR 2 "two", .getAll "device"), (adR 1 "one", .getOrNone "rack" "r")]
example : (∀ p ∈ opsR, ∃ sid, p.1.ref.store = .redis sid ∧ Plain sid) ∧
    (∀ p ∈ opsR, ∀ r, p.2.ref? = some r → r < wRedis.next ∧ Plain (wRedis.heap r).m.type) ∧
    (∀ p ∈ opsR, ∀ t, p.2.name? = some t → Plain t) := by
  have hn : wRedis.next = 5 := by decide +kernel
  refine ⟨?_, ?_, ?_⟩
  · intro p hp
    simp only [opsR, List.mem_cons, List.not_mem_nil, or_false] at hp
    rcases hp with rfl | rfl | rfl | rfl | rfl | rfl <;> exact ⟨_, rfl, by decide⟩
  · intro p hp
    simp only [opsR, List.mem_cons, List.not_mem_nil, or_false] at hp
    rw [hn]
    rcases hp with rfl | rfl | rfl | rfl | rfl | rfl <;> intro r h <;> cases h <;> exact ⟨by decide, by decide +kernel⟩
  · intro p hp
    simp only [opsR, List.mem_cons, List.not_mem_nil, or_false] at hp
    rcases hp with rfl | rfl | rfl | rfl | rfl | rfl <;> intro r h <;> cases h <;> decide
example : (runOps (fun w r => (w.heap r).m) opsR wRedis).1.map (fun r => r.map List.length) =
    [.ok 0, .ok 1, .ok 0, .error .objectAlreadyExists, .ok 1, .ok 0] := by decide +kernel

/-- C40 on a cyclic child graph with a dangling id. -/
def wCyc2 : World String (List Outcome) :=
  addModels (adN 1) [nodeM "a" ["b", "zzz"], nodeM "b" ["a", "c"], nodeM "c" [], nodeM "d" ["a"]] (world0 String _ [])
example : findRef wCyc2 1 "node" "a" = some 0 ∧ countStore (adN 1).ref.store wCyc2 = 4 := by decide +kernel
example : (remove (adN 1) 4 0 true wCyc2).1 = .ok () ∧
    contents (adN 1) [("node", "a"), ("node", "b"), ("node", "c"), ("node", "d")] (remove (adN 1) 4 0 true wCyc2).2 =
      [none, none, none, some (nodeM "d" ["a"])] := by decide +kernel
/-- The hypotheses of the Redis variant of C40. -/
theorem wRedis_store : RedisStoreOK "one" wRedis := by
  have hmem : ∀ t u o, Plain t → Dict.get? wRedis.redis (redisKey "one" t u) = some o →
      (t, u, o.m) ∈ [("site", "nyc", site "nyc" ["a", "b"]), ("device", "a", device "a" "leaf" ["a__eth0"]), ("interface", "a__eth0", interface "a" "eth0" "up")] := by
    intro t u o ht h
    have hm := Dict.mem_of_get? h
    have hr : wRedis.redis.map (fun p => (p.1, p.2.m)) =
        [(redisKey "two" "site" "nyc", site "nyc" ["a"]), (redisKey "two" "device" "a", device "a" "spine" []),
         (redisKey "one" "site" "nyc", site "nyc" ["a", "b"]), (redisKey "one" "device" "a", device "a" "leaf" ["a__eth0"]),
         (redisKey "one" "interface" "a__eth0", interface "a" "eth0" "up")] := by decide +kernel
    have hm : (redisKey "one" t u, o.m) ∈ wRedis.redis.map (fun p => (p.1, p.2.m)) := List.mem_map.2 ⟨_, hm, rfl⟩
    rw [hr] at hm
    simp only [List.mem_cons, List.not_mem_nil, or_false, Prod.mk.injEq] at hm ⊢
    have key : ∀ s t' u', Plain s → Plain t' → redisKey "one" t u = redisKey s t' u' → "one" = s ∧ t = t' ∧ u = u' :=
      fun s t' u' h1 h2 h => redisKey_inj (by decide) h1 ht h2 h
    rcases hm with ⟨h, e⟩ | ⟨h, e⟩ | ⟨h, e⟩ | ⟨h, e⟩ | ⟨h, e⟩
    · exact absurd (key _ _ _ (by decide) (by decide) h).1 (by decide)
    · exact absurd (key _ _ _ (by decide) (by decide) h).1 (by decide)
    · obtain ⟨_, h1, h2⟩ := key _ _ _ (by decide) (by decide) h; exact .inl ⟨h1, h2, e⟩
    · obtain ⟨_, h1, h2⟩ := key _ _ _ (by decide) (by decide) h; exact .inr (.inl ⟨h1, h2, e⟩)
    · obtain ⟨_, h1, h2⟩ := key _ _ _ (by decide) (by decide) h; exact .inr (.inr ⟨h1, h2, e⟩)
  refine ⟨wRedis_ok, by decide, ?_, ?_⟩
  · intro t u o ht h
    have := hmem t u o ht h
    simp only [List.mem_cons, List.not_mem_nil, or_false, Prod.mk.injEq] at this
    rcases this with ⟨rfl, rfl, e⟩ | ⟨rfl, rfl, e⟩ | ⟨rfl, rfl, e⟩ <;> rw [e] <;> decide +kernel
  · intro t u o ht h
    have := hmem t u o ht h
    simp only [List.mem_cons, List.not_mem_nil, or_false, Prod.mk.injEq] at this
    rcases this with ⟨rfl, rfl, e⟩ | ⟨rfl, rfl, e⟩ | ⟨rfl, rfl, e⟩ <;> rw [e] <;> decide +kernel
/-- Object 2 of `wRedis` is the stored site of store "one". -/
example : 2 < wRedis.next ∧ (wRedis.heap 2).m = site "nyc" ["a", "b"] ∧
    ((snap (adR 1 "one") wRedis).find "site" "nyc") = some (wRedis.heap 2).m ∧ countStore (adR 1 "one").ref.store wRedis = 3 := by decide +kernel

/-- C38: repeated ids, and a missing one. -/
example : (getByUids (ad 1) ["b", "a", "b"] "device" w1).1 = .ok [8, 7, 8] ∧ (getByUids (ad 1) ["b", "zzz"] "device" w1).1 = .error .objectNotFound := by decide +kernel

/-- C39: both outcomes occur, and the conditions are met. -/
theorem deviceC_valid : deviceC.Valid := ⟨by decide, by decide, by decide, by decide, by decide, by decide⟩
example : (getOrInstantiate (ad 1) deviceC [("name", "a")] [("role", "x")] w1).1 = .ok (7, false) ∧
    (getOrInstantiate (ad 1) deviceC [("name", "z")] [("role", "x")] w1).1 = .ok (11, true) ∧
    (getOrInstantiate (ad 1) deviceC [("role", "x")] [] w1).1 = .error .keyError := by decide +kernel
example : ((updateOrInstantiate (ad 1) deviceC [("name", "a")] [("role", "x")] w1).2.heap 7).m = device "a" "x" ["a__eth0"] := by decide +kernel
example : deviceC.createUniqueId [("name", "a")] = some "a" ∧ findRef w1 1 "device" "a" = some 7 ∧ (∀ k ∈ ["role"], k ∈ (w1.heap 7).m.cls.fieldNames) := by
  decide +kernel

end DS.Ex
