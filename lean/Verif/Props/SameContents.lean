import Verif.Lemmas.SameContents
import Verif.Props.SkipCount
import Verif.Props.Diff
import Verif.Props.Store
import Verif.Lemmas.SyncDone
/-! # C69: a diff depends on nothing but the contents of the two adapters -/

namespace DS
variable {V E E' : Type} [PyVal V]

section
variable {n n' : Nat} {src dst src' dst' : Adapter V} {dc dc' : DiffClass V} {flags : Nat} {w wa : World V E} {w' wb : World V E'}
  {d d' : Diff V}

/-- **C69** Two pairs of adapters with the same contents, in whatever kind of store, whatever order the objects were loaded in and
the child lists are in: both diffs have, at every depth, the same elements, up to order. -/
theorem C69_same_diff (h : Comparable src dst w) (h' : Comparable src' dst' w') (t1 : SameTops src src') (t2 : SameTops dst dst')
    (hS : SameContents (snap src w) (snap src' w')) (hD : SameContents (snap dst w) (snap dst' w'))
    (hr : diffFrom n dst src dc flags w = (.ok d, wa)) (hr' : diffFrom n' dst' src' dc' flags w' = (.ok d', wb)) :
    SameElems d.kids d'.kids :=
  describesTop_same hS hD t1 t2 (diffFrom_describes h.ok h.src_ok h.dst_ok h.fields h.src_types h.dst_types h.top_nodup hr).1
    (diffFrom_describes h'.ok h'.src_ok h'.dst_ok h'.fields h'.src_types h'.dst_types h'.top_nodup hr').1

/-- **C69** `has_diffs()`, `len()`, the four counts of `summary()` and its skip count are then the same. -/
theorem C69_same_counts [PyVal.Equiv V] (h : Comparable src dst w) (h' : Comparable src' dst' w') (t1 : SameTops src src') (t2 : SameTops dst dst')
    (hS : SameContents (snap src w) (snap src' w')) (hD : SameContents (snap dst w) (snap dst' w'))
    (hdc : dc.Reorders) (hdc' : dc'.Reorders)
    (hr : diffFrom n dst src dc flags w = (.ok d, wa)) (hr' : diffFrom n' dst' src' dc' flags w' = (.ok d', wb)) :
    d'.hasDiffs = d.hasDiffs ∧ d'.len = d.len ∧ d'.skip = d.skip ∧ d'.summary.create = d.summary.create ∧
      d'.summary.update = d.summary.update ∧ d'.summary.delete = d.summary.delete ∧ d'.summary.noChange = d.summary.noChange := by
  have hm := C69_same_diff h h' t1 t2 hS hD hr hr'
  have e1 : d.cls = dc := (diffFrom_describes h.ok h.src_ok h.dst_ok h.fields h.src_types h.dst_types h.top_nodup hr).2
  have e2 : d'.cls = dc' := (diffFrom_describes h'.ok h'.src_ok h'.dst_ok h'.fields h'.src_types h'.dst_types h'.top_nodup hr').2
  have hc : d'.summary.create = d.summary.create ∧
      d'.summary.update = d.summary.update ∧ d'.summary.delete = d.summary.delete ∧ d'.summary.noChange = d.summary.noChange := by
    rw [Diff.summary_eq_nodes d (e1 ▸ hdc), Diff.summary_eq_nodes d' (e2 ▸ hdc')]
    exact ⟨hm.count (some .create), hm.count (some .update), hm.count (some .delete), hm.count none⟩
  refine ⟨?_, ?_, ?_, hc⟩
  · have g1 := (C02_has_diffs d (e1 ▸ hdc)).2.1
    have g2 := (C02_has_diffs d' (e2 ▸ hdc')).2.1
    obtain ⟨c1, c2, c3, _⟩ := hc
    rw [Bool.eq_iff_iff, g1, g2]
    omega
  · obtain ⟨c1, c2, c3, c4⟩ := hc
    rw [← Diff.total_eq_len, ← Diff.total_eq_len]
    unfold Summary.total
    rw [c1, c2, c3, c4]
  · obtain ⟨ts, tops, a1, a2, a3, a4, a5, a6⟩ := C06_skip_exact h hdc hr
    obtain ⟨ts', tops', b1, b2, b3, b4, b5, b6⟩ := C06_skip_exact h' hdc' hr'
    have p1 : ts.Perm ts' := (List.perm_ext_iff_of_nodup a1 b1).2 (fun t => by rw [a2, b2, t1 t, t2 t])
    have e : topOnly dst' (snap src' w') (snap dst' w') ts' = topOnly dst (snap src w) (snap dst w) ts := by
      unfold topOnly
      rw [← sum_perm (p1.map _)]
      refine congrArg _ (List.map_congr_left (fun t _ => ?_))
      rw [all_length_same hS h.src_ok h'.src_ok, all_length_same hD h.dst_ok h'.dst_ok]
      by_cases ht : t ∈ dst.topLevel
      · rw [if_pos ht, if_pos ((t2 t).1 ht)]
      · rw [if_neg ht, if_neg (fun h => ht ((t2 t).2 h))]
    have st : ∀ c, IsTop src dst (snap src w) (snap dst w) c → Stored (snap src w) (snap dst w) c := fun c hc => isTop_stored hc
    have p2 : (tops.map (fun x => (x.1.recast (snap src' w') (snap dst' w'), x.2))).Perm tops' := by
      have hfst : (tops.map (fun x => (x.1.recast (snap src' w') (snap dst' w'), x.2))).map Prod.fst
          = (tops.map Prod.fst).map (Pos.recast (snap src' w') (snap dst' w')) := by simp
      have q := (recast_perm hS hD a3 b3 (fun c hc => st c ((a4 c).1 hc)) (fun c hc => isTop_stored ((b4 c).1 hc))
        (fun c hc => (b4 _).2 (isTop_recast hS hD t1 t2 ((a4 c).1 hc)))
        (fun c hc => (a4 _).2 (isTop_recast hS.symm hD.symm (fun t => (t1 t).symm) (fun t => (t2 t).symm) ((b4 c).1 hc)))).symm
      have nd' : (tops'.map Prod.fst).Nodup := b3.nodup
      refine (List.perm_ext_iff_of_nodup (nodup_of_fst (by rw [hfst]; exact q.nodup_iff.2 nd')) (nodup_of_fst nd')).2 (fun x => ?_)
      have key : ∀ y ∈ tops, ∀ z ∈ tops', y.1.recast (snap src' w') (snap dst' w') = z.1 → y.2 = z.2 := by
        intro y hy z hz hyz
        have := passedOver_same hS hD (a5 y hy) (recast_same hS hD (st _ ((a4 _).1 (List.mem_map.2 ⟨y, hy, rfl⟩))))
        exact C06_skip_determined this (hyz ▸ b5 z hz)
      constructor
      · intro hx
        obtain ⟨y, hy, rfl⟩ := List.mem_map.1 hx
        obtain ⟨z, hz, hzy⟩ := List.mem_map.1 (q.mem_iff.1 (List.mem_map.2 ⟨y.1, List.mem_map.2 ⟨y, hy, rfl⟩, rfl⟩))
        have := key y hy z hz hzy.symm
        rwa [show (y.1.recast (snap src' w') (snap dst' w'), y.2) = z from Prod.ext hzy.symm this]
      · intro hx
        obtain ⟨c, hc, hcx⟩ := List.mem_map.1 (q.mem_iff.2 (List.mem_map.2 ⟨x, hx, rfl⟩))
        obtain ⟨y, hy, rfl⟩ := List.mem_map.1 hc
        exact List.mem_map.2 ⟨y, hy, Prod.ext hcx (key y hy x hx hcx)⟩
    rw [a6, b6, e, ← sum_perm (p2.map Prod.snd)]
    simp [Function.comp_def]

/-- **C69** Given the same recursion limit, one diff returns exactly if the other does. -/
theorem C69_returns_alike (h : Comparable src dst w) (h' : Comparable src' dst' w') (t1 : SameTops src src') (t2 : SameTops dst dst')
    (hS : SameContents (snap src w) (snap src' w')) (hD : SameContents (snap dst w) (snap dst' w')) :
    (∃ d, (diffFrom n dst src dc flags w).1 = .ok d) ↔ ∃ d, (diffFrom n dst' src' dc' flags w').1 = .ok d := by
  rw [diff_returns_iff h, diff_returns_iff h']
  exact ⟨fun hn e hp => hn e (problem_same hS.symm hD.symm (fun t => (t1 t).symm) (fun t => (t2 t).symm) hp),
    fun hn e hp => hn e (problem_same hS hD t1 t2 hp)⟩
end

/-! ## loading -/

theorem SameModel.refl (m : Model V) : SameModel m m where
  cls := rfl
  flags := rfl
  ids := rfl
  short := rfl
  attrs := rfl
  lists _ f _ := by cases m.kidList f <;> simp [SameList]

theorem Frame.keyOf {w w' : World V E} (f : Frame w w') (r : Ref) : keyOf w' r = keyOf w r := by
  unfold DS.keyOf; rw [f.heap_m r]

/-- One `add` of a new object. -/
theorem add_new {A : Adapter V} {r : Ref} {w : World V E} (ok : w.OK) (hr : r < w.next) (hk : A.Takes (keyOf w r).1)
    (hp : ∀ sid, A.ref.store = .redis sid → Plain sid)
    (hu : (snap A w).find (keyOf w r).1 (keyOf w r).2 = none) :
    ∃ w', add A r w = (.ok (), w') ∧ w'.OK ∧ w'.next = w.next ∧ (∀ r', r' < w.next → (w'.heap r').m = (w.heap r').m) ∧
      (∀ t u, (snap A w').find t u = if (t, u) = keyOf w r then some (w.heap r).m else (snap A w).find t u) ∧
      ∀ B : Adapter V, B.ref.store ≠ A.ref.store → (∀ sid, B.ref.store = .redis sid → Plain sid) →
        ∀ t u, (snap B w').find t u = (snap B w).find t u := by
  unfold Adapter.Takes at hk
  cases hs : A.ref.store with
  | «local» sid =>
    rw [snap_find_local hs] at hu
    have hu : findRef w sid (w.heap r).m.type (w.heap r).m.uid = none := Option.map_eq_none_iff.1 hu
    obtain ⟨w', h1, h2, h3, _⟩ := add_local_none hs r w hu
    refine ⟨w', h1, OK.of_set ok h2 hr h3, h2.next_eq, fun r' _ => h2.heap_m r', fun t u => ?_, fun B hB _ t u => ?_⟩
    rotate_left
    · cases hb : B.ref.store with
      | «local» sid' =>
        rw [snap_find_local hb, snap_find_local hb, h3.findRef, if_neg (fun h => hB (by rw [hb, h.1]))]
        simp only [h2.heap_m]
      | redis sid' => unfold snap; rw [hb]; simp only [h2.redis_eq]
    rw [snap_find_local hs, snap_find_local hs, h3.findRef]
    by_cases he : (t, u) = keyOf w r
    · rw [if_pos he]
      cases he
      rw [if_pos ⟨rfl, rfl, rfl⟩, Option.map_some, h2.heap_m]
    · rw [if_neg (fun h => he (Prod.ext h.2.1 h.2.2)), if_neg he]
      simp only [h2.heap_m]
  | redis sid =>
    rw [hs] at hk
    have hk : Plain (w.heap r).m.type := hk
    have hf : ∀ (w : World V E) t u, (snap A w).find t u = if Plain t then (Dict.get? w.redis (redisKey sid t u)).map Obj.m else none := by
      intro w t u; unfold snap; rw [hs]
    rw [hf] at hu
    have hu : Dict.get? w.redis (redisKey sid (w.heap r).m.type (w.heap r).m.uid) = none := by
      rw [if_pos (show Plain (keyOf w r).1 from hk)] at hu
      exact Option.map_eq_none_iff.1 hu
    have e := add_redis hs r w
    rw [hu] at e
    refine ⟨_, e, ⟨ok.loc_wf, ok.tbl_wf, ok.refs_lt, ok.key_ok⟩, rfl, fun _ _ => rfl, fun t u => ?_, fun B hB hpB t u => ?_⟩
    rotate_left
    · cases hb : B.ref.store with
      | «local» sid' => unfold snap; rw [hb]; rfl
      | redis sid' =>
        unfold snap
        rw [hb]
        simp only
        by_cases ht : Plain t
        · rw [if_pos ht, if_pos ht, Dict.get?_set, if_neg]
          intro h
          obtain ⟨h1, _⟩ := redisKey_inj (hpB sid' hb) (hp sid hs) ht hk (by first | exact h | exact h.symm)
          exact hB (by rw [hb, h1])
        · rw [if_neg ht, if_neg ht]
    rw [hf, hf]
    by_cases ht : Plain t
    · rw [if_pos ht, if_pos ht, Dict.get?_set]
      by_cases he : (t, u) = keyOf w r
      · rw [if_pos he]
        cases he
        rw [if_pos rfl]; rfl
      · rw [if_neg he, if_neg (fun h => he ?_)]
        obtain ⟨_, h2, h3⟩ := redisKey_inj (hp sid hs) (hp sid hs) ht hk (by first | exact h | exact h.symm)
        exact Prod.ext h2 h3
    · rw [if_neg ht, if_neg ht, if_neg]
      intro he
      cases he
      exact ht hk

theorem loadAll_spec (A : Adapter V) (rs : List Ref) : ∀ (w : World V E), w.OK → NewTo A rs w →
    ∃ w', loadAll A rs w = (.ok (), w') ∧ w'.OK ∧ (∀ r, r < w.next → (w'.heap r).m = (w.heap r).m) ∧
      (∀ r ∈ rs, (snap A w').find (keyOf w r).1 (keyOf w r).2 = some (w.heap r).m) ∧
      (∀ t u, (∀ r ∈ rs, keyOf w r ≠ (t, u)) → (snap A w').find t u = (snap A w).find t u) ∧
      ∀ B : Adapter V, B.ref.store ≠ A.ref.store → (∀ sid, B.ref.store = .redis sid → Plain sid) →
        ∀ t u, (snap B w').find t u = (snap B w).find t u := by
  induction rs with
  | nil => exact fun w ok _ => ⟨w, rfl, ok, fun _ _ => rfl, fun _ h => (List.not_mem_nil h).elim, fun _ _ _ => rfl, fun _ _ _ _ _ => rfl⟩
  | cons r rs ih =>
    intro w ok h
    obtain ⟨hd1, hd2⟩ := List.pairwise_cons.1 h.distinct
    have hm : ∀ {x}, x ∈ rs → x ∈ r :: rs := List.mem_cons_of_mem _
    obtain ⟨w1, a1, a2, a3, a4, a5, a6⟩ := add_new ok (h.alloc r List.mem_cons_self) (h.taken r List.mem_cons_self) h.redis (h.unused r List.mem_cons_self)
    have hk : ∀ x ∈ r :: rs, keyOf w1 x = keyOf w x := fun x hx => by unfold keyOf; rw [a4 x (h.alloc x hx)]
    obtain ⟨w2, b1, b2, b3, b4, b5, b6⟩ := ih w1 a2
      { alloc := fun x hx => a3 ▸ h.alloc x (hm hx)
        distinct := by
          refine List.Pairwise.imp_of_mem ?_ hd2
          intro x y hx hy hne
          rwa [hk x (hm hx), hk y (hm hy)]
        unused := fun x hx => by
          rw [hk x (hm hx), a5, if_neg (fun he => hd1 x hx he.symm)]
          exact h.unused x (hm hx)
        taken := fun x hx => by rw [hk x (hm hx)]; exact h.taken x (hm hx)
        redis := h.redis }
    refine ⟨w2, ?_, b2, fun x hx => (b3 x (a3 ▸ hx)).trans (a4 x hx), fun x hx => ?_, fun t u hn => ?_, fun B hB hpB t u => (b6 B hB hpB t u).trans (a6 B hB hpB t u)⟩
    · show (do add A r; loadAll A rs) w = _
      rw [M.bind_ok a1, b1]
    · rcases List.mem_cons.1 hx with rfl | hx
      · rw [b5 _ _ (fun y hy he => hd1 y hy (by rw [hk y (hm hy)] at he; exact he.symm)), a5, if_pos rfl]
      · have := b4 x hx
        rwa [hk x (hm hx), a4 x (h.alloc x (hm hx))] at this
    · rw [b5 t u (fun x hx => by rw [hk x (hm hx)]; exact hn x (hm hx)), a5, if_neg (fun he => hn r List.mem_cons_self he.symm)]

/-- **C69** Loading objects that are new to an adapter, one after the other, never fails, in whatever order and kind of store; the contents are then exactly what was
there before and the objects loaded, and those of every other store are as before. -/
theorem C69_load {A : Adapter V} {rs : List Ref} {w : World V E} (ok : w.OK) (h : NewTo A rs w) :
    ∃ w', loadAll A rs w = (.ok (), w') ∧
      (∀ r ∈ rs, (snap A w').find (keyOf w r).1 (keyOf w r).2 = some (w.heap r).m) ∧
      (∀ t u, (∀ r ∈ rs, keyOf w r ≠ (t, u)) → (snap A w').find t u = (snap A w).find t u) ∧
      ∀ B : Adapter V, B.ref.store ≠ A.ref.store → (∀ sid, B.ref.store = .redis sid → Plain sid) →
        ∀ t u, (snap B w').find t u = (snap B w).find t u := by
  obtain ⟨w', h1, _, _, h2, h3, h4⟩ := loadAll_spec A rs w ok h
  exact ⟨w', h1, h2, h3, h4⟩

/-- **C69** Hence two adapters with the same contents that load the same objects, in any orders and into any kinds of store, have the same
contents again. -/
theorem C69_load_order {A A' : Adapter V} {rs rs' : List Ref} {w wa : World V E} {w' wb : World V E'} (ok : w.OK) (ok' : w'.OK)
    (h : NewTo A rs w) (h' : NewTo A' rs' w') (hc : SameContents (snap A w) (snap A' w'))
    (hm : (rs.map (fun r => (w.heap r).m)).Perm (rs'.map (fun r => (w'.heap r).m)))
    (hl : loadAll A rs w = (.ok (), wa)) (hl' : loadAll A' rs' w' = (.ok (), wb)) : SameContents (snap A wa) (snap A' wb) := by
  obtain ⟨w1, a1, _, _, a2, a3, _⟩ := loadAll_spec A rs w ok h
  obtain ⟨w2, b1, _, _, b2, b3, _⟩ := loadAll_spec A' rs' w' ok' h'
  cases hl.symm.trans a1
  cases hl'.symm.trans b1
  intro t u
  by_cases hx : ∃ r ∈ rs, keyOf w r = (t, u)
  · obtain ⟨r, hr, hk⟩ := hx
    obtain ⟨r', hr', hrr⟩ := List.mem_map.1 (hm.mem_iff.1 (List.mem_map.2 ⟨r, hr, rfl⟩))
    have hk' : keyOf w' r' = (t, u) := by rw [← hk]; unfold keyOf; rw [hrr]
    have g := a2 r hr
    have g' := b2 r' hr'
    rw [hk] at g
    rw [hk', hrr] at g'
    rw [g, g']
    exact .both (.refl _)
  · rw [a3 t u (fun r hr hk => hx ⟨r, hr, hk⟩), b3 t u (fun r' hr' hk => hx ?_)]
    · exact hc t u
    · obtain ⟨r, hr, hrr⟩ := List.mem_map.1 (hm.mem_iff.2 (List.mem_map.2 ⟨r', hr', rfl⟩))
      exact ⟨r, hr, by rw [← hk]; unfold keyOf; rw [hrr]⟩

end DS
