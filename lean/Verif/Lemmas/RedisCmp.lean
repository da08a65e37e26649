import Verif.Lemmas.Compared
import Verif.Lemmas.Remove
/-! # Redis stores hold consistent contents -/
set_option linter.unusedSectionVars false

namespace DS
variable {V E : Type} [PyVal V]

theorem redis_find {A : Adapter V} {sid : String} (hA : A.ref.store = .redis sid) {w : World V E} {t u : String} {m : Model V} :
    (snap A w).find t u = some m ↔ Plain t ∧ ∃ o, Dict.get? w.redis (redisKey sid t u) = some o ∧ o.m = m := by
  simp only [snap, hA]
  by_cases h : Plain t <;> simp [h]

/-- What a Redis store holds is consistent. -/
theorem consistent_redis {A : Adapter V} {sid : String} (hA : A.ref.store = .redis sid) {w : World V E} (hw : RedisStoreOK sid w)
    (hc : ∀ t u m, (snap A w).find t u = some m → (Dict.keys m.cls.children).Nodup) : (snap A w).Consistent where
  key_ok t u m h := by
    obtain ⟨ht, o, ho, rfl⟩ := (redis_find hA).1 h
    exact hw.key_ok t u o ht ho
  all_iff t m := by
    constructor
    · intro h
      by_cases ht : Plain t
      · simp only [snap, hA, if_pos ht] at h
        obtain ⟨k, hk, hm⟩ := List.mem_filterMap.1 h
        obtain ⟨u, rfl, _⟩ := (mem_scan_type hw.toRedisOK hw.sid_ok ht).1 hk
        obtain ⟨o, ho, hm⟩ := Option.map_eq_some_iff.1 hm
        exact ⟨u, (redis_find hA).2 ⟨ht, o, ho, hm⟩⟩
      · simp only [snap, hA, if_neg ht] at h
        cases h
    · rintro ⟨u, h⟩
      obtain ⟨ht, o, ho, rfl⟩ := (redis_find hA).1 h
      simp only [snap, hA, if_pos ht]
      exact List.mem_filterMap.2 ⟨_, (mem_scan_type hw.toRedisOK hw.sid_ok ht).2 ⟨u, rfl, Dict.mem_keys_iff.2 ⟨o, ho⟩⟩, by rw [ho]; rfl⟩
  all_nodup t := by
    by_cases ht : Plain t
    · simp only [snap, hA, if_pos ht]
      have hnd : (scanKeys w.redis (storeLabel sid ++ (":" ++ (t ++ ":")))).Nodup := List.filter_sublist.nodup hw.wf
      have hmem : ∀ k ∈ scanKeys w.redis (storeLabel sid ++ (":" ++ (t ++ ":"))), ∃ u o, k = redisKey sid t u ∧ Dict.get? w.redis k = some o ∧ o.m.uid = u := by
        intro k hk
        obtain ⟨u, rfl, hk⟩ := (mem_scan_type hw.toRedisOK hw.sid_ok ht).1 hk
        obtain ⟨o, ho⟩ := Dict.mem_keys_iff.1 hk
        exact ⟨u, o, rfl, ho, (hw.key_ok t u o ht ho).2⟩
      generalize scanKeys w.redis (storeLabel sid ++ (":" ++ (t ++ ":"))) = l at hnd hmem
      induction l with
      | nil => exact List.nodup_nil
      | cons k l ih =>
        obtain ⟨u, o, rfl, ho, hu⟩ := hmem k (by simp)
        rw [List.nodup_cons] at hnd
        simp only [List.filterMap_cons, ho, Option.map_some, List.map_cons, List.nodup_cons]
        refine ⟨?_, ih hnd.2 (fun k hk => hmem k (by simp [hk]))⟩
        intro h
        obtain ⟨m, hm, he⟩ := List.mem_map.1 h
        obtain ⟨k', hk', hm⟩ := List.mem_filterMap.1 hm
        obtain ⟨u', o', rfl, ho', hu'⟩ := hmem k' (by simp [hk'])
        rw [ho', Option.map_some] at hm
        cases hm
        have : u' = u := hu'.symm.trans (he.trans hu)
        exact hnd.1 (this ▸ hk')
    · simp only [snap, hA, if_neg ht]
      exact List.nodup_nil
  children_nodup := hc

/-- A Redis store serves an adapter whose model names are plain. -/
theorem serves_redis {A : Adapter V} {sid : String} (hA : A.ref.store = .redis sid) {w : World V E} (hw : RedisStoreOK sid w)
    (ht : ∀ t ∈ A.topLevel, Plain t) (hc : ∀ t u m, (snap A w).find t u = some m → (Dict.keys m.cls.children).Nodup)
    (hk : ∀ t u m, (snap A w).find t u = some m → ∀ ct ∈ Dict.keys m.cls.children, Plain ct) : Serves A (snap A w) where
  top t h := by unfold Adapter.Takes; rw [hA]; exact ht t h
  all t m h ct hct := by
    obtain ⟨u, hu⟩ := ((consistent_redis hA hw hc).all_iff t m).1 h
    unfold Adapter.Takes; rw [hA]; exact hk t u m hu ct hct
  find t u m h ct hct := by unfold Adapter.Takes; rw [hA]; exact hk t u m h ct hct

end DS
