import Verif.Spec.Store
import Verif.Lemmas.Store
/-! Redis keys. -/
set_option linter.unusedSectionVars false

namespace DS
variable {V E : Type} [PyVal V]

theorem Plain.noColon {s : String} (h : Plain s) : ':' ∉ s.toList := fun hc => h _ hc (by decide)

theorem split_colon_inj {a a' b b' : List Char} (ha : ':' ∉ a) (ha' : ':' ∉ a') (h : a ++ ':' :: b = a' ++ ':' :: b') :
    a = a' ∧ b = b' := by
  induction a generalizing a' with
  | nil =>
    cases a' with
    | nil => simp at h; exact ⟨rfl, h⟩
    | cons c a' =>
      simp only [List.nil_append, List.cons_append, List.cons.injEq] at h
      exact absurd (h.1 ▸ List.mem_cons_self) ha'
  | cons c a ih =>
    cases a' with
    | nil =>
      simp only [List.nil_append, List.cons_append, List.cons.injEq] at h
      exact absurd (h.1 ▸ List.mem_cons_self) ha
    | cons c' a' =>
      simp only [List.cons_append, List.cons.injEq] at h
      obtain ⟨h1, h2⟩ := ih (fun hh => ha (List.mem_cons_of_mem _ hh)) (fun hh => ha' (List.mem_cons_of_mem _ hh)) h.2
      exact ⟨by rw [h.1, h1], h2⟩

theorem prefix_colon {a a' b b' : List Char} (ha : ':' ∉ a) (ha' : ':' ∉ a') :
    (a ++ ':' :: b).isPrefixOf (a' ++ ':' :: b') = true ↔ a = a' ∧ b.isPrefixOf b' = true := by
  rw [List.isPrefixOf_iff_prefix, List.isPrefixOf_iff_prefix]
  constructor
  · rintro ⟨c, hc⟩
    rw [List.append_assoc, List.cons_append] at hc
    obtain ⟨h1, h2⟩ := split_colon_inj ha ha' hc
    exact ⟨h1, ⟨c, h2⟩⟩
  · rintro ⟨rfl, c, rfl⟩
    exact ⟨c, by simp⟩

theorem storeLabel_toList (sid : String) : (storeLabel sid).toList = "diffsync".toList ++ ':' :: sid.toList := by
  unfold storeLabel
  rw [String.toList_append]
  rfl

theorem prefixStore_toList (sid : String) : (storeLabel sid ++ ":").toList = "diffsync".toList ++ ':' :: (sid.toList ++ ':' :: []) := by
  rw [String.toList_append, storeLabel_toList]
  simp [String.toList_append]

theorem prefixType_toList (sid t : String) : (storeLabel sid ++ (":" ++ (t ++ ":"))).toList =
    "diffsync".toList ++ ':' :: (sid.toList ++ ':' :: (t.toList ++ ':' :: [])) := by
  simp only [String.toList_append, storeLabel_toList]
  simp

theorem redisKey_toList (sid t u : String) : (redisKey sid t u).toList =
    "diffsync".toList ++ ':' :: (sid.toList ++ ':' :: (t.toList ++ ':' :: u.toList)) := by
  unfold redisKey
  simp only [String.toList_append, storeLabel_toList]
  simp

theorem noColon_diffsync : ':' ∉ "diffsync".toList := by decide

theorem redisKey_inj {sid sid' t t' u u' : String} (h1 : Plain sid) (h2 : Plain sid') (h3 : Plain t) (h4 : Plain t')
    (h : redisKey sid t u = redisKey sid' t' u') : sid = sid' ∧ t = t' ∧ u = u' := by
  have h := congrArg String.toList h
  rw [redisKey_toList, redisKey_toList] at h
  obtain ⟨_, h⟩ := split_colon_inj noColon_diffsync noColon_diffsync h
  obtain ⟨hs, h⟩ := split_colon_inj h1.noColon h2.noColon h
  obtain ⟨ht, hu⟩ := split_colon_inj h3.noColon h4.noColon h
  exact ⟨String.toList_inj.1 hs, String.toList_inj.1 ht, String.toList_inj.1 hu⟩

/-- Which keys `get_all` of a model finds. -/
theorem prefixType_iff {sid sid' t t' u : String} (h1 : Plain sid) (h2 : Plain sid') (h3 : Plain t) (h4 : Plain t') :
    (storeLabel sid ++ (":" ++ (t ++ ":"))).toList.isPrefixOf (redisKey sid' t' u).toList = true ↔ sid = sid' ∧ t = t' := by
  rw [prefixType_toList, redisKey_toList, prefix_colon noColon_diffsync noColon_diffsync, prefix_colon h1.noColon h2.noColon, prefix_colon h3.noColon h4.noColon]
  simp [String.toList_inj]

theorem prefixStore_iff {sid sid' t u : String} (h1 : Plain sid) (h2 : Plain sid') :
    (storeLabel sid ++ ":").toList.isPrefixOf (redisKey sid' t u).toList = true ↔ sid = sid' := by
  rw [prefixStore_toList, redisKey_toList, prefix_colon noColon_diffsync noColon_diffsync, prefix_colon h1.noColon h2.noColon]
  simp [String.toList_inj]

/-- The patterns of the store are prefixes when the names are plain. -/
theorem globType_eq {sid t : String} (h1 : Plain sid) (h2 : Plain t) (k : String) :
    globMatch (storeLabel sid ++ (":" ++ (t ++ ":")) ++ "*") k = (storeLabel sid ++ (":" ++ (t ++ ":"))).toList.isPrefixOf k.toList := by
  apply globMatch_prefix
  intro c hc
  rw [prefixType_toList] at hc
  simp only [List.mem_append, List.mem_cons, List.not_mem_nil, or_false] at hc
  rcases hc with hc | rfl | hc | rfl | hc | rfl
  · revert c; decide
  · decide
  · exact fun h => h1 c hc (List.mem_cons_of_mem _ h)
  · decide
  · exact fun h => h2 c hc (List.mem_cons_of_mem _ h)
  · decide
theorem globStore_eq {sid : String} (h1 : Plain sid) (k : String) :
    globMatch (storeLabel sid ++ ":" ++ "*") k = (storeLabel sid ++ ":").toList.isPrefixOf k.toList := by
  apply globMatch_prefix
  intro c hc
  rw [prefixStore_toList] at hc
  simp only [List.mem_append, List.mem_cons, List.not_mem_nil, or_false] at hc
  rcases hc with hc | rfl | hc | rfl
  · revert c; decide
  · decide
  · exact fun h => h1 c hc (List.mem_cons_of_mem _ h)
  · decide

theorem isPrefixOf_trans_of {a b : List Char} (x : List Char) (h : (a ++ x).isPrefixOf b = true) : a.isPrefixOf b = true := by
  rw [List.isPrefixOf_iff_prefix] at h ⊢
  exact (List.prefix_append a x).trans h

theorem prefixType_diffsync {sid t : String} {k : String} (h : (storeLabel sid ++ (":" ++ (t ++ ":"))).toList.isPrefixOf k.toList = true) :
    "diffsync:".toList.isPrefixOf k.toList = true := by
  rw [prefixType_toList] at h
  have : "diffsync".toList ++ ':' :: (sid.toList ++ ':' :: (t.toList ++ ':' :: [])) = "diffsync:".toList ++ (sid.toList ++ ':' :: (t.toList ++ ':' :: [])) := by
    rfl
  rw [this] at h
  exact isPrefixOf_trans_of _ h

theorem prefixStore_diffsync {sid : String} {k : String} (h : (storeLabel sid ++ ":").toList.isPrefixOf k.toList = true) :
    "diffsync:".toList.isPrefixOf k.toList = true := by
  rw [prefixStore_toList] at h
  have : "diffsync".toList ++ ':' :: (sid.toList ++ ':' :: []) = "diffsync:".toList ++ (sid.toList ++ ':' :: []) := by
    rfl
  rw [this] at h
  exact isPrefixOf_trans_of _ h

/-- The keys found by `get_all(t)` are exactly those of the stored objects of type `t`. -/
theorem mem_scan_type {w : World V E} (hw : RedisOK w) {sid t : String} (h1 : Plain sid) (h2 : Plain t) {k : String} :
    k ∈ scanKeys w.redis (storeLabel sid ++ (":" ++ (t ++ ":"))) ↔ ∃ u, k = redisKey sid t u ∧ k ∈ Dict.keys w.redis := by
  unfold scanKeys
  rw [List.mem_filter, globType_eq h1 h2]
  constructor
  · rintro ⟨hk, hp⟩
    obtain ⟨sid', t', u, h3, h4, rfl⟩ := hw.keys k hk (prefixType_diffsync hp)
    obtain ⟨rfl, rfl⟩ := (prefixType_iff h1 h3 h2 h4).1 hp
    exact ⟨u, rfl, hk⟩
  · rintro ⟨u, rfl, hk⟩
    exact ⟨hk, (prefixType_iff h1 h1 h2 h2).2 ⟨rfl, rfl⟩⟩

theorem mem_scan_store {w : World V E} (hw : RedisOK w) {sid : String} (h1 : Plain sid) {k : String} :
    k ∈ scanKeys w.redis (storeLabel sid ++ ":") ↔ ∃ t u, Plain t ∧ k = redisKey sid t u ∧ k ∈ Dict.keys w.redis := by
  unfold scanKeys
  rw [List.mem_filter, globStore_eq h1]
  constructor
  · rintro ⟨hk, hp⟩
    obtain ⟨sid', t', u, h3, h4, rfl⟩ := hw.keys k hk (prefixStore_diffsync hp)
    obtain rfl := (prefixStore_iff h1 h3).1 hp
    exact ⟨t', u, h4, rfl, hk⟩
  · rintro ⟨t, u, _, rfl, hk⟩
    exact ⟨hk, (prefixStore_iff h1 h1).2 rfl⟩

/-! ## splitting -/

theorem splitColon_append {a : List Char} (ha : ':' ∉ a) (b : List Char) :
    getAllModelNames.splitColon (a ++ ':' :: b) = a :: getAllModelNames.splitColon b := by
  induction a with
  | nil => simp [getAllModelNames.splitColon]
  | cons c a ih =>
    have hc : c ≠ ':' := fun h => ha (h ▸ List.mem_cons_self)
    rw [List.cons_append, getAllModelNames.splitColon, if_neg hc, ih (fun h => ha (List.mem_cons_of_mem _ h))]

theorem splitColon_redisKey {sid t u : String} (h1 : Plain sid) (h2 : Plain t) :
    (getAllModelNames.splitColon (redisKey sid t u).toList)[2]?.map String.ofList = some t := by
  rw [redisKey_toList, splitColon_append noColon_diffsync, splitColon_append h1.noColon, splitColon_append h2.noColon]
  simp

end DS
