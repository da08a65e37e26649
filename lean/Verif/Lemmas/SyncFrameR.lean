import Verif.Lemmas.SyncFrame
import Verif.Lemmas.StoreOps
/-! What a sync can change in a Redis store. Objects found there are copies: only creations and deletions reach the store. -/
set_option linter.unusedSectionVars false

namespace DS
variable {V E : Type} [PyVal V]

/-- What holds of a destination's Redis store all along a sync. -/
structure RInv (A : Adapter V) (sid : String) (Gr : Key → Key → Prop) (SkipK : Key → Prop) (w : World V E) : Prop where
  refs : RefsLt w
  store : RedisStoreOK sid w
  names : ∀ t c, Dict.get? A.classes t = some c → Plain t
  inst : ∀ t u o c, Plain t → Dict.get? w.redis (redisKey sid t u) = some o → Dict.get? A.classes t = some c → o.m.cls = c
  edges : ∀ t u o, Plain t → Dict.get? w.redis (redisKey sid t u) = some o → ∀ c ∈ childRefs o.m, Gr (t, u) c
  skip : ∀ t u o, Plain t → Dict.get? w.redis (redisKey sid t u) = some o → flagOn o.m.flags MF.SKIP_CHILDREN_ON_DELETE = true → SkipK (t, u)

/-- What a part of a sync may have changed; see `SFrame`. -/
structure RFrame (A : Adapter V) (sid : String) (b : Ref) (K : Option Action → Key → Prop) (X : Key → Prop) (Ev : Event V → Prop)
    (w w' : World V E) : Prop where
  next_le : w.next ≤ w'.next
  tbl_eq : TblSame w w'
  loc_wf : ∀ s, Dict.WF (w.loc s) → Dict.WF (w'.loc s)
  others : ∀ k, (∀ t u, Plain t → k ≠ redisKey sid t u) → Dict.get? w'.redis k = Dict.get? w.redis k
  ident : ∀ r, r < w.next → (w'.heap r).m.cls = (w.heap r).m.cls ∧ (w'.heap r).m.flags = (w.heap r).m.flags ∧ (w'.heap r).m.key = (w.heap r).m.key
  same : ∀ r, r < b → (w'.heap r).m = (w.heap r).m
  come : ∀ t u o, Plain t → Dict.get? w'.redis (redisKey sid t u) = some o → Dict.get? w.redis (redisKey sid t u) = some o ∨
    (K (some .create) (t, u) ∧ ∃ ids attrs out, Ev (.call (.create t ids attrs) out) ∧ out.result = .object ∧ CallKey A (.create t ids attrs) (t, u))
  gone : ∀ t u o, Plain t → Dict.get? w.redis (redisKey sid t u) = some o → Dict.get? w'.redis (redisKey sid t u) = some o ∨
    (K (some .delete) (t, u) ∧ ∃ out, Ev (.call (.delete t u) out) ∧ out.result = .object) ∨ X (t, u)
  order : ∀ p : String → Bool, (∀ t u, Plain t → p (redisKey sid t u) = false) → (Dict.keys w'.redis).filter p = (Dict.keys w.redis).filter p

section
variable {A : Adapter V} {sid : String} {b : Ref} {K : Option Action → Key → Prop} {X : Key → Prop} {Ev : Event V → Prop}
  {Gr : Key → Key → Prop} {SkipK : Key → Prop}

theorem RFrame.trans {w w1 w2 : World V E} (h1 : RFrame A sid b K X Ev w w1) (h2 : RFrame A sid b K X Ev w1 w2) : RFrame A sid b K X Ev w w2 where
  next_le := Nat.le_trans h1.next_le h2.next_le
  tbl_eq s t := (h2.tbl_eq s t).trans (h1.tbl_eq s t)
  loc_wf s h := h2.loc_wf s (h1.loc_wf s h)
  others k hk := (h2.others k hk).trans (h1.others k hk)
  ident r hr := by
    obtain ⟨a1, a2, a3⟩ := h1.ident r hr
    obtain ⟨b1, b2, b3⟩ := h2.ident r (Nat.lt_of_lt_of_le hr h1.next_le)
    exact ⟨b1.trans a1, b2.trans a2, b3.trans a3⟩
  same r hr := (h2.same r hr).trans (h1.same r hr)
  come t u o ht ho := by
    rcases h2.come t u o ht ho with h | h
    · exact h1.come t u o ht h
    · exact .inr h
  gone t u o ht ho := by
    rcases h1.gone t u o ht ho with h | h
    · exact h2.gone t u o ht h
    · exact .inr h
  order p hp := (h2.order p hp).trans (h1.order p hp)

theorem RFrame.mono {K' : Option Action → Key → Prop} {Ev' : Event V → Prop} {w w' : World V E} (h : RFrame A sid b K X Ev w w')
    (hK : ∀ a k, K a k → K' a k) (hE : ∀ ev, Ev ev → Ev' ev) : RFrame A sid b K' X Ev' w w' where
  next_le := h.next_le
  tbl_eq := h.tbl_eq
  loc_wf := h.loc_wf
  others := h.others
  ident := h.ident
  same := h.same
  come t u o ht ho := by
    rcases h.come t u o ht ho with h | ⟨h2, ids, attrs, out, h3, h4⟩
    · exact .inl h
    · exact .inr ⟨hK _ _ h2, ids, attrs, out, hE _ h3, h4⟩
  gone t u o ht ho := by
    rcases h.gone t u o ht ho with h | ⟨h2, out, h3, h4⟩ | h
    · exact .inl h
    · exact .inr (.inl ⟨hK _ _ h2, out, hE _ h3, h4⟩)
    · exact .inr (.inr h)
  order := h.order

theorem RedisStoreOK.of_redis_eq {w w' : World V E} (h : w'.redis = w.redis) (hi : RedisStoreOK sid w) : RedisStoreOK sid w' :=
  ⟨⟨by rw [h]; exact hi.wf, by rw [h]; exact hi.keys⟩, hi.sid_ok, by rw [h]; exact hi.key_ok, by rw [h]; exact hi.kids_ok⟩

theorem RInv.of_redis_eq {w w' : World V E} (h : w'.redis = w.redis) (hr : RefsLt w') (hi : RInv A sid Gr SkipK w) : RInv A sid Gr SkipK w' where
  refs := hr
  store := hi.store.of_redis_eq h
  names := hi.names
  inst := by rw [h]; exact hi.inst
  edges := by rw [h]; exact hi.edges
  skip := by rw [h]; exact hi.skip

theorem Still.rframe {w w' : World V E} (h : Still w w') (hb : b ≤ w.next) : RFrame A sid b K X Ev w w' where
  next_le := h.next_le
  tbl_eq := h.tbl_eq
  loc_wf := h.loc_wf
  others k _ := by rw [h.redis_eq]
  ident r hr := by rw [h.heap_m r hr]; exact ⟨rfl, rfl, rfl⟩
  same r hr := h.heap_m r (Nat.lt_of_lt_of_le hr hb)
  come t u o _ ho := by rw [h.redis_eq] at ho; exact .inl ho
  gone t u o _ ho := by rw [← h.redis_eq] at ho; exact .inl ho
  order p _ := by rw [h.redis_eq]

theorem Still.rinv {w w' : World V E} (h : Still w w') (hi : RInv A sid Gr SkipK w) : RInv A sid Gr SkipK w' :=
  hi.of_redis_eq h.redis_eq (h.grows.refs hi.refs)

/-- An update of a copy of a stored object. -/
theorem Upd.rframe {w w' : World V E} {r : Ref} {attrs : Dict V} (h : Upd r attrs w w') (hb : b ≤ w.next) (hr : b ≤ r)
    (hi : RInv A sid Gr SkipK w) (hp : ∀ k ∈ Dict.keys attrs, k ∉ (w.heap r).m.cls.identifiers) :
    RFrame A sid b K X Ev w w' ∧ RInv A sid Gr SkipK w' := by
  obtain ⟨h1, h2, h3, _⟩ := setattrs_spec (w.heap r).m attrs
  have hkey := setattrs_key hp
  rw [← h.heap_r] at h1 h2 h3 hkey
  refine ⟨⟨h.next_le, h.tbl_eq, h.loc_wf, fun k _ => by rw [h.redis_eq], ?_, ?_, fun t u o _ ho => by rw [h.redis_eq] at ho; exact .inl ho,
    fun t u o _ ho => by rw [← h.redis_eq] at ho; exact .inl ho, fun p _ => by rw [h.redis_eq]⟩, hi.of_redis_eq h.redis_eq ?_⟩
  · intro r' hr'
    by_cases he : r' = r
    · subst he; exact ⟨h1, h3, hkey⟩
    · rw [h.heap_m r' hr' he]; exact ⟨rfl, rfl, rfl⟩
  · intro r' hr'
    exact h.heap_m r' (Nat.lt_of_lt_of_le hr' hb) (fun he => absurd hr' (Nat.not_lt.2 (he ▸ hr)))
  · intro s t u r' hf
    rw [h.tbl_eq.findRef] at hf
    exact Nat.lt_of_lt_of_le (hi.refs _ _ _ _ hf) h.next_le

/-- A change of a copy's child lists. -/
theorem kids_rframe {w : World V E} {p : Ref} {m : Model V} (hk : KidsOnly (w.heap p).m m) (hp : b ≤ p) (hi : RInv A sid Gr SkipK w) :
    RFrame A sid b K X Ev w (w.setObj p { w.heap p with m := m }) ∧ RInv A sid Gr SkipK (w.setObj p { w.heap p with m := m }) := by
  refine ⟨⟨Nat.le_refl _, fun _ _ => rfl, fun _ h => h, fun _ _ => rfl, ?_, ?_, fun _ _ _ _ h => .inl h, fun _ _ _ _ h => .inl h, fun _ _ => rfl⟩, hi.of_redis_eq (w := w) rfl hi.refs⟩
  · intro r _
    simp only [World.setObj]
    split
    · rename_i h; subst h; exact ⟨hk.cls_eq, hk.flags_eq, hk.key_eq⟩
    · exact ⟨rfl, rfl, rfl⟩
  · intro r hr
    simp only [World.setObj]
    rw [if_neg (fun h : r = p => absurd hr (Nat.not_lt.2 (h ▸ hp)))]

/-- Storing a new object. -/
theorem set_rframe {w : World V E} {o : Obj V} {t u : String} (ht : Plain t) (hkey : o.m.key = (t, u))
    (hn : Dict.get? w.redis (redisKey sid t u) = none) (hK : K (some .create) (t, u))
    (hev : ∃ ids attrs out, Ev (.call (.create t ids attrs) out) ∧ out.result = .object ∧ CallKey A (.create t ids attrs) (t, u))
    (hi : RInv A sid Gr SkipK w) (hcls : ∀ c, Dict.get? A.classes t = some c → o.m.cls = c)
    (he : childRefs o.m = []) (hs : flagOn o.m.flags MF.SKIP_CHILDREN_ON_DELETE = true → SkipK (t, u)) :
    RFrame A sid b K X Ev w { w with redis := Dict.set w.redis (redisKey sid t u) o } ∧
      RInv A sid Gr SkipK { w with redis := Dict.set w.redis (redisKey sid t u) o } := by
  have hget : ∀ t' u' o', Plain t' → Dict.get? (Dict.set w.redis (redisKey sid t u) o) (redisKey sid t' u') = some o' →
      (t' = t ∧ u' = u ∧ o' = o) ∨ Dict.get? w.redis (redisKey sid t' u') = some o' := by
    intro t' u' o' ht' ho
    rw [Dict.get?_set] at ho
    split at ho
    · rename_i h
      obtain ⟨_, h1, h2⟩ := redisKey_inj hi.store.sid_ok hi.store.sid_ok ht ht' h
      cases ho
      exact .inl ⟨h1.symm, h2.symm, rfl⟩
    · exact .inr ho
  refine ⟨⟨Nat.le_refl _, fun _ _ => rfl, fun _ h => h, ?_, fun _ _ => ⟨rfl, rfl, rfl⟩, fun _ _ => rfl, ?_, ?_, ?_⟩,
    ⟨hi.refs, ⟨redisOK_set hi.store.toRedisOK u hi.store.sid_ok ht o, hi.store.sid_ok, ?_, ?_⟩, hi.names, ?_, ?_, ?_⟩⟩
  · intro k hk
    show Dict.get? (Dict.set _ _ _) _ = _
    rw [Dict.get?_set, if_neg (fun h => hk t u ht h.symm)]
  · intro t' u' o' ht' ho
    rcases hget t' u' o' ht' ho with ⟨rfl, rfl, rfl⟩ | h
    · exact .inr ⟨hK, hev⟩
    · exact .inl h
  · intro t' u' o' ht' ho
    left
    show Dict.get? (Dict.set _ _ _) _ = _
    rw [Dict.get?_set, if_neg (fun h => by rw [← h, hn] at ho; cases ho)]
    exact ho
  · intro p hp
    show (Dict.keys (Dict.set _ _ _)).filter p = _
    rw [Dict.keys_set]
    split
    · rfl
    · rw [List.filter_append]; simp [hp t u ht]
  · intro t' u' o' ht' ho
    rcases hget t' u' o' ht' ho with ⟨rfl, rfl, rfl⟩ | h
    · exact ⟨congrArg Prod.fst hkey, congrArg Prod.snd hkey⟩
    · exact hi.store.key_ok _ _ _ ht' h
  · intro t' u' o' ht' ho
    rcases hget t' u' o' ht' ho with ⟨rfl, rfl, rfl⟩ | h
    · rw [he]; intro c hc; cases hc
    · exact hi.store.kids_ok _ _ _ ht' h
  · intro t' u' o' c ht' ho hc
    rcases hget t' u' o' ht' ho with ⟨rfl, rfl, rfl⟩ | h
    · exact hcls c hc
    · exact hi.inst _ _ _ _ ht' h hc
  · intro t' u' o' ht' ho
    rcases hget t' u' o' ht' ho with ⟨rfl, rfl, rfl⟩ | h
    · rw [he]; intro c hc; cases hc
    · exact hi.edges _ _ _ ht' h
  · intro t' u' o' ht' ho
    rcases hget t' u' o' ht' ho with ⟨rfl, rfl, rfl⟩ | h
    · exact hs
    · exact hi.skip _ _ _ ht' h

/-- Removing objects. -/
theorem RRemoved.rframe {G : Key → Prop} {w w' : World V E} (h : RRemoved (fun k => ∃ t u, Plain t ∧ k = redisKey sid t u ∧ G (t, u)) w w')
    (hb : b ≤ w.next) (hG : ∀ t u, G (t, u) → (K (some .delete) (t, u) ∧ ∃ out, Ev (.call (.delete t u) out) ∧ out.result = .object) ∨ X (t, u))
    (hi : RInv A sid Gr SkipK w) : RFrame A sid b K X Ev w w' ∧ RInv A sid Gr SkipK w' := by
  have hget : ∀ k o, Dict.get? w'.redis k = some o → Dict.get? w.redis k = some o := by
    intro k o ho
    rcases h.mine k with h' | h'
    · rw [← h']; exact ho
    · rw [h'.1] at ho; cases ho
  refine ⟨⟨h.next_le, fun s t => by unfold tbl; rw [h.loc_eq], fun s hs => by rw [h.loc_eq]; exact hs, ?_, fun r hr => by rw [h.heap_m r hr]; exact ⟨rfl, rfl, rfl⟩,
    fun r hr => h.heap_m r (Nat.lt_of_lt_of_le hr hb), fun t u o _ ho => .inl (hget _ _ ho), ?_, fun p hp => h.order p (fun k ⟨t, u, ht, e, _⟩ => by rw [e]; exact hp t u ht)⟩,
    ⟨h.grows.refs hi.refs, ⟨⟨h.wf hi.store.wf, ?_⟩, hi.store.sid_ok, fun t u o ht ho => hi.store.key_ok t u o ht (hget _ _ ho),
      fun t u o ht ho => hi.store.kids_ok t u o ht (hget _ _ ho)⟩, hi.names, fun t u o c ht ho => hi.inst t u o c ht (hget _ _ ho),
      fun t u o ht ho => hi.edges t u o ht (hget _ _ ho), fun t u o ht ho => hi.skip t u o ht (hget _ _ ho)⟩⟩
  · intro k hk
    rcases h.mine k with h' | ⟨_, t, u, ht, he, _⟩
    · exact h'
    · exact absurd he (hk t u ht)
  · intro t u o ht ho
    rcases h.mine (redisKey sid t u) with h' | ⟨_, t', u', ht', he, hg⟩
    · exact .inl (h'.trans ho)
    · obtain ⟨_, h1, h2⟩ := redisKey_inj hi.store.sid_ok hi.store.sid_ok ht ht' he
      subst h1 h2
      exact .inr (hG _ _ hg)
  · intro k hk hp
    obtain ⟨v, hv⟩ := Dict.mem_keys_iff.1 hk
    exact hi.store.keys k (Dict.mem_keys_iff.2 ⟨v, hget _ _ hv⟩) hp

/-- A part of a sync with its events: frame and invariant. -/
def RFr (A : Adapter V) (sid : String) (b : Ref) (K : Option Action → Key → Prop) (X : Key → Prop) (Gr : Key → Key → Prop) (SkipK : Key → Prop)
    (w w' : World V E) : Prop :=
  ∃ evs, w'.trace = w.trace ++ evs ∧ RFrame A sid b K X (· ∈ evs) w w' ∧ RInv A sid Gr SkipK w'

theorem RFr.trans {w w1 w2 : World V E} (h1 : RFr A sid b K X Gr SkipK w w1) (h2 : RFr A sid b K X Gr SkipK w1 w2) : RFr A sid b K X Gr SkipK w w2 := by
  obtain ⟨e1, t1, f1, i1⟩ := h1
  obtain ⟨e2, t2, f2, i2⟩ := h2
  exact ⟨e1 ++ e2, by rw [t2, t1, List.append_assoc], (f1.mono (fun _ _ h => h) (fun ev h => List.mem_append_left _ h)).trans
    (f2.mono (fun _ _ h => h) (fun ev h => List.mem_append_right _ h)), i2⟩

theorem Still.rfr {w w' : World V E} {evs : List (Event V)} (h : Still w w') (ht : w'.trace = w.trace ++ evs) (hb : b ≤ w.next)
    (hi : RInv A sid Gr SkipK w) : RFr A sid b K X Gr SkipK w w' := ⟨evs, ht, h.rframe hb, h.rinv hi⟩

/-- `sync_model` in a frame statement. -/
theorem Own.rfr {S : SyncCtx V E} {c : ModelClass V} {ids attrs : Dict V} {w w' : World V E} {a : Option Action} {dst : Option Ref}
    {evs : List (Event V)} {res : Except Err (Bool × Option Ref)} (h : Own S c ids attrs w w' a dst evs res) (ht : w'.trace = w.trace ++ evs)
    (hb : b ≤ w.next) (hi : RInv A sid Gr SkipK w) (hdst : ∀ r, dst = some r → b ≤ r)
    (hpl : a = some .update → ∀ r, dst = some r → ∀ x ∈ Dict.keys attrs, x ∉ (w.heap r).m.cls.identifiers) : RFr A sid b K X Gr SkipK w w' := by
  have ce : ∀ {a' out}, a = some a' → CallEff a' dst attrs out w w' → RFr A sid b K X Gr SkipK w w' := by
    intro a' out ha hce
    unfold CallEff at hce
    split at hce
    · rename_i r
      split at hce
      · obtain ⟨s1, s2⟩ := hce.rframe (A := A) (sid := sid) (K := K) (X := X) (Ev := (· ∈ evs)) hb (hdst r rfl) hi (hpl ha r rfl)
        exact ⟨evs, ht, s1, s2⟩
      · exact Still.rfr hce ht hb hi
    · exact Still.rfr hce ht hb hi
  cases h with
  | idle h _ => exact h.rfr ht hb hi
  | stale _ h _ => exact h.rfr ht hb hi
  | crud h1 _ _ _ h2 => exact ce rfl h2
  | fatal h1 _ _ _ h2 => exact ce rfl h2
  | failed h1 _ _ h2 => exact ce rfl h2
  | created _ _ _ h _ _ _ _ => exact h.rfr ht hb hi
  | kept h1 _ _ _ h2 _ => exact ce rfl h2
end

section
variable {S : SyncCtx V E} {sid : String} (hA : S.dst.ref.store = .redis sid) {b : Ref} {K : Option Action → Key → Prop} {X : Key → Prop} {Gr : Key → Key → Prop} {SkipK : Key → Prop}
include hA

theorem applyStore_create_rfr {k : Key} {parent : Option Ref} {r : Ref} {skip : Bool} {w1 : World V E} {Ev : Event V → Prop}
    (hP : ∀ p, parent = some p → b ≤ p ∧ p ≠ r) (hi : RInv S.dst sid Gr SkipK w1) (hpl : Plain k.1)
    (hkey : (w1.heap r).m.key = k) (hn : Dict.get? w1.redis (redisKey sid k.1 k.2) = none) (hb : b ≤ w1.next) (hK : K (some .create) k)
    (hev : ∃ ids attrs out, Ev (.call (.create k.1 ids attrs) out) ∧ out.result = .object ∧ CallKey S.dst (.create k.1 ids attrs) k)
    (hcls : ∀ c, Dict.get? S.dst.classes k.1 = some c → (w1.heap r).m.cls = c)
    (he : childRefs (w1.heap r).m = []) (hs : flagOn (w1.heap r).m.flags MF.SKIP_CHILDREN_ON_DELETE = true → SkipK k) :
    RFrame S.dst sid b K X Ev w1 (applyStore S (some .create) parent r skip w1).2 ∧
      RInv S.dst sid Gr SkipK (applyStore S (some .create) parent r skip w1).2 ∧
      (applyStore S (some .create) parent r skip w1).2.trace = w1.trace := by
  have fin : ∀ w2 : World V E, RFrame S.dst sid b K X Ev w1 w2 → RInv S.dst sid Gr SkipK w2 → w2.trace = w1.trace →
      (w2.heap r).m = (w1.heap r).m → Dict.get? w2.redis (redisKey sid k.1 k.2) = none →
      RFrame S.dst sid b K X Ev w1 (add S.dst r w2).2 ∧ RInv S.dst sid Gr SkipK (add S.dst r w2).2 ∧ (add S.dst r w2).2.trace = w1.trace := by
    intro w2 f2 i2 t2 m2 n2
    have hk2 : (w2.heap r).m.key = (k.1, k.2) := by rw [m2]; exact hkey
    have h1 : (w2.heap r).m.type = k.1 := congrArg Prod.fst hk2
    have h2 : (w2.heap r).m.uid = k.2 := congrArg Prod.snd hk2
    rw [add_redis hA, h1, h2, n2]
    obtain ⟨s1, s2⟩ := set_rframe (A := S.dst) (sid := sid) (b := b) (K := K) (X := X) (Ev := Ev) (w := w2) (o := { w2.heap r with adapter := none }) hpl hk2 n2 hK hev i2
      (by rw [m2]; exact hcls) (by rw [m2]; exact he) (by rw [m2]; exact hs)
    exact ⟨f2.trans s1, s2, t2⟩
  unfold applyStore
  simp only
  cases parent with
  | none => exact fin w1 ((Still.refl w1).rframe hb) hi rfl rfl hn
  | some p =>
    unfold withParent
    simp only
    obtain ⟨hPp, hpr⟩ := hP p rfl
    have hc := addChildRef_eq p r w1
    cases ha : (w1.heap p).m.addChild (w1.heap r).m.type (w1.heap r).m.uid with
    | error e =>
      rw [ha] at hc
      rw [M.bind_err hc]
      exact ⟨(Still.refl w1).rframe hb, hi, rfl⟩
    | ok m =>
      rw [ha] at hc
      rw [M.bind_ok hc]
      obtain ⟨s1, s2⟩ := kids_rframe (A := S.dst) (sid := sid) (b := b) (K := K) (X := X) (Ev := Ev) (addChild_kidsOnly ha) hPp hi
      refine fin _ s1 s2 rfl ?_ hn
      simp only [World.setObj, if_neg (Ne.symm hpr)]

theorem applyStore_delete_rfr {k : Key} {parent : Option Ref} {r : Ref} {skip : Bool} {w1 : World V E} {Ev : Event V → Prop}
    (hP : ∀ p, parent = some p → b ≤ p) (hi : RInv S.dst sid Gr SkipK w1) (hpl : Plain k.1) (hlt : r < w1.next)
    (hkey : (w1.heap r).m.key = k) (hb : b ≤ w1.next) (hK : K (some .delete) k)
    (hev : ∃ out, Ev (.call (.delete k.1 k.2) out) ∧ out.result = .object)
    (hcl : ∀ k k', X k → Gr k k' → X k') (hs : skip = true → X k ∧ ∀ c ∈ childRefs (w1.heap r).m, Plain c.1 ∧ Gr k c) :
    RFrame S.dst sid b K X Ev w1 (applyStore S (some .delete) parent r skip w1).2 ∧
      RInv S.dst sid Gr SkipK (applyStore S (some .delete) parent r skip w1).2 ∧
      (∃ evs, (applyStore S (some .delete) parent r skip w1).2.trace = w1.trace ++ evs ∧ ChildWarn evs) := by
  have fin : ∀ w2 : World V E, RFrame S.dst sid b K X Ev w1 w2 → RInv S.dst sid Gr SkipK w2 → w2.trace = w1.trace →
      (w2.heap r).m.key = k → (skip = true → ∀ c ∈ childRefs (w2.heap r).m, Plain c.1 ∧ Gr k c) →
      RFrame S.dst sid b K X Ev w1 (remove S.dst S.rlimit r skip w2).2 ∧ RInv S.dst sid Gr SkipK (remove S.dst S.rlimit r skip w2).2 ∧
      (∃ evs, (remove S.dst S.rlimit r skip w2).2.trace = w1.trace ++ evs ∧ ChildWarn evs) := by
    intro w2 f2 i2 t2 hk2 hc2
    have k1 : (w2.heap r).m.type = k.1 := congrArg Prod.fst hk2
    have k2 : (w2.heap r).m.uid = k.2 := congrArg Prod.snd hk2
    obtain ⟨rm, _, _⟩ := rremove_removed hA (fun x => ∃ t u, Plain t ∧ x = redisKey sid t u ∧ ((t, u) = k ∨ (skip = true ∧ X (t, u)))) skip S.rlimit r w2
      (Nat.lt_of_lt_of_le hlt f2.next_le) ⟨k.1, k.2, hpl, by rw [k1, k2], .inl rfl⟩
      (by
        intro hsk c hc
        obtain ⟨c1, c2⟩ := hc2 hsk c hc
        exact ⟨c.1, c.2, c1, rfl, .inr ⟨hsk, hcl _ _ (hs hsk).1 c2⟩⟩)
      (by
        rintro hsk t u o ⟨t', u', ht', he, hg⟩ ho
        rw [he] at ho
        have hx : X (t', u') := by
          rcases hg with h | h
          · rw [h]; exact (hs hsk).1
          · exact h.2
        obtain ⟨q1, q2⟩ := i2.store.key_ok _ _ _ ht' ho
        refine ⟨⟨t', u', ht', by rw [q1, q2], .inr ⟨hsk, hx⟩⟩, fun c hc => ⟨c.1, c.2, i2.store.kids_ok _ _ _ ht' ho c hc, rfl, .inr ⟨hsk, ?_⟩⟩⟩
        exact hcl _ _ hx (i2.edges _ _ _ ht' ho c hc))
    obtain ⟨s1, s2⟩ := RRemoved.rframe (G := fun x => x = k ∨ (skip = true ∧ X x)) (A := S.dst) (b := b) (K := K) (X := X) (Ev := Ev) rm (Nat.le_trans hb f2.next_le) (fun t u h => by
      rcases h with h | h
      · subst h; exact .inl ⟨hK, hev⟩
      · exact .inr h.2) i2
    obtain ⟨evs, t3, c3⟩ := rm.trace
    exact ⟨f2.trans s1, s2, ⟨evs, by rw [t3, t2], c3⟩⟩
  unfold applyStore
  simp only
  cases parent with
  | none => exact fin w1 ((Still.refl w1).rframe hb) hi rfl hkey (fun h => (hs h).2)
  | some p =>
    unfold withParent
    simp only
    have hc := removeChildRef_eq p r w1
    cases ha : (w1.heap p).m.removeChild (w1.heap r).m.type (w1.heap r).m.uid with
    | error e =>
      rw [ha] at hc
      rw [M.bind_err hc]
      exact ⟨(Still.refl w1).rframe hb, hi, ⟨[], by simp, fun _ h => by cases h⟩⟩
    | ok m =>
      rw [ha] at hc
      rw [M.bind_ok hc]
      obtain ⟨s1, s2⟩ := kids_rframe (A := S.dst) (sid := sid) (b := b) (K := K) (X := X) (Ev := Ev) (removeChild_kidsOnly ha) (hP p rfl) hi
      refine fin _ s1 s2 rfl ?_ ?_
      · simp only [World.setObj]
        split
        · rename_i h; subst h; rw [(removeChild_kidsOnly ha).key_eq]; exact hkey
        · exact hkey
      · intro hsk c hc'
        simp only [World.setObj] at hc'
        split at hc'
        · rename_i h; subst h; exact (hs hsk).2 c (removeChild_refs ha c hc')
        · exact (hs hsk).2 c hc'
end

end DS
