import Verif.Spec.History
import Verif.Lemmas.StoreOps
import Verif.Lemmas.SyncStore
import Verif.Lemmas.Differ
/-! What every call of the library preserves: the invariant of reachable worlds, and rules to prove it of computations. -/
set_option linter.unusedSectionVars false

namespace DS
variable {V E α β : Type} [PyVal V]

/-- An instance of a valid class, with all its fields, and lists of children without duplicates. -/
structure Good (m : Model V) : Prop where
  valid : m.cls.Valid
  complete : m.Complete
  kids : ∀ f l, m.kidList f = some l → l.Nodup

theorem Good.instantiate {c : ModelClass V} (hc : c.Valid) {kw : Dict V} {kids : Dict (List String)} {fl : Option Nat} {m : Model V}
    (hk : ∀ p ∈ kids, p.2.Nodup) (h : c.instantiate kw kids fl = .ok m) : Good m := by
  obtain ⟨h1, _, h3, _, _⟩ := instantiate_ok h
  refine ⟨by rw [h1]; exact hc, instantiate_complete h, fun f l hl => ?_⟩
  unfold Model.kidList at hl
  rw [h3] at hl
  rw [Dict.get?_ofList_map c.childFields (fun f => (Dict.get? kids f).getD [])] at hl
  split at hl
  case isFalse => cases hl
  cases hl
  cases hg : Dict.get? kids f with
  | none => simp
  | some l => exact hk _ (Dict.mem_of_get? hg)

theorem Good.construct {c : ModelClass V} (hc : c.Valid) {ids attrs : Dict V} {m : Model V} (h : c.construct ids attrs = .ok m) : Good m :=
  Good.instantiate hc (by simp) (construct_ok h)

/-- Nothing changed but values of attributes. -/
theorem Good.setattrs {m : Model V} (h : Good m) (d : Dict V) : Good (m.setattrs d).1 := by
  obtain ⟨h1, h2, _, _⟩ := setattrs_spec m d
  refine ⟨by rw [h1]; exact h.valid, setattrs_complete d h.complete, fun f l hl => h.kids f l ?_⟩
  unfold Model.kidList at hl ⊢
  rw [← h2]; exact hl

theorem setattrs_uid {m : Model V} {d : Dict V} (h : ∀ k ∈ Dict.keys d, k ∉ m.cls.identifiers) : (m.setattrs d).1.uid = m.uid := by
  obtain ⟨h1, _, _, h4⟩ := setattrs_spec m d
  exact uid_congr h1 (fun k hk => h4 k (fun hd => h k hd hk))

theorem setattrsIfDiff_keeps (m : Model V) (d : Dict V) : Good m → (∀ k ∈ Dict.keys d, k ∉ m.cls.identifiers) →
    Good (setattrsIfDiff m d).1 ∧ (setattrsIfDiff m d).1.cls = m.cls ∧ (setattrsIfDiff m d).1.uid = m.uid := by
  induction d generalizing m with
  | nil => exact fun h _ => ⟨h, rfl, rfl⟩
  | cons p d ih =>
    obtain ⟨k, v⟩ := p
    intro h hd
    have hd' : ∀ x ∈ Dict.keys d, x ∉ m.cls.identifiers := fun x hx => hd x (by simp [hx])
    unfold setattrsIfDiff
    split
    · exact ⟨h, rfl, rfl⟩
    · split
      · exact ih m h hd'
      · split
        · rename_i m' hm'
          have hk : k ∉ m.cls.identifiers := hd k (by simp)
          have e1 : m' = (m.setattrs [(k, v)]).1 := by
            unfold Model.setattrs; rw [hm']; rfl
          have g := h.setattrs [(k, v)]
          have c1 := (setattrs_spec m [(k, v)]).1
          have u1 : (m.setattrs [(k, v)]).1.uid = m.uid := setattrs_uid (fun x hx => by simp at hx; rw [hx]; exact hk)
          rw [← e1] at g c1 u1
          obtain ⟨a, b, c⟩ := ih m' g (by rw [c1]; exact hd')
          exact ⟨a, b.trans c1, c.trans u1⟩
        · exact ⟨h, rfl, rfl⟩

theorem Good.kidsSet {m : Model V} (h : Good m) {f : String} {l l' : List String} (hl : m.kidList f = some l) (hn : l'.Nodup) :
    Good { m with kids := Dict.set m.kids f l' } := by
  have hf : f ∈ Dict.keys m.kids := Dict.mem_keys_iff.2 ⟨l, hl⟩
  refine ⟨h.valid, ⟨h.complete.vals_keys, Dict.wf_set h.complete.kids_wf _ _, fun g => ?_⟩, fun g lg hg => ?_⟩
  · show g ∈ Dict.keys (Dict.set m.kids f l') ↔ _
    rw [Dict.keys_set, if_pos hf]
    exact h.complete.kids_keys g
  · unfold Model.kidList at hg
    dsimp only at hg
    rw [Dict.get?_set] at hg
    split at hg
    · cases hg; exact hn
    · exact h.kids g lg hg

theorem Good.addChild {m m' : Model V} (h : Good m) {t u : String} (hm : m.addChild t u = .ok m') : Good m' := by
  unfold Model.addChild at hm
  split at hm
  · cases hm
  · split at hm
    · cases hm
    · rename_i l hl
      split at hm
      · cases hm
      · rename_i hc
        cases hm
        refine h.kidsSet hl ?_
        rw [List.nodup_append]
        have : u ∉ l := by simpa using hc
        exact ⟨h.kids _ _ hl, by simp, fun a ha b hb => by rw [List.mem_singleton] at hb; rw [hb]; rintro rfl; exact this ha⟩

theorem Good.removeChild {m m' : Model V} (h : Good m) {t u : String} (hm : m.removeChild t u = .ok m') : Good m' := by
  unfold Model.removeChild at hm
  split at hm
  · cases hm
  · split at hm
    · cases hm
    · rename_i l hl
      split at hm
      · cases hm
        exact h.kidsSet hl ((h.kids _ _ hl).sublist List.erase_sublist)
      · cases hm

/-! ## the invariant -/

/-- What every entry of the Redis server that looks like one of diffsync is. -/
structure RedisEntry (F : Decls V) (k : String) (o : Obj V) : Prop where
  key : ∃ sid, Plain sid ∧ Plain o.m.type ∧ k = redisKey sid o.m.type o.m.uid ∧ Dict.get? (F (.redis sid)) o.m.type = some o.m.cls
  good : Good o.m
  detached : o.adapter = none

/-- Objects in local stores refer to an adapter with that store. -/
def BackRefs (w : World V E) : Prop := ∀ sid t u r, findRef w sid t u = some r → ∃ a, (w.heap r).adapter = some a ∧ a.store = .local sid

/-- The invariant of reachable worlds.  `G`: while a sync runs, the classes its destination declares.  `O`: whether the program minds the
adapters of objects. -/
structure Inv (F : Decls V) (G : Option (Dict (ModelClass V))) (O : Option StoreKind) (w : World V E) : Prop where
  ok : w.OK
  good : ∀ r, r < w.next → Good (w.heap r).m
  inst : ∀ sid t u r, findRef w sid t u = some r → Dict.get? (F (.local sid)) t = some (w.heap r).m.cls
  wf : Dict.WF w.redis
  redis : ∀ k o, Dict.get? w.redis k = some o → "diffsync:".toList.isPrefixOf k.toList = true → RedisEntry F k o
  scls : ∀ g c, G = some g → w.scls = some c → Dict.get? g c.name = some c
  own : O ≠ none → BackRefs w

/-- The entries of a Redis store on the server. -/
def entriesOf (sid : String) (d : Dict (Obj V)) : Dict (Obj V) := d.filter (fun p => (storeLabel sid ++ ":").toList.isPrefixOf p.1.toList)

/-- All stores but `S` are as before, and so are the objects in them. -/
structure Aside (S : StoreKind) (w w' : World V E) : Prop where
  tbl : ∀ sid, S ≠ .local sid → ∀ t, tbl w' sid t = tbl w sid t
  same : ∀ sid, S ≠ .local sid → ∀ t u r, findRef w sid t u = some r → (w'.heap r).m = (w.heap r).m
  redis : ∀ sid, S ≠ .redis sid → Plain sid → entriesOf sid w'.redis = entriesOf sid w.redis

theorem Aside.refl (S : StoreKind) (w : World V E) : Aside S w w := ⟨fun _ _ _ => rfl, fun _ _ _ _ _ _ => rfl, fun _ _ _ => rfl⟩
theorem Aside.trans {S : StoreKind} {a b c : World V E} (h : Aside S a b) (k : Aside S b c) : Aside S a c :=
  ⟨fun sid hs t => (k.tbl sid hs t).trans (h.tbl sid hs t),
   fun sid hs t u r hr => (k.same sid hs t u r (by unfold findRef; rw [h.tbl sid hs t]; exact hr)).trans (h.same sid hs t u r hr),
   fun sid hs hp => (k.redis sid hs hp).trans (h.redis sid hs hp)⟩

/-- What may happen to objects: classes and unique ids stay; adapters stay, or are unset, or become ones with the store `O`.  Other stores than
`O` stay as they are. -/
structure Evo (O : Option StoreKind) (w w' : World V E) : Prop where
  next_le : w.next ≤ w'.next
  cls_eq : ∀ r, r < w.next → (w'.heap r).m.cls = (w.heap r).m.cls
  uid_eq : ∀ r, r < w.next → (w'.heap r).m.uid = (w.heap r).m.uid
  adp : ∀ S, O = some S → ∀ r, r < w.next → ∀ a, (w'.heap r).adapter = some a → a.store = S ∨ (w.heap r).adapter = some a
  aside : ∀ S, O = some S → Aside S w w'

section
variable {O : Option StoreKind}
theorem Evo.refl (w : World V E) : Evo O w w := ⟨Nat.le_refl _, fun _ _ => rfl, fun _ _ => rfl, fun _ _ _ _ _ h => .inr h, fun S _ => .refl S w⟩
theorem Evo.trans {a b c : World V E} (h : Evo O a b) (k : Evo O b c) : Evo O a c :=
  ⟨Nat.le_trans h.next_le k.next_le,
   fun r hr => (k.cls_eq r (Nat.lt_of_lt_of_le hr h.next_le)).trans (h.cls_eq r hr),
   fun r hr => (k.uid_eq r (Nat.lt_of_lt_of_le hr h.next_le)).trans (h.uid_eq r hr),
   fun S hS r hr x hx => (k.adp S hS r (Nat.lt_of_lt_of_le hr h.next_le) x hx).elim .inl (h.adp S hS r hr x),
   fun S hS => (h.aside S hS).trans (k.aside S hS)⟩
theorem Evo.lt {w w' : World V E} (h : Evo O w w') {r : Ref} (hr : r < w.next) : r < w'.next := Nat.lt_of_lt_of_le hr h.next_le
theorem Evo.declared {w w' : World V E} (h : Evo O w w') {A : Adapter V} {r : Ref} (hr : Declared A w r) : Declared A w' r := by
  refine ⟨h.lt hr.1, ?_⟩
  have : (w'.heap r).m.type = (w.heap r).m.type := by unfold Model.type; rw [h.cls_eq r hr.1]
  rw [this, h.cls_eq r hr.1]; exact hr.2

/-- The adapter of an object, if any, has the store `O`. -/
def Mine (O : Option StoreKind) (w : World V E) (r : Ref) : Prop := ∀ S, O = some S → ∀ a, (w.heap r).adapter = some a → a.store = S

theorem Evo.mine {w w' : World V E} (h : Evo O w w') {r : Ref} (hr : r < w.next) (hm : Mine O w r) : Mine O w' r :=
  fun S hS a ha => (h.adp S hS r hr a ha).elim id (hm S hS a)

/-- The store that is minded is that of the adapter. -/
def Of (O : Option StoreKind) (A : Adapter V) : Prop := ∀ S, O = some S → S = A.ref.store

theorem Attached.mine {A : Adapter V} {w : World V E} {r : Ref} (hO : Of O A) (h : O ≠ none → Attached A w r) : Mine O w r := by
  intro S hS a ha
  obtain ⟨a', ha', hs⟩ := h (by rw [hS]; simp)
  rw [ha] at ha'
  cases ha'
  rw [hs, hO S hS]

theorem Mine.attachable {A : Adapter V} {w : World V E} {r : Ref} (hO : Of O A) (h : Mine O w r) (hn : O ≠ none) : Attachable A w r := by
  intro a ha
  cases O with
  | none => exact absurd rfl hn
  | some S => exact .inl ((h S rfl a ha).trans (hO S rfl))
end

variable {F : Decls V} {G : Option (Dict (ModelClass V))} {O : Option StoreKind}

/-- Changes of anything but objects, stores and the class kept by the syncer. -/
theorem Inv.of_eq {w w' : World V E} (h : Inv F G O w) (h1 : w'.heap = w.heap) (h2 : w'.next = w.next) (h3 : w'.loc = w.loc) (h4 : w'.redis = w.redis)
    (h5 : ∀ g c, G = some g → w'.scls = some c → Dict.get? g c.name = some c) : Inv F G O w' where
  ok := OK.of_heap h.ok (by rw [h2]; exact Nat.le_refl _) h3 (fun r _ => by rw [h1]; exact ⟨rfl, rfl⟩)
  good r hr := by rw [h2] at hr; rw [h1]; exact h.good r hr
  inst sid t u r hr := by
    unfold findRef tbl at hr; rw [h3] at hr
    rw [h1]; exact h.inst sid t u r hr
  wf := by rw [h4]; exact h.wf
  redis k o ho hp := by rw [h4] at ho; exact h.redis k o ho hp
  scls := h5
  own hO sid t u r hr := by
    unfold findRef tbl at hr; rw [h3] at hr
    rw [h1]; exact h.own hO sid t u r hr

theorem Evo.of_redis {w w' : World V E} (h1 : w'.heap = w.heap) (h2 : w'.next = w.next) (h3 : w'.loc = w.loc)
    (h4 : ∀ S, O = some S → ∀ sid, S ≠ .redis sid → Plain sid → entriesOf sid w'.redis = entriesOf sid w.redis) : Evo O w w' :=
  ⟨by rw [h2]; exact Nat.le_refl _, fun r _ => by rw [h1], fun r _ => by rw [h1], fun _ _ r _ a ha => .inr (by rw [h1] at ha; exact ha),
   fun S hS => ⟨fun _ _ t => by unfold DS.tbl; rw [h3], fun _ _ _ _ _ _ => by rw [h1], h4 S hS⟩⟩

theorem Evo.of_eq {w w' : World V E} (h1 : w'.heap = w.heap) (h2 : w'.next = w.next) (h3 : w'.loc = w.loc) (h4 : w'.redis = w.redis) : Evo O w w' :=
  Evo.of_redis h1 h2 h3 (fun _ _ _ _ _ => by rw [h4])

theorem Evo.of_frame {w w' : World V E} (f : Frame w w')
    (ha : ∀ S, O = some S → ∀ r, r < w.next → ∀ a, (w'.heap r).adapter = some a → a.store = S ∨ (w.heap r).adapter = some a)
    (ht : ∀ S, O = some S → ∀ sid, S ≠ .local sid → ∀ t, tbl w' sid t = tbl w sid t) : Evo O w w' :=
  ⟨by rw [f.next_eq]; exact Nat.le_refl _, fun r _ => by rw [f.heap_m], fun r _ => by rw [f.heap_m], ha,
   fun S hS => ⟨ht S hS, fun _ _ _ _ _ _ => f.heap_m _, fun _ _ _ => by rw [f.redis_eq]⟩⟩

/-- Changes of local stores. -/
theorem Inv.of_frame {w w' : World V E} (h : Inv F G O w) (f : Frame w w') (ok : w'.OK)
    (hi : ∀ sid t u r, findRef w' sid t u = some r → findRef w sid t u = some r ∨ Dict.get? (F (.local sid)) t = some (w.heap r).m.cls)
    (ho : O ≠ none → BackRefs w') : Inv F G O w' where
  ok := ok
  good r hr := by rw [f.next_eq] at hr; rw [f.heap_m]; exact h.good r hr
  inst sid t u r hr := by
    rw [f.heap_m]
    rcases hi sid t u r hr with hr | hr
    · exact h.inst sid t u r hr
    · exact hr
  wf := by rw [f.redis_eq]; exact h.wf
  redis k o ho hp := by rw [f.redis_eq] at ho; exact h.redis k o ho hp
  scls g c hg hc := h.scls g c hg (by rw [← f.scls_eq]; exact hc)
  own := ho

theorem Inv.setObj {w : World V E} (h : Inv F G O w) {r : Ref} {o : Obj V} (hc : o.m.cls = (w.heap r).m.cls)
    (hu : o.m.uid = (w.heap r).m.uid) (hg : Good o.m) (ha : o.adapter = (w.heap r).adapter) (hM : o.m = (w.heap r).m ∨ Mine O w r) : Inv F G O (w.setObj r o) ∧ Evo O w (w.setObj r o) := by
  have hadp : ∀ r', ((w.setObj r o).heap r').adapter = (w.heap r').adapter := by
    intro r'
    show (if r' = r then o else w.heap r').adapter = _
    split
    · rename_i he; rw [he, ha]
    · rfl
  have hcls : ∀ r', ((w.setObj r o).heap r').m.cls = (w.heap r').m.cls := by
    intro r'
    show (if r' = r then o else w.heap r').m.cls = _
    split
    · rename_i he; rw [he, hc]
    · rfl
  have huid : ∀ r', ((w.setObj r o).heap r').m.uid = (w.heap r').m.uid := by
    intro r'
    show (if r' = r then o else w.heap r').m.uid = _
    split
    · rename_i he; rw [he, hu]
    · rfl
  refine ⟨⟨OK.of_heap h.ok (Nat.le_refl _) rfl (fun r' _ => ⟨by unfold Model.type; rw [hcls], huid r'⟩), fun r' hr' => ?_, fun sid t u r' hr' => ?_, h.wf, h.redis, h.scls,
    fun hO sid t u r' hr' => by rw [hadp]; exact h.own hO sid t u r' hr'⟩,
    ⟨Nat.le_refl _, fun r' _ => hcls r', fun r' _ => huid r', fun _ _ r' _ a h => .inr (by rw [hadp] at h; exact h), fun S hS => ⟨fun _ _ _ => rfl, fun sid hs t u r' hr' => ?_, fun _ _ _ => rfl⟩⟩⟩
  rotate_right
  · show (if r' = r then o else w.heap r').m = _
    split
    · rename_i he
      rcases hM with hM | hM
      · rw [he, hM]
      · obtain ⟨a, h1, h2⟩ := h.own (by rw [hS]; simp) sid t u r' hr'
        rw [he] at h1
        exact absurd ((hM S hS a h1).symm.trans h2) hs
    · rfl
  · show Good (if r' = r then o else w.heap r').m
    split
    · exact hg
    · exact h.good r' hr'
  · rw [hcls]; exact h.inst sid t u r' hr'

theorem Inv.alloc {w : World V E} (h : Inv F G O w) {o : Obj V} (hg : Good o.m) : Inv F G O (alloc o w).2 ∧ Evo O w (alloc o w).2 := by
  have hh : ∀ r, r < w.next → (DS.alloc o w).2.heap r = w.heap r := by
    intro r hr
    show (if r = w.next then o else w.heap r) = _
    rw [if_neg (Nat.ne_of_lt hr)]
  refine ⟨⟨OK.alloc h.ok o, fun r hr => ?_, fun sid t u r hr => ?_, h.wf, h.redis, h.scls,
    fun hO sid t u r hr => by rw [hh r (h.ok.refs_lt sid t u r hr)]; exact h.own hO sid t u r hr⟩,
    ⟨Nat.le_succ _, fun r hr => by rw [hh r hr], fun r hr => by rw [hh r hr], fun _ _ r hr a h => .inr (by rw [hh r hr] at h; exact h),
      fun S hS => ⟨fun _ _ _ => rfl, fun sid _ t u r hr => by rw [hh r (h.ok.refs_lt sid t u r hr)], fun _ _ _ => rfl⟩⟩⟩
  · show Good (if r = w.next then o else w.heap r).m
    split
    · exact hg
    · rename_i hne
      exact h.good r (Nat.lt_of_le_of_ne (Nat.le_of_lt_succ hr) hne)
  · rw [hh r (h.ok.refs_lt sid t u r hr)]
    exact h.inst sid t u r hr

theorem redisKey_prefix (sid t u : String) : "diffsync:".toList.isPrefixOf (redisKey sid t u).toList = true := by
  rw [redisKey_toList, List.isPrefixOf_iff_prefix]
  exact ⟨sid.toList ++ ':' :: (t.toList ++ ':' :: u.toList), rfl⟩

theorem Inv.redisSet {w : World V E} (h : Inv F G O w) {sid : String} {o : Obj V} (hs : Plain sid) (ht : Plain o.m.type)
    (hc : Dict.get? (F (.redis sid)) o.m.type = some o.m.cls) (hg : Good o.m) (ha : o.adapter = none) :
    Inv F G O { w with redis := Dict.set w.redis (redisKey sid o.m.type o.m.uid) o } where
  ok := OK.of_heap h.ok (Nat.le_refl _) rfl (fun _ _ => ⟨rfl, rfl⟩)
  good := h.good
  inst := h.inst
  wf := Dict.wf_set h.wf _ _
  redis k o' ho hp := by
    dsimp only at ho
    rw [Dict.get?_set] at ho
    split at ho
    · rename_i hk
      cases ho
      exact ⟨⟨sid, hs, ht, hk.symm, hc⟩, hg, ha⟩
    · exact h.redis k o' ho hp
  scls := h.scls
  own := h.own

theorem Inv.redisErase {w : World V E} (h : Inv F G O w) (k : String) : Inv F G O { w with redis := Dict.erase w.redis k } where
  ok := OK.of_heap h.ok (Nat.le_refl _) rfl (fun _ _ => ⟨rfl, rfl⟩)
  good := h.good
  inst := h.inst
  wf := Dict.wf_erase h.wf _
  redis k' o' ho hp := by
    dsimp only at ho
    rw [Dict.get?_erase] at ho
    split at ho
    · cases ho
    · exact h.redis k' o' ho hp
  scls := h.scls
  own := h.own

/-! ## rules -/

/-- From `w`, the computation keeps the invariant, and if it returns, the result satisfies `Q`. -/
structure Run (F : Decls V) (G : Option (Dict (ModelClass V))) (O : Option StoreKind) (w : World V E) (m : M V E α) (Q : α → World V E → Prop) : Prop where
  inv : Inv F G O (m w).2
  evo : Evo O w (m w).2
  post : ∀ a, (m w).1 = .ok a → Q a (m w).2

theorem Run.mono {w : World V E} {m : M V E α} {Q Q' : α → World V E → Prop} (h : Run F G O w m Q) (hq : ∀ a w', Inv F G O w' → Evo O w w' → Q a w' → Q' a w') :
    Run F G O w m Q' := ⟨h.inv, h.evo, fun a ha => hq a _ h.inv h.evo (h.post a ha)⟩

theorem Run.pure {w : World V E} {a : α} {Q : α → World V E → Prop} (h : Inv F G O w) (hq : Q a w) : Run F G O w (Pure.pure a) Q :=
  ⟨h, Evo.refl w, fun b hb => by cases hb; exact hq⟩
theorem Run.raise {w : World V E} {e : Err} {Q : α → World V E → Prop} (h : Inv F G O w) : Run F G O w (M.raise e) Q :=
  ⟨h, Evo.refl w, fun b hb => by cases hb⟩
theorem Run.ofExcept {w : World V E} {r : Except Err α} {Q : α → World V E → Prop} (h : Inv F G O w) (hq : ∀ a, r = .ok a → Q a w) :
    Run F G O w (M.ofExcept r) Q := ⟨h, Evo.refl w, hq⟩
theorem Run.ofOption {w : World V E} {e : Err} {r : Option α} {Q : α → World V E → Prop} (h : Inv F G O w) (hq : ∀ a, r = some a → Q a w) :
    Run F G O w (M.ofOption e r) Q := by
  cases r with
  | none => exact Run.raise h
  | some a => exact Run.pure h (hq a rfl)

theorem Run.bind {w : World V E} {x : M V E α} {f : α → M V E β} {R : α → World V E → Prop} {Q : β → World V E → Prop}
    (hx : Run F G O w x R) (hf : ∀ a w', Inv F G O w' → Evo O w w' → R a w' → Run F G O w' (f a) Q) : Run F G O w (x >>= f) Q := by
  cases he : x w with
  | mk res w' =>
    have h1 := hx.inv
    have h2 := hx.evo
    have h3 := hx.post
    rw [he] at h1 h2 h3
    cases res with
    | error e =>
      refine ⟨?_, ?_, ?_⟩ <;> rw [M.bind_err he]
      · exact h1
      · exact h2
      · intro a ha; cases ha
    | ok a =>
      have h4 := hf a w' h1 h2 (h3 a rfl)
      refine ⟨?_, ?_, ?_⟩ <;> rw [M.bind_ok he]
      · exact h4.inv
      · exact h2.trans h4.evo
      · exact h4.post

theorem Run.tryCatchAt {w : World V E} {x : M V E α} {p : Err → Bool} {k : Err → M V E α} {Q : α → World V E → Prop}
    (hx : Run F G O w x Q) (hk : ∀ e w', (x w).2 = w' → Inv F G O w' → Evo O w w' → Run F G O w' (k e) Q) : Run F G O w (M.tryCatch x p k) Q := by
  cases he : x w with
  | mk res w' =>
    have h1 := hx.inv
    have h2 := hx.evo
    have h3 := hx.post
    rw [he] at h1 h2 h3
    cases res with
    | ok a =>
      have : M.tryCatch x p k w = (.ok a, w') := by unfold M.tryCatch; rw [he]
      refine ⟨?_, ?_, ?_⟩ <;> rw [this]
      · exact h1
      · exact h2
      · exact h3
    | error e =>
      have : M.tryCatch x p k w = if p e then k e w' else (.error e, w') := by unfold M.tryCatch; rw [he]
      cases hp : p e with
      | true =>
        rw [hp, if_pos rfl] at this
        have h4 := hk e w' (by rw [he]) h1 h2
        refine ⟨?_, ?_, ?_⟩ <;> rw [this]
        · exact h4.inv
        · exact h2.trans h4.evo
        · exact h4.post
      | false =>
        rw [hp] at this
        refine ⟨?_, ?_, ?_⟩ <;> rw [this]
        · exact h1
        · exact h2
        · intro a ha; cases ha

theorem Run.tryCatch {w : World V E} {x : M V E α} {p : Err → Bool} {k : Err → M V E α} {Q : α → World V E → Prop}
    (hx : Run F G O w x Q) (hk : ∀ e w', Inv F G O w' → Evo O w w' → Run F G O w' (k e) Q) : Run F G O w (M.tryCatch x p k) Q :=
  Run.tryCatchAt hx (fun e w' _ => hk e w')

theorem Run.attempt {w : World V E} {x : M V E α} {p : Err → Bool} {R : α → World V E → Prop} {Q : Except Err α → World V E → Prop}
    (hx : Run F G O w x R) (h1 : ∀ a w', R a w' → Q (.ok a) w') (h2 : ∀ e w', Q (.error e) w') : Run F G O w (M.attempt x p) Q := by
  cases he : x w with
  | mk res w' =>
    have g1 := hx.inv
    have g2 := hx.evo
    have g3 := hx.post
    rw [he] at g1 g2 g3
    cases res with
    | ok a =>
      have : M.attempt x p w = (.ok (.ok a), w') := by unfold M.attempt; rw [he]
      refine ⟨?_, ?_, ?_⟩ <;> rw [this]
      · exact g1
      · exact g2
      · intro b hb; cases hb; exact h1 a w' (g3 a rfl)
    | error e =>
      have : M.attempt x p w = if p e then (.ok (.error e), w') else (.error e, w') := by unfold M.attempt; rw [he]
      refine ⟨?_, ?_, ?_⟩ <;> rw [this]
      · split <;> exact g1
      · split <;> exact g2
      · split
        · intro b hb; cases hb; exact h2 e w'
        · intro b hb; cases hb

/-- No claim about the result. -/
abbrev Any (α : Type) {V E : Type} : α → World V E → Prop := fun _ _ => True

theorem Run.any {w : World V E} {m : M V E α} {Q : α → World V E → Prop} (h : Run F G O w m Q) : Run F G O w m (Any α) := h.mono (fun _ _ _ _ _ => trivial)

/-- A fact about the end that needs no invariant. -/
theorem Run.withPost {w : World V E} {m : M V E α} {Q : α → World V E → Prop} (h : Run F G O w m Q) {R : World V E → Prop} (hr : ∀ a, (m w).1 = .ok a → R (m w).2) :
    Run F G O w m (fun _ w' => R w') := ⟨h.inv, h.evo, hr⟩

theorem Run.forEach {w : World V E} {f : α → M V E Unit} (hw : Inv F G O w) (l : List α)
    (hf : ∀ a ∈ l, ∀ w', Inv F G O w' → Evo O w w' → Run F G O w' (f a) (Any Unit)) : Run F G O w (M.forEach f l) (Any Unit) := by
  induction l generalizing w with
  | nil => exact Run.pure hw trivial
  | cons a l ih =>
    rw [M.forEach_cons]
    exact (hf a (by simp) w hw (Evo.refl w)).bind (fun _ w' hw' he _ => ih hw' (fun b hb w2 h2 e2 => hf b (by simp [hb]) w2 h2 (he.trans e2)))

theorem Run.mapEach {w : World V E} {f : α → M V E β} {R : β → World V E → Prop} (hw : Inv F G O w) (l : List α)
    (hR : ∀ b w w', Evo O w w' → R b w → R b w')
    (hf : ∀ a ∈ l, ∀ w', Inv F G O w' → Evo O w w' → Run F G O w' (f a) R) : Run F G O w (M.mapEach f l) (fun bs w' => ∀ b ∈ bs, R b w') := by
  induction l generalizing w with
  | nil => exact Run.pure hw (by simp)
  | cons a l ih =>
    rw [M.mapEach_cons]
    refine (hf a (by simp) w hw (Evo.refl w)).bind (fun b w' hw' he hb => ?_)
    refine (ih hw' (fun b hb w2 h2 e2 => hf b (by simp [hb]) w2 h2 (he.trans e2))).bind (fun bs w2 hw2 e2 hbs => ?_)
    refine Run.pure hw2 (fun x hx => ?_)
    rcases List.mem_cons.1 hx with rfl | hx
    · exact hR _ _ _ e2 hb
    · exact hbs x hx

theorem Run.orEach {w : World V E} {f : α → M V E Bool} (hw : Inv F G O w) (l : List α) (acc : Bool)
    (hf : ∀ a ∈ l, ∀ w', Inv F G O w' → Evo O w w' → Run F G O w' (f a) (Any Bool)) : Run F G O w (M.orEach f l acc) (Any Bool) := by
  induction l generalizing w acc with
  | nil => exact Run.pure hw trivial
  | cons a l ih =>
    rw [M.orEach_cons]
    exact (hf a (by simp) w hw (Evo.refl w)).bind (fun _ w' hw' he _ => ih hw' _ (fun b hb w2 h2 e2 => hf b (by simp [hb]) w2 h2 (he.trans e2)))

theorem Run.read_bind {w : World V E} {f : World V E → M V E β} {Q : β → World V E → Prop} (h : Run F G O w (f w) Q) : Run F G O w (M.read >>= f) Q :=
  ⟨h.inv, h.evo, h.post⟩
theorem Run.deref_bind {w : World V E} {r : Ref} {f : Obj V → M V E β} {Q : β → World V E → Prop} (h : Run F G O w (f (w.heap r)) Q) :
    Run F G O w (deref r >>= f) Q := ⟨h.inv, h.evo, h.post⟩

/-- Changes of counters, events, user state. -/
theorem Run.inert {w : World V E} {f : World V E → World V E} (hw : Inv F G O w) (h1 : (f w).heap = w.heap) (h2 : (f w).next = w.next)
    (h3 : (f w).loc = w.loc) (h4 : (f w).redis = w.redis) (h5 : ∀ g c, G = some g → (f w).scls = some c → Dict.get? g c.name = some c) :
    Run F G O w (M.modify f) (fun _ w' => w' = f w) :=
  ⟨hw.of_eq h1 h2 h3 h4 h5, Evo.of_eq h1 h2 h3 h4, fun _ _ => rfl⟩

theorem Run.emit {w : World V E} (hw : Inv F G O w) (ev : Event V) : Run F G O w (M.emit ev) (Any Unit) :=
  (Run.inert hw rfl rfl rfl rfl hw.scls).any

theorem Run.writeObj {w : World V E} (hw : Inv F G O w) {r : Ref} {o : Obj V} (hc : o.m.cls = (w.heap r).m.cls)
    (hu : o.m.uid = (w.heap r).m.uid) (hg : Good o.m) (hM : o.m = (w.heap r).m ∨ Mine O w r) (ha : o.adapter = (w.heap r).adapter := by rfl) :
    Run F G O w (writeObj r o) (fun _ w' => w' = w.setObj r o) :=
  ⟨(hw.setObj hc hu hg ha hM).1, (hw.setObj hc hu hg ha hM).2, fun _ _ => rfl⟩

theorem Run.alloc {w : World V E} (hw : Inv F G O w) {o : Obj V} (hg : Good o.m) : Run F G O w (alloc o) (fun r w' => r < w'.next ∧ w'.heap r = o) :=
  ⟨(hw.alloc hg).1, (hw.alloc hg).2, fun r hr => by
    cases hr
    exact ⟨Nat.lt_succ_self _, by show (if w.next = w.next then o else w.heap w.next) = o; rw [if_pos rfl]⟩⟩

end DS
