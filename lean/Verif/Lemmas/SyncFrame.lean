import Verif.Lemmas.SyncStep
import Verif.Lemmas.Diff
/-! What a sync can change, whatever user code does. -/
set_option linter.unusedSectionVars false

namespace DS
variable {V E α β : Type} [PyVal V]

/-! ## child lists -/

theorem nodup_map_inj {γ δ : Type} {f : γ → δ} {l : List γ} (h : (l.map f).Nodup) {a b : γ} (ha : a ∈ l) (hb : b ∈ l) (he : f a = f b) : a = b := by
  induction l with
  | nil => cases ha
  | cons x l ih =>
    rw [List.map_cons, List.nodup_cons] at h
    rcases List.mem_cons.1 ha with rfl | ha' <;> rcases List.mem_cons.1 hb with rfl | hb'
    · rfl
    · exact absurd (he ▸ List.mem_map_of_mem hb') h.1
    · exact absurd (he ▸ List.mem_map_of_mem ha') h.1
    · exact ih h.2 ha' hb'

theorem get?_foldl_set (l : List (String × α)) : ∀ (d : Dict α) {x : String} {v : α},
    Dict.get? (l.foldl (fun d p => Dict.set d p.1 p.2) d) x = some v → (x, v) ∈ l ∨ Dict.get? d x = some v := by
  induction l with
  | nil => intro d x v h; exact .inr h
  | cons p l ih =>
    intro d x v h
    rcases ih _ h with h | h
    · exact .inl (List.mem_cons_of_mem _ h)
    · rw [Dict.get?_set] at h
      split at h
      · rename_i hp; cases h; rw [← hp]; exact .inl List.mem_cons_self
      · exact .inr h

theorem mem_childRefs_iff {m : Model V} {ct v : String} :
    (ct, v) ∈ childRefs m ↔ ∃ f, (ct, f) ∈ m.cls.children ∧ ∃ l, m.kidList f = some l ∧ v ∈ l := by
  unfold childRefs
  rw [List.mem_flatMap]
  constructor
  · rintro ⟨⟨t, f⟩, hp, h⟩
    obtain ⟨u, hu, he⟩ := List.mem_map.1 h
    cases he
    cases hl : m.kidList f with
    | none => simp [hl] at hu
    | some l => simp only [hl, Option.getD_some] at hu; exact ⟨f, hp, l, hl, hu⟩
  · rintro ⟨f, hp, l, hl, hv⟩
    exact ⟨(ct, f), hp, List.mem_map.2 ⟨v, by simp [hl, hv], rfl⟩⟩

theorem addChild_refs {m m' : Model V} {t u : String} (hn : m.cls.childFields.Nodup) (h : m.addChild t u = .ok m') :
    ∀ c ∈ childRefs m', c ∈ childRefs m ∨ c = (t, u) := by
  unfold Model.addChild at h
  split at h
  · cases h
  · rename_i f hf
    split at h
    · cases h
    · rename_i l hl
      split at h
      · cases h
      · cases h
        rintro ⟨ct, v⟩ hc
        rw [mem_childRefs_iff] at hc
        obtain ⟨f', hp, l', hl', hv⟩ := hc
        unfold Model.kidList at hl'
        simp only [Dict.get?_set] at hl' hp
        by_cases hff : f = f'
        · rw [if_pos hff] at hl'
          cases hl'
          rcases List.mem_append.1 hv with hv | hv
          · exact .inl (mem_childRefs_iff.2 ⟨f', hp, l, by rw [← hff]; exact hl, hv⟩)
          · rw [List.mem_singleton] at hv
            subst hv hff
            right
            have hm := Dict.mem_of_get? hf
            have : (ct, f) = (t, f) := by
              have hn' : (m.cls.children.map Prod.snd).Nodup := hn
              exact nodup_map_inj hn' hp hm rfl
            exact congrArg (fun p => (p.1, v)) this
        · rw [if_neg hff] at hl'
          exact .inl (mem_childRefs_iff.2 ⟨f', hp, l', hl', hv⟩)

theorem removeChild_refs {m m' : Model V} {t u : String} (h : m.removeChild t u = .ok m') :
    ∀ c ∈ childRefs m', c ∈ childRefs m := by
  unfold Model.removeChild at h
  split at h
  · cases h
  · rename_i f hf
    split at h
    · cases h
    · rename_i l hl
      split at h
      · cases h
        rintro ⟨ct, v⟩ hc
        rw [mem_childRefs_iff] at hc ⊢
        obtain ⟨f', hp, l', hl', hv⟩ := hc
        unfold Model.kidList at hl'
        simp only [Dict.get?_set] at hl' hp
        by_cases hff : f = f'
        · rw [if_pos hff] at hl'
          cases hl'
          exact ⟨f', hp, l, by rw [← hff]; exact hl, List.mem_of_mem_erase hv⟩
        · rw [if_neg hff] at hl'
          exact ⟨f', hp, l', hl', hv⟩
      · cases h

theorem construct_spec {c : ModelClass V} {ids attrs : Dict V} {m : Model V} (h : c.construct ids attrs = .ok m) :
    m.cls = c ∧ m.flags = c.defaultFlags ∧ childRefs m = [] := by
  have h := construct_ok h
  obtain ⟨h1, _, h3, h4, _⟩ := instantiate_ok h
  refine ⟨h1, h4, ?_⟩
  rw [List.eq_nil_iff_forall_not_mem]
  rintro ⟨ct, v⟩ hc
  rw [mem_childRefs_iff] at hc
  obtain ⟨f, _, l, hl, hv⟩ := hc
  unfold Model.kidList at hl
  rw [h3] at hl
  rcases get?_foldl_set _ _ hl with h | h
  · obtain ⟨f', _, he⟩ := List.mem_map.1 h
    cases he
    simp [Dict.get?] at hv
  · cases h

/-! ## the relation -/

/-- What holds of the destination store all along a sync: its objects are instances of the adapter's classes, their
child lists stay within `Gr`, and objects whose children are skipped on deletion have a key in `SkipK`. -/
structure SInv (A : Adapter V) (sid : Nat) (Gr : Key → Key → Prop) (SkipK : Key → Prop) (w : World V E) : Prop where
  ok : w.OK
  inst : Instances A sid w
  edges : ∀ t u r, findRef w sid t u = some r → ∀ c ∈ childRefs (w.heap r).m, Gr (t, u) c
  skip : ∀ t u r, findRef w sid t u = some r → flagOn (w.heap r).m.flags MF.SKIP_CHILDREN_ON_DELETE = true → SkipK (t, u)

/-- What a part of a sync may have changed. `b`: references from `b` on are new; `K`: the keys concerned, with the action; `P`: objects whose
child lists may change; `X`: keys that may be removed along with others; `Ev`: events that have happened. -/
structure SFrame (A : Adapter V) (sid : Nat) (b : Ref) (K : Option Action → Key → Prop) (P : Ref → Prop) (X : Key → Prop) (Ev : Event V → Prop)
    (w w' : World V E) : Prop where
  next_le : w.next ≤ w'.next
  redis_eq : w'.redis = w.redis
  others : ∀ s t, s ≠ sid → tbl w' s t = tbl w s t
  ident : ∀ r, r < w.next → (w'.heap r).m.cls = (w.heap r).m.cls ∧ (w'.heap r).m.flags = (w.heap r).m.flags ∧ (w'.heap r).m.key = (w.heap r).m.key
  same : ∀ r, r < b → ¬ P r → (∀ t u, findRef w sid t u = some r → ∀ a, a ≠ some .create → ¬ K a (t, u)) → (w'.heap r).m = (w.heap r).m
  come : ∀ t u r, findRef w' sid t u = some r → findRef w sid t u = some r ∨
    (b ≤ r ∧ K (some .create) (t, u) ∧ ∃ ids attrs out, Ev (.call (.create t ids attrs) out) ∧ out.result = .object ∧ CallKey A (.create t ids attrs) (t, u))
  gone : ∀ t u r, findRef w sid t u = some r → findRef w' sid t u = some r ∨
    (K (some .delete) (t, u) ∧ ∃ out, Ev (.call (.delete t u) out) ∧ out.result = .object) ∨ X (t, u)
  upd : ∀ r, r < w.next → (w'.heap r).m.vals = (w.heap r).m.vals ∨
    K (some .update) (w.heap r).m.key ∧ ∃ attrs out, Ev (.call (.update (w.heap r).m.type (w.heap r).m.uid attrs) out) ∧ out.applied = true

section
variable {A : Adapter V} {sid : Nat} {b : Ref} {K : Option Action → Key → Prop} {P : Ref → Prop} {X : Key → Prop} {Ev : Event V → Prop}

theorem SFrame.trans' {P' : Ref → Prop} {w w1 w2 : World V E} (h1 : SFrame A sid b K P X Ev w w1) (h2 : SFrame A sid b K P' X Ev w1 w2)
    (hb : b ≤ w.next) (hP : ∀ r, r < b → P' r → P r ∨ ∃ t u a, findRef w sid t u = some r ∧ a ≠ some Action.create ∧ K a (t, u)) : SFrame A sid b K P X Ev w w2 where
  next_le := Nat.le_trans h1.next_le h2.next_le
  redis_eq := h2.redis_eq.trans h1.redis_eq
  others s t hs := (h2.others s t hs).trans (h1.others s t hs)
  ident r hr := by
    obtain ⟨a1, a2, a3⟩ := h1.ident r hr
    obtain ⟨b1, b2, b3⟩ := h2.ident r (Nat.lt_of_lt_of_le hr h1.next_le)
    exact ⟨b1.trans a1, b2.trans a2, b3.trans a3⟩
  same r hr hp hk := by
    rw [h2.same r hr, h1.same r hr hp hk]
    · intro hp'
      rcases hP r hr hp' with h | ⟨t, u, a, h, ha, hk'⟩
      · exact hp h
      · exact hk t u h a ha hk'
    · intro t u hf
      rcases h1.come t u r hf with h | ⟨h, _⟩
      · exact hk t u h
      · exact absurd hr (Nat.not_lt.2 h)
  come t u r hf := by
    rcases h2.come t u r hf with h | h
    · exact h1.come t u r h
    · exact .inr h
  gone t u r hf := by
    rcases h1.gone t u r hf with h | h
    · exact h2.gone t u r h
    · exact .inr h
  upd r hr := by
    have hk := (h1.ident r hr).2.2
    have ht : (w1.heap r).m.type = (w.heap r).m.type := congrArg Prod.fst hk
    have hu : (w1.heap r).m.uid = (w.heap r).m.uid := congrArg Prod.snd hk
    rcases h2.upd r (Nat.lt_of_lt_of_le hr h1.next_le) with h | h
    · rw [h]; exact h1.upd r hr
    · rw [ht, hu, hk] at h; exact .inr h

theorem SFrame.trans {w w1 w2 : World V E} (h1 : SFrame A sid b K P X Ev w w1) (h2 : SFrame A sid b K P X Ev w1 w2)
    (hb : b ≤ w.next) : SFrame A sid b K P X Ev w w2 := h1.trans' h2 hb (fun _ _ h => .inl h)

theorem SFrame.mono {K' : Option Action → Key → Prop} {P' : Ref → Prop} {Ev' : Event V → Prop} {w w' : World V E} (h : SFrame A sid b K P X Ev w w')
    (hK : ∀ a k, K a k → K' a k) (hP : ∀ r, P r → P' r) (hE : ∀ ev, Ev ev → Ev' ev) : SFrame A sid b K' P' X Ev' w w' where
  next_le := h.next_le
  redis_eq := h.redis_eq
  others := h.others
  ident := h.ident
  same r hr hp hk := h.same r hr (fun h' => hp (hP r h')) (fun t u hf a ha h' => hk t u hf a ha (hK _ _ h'))
  come t u r hf := by
    rcases h.come t u r hf with h | ⟨h1, h2, ids, attrs, out, h3, h4⟩
    · exact .inl h
    · exact .inr ⟨h1, hK _ _ h2, ids, attrs, out, hE _ h3, h4⟩
  gone t u r hf := by
    rcases h.gone t u r hf with h | ⟨h2, out, h3, h4⟩ | h
    · exact .inl h
    · exact .inr (.inl ⟨hK _ _ h2, out, hE _ h3, h4⟩)
    · exact .inr (.inr h)
  upd r hr := by
    rcases h.upd r hr with h | ⟨h0, attrs, out, h1, h2⟩
    · exact .inl h
    · exact .inr ⟨hK _ _ h0, attrs, out, hE _ h1, h2⟩

theorem Still.sframe {w w' : World V E} (h : Still w w') (hb : b ≤ w.next) : SFrame A sid b K P X Ev w w' where
  next_le := h.next_le
  redis_eq := h.redis_eq
  others s t _ := h.tbl_eq s t
  ident r hr := by rw [h.heap_m r hr]; exact ⟨rfl, rfl, rfl⟩
  same r hr _ _ := h.heap_m r (Nat.lt_of_lt_of_le hr hb)
  come t u r hf := by rw [h.tbl_eq.findRef] at hf; exact .inl hf
  gone t u r hf := by rw [← h.tbl_eq.findRef] at hf; exact .inl hf
  upd r hr := by rw [h.heap_m r hr]; exact .inl rfl

variable {Gr : Key → Key → Prop} {SkipK : Key → Prop}

theorem Still.sinv {w w' : World V E} (h : Still w w') (hi : SInv A sid Gr SkipK w) : SInv A sid Gr SkipK w' where
  ok := h.ok hi.ok
  inst t u r c hf hc := by
    rw [h.tbl_eq.findRef] at hf; rw [h.heap_m r (hi.ok.refs_lt _ _ _ _ hf)]; exact hi.inst t u r c hf hc
  edges t u r hf := by
    rw [h.tbl_eq.findRef] at hf; rw [h.heap_m r (hi.ok.refs_lt _ _ _ _ hf)]; exact hi.edges t u r hf
  skip t u r hf := by
    rw [h.tbl_eq.findRef] at hf; rw [h.heap_m r (hi.ok.refs_lt _ _ _ _ hf)]; exact hi.skip t u r hf

theorem setattrs_key {m : Model V} {attrs : Dict V} (h : ∀ k ∈ Dict.keys attrs, k ∉ m.cls.identifiers) :
    (m.setattrs attrs).1.key = m.key := by
  obtain ⟨h1, _, _, h4⟩ := setattrs_spec m attrs
  unfold Model.key Model.type
  rw [h1, uid_congr h1 (fun k hk => h4 k (fun hk' => h k hk' hk))]

theorem childRefs_congr {m m' : Model V} (h1 : m'.cls = m.cls) (h2 : m'.kids = m.kids) : childRefs m' = childRefs m := by
  unfold childRefs Model.kidList; rw [h1, h2]

/-- An update of one stored object. -/
theorem Upd.sframe {w w' : World V E} {t u : String} {r : Ref} {attrs : Dict V} {out : Outcome} (h : Upd r attrs w w') (hb : b ≤ w.next)
    (hi : SInv A sid Gr SkipK w) (hf : findRef w sid t u = some r) (hK : K (some .update) (t, u)) (hp : ∀ k ∈ Dict.keys attrs, k ∉ (w.heap r).m.cls.identifiers)
    (hev : Ev (.call (.update t u attrs) out)) (ha : out.applied = true) :
    SFrame A sid b K P X Ev w w' ∧ SInv A sid Gr SkipK w' := by
  obtain ⟨h1, h2, h3, _⟩ := setattrs_spec (w.heap r).m attrs
  have hkey := setattrs_key hp
  rw [← h.heap_r] at h1 h2 h3 hkey
  have hid : ∀ r', r' < w.next → (w'.heap r').m.cls = (w.heap r').m.cls ∧ (w'.heap r').m.flags = (w.heap r').m.flags ∧ (w'.heap r').m.key = (w.heap r').m.key ∧
      (w'.heap r').m.kids = (w.heap r').m.kids := by
    intro r' hr'
    by_cases he : r' = r
    · subst he; exact ⟨h1, h3, hkey, h2⟩
    · rw [h.heap_m r' hr' he]; exact ⟨rfl, rfl, rfl, rfl⟩
  refine ⟨⟨h.next_le, h.redis_eq, fun s t _ => h.tbl_eq s t, fun r hr => ⟨(hid r hr).1, (hid r hr).2.1, (hid r hr).2.2.1⟩, ?_, ?_, ?_, ?_⟩, ⟨?_, ?_, ?_, ?_⟩⟩
  · intro r' hr' _ hk
    by_cases he : r' = r
    · subst he; exact absurd hK (hk t u hf _ (by simp))
    · exact h.heap_m r' (Nat.lt_of_lt_of_le hr' hb) he
  · intro t u r hf; rw [h.tbl_eq.findRef] at hf; exact .inl hf
  · intro t u r hf; rw [← h.tbl_eq.findRef] at hf; exact .inl hf
  · intro r' hr'
    by_cases he : r' = r
    · subst he
      obtain ⟨k1, k2⟩ := hi.ok.key_ok _ _ _ _ hf
      have k3 : (w.heap r').m.key = (t, u) := Prod.ext k1 k2
      rw [k1, k2, k3]
      exact .inr ⟨hK, attrs, out, hev, ha⟩
    · rw [h.heap_m r' hr' he]; exact .inl rfl
  · exact ⟨fun s => h.loc_wf s (hi.ok.loc_wf s), fun s t => by rw [h.tbl_eq]; exact hi.ok.tbl_wf s t,
      fun s t u r hf => by rw [h.tbl_eq.findRef] at hf; exact Nat.lt_of_lt_of_le (hi.ok.refs_lt _ _ _ _ hf) h.next_le,
      fun s t u r hf => by
        rw [h.tbl_eq.findRef] at hf
        have hk := (hid r (hi.ok.refs_lt _ _ _ _ hf)).2.2.1
        obtain ⟨k1, k2⟩ := hi.ok.key_ok _ _ _ _ hf
        exact ⟨(congrArg Prod.fst hk).trans k1, (congrArg Prod.snd hk).trans k2⟩⟩
  · intro t u r c hf hc; rw [h.tbl_eq.findRef] at hf
    rw [(hid r (hi.ok.refs_lt _ _ _ _ hf)).1]; exact hi.inst t u r c hf hc
  · intro t u r hf; rw [h.tbl_eq.findRef] at hf
    have := hid r (hi.ok.refs_lt _ _ _ _ hf)
    rw [childRefs_congr this.1 this.2.2.2]; exact hi.edges t u r hf
  · intro t u r hf; rw [h.tbl_eq.findRef] at hf
    rw [(hid r (hi.ok.refs_lt _ _ _ _ hf)).2.1]; exact hi.skip t u r hf

/-- A change of one object's child lists. -/
theorem kids_sframe {w : World V E} {p : Ref} {m : Model V} (hk : KidsOnly (w.heap p).m m) (hP : P p)
    (hi : SInv A sid Gr SkipK w) (he : ∀ t u, findRef w sid t u = some p → ∀ c ∈ childRefs m, Gr (t, u) c) :
    SFrame A sid b K P X Ev w (w.setObj p { w.heap p with m := m }) ∧ SInv A sid Gr SkipK (w.setObj p { w.heap p with m := m }) := by
  have hh : ∀ r, ((w.setObj p { w.heap p with m := m }).heap r).m = if r = p then m else (w.heap r).m := by
    intro r; simp only [World.setObj]; split <;> rfl
  have hid : ∀ r, ((w.setObj p { w.heap p with m := m }).heap r).m.cls = (w.heap r).m.cls ∧ ((w.setObj p { w.heap p with m := m }).heap r).m.flags = (w.heap r).m.flags ∧
      ((w.setObj p { w.heap p with m := m }).heap r).m.key = (w.heap r).m.key ∧ ((w.setObj p { w.heap p with m := m }).heap r).m.vals = (w.heap r).m.vals := by
    intro r
    rw [hh]
    split
    · rename_i h; subst h; exact ⟨hk.cls_eq, hk.flags_eq, hk.key_eq, hk.vals_eq⟩
    · exact ⟨rfl, rfl, rfl, rfl⟩
  refine ⟨⟨Nat.le_refl _, rfl, fun _ _ _ => rfl, fun r _ => ⟨(hid r).1, (hid r).2.1, (hid r).2.2.1⟩, ?_, fun _ _ _ h => .inl h, fun _ _ _ h => .inl h,
    fun r _ => .inl (hid r).2.2.2⟩, ⟨⟨hi.ok.loc_wf, hi.ok.tbl_wf, hi.ok.refs_lt, ?_⟩, ?_, ?_, ?_⟩⟩
  · intro r _ hp _
    rw [hh, if_neg (fun (h : r = p) => hp (by rw [h]; exact hP))]
  · intro s t u r hf
    obtain ⟨k1, k2⟩ := hi.ok.key_ok s t u r hf
    exact ⟨(congrArg Prod.fst (hid r).2.2.1).trans k1, (congrArg Prod.snd (hid r).2.2.1).trans k2⟩
  · intro t u r c hf hc
    rw [(hid r).1]; exact hi.inst t u r c hf hc
  · intro t u r hf
    rw [hh]
    split
    · rename_i h; subst h; exact he t u hf
    · exact hi.edges t u r hf
  · intro t u r hf
    rw [(hid r).2.1]; exact hi.skip t u r hf

/-- Storing a new object. -/
theorem set_sframe {w w' : World V E} {r : Ref} {t u : String} (f : Frame w w') (ht : TblSet sid t u r w w') (hkey : (w.heap r).m.key = (t, u))
    (hn : findRef w sid t u = none) (hlt : r < w.next) (hbr : b ≤ r) (hK : K (some .create) (t, u))
    (hev : ∃ ids attrs out, Ev (.call (.create t ids attrs) out) ∧ out.result = .object ∧ CallKey A (.create t ids attrs) (t, u))
    (hi : SInv A sid Gr SkipK w) (hcls : ∀ c, Dict.get? A.classes t = some c → (w.heap r).m.cls = c)
    (he : ∀ c ∈ childRefs (w.heap r).m, Gr (t, u) c) (hs : flagOn (w.heap r).m.flags MF.SKIP_CHILDREN_ON_DELETE = true → SkipK (t, u)) :
    SFrame A sid b K P X Ev w w' ∧ SInv A sid Gr SkipK w' := by
  have h1 : (w.heap r).m.type = t := congrArg Prod.fst hkey
  have h2 : (w.heap r).m.uid = u := congrArg Prod.snd hkey
  have hfind : ∀ t' u' r', findRef w' sid t' u' = some r' → (t' = t ∧ u' = u ∧ r' = r) ∨ findRef w sid t' u' = some r' := by
    intro t' u' r' hf
    rw [ht.findRef] at hf
    split at hf
    · rename_i h; cases hf; exact .inl ⟨h.2.1, h.2.2, rfl⟩
    · exact .inr hf
  refine ⟨⟨by rw [f.next_eq]; exact Nat.le_refl _, f.redis_eq, fun s t' hs' => by rw [ht, if_neg (fun h => hs' h.1)],
    fun r' _ => by rw [f.heap_m]; exact ⟨rfl, rfl, rfl⟩, fun r' _ _ _ => f.heap_m r', ?_, ?_, fun r' _ => by rw [f.heap_m]; exact .inl rfl⟩, ⟨?_, ?_, ?_, ?_⟩⟩
  · intro t' u' r' hf
    rcases hfind _ _ _ hf with ⟨rfl, rfl, rfl⟩ | h
    · exact .inr ⟨hbr, hK, hev⟩
    · exact .inl h
  · intro t' u' r' hf
    left
    rw [ht.findRef]
    split
    · rename_i h; rw [h.2.1, h.2.2, hn] at hf; cases hf
    · exact hf
  · subst h1 h2
    exact OK.of_set hi.ok f hlt ht
  · intro t' u' r' c hf hc
    rw [f.heap_m]
    rcases hfind _ _ _ hf with ⟨rfl, rfl, rfl⟩ | h
    · exact hcls c hc
    · exact hi.inst _ _ _ _ h hc
  · intro t' u' r' hf
    rw [f.heap_m]
    rcases hfind _ _ _ hf with ⟨rfl, rfl, rfl⟩ | h
    · exact he
    · exact hi.edges _ _ _ h
  · intro t' u' r' hf
    rw [f.heap_m]
    rcases hfind _ _ _ hf with ⟨rfl, rfl, rfl⟩ | h
    · exact hs
    · exact hi.skip _ _ _ h

/-- Removing objects. -/
theorem Removed.sframe {G : Key → Prop} {w w' : World V E} (h : Removed sid G w w')
    (hG : ∀ t u, G (t, u) → (K (some .delete) (t, u) ∧ ∃ out, Ev (.call (.delete t u) out) ∧ out.result = .object) ∨ X (t, u))
    (hi : SInv A sid Gr SkipK w) : SFrame A sid b K P X Ev w w' ∧ SInv A sid Gr SkipK w' := by
  have hfind : ∀ t u r, findRef w' sid t u = some r → findRef w sid t u = some r := by
    intro t u r hf
    rcases h.mine t u with h' | h'
    · rw [← h']; exact hf
    · rw [h'.1] at hf; cases hf
  refine ⟨⟨by rw [h.next_eq]; exact Nat.le_refl _, h.redis_eq, h.others, fun r _ => by rw [h.heap_m]; exact ⟨rfl, rfl, rfl⟩, fun r _ _ _ => h.heap_m r,
    fun t u r hf => .inl (hfind t u r hf), ?_, fun r _ => by rw [h.heap_m]; exact .inl rfl⟩,
    ⟨h.ok hi.ok, fun t u r c hf hc => by rw [h.heap_m]; exact hi.inst _ _ _ _ (hfind _ _ _ hf) hc, fun t u r hf => by rw [h.heap_m]; exact hi.edges _ _ _ (hfind _ _ _ hf),
     fun t u r hf => by rw [h.heap_m]; exact hi.skip _ _ _ (hfind _ _ _ hf)⟩⟩
  intro t u r hf
  rcases h.mine t u with h' | h'
  · exact .inl (h'.trans hf)
  · exact .inr (hG t u h'.2)
end

/-! ## one element -/

/-- What is assumed about the elements of a diff and the sets of keys in a frame statement. -/
structure FrameEnv (A : Adapter V) (Gr : Key → Key → Prop) (SkipK X : Key → Prop) (Fin : Event V → Prop) (es : List (Elem V)) : Prop where
  valid : A.Valid
  plain : PlainUpdates A es
  del : DelClosed es
  ids : KeptIds A es
  dflt : ∀ t u c, Dict.get? A.classes t = some c → flagOn c.defaultFlags MF.SKIP_CHILDREN_ON_DELETE = true → SkipK (t, u)
  closed : ∀ k k', X k → Gr k k' → X k'
  root : ∀ e, InTree e es → e.action = some .delete → ∀ k, ElemKey A e k → SkipK k → (∃ out, Fin (.call (.delete k.1 k.2) out) ∧ out.result = .object) → X k
  edge : ∀ e, InTree e es → ∀ e' ∈ e.kids, ∀ k k', ElemKey A e k → ElemKey A e' k' → Gr k k'

theorem inTree_self (e : Elem V) : InTree e [e] := .here (List.mem_singleton.2 rfl)
theorem inTree_kid {e k x : Elem V} (hk : k ∈ e.kids) (h : InTree x [k]) : InTree x [e] :=
  .under (List.mem_singleton.2 rfl) (h.mono (fun _ h => by rw [List.mem_singleton] at h; rw [h]; exact hk))

theorem FrameEnv.kid {A : Adapter V} {Gr : Key → Key → Prop} {SkipK X : Key → Prop} {Fin : Event V → Prop} {e k : Elem V} (h : FrameEnv A Gr SkipK X Fin [e]) (hk : k ∈ e.kids) :
    FrameEnv A Gr SkipK X Fin [k] where
  valid := h.valid
  plain x hx := h.plain x (inTree_kid hk hx)
  del x hx := h.del x (inTree_kid hk hx)
  ids x hx := h.ids x (inTree_kid hk hx)
  dflt := h.dflt
  closed := h.closed
  root x hx := h.root x (inTree_kid hk hx)
  edge x hx := h.edge x (inTree_kid hk hx)

/-- Keys of the elements of a tree, with their actions. -/
def keysOf (A : Adapter V) (es : List (Elem V)) (a : Option Action) (k : Key) : Prop := ∃ e, InTree e es ∧ e.action = a ∧ ElemKey A e k

theorem keysOf_kid {A : Adapter V} {e k : Elem V} (hk : k ∈ e.kids) {a : Option Action} {x : Key} (h : keysOf A [k] a x) : keysOf A [e] a x := by
  obtain ⟨y, h1, h2⟩ := h; exact ⟨y, inTree_kid hk h1, h2⟩

theorem mem_of_getChildren {dc : DiffClass V} {kids : List (Elem V)} {k : Elem V} (h : k ∈ getChildren dc kids) : k ∈ kids := by
  unfold getChildren at h
  obtain ⟨g, _, h2⟩ := List.mem_flatMap.1 h
  exact (List.mem_filter.1 (dc.sub g _ k h2)).1

/-- The object passed as parent exists, is an instance of one of the adapter's classes, and may list `k`. -/
def ParOK (A : Adapter V) (Gr : Key → Key → Prop) (parent : Option Ref) (k : Key) (w : World V E) : Prop :=
  ∀ p, parent = some p → p < w.next ∧ Dict.get? A.classes (w.heap p).m.type = some (w.heap p).m.cls ∧ Gr (w.heap p).m.key k

section
variable {A : Adapter V} {sid : Nat} {b : Ref} {K : Option Action → Key → Prop} {P : Ref → Prop} {X : Key → Prop} {Gr : Key → Key → Prop} {SkipK : Key → Prop}

theorem ParOK.move {Ev : Event V → Prop} {parent : Option Ref} {k : Key} {w w' : World V E} (h : ParOK A Gr parent k w)
    (f : SFrame A sid b K P X Ev w w') : ParOK A Gr parent k w' := by
  intro p hp
  obtain ⟨h1, h2, h3⟩ := h p hp
  obtain ⟨i1, _, i3⟩ := f.ident p h1
  have ht : (w'.heap p).m.type = (w.heap p).m.type := congrArg Prod.fst i3
  exact ⟨Nat.lt_of_lt_of_le h1 f.next_le, by rw [ht, i1]; exact h2, by rw [i3]; exact h3⟩

/-- A part of a sync with its events: frame and invariant. -/
def Fr (A : Adapter V) (sid : Nat) (b : Ref) (K : Option Action → Key → Prop) (P : Ref → Prop) (X : Key → Prop) (Gr : Key → Key → Prop) (SkipK : Key → Prop)
    (w w' : World V E) : Prop :=
  ∃ evs, w'.trace = w.trace ++ evs ∧ SFrame A sid b K P X (· ∈ evs) w w' ∧ SInv A sid Gr SkipK w'

theorem Fr.trans' {P' : Ref → Prop} {w w1 w2 : World V E} (h1 : Fr A sid b K P X Gr SkipK w w1) (h2 : Fr A sid b K P' X Gr SkipK w1 w2)
    (hb : b ≤ w.next) (hP : ∀ r, r < b → P' r → P r ∨ ∃ t u a, findRef w sid t u = some r ∧ a ≠ some Action.create ∧ K a (t, u)) : Fr A sid b K P X Gr SkipK w w2 := by
  obtain ⟨e1, t1, f1, i1⟩ := h1
  obtain ⟨e2, t2, f2, i2⟩ := h2
  refine ⟨e1 ++ e2, by rw [t2, t1, List.append_assoc], ?_, i2⟩
  exact (f1.mono (fun _ _ h => h) (fun _ h => h) (fun ev h => List.mem_append_left _ h)).trans'
    (f2.mono (fun _ _ h => h) (fun _ h => h) (fun ev h => List.mem_append_right _ h)) hb hP
theorem Fr.trans {w w1 w2 : World V E} (h1 : Fr A sid b K P X Gr SkipK w w1) (h2 : Fr A sid b K P X Gr SkipK w1 w2)
    (hb : b ≤ w.next) : Fr A sid b K P X Gr SkipK w w2 := h1.trans' h2 hb (fun _ _ h => .inl h)
theorem Fr.mono {K' : Option Action → Key → Prop} {P' : Ref → Prop} {w w' : World V E} (h : Fr A sid b K P X Gr SkipK w w')
    (hK : ∀ a k, K a k → K' a k) (hP : ∀ r, P r → P' r) : Fr A sid b K' P' X Gr SkipK w w' := by
  obtain ⟨e1, t1, f1, i1⟩ := h
  exact ⟨e1, t1, f1.mono hK hP (fun _ h => h), i1⟩
theorem Fr.next_le {w w' : World V E} (h : Fr A sid b K P X Gr SkipK w w') : w.next ≤ w'.next := by
  obtain ⟨_, _, f, _⟩ := h; exact f.next_le
theorem Fr.sinv {w w' : World V E} (h : Fr A sid b K P X Gr SkipK w w') : SInv A sid Gr SkipK w' := by
  obtain ⟨_, _, _, i⟩ := h; exact i
theorem Fr.par {parent : Option Ref} {k : Key} {w w' : World V E} (f : Fr A sid b K P X Gr SkipK w w') (h : ParOK A Gr parent k w) :
    ParOK A Gr parent k w' := by
  obtain ⟨_, _, f, _⟩ := f; exact h.move f
theorem Fr.refl {w : World V E} (hb : b ≤ w.next) (hi : SInv A sid Gr SkipK w) : Fr A sid b K P X Gr SkipK w w :=
  ⟨[], by simp, (Still.refl w).sframe hb, hi⟩
theorem Still.fr {w w' : World V E} {evs : List (Event V)} (h : Still w w') (ht : w'.trace = w.trace ++ evs) (hb : b ≤ w.next)
    (hi : SInv A sid Gr SkipK w) : Fr A sid b K P X Gr SkipK w w' := ⟨evs, ht, h.sframe hb, h.sinv hi⟩

theorem kidsRun_fr {Kk : Elem V → World V E → World V E → Except Err Bool → Prop} {l : List (Elem V)} {Q : Elem V → World V E → Prop}
    (hK : ∀ e ∈ l, ∀ w w' res, Kk e w w' res → SInv A sid Gr SkipK w → b ≤ w.next → Q e w → Fr A sid b K P X Gr SkipK w w')
    (hQ : ∀ e ∈ l, ∀ w w', Fr A sid b K P X Gr SkipK w w' → Q e w → Q e w') {acc : Bool} {w w' : World V E} {res : Except Err Bool}
    (h : KidsRun Kk l acc w w' res) (hi : SInv A sid Gr SkipK w) (hb : b ≤ w.next) (hq : ∀ e ∈ l, Q e w) : Fr A sid b K P X Gr SkipK w w' := by
  induction h with
  | nil => exact Fr.refl hb hi
  | @err e l acc w w' x h => exact hK e (by simp) _ _ _ h hi hb (hq e (by simp))
  | @cons e l acc w w1 w' bb res h hr ih =>
    have f1 := hK e (by simp) _ _ _ h hi hb (hq e (by simp))
    have f2 := ih (fun e' he' => hK e' (by simp [he'])) (fun e' he' => hQ e' (by simp [he'])) f1.sinv (Nat.le_trans hb f1.next_le)
      (fun e' he' => hQ e' (by simp [he']) _ _ f1 (hq e' (by simp [he'])))
    exact f1.trans f2 hb

/-- `sync_model` in a frame statement. -/
theorem Own.fr {S : SyncCtx V E} {c : ModelClass V} {ids attrs : Dict V} {w w' : World V E} {a : Option Action} {dst : Option Ref}
    {evs : List (Event V)} {res : Except Err (Bool × Option Ref)} (h : Own S c ids attrs w w' a dst evs res) (ht : w'.trace = w.trace ++ evs)
    {k : Key} (hb : b ≤ w.next) (hi : SInv A sid Gr SkipK w) (hK : K a k)
    (hdst : a ≠ some .delete → dst = findRef w sid k.1 k.2)
    (hpl : a = some .update → ∃ c0, Dict.get? A.classes k.1 = some c0 ∧ ∀ x ∈ Dict.keys attrs, x ∉ c0.identifiers) : Fr A sid b K P X Gr SkipK w w' := by
  have ce : ∀ {a' call out}, a = some a' → callFor c a' (dst.map (fun r => (w.heap r).m)) ids attrs = some call → Event.call call out ∈ evs →
      CallEff a' dst attrs out w w' → Fr A sid b K P X Gr SkipK w w' := by
    intro a' call out ha hcf hev hce
    unfold CallEff at hce
    split at hce
    · rename_i r
      split at hce
      · rename_i hap
        have hf : findRef w sid k.1 k.2 = some r := (hdst (by rw [ha]; simp)).symm
        obtain ⟨k1, k2⟩ := hi.ok.key_ok _ _ _ _ hf
        simp only [Option.map_some, callFor, Option.some.injEq] at hcf
        rw [k1, k2] at hcf
        subst hcf
        obtain ⟨c0, hc0, hpl⟩ := hpl ha
        obtain ⟨s1, s2⟩ := hce.sframe (P := P) (X := X) (Ev := (· ∈ evs)) hb hi hf (by rw [← ha]; exact hK) (by rw [hi.inst _ _ _ _ hf hc0]; exact hpl) hev hap
        exact ⟨evs, ht, s1, s2⟩
      · exact Still.fr hce ht hb hi
    · exact Still.fr hce ht hb hi
  cases h with
  | idle h _ => exact h.fr ht hb hi
  | stale _ h _ => exact h.fr ht hb hi
  | crud h1 _ _ _ h2 => exact ce rfl h1 (by simp) h2
  | fatal h1 _ _ _ h2 => exact ce rfl h1 (by simp) h2
  | failed h1 _ _ h2 => exact ce rfl h1 (by simp) h2
  | created _ _ _ h _ _ _ _ => exact h.fr ht hb hi
  | kept h1 _ _ _ h2 _ => exact ce rfl h1 (by simp) h2
end

section
variable {S : SyncCtx V E} {sid : Nat} (hA : S.dst.ref.store = .local sid) {b : Ref} {K : Option Action → Key → Prop} {X : Key → Prop} {Gr : Key → Key → Prop} {SkipK : Key → Prop}
include hA

theorem applyStore_create_fr {k : Key} {parent : Option Ref} {r : Ref} {skip : Bool} {w1 : World V E} {Ev : Event V → Prop} {P : Ref → Prop}
    (hP : ∀ p, parent = some p → P p ∧ p ≠ r) (hv : S.dst.Valid) (hi : SInv S.dst sid Gr SkipK w1) (hpar : ParOK S.dst Gr parent k w1)
    (hkey : (w1.heap r).m.key = k) (hn : findRef w1 sid k.1 k.2 = none) (hlt : r < w1.next) (hbr : b ≤ r) (hb : b ≤ w1.next) (hK : K (some .create) k)
    (hev : ∃ ids attrs out, Ev (.call (.create k.1 ids attrs) out) ∧ out.result = .object ∧ CallKey S.dst (.create k.1 ids attrs) k)
    (hcls : ∀ c, Dict.get? S.dst.classes k.1 = some c → (w1.heap r).m.cls = c)
    (he : childRefs (w1.heap r).m = []) (hs : flagOn (w1.heap r).m.flags MF.SKIP_CHILDREN_ON_DELETE = true → SkipK k) :
    SFrame S.dst sid b K P X Ev w1 (applyStore S (some .create) parent r skip w1).2 ∧
      SInv S.dst sid Gr SkipK (applyStore S (some .create) parent r skip w1).2 ∧
      (applyStore S (some .create) parent r skip w1).2.trace = w1.trace ∧
      Regs w1 (applyStore S (some .create) parent r skip w1).2 := by
  have fin : ∀ w2 : World V E, SFrame S.dst sid b K P X Ev w1 w2 → SInv S.dst sid Gr SkipK w2 → w2.trace = w1.trace → Regs w1 w2 →
      (w2.heap r).m = (w1.heap r).m → findRef w2 sid k.1 k.2 = none → r < w2.next →
      SFrame S.dst sid b K P X Ev w1 (add S.dst r w2).2 ∧ SInv S.dst sid Gr SkipK (add S.dst r w2).2 ∧ (add S.dst r w2).2.trace = w1.trace ∧
        Regs w1 (add S.dst r w2).2 := by
    intro w2 f2 i2 t2 g2 m2 n2 l2
    have hk2 : (w2.heap r).m.key = (k.1, k.2) := by rw [m2]; exact hkey
    have h1 : (w2.heap r).m.type = k.1 := congrArg Prod.fst hk2
    have h2 : (w2.heap r).m.uid = k.2 := congrArg Prod.snd hk2
    obtain ⟨w', e3, f3, t3, _⟩ := add_local_none hA r w2 (by rw [h1, h2]; exact n2)
    rw [e3]
    rw [h1, h2] at t3
    obtain ⟨s1, s2⟩ := set_sframe (b := b) (K := K) (P := P) (X := X) (Ev := Ev) f3 t3 hk2 n2 l2 hbr hK hev i2 (by rw [m2]; exact hcls) (by rw [m2, he]; simp) (by rw [m2]; exact hs)
    exact ⟨f2.trans s1 hb, s2, f3.trace_eq.trans t2, g2.trans f3.quiet.regs⟩
  unfold applyStore
  simp only
  cases parent with
  | none => exact fin w1 ((Still.refl w1).sframe hb) hi rfl (Regs.refl _) rfl hn hlt
  | some p =>
    unfold withParent
    simp only
    obtain ⟨hPp, hpr⟩ := hP p rfl
    obtain ⟨q1, q2, q3⟩ := hpar p rfl
    have hrk : ((w1.heap r).m.type, (w1.heap r).m.uid) = k := hkey
    have hc := addChildRef_eq p r w1
    cases ha : (w1.heap p).m.addChild (w1.heap r).m.type (w1.heap r).m.uid with
    | error e =>
      rw [ha] at hc
      rw [M.bind_err hc]
      exact ⟨(Still.refl w1).sframe hb, hi, rfl, Regs.refl _⟩
    | ok m =>
      rw [ha] at hc
      rw [M.bind_ok hc]
      obtain ⟨s1, s2⟩ := kids_sframe (A := S.dst) (sid := sid) (b := b) (K := K) (P := P) (X := X) (Ev := Ev) (addChild_kidsOnly ha) hPp hi (by
        intro t u hf c hcm
        obtain ⟨k1, k2⟩ := hi.ok.key_ok _ _ _ _ hf
        rcases addChild_refs (hv.fields _ _ q2) ha c hcm with h | h
        · exact hi.edges _ _ _ hf c h
        · rw [h, hrk, ← k1, ← k2]; exact q3)
      refine fin _ s1 s2 rfl ⟨rfl, rfl, rfl, rfl, rfl⟩ ?_ hn hlt
      simp only [World.setObj, if_neg (Ne.symm hpr)]

theorem applyStore_delete_fr {k : Key} {parent : Option Ref} {r : Ref} {skip : Bool} {w1 : World V E} {Ev : Event V → Prop} {P : Ref → Prop}
    (hP : ∀ p, parent = some p → P p) (hi : SInv S.dst sid Gr SkipK w1)
    (hkey : (w1.heap r).m.key = k) (hb : b ≤ w1.next) (hK : K (some .delete) k)
    (hev : ∃ out, Ev (.call (.delete k.1 k.2) out) ∧ out.result = .object)
    (hcl : ∀ k k', X k → Gr k k' → X k') (hs : skip = true → X k ∧ findRef w1 sid k.1 k.2 = some r) :
    SFrame S.dst sid b K P X Ev w1 (applyStore S (some .delete) parent r skip w1).2 ∧
      SInv S.dst sid Gr SkipK (applyStore S (some .delete) parent r skip w1).2 ∧
      (∃ evs, (applyStore S (some .delete) parent r skip w1).2.trace = w1.trace ++ evs ∧ ChildWarn evs) ∧
      Regs w1 (applyStore S (some .delete) parent r skip w1).2 ∧
      (∀ e, (applyStore S (some .delete) parent r skip w1).1 = .error e → e.isCrud = false) := by
  have fin : ∀ w2 : World V E, SFrame S.dst sid b K P X Ev w1 w2 → SInv S.dst sid Gr SkipK w2 → w2.trace = w1.trace → Regs w1 w2 →
      (w2.heap r).m.key = k → (∀ t u, findRef w2 sid t u = findRef w1 sid t u) →
      SFrame S.dst sid b K P X Ev w1 (remove S.dst S.rlimit r skip w2).2 ∧ SInv S.dst sid Gr SkipK (remove S.dst S.rlimit r skip w2).2 ∧
      (∃ evs, (remove S.dst S.rlimit r skip w2).2.trace = w1.trace ++ evs ∧ ChildWarn evs) ∧ Regs w1 (remove S.dst S.rlimit r skip w2).2 ∧
      (∀ e, (remove S.dst S.rlimit r skip w2).1 = .error e → e.isCrud = false) := by
    intro w2 f2 i2 t2 g2 hk2 hf2
    obtain ⟨rm, re, _⟩ := remove_removed hA (fun k' => k' = k ∨ (skip = true ∧ X k')) skip S.rlimit r w2 (.inl hk2)
      (by
        intro hsk c hc
        obtain ⟨x1, x2⟩ := hs hsk
        exact .inr ⟨hsk, hcl _ _ x1 (i2.edges k.1 k.2 r (by rw [hf2]; exact x2) c hc)⟩)
      (by
        intro hsk t u r' hg hf
        obtain ⟨x1, _⟩ := hs hsk
        have hx : X (t, u) := by
          rcases hg with h | h
          · rw [h]; exact x1
          · exact h.2
        obtain ⟨k1, k2⟩ := i2.ok.key_ok _ _ _ _ hf
        refine ⟨.inr ⟨hsk, ?_⟩, fun c hc => .inr ⟨hsk, hcl _ _ hx (i2.edges _ _ _ hf c hc)⟩⟩
        show X (_, _)
        rw [k1, k2]; exact hx)
    obtain ⟨s1, s2⟩ := rm.sframe (A := S.dst) (b := b) (K := K) (P := P) (X := X) (Ev := Ev) (fun t u h => by
      rcases h with h | h
      · subst h; exact .inl ⟨hK, hev⟩
      · exact .inr h.2) i2
    obtain ⟨evs, t3, c3⟩ := rm.trace
    exact ⟨f2.trans s1 hb, s2, ⟨evs, by rw [t3, t2], c3⟩, g2.trans rm.regs, re⟩
  unfold applyStore
  simp only
  cases parent with
  | none => exact fin w1 ((Still.refl w1).sframe hb) hi rfl (Regs.refl _) hkey (fun _ _ => rfl)
  | some p =>
    unfold withParent
    simp only
    have hc := removeChildRef_eq p r w1
    cases ha : (w1.heap p).m.removeChild (w1.heap r).m.type (w1.heap r).m.uid with
    | error e =>
      rw [ha] at hc
      rw [M.bind_err hc]
      exact ⟨(Still.refl w1).sframe hb, hi, ⟨[], by simp, fun _ h => by cases h⟩, Regs.refl _, fun e' he' => by cases he'; exact removeChild_notCrud ha⟩
    | ok m =>
      rw [ha] at hc
      rw [M.bind_ok hc]
      obtain ⟨s1, s2⟩ := kids_sframe (A := S.dst) (sid := sid) (b := b) (K := K) (P := P) (X := X) (Ev := Ev) (removeChild_kidsOnly ha) (hP p rfl) hi (by
        intro t u hf c hcm
        exact hi.edges _ _ _ hf c (removeChild_refs ha c hcm))
      refine fin _ s1 s2 rfl ⟨rfl, rfl, rfl, rfl, rfl⟩ ?_ (fun _ _ => rfl)
      simp only [World.setObj]
      split
      · rename_i h; subst h; rw [(removeChild_kidsOnly ha).key_eq]; exact hkey
      · exact hkey
end

section
variable {S : SyncCtx V E} {sid : Nat} (hA : S.dst.ref.store = .local sid)
include hA

/-- Bookkeeping emits only warnings about children, and raises no CRUD exception. -/
theorem applyStore_quiet (a : Option Action) (parent : Option Ref) (r : Ref) (skip : Bool) (w : World V E) :
    Regs w (applyStore S a parent r skip w).2 ∧ (∃ evs, (applyStore S a parent r skip w).2.trace = w.trace ++ evs ∧ ChildWarn evs) ∧
      (∀ e, (applyStore S a parent r skip w).1 = .error e → e.isCrud = false) := by
  let Q : World V E → Except Err Unit × World V E → Prop := fun w p =>
    Regs w p.2 ∧ (∃ evs, p.2.trace = w.trace ++ evs ∧ ChildWarn evs) ∧ (∀ e, p.1 = .error e → e.isCrud = false)
  have q0 : ∀ (w : World V E) (w' : World V E) (x : Except Err Unit), Regs w w' → w'.trace = w.trace → (∀ e, x = .error e → e.isCrud = false) → Q w (x, w') :=
    fun w w' x h1 h2 h3 => ⟨h1, ⟨[], by simp [h2], fun _ h => by cases h⟩, h3⟩
  have hp : ∀ (f : Ref → M V E Unit) (g : M V E Unit), (∀ p w, Regs w (f p w).2 ∧ (f p w).2.trace = w.trace ∧ (∀ e, (f p w).1 = .error e → e.isCrud = false)) →
      (∀ w, Q w (g w)) → Q w ((withParent parent f >>= fun _ => g) w) := by
    intro f g hf hg
    cases parent with
    | none => exact hg w
    | some p =>
      unfold withParent
      simp only
      rw [M.bind_def]
      obtain ⟨h1, h2, h3⟩ := hf p w
      generalize f p w = q at h1 h2 h3
      obtain ⟨x, w1⟩ := q
      cases x with
      | error e => exact q0 _ _ _ h1 h2 (fun e' he' => by cases he'; exact h3 _ rfl)
      | ok _ =>
        obtain ⟨g1, ⟨evs, g2, g3⟩, g4⟩ := hg w1
        exact ⟨h1.trans g1, ⟨evs, by rw [g2]; exact congrArg (· ++ evs) h2, g3⟩, g4⟩
  show Q w (applyStore S a parent r skip w)
  unfold applyStore
  split
  · apply hp
    · intro p w
      rw [addChildRef_eq]
      split
      · exact ⟨⟨rfl, rfl, rfl, rfl, rfl⟩, rfl, fun e he => by cases he⟩
      · rename_i he; exact ⟨Regs.refl _, rfl, fun e' he' => by cases he'; exact addChild_notCrud he⟩
    · intro w
      cases hf : findRef w sid (w.heap r).m.type (w.heap r).m.uid with
      | none =>
        obtain ⟨w', h1, f, _, _⟩ := add_local_none hA r w hf
        rw [h1]; exact q0 _ _ _ f.quiet.regs f.trace_eq (fun e he => by cases he)
      | some r' =>
        obtain ⟨w', h1, f, _, _⟩ := add_local_some hA r r' w hf
        rw [h1]
        split
        · exact q0 _ _ _ f.quiet.regs f.trace_eq (fun e he => by cases he)
        · exact q0 _ _ _ f.quiet.regs f.trace_eq (fun e he => by cases he; rfl)
  · apply hp
    · intro p w
      rw [removeChildRef_eq]
      split
      · exact ⟨⟨rfl, rfl, rfl, rfl, rfl⟩, rfl, fun e he => by cases he⟩
      · rename_i he; exact ⟨Regs.refl _, rfl, fun e' he' => by cases he'; exact removeChild_notCrud he⟩
    · intro w
      obtain ⟨h1, h2, _⟩ := remove_removed hA (fun _ => True) skip S.rlimit r w trivial (fun _ _ _ => trivial) (fun _ _ _ _ _ _ => ⟨trivial, fun _ _ => trivial⟩)
      exact ⟨h1.regs, h1.trace, h2⟩
  · exact q0 _ _ _ (Regs.refl _) rfl (fun e he => by cases he)

end

section
variable {S : SyncCtx V E}

theorem DelClosed.kid {e k : Elem V} (h : DelClosed [e]) (hk : k ∈ e.kids) : DelClosed [k] := fun x hx => h x (inTree_kid hk hx)

theorem kidsRun_grows (n : Nat) {q : Option Ref} {l : List (Elem V)} {acc : Bool} {w1 w2 : World V E} {res : Except Err Bool}
    (hk : KidsRun (fun k w w' res => syncElem S n k q w = (res, w')) l acc w1 w2 res) : RefsLt w1 → Grows w1 w2 := by
  induction hk with
  | nil => exact fun _ => Grows.refl _
  | @err k _ _ w1 _ _ h1 => intro hw1; have := syncElem_grows (S := S) n k q w1 hw1; rw [h1] at this; exact this
  | @cons k l acc w1 w3 w4 bb res h1 h2 ih2 =>
    intro hw1
    have g := syncElem_grows (S := S) n k q w1 hw1
    rw [h1] at g
    exact g.trans (ih2 (g.refs hw1))

/-- The trace of the second world extends that of the first. -/
def TrExt (w w' : World V E) : Prop := ∃ evs, w'.trace = w.trace ++ evs

theorem TrExt.refl (w : World V E) : TrExt w w := ⟨[], by simp⟩
theorem TrExt.of_eq {w w' : World V E} (h : w'.trace = w.trace) : TrExt w w' := ⟨[], by simp [h]⟩
theorem TrExt.trans {a b c : World V E} (h1 : TrExt a b) (h2 : TrExt b c) : TrExt a c := by
  obtain ⟨x, hx⟩ := h1; obtain ⟨y, hy⟩ := h2
  exact ⟨x ++ y, by rw [hy, hx, List.append_assoc]⟩

/-- The events between two worlds all satisfy a condition. -/
def NewIn (Fin : Event V → Prop) (w w' : World V E) : Prop := ∀ evs, w'.trace = w.trace ++ evs → ∀ ev ∈ evs, Fin ev

theorem NewIn.left {Fin : Event V → Prop} {a b c : World V E} (h : NewIn Fin a c) (h2 : TrExt b c) : NewIn Fin a b := by
  obtain ⟨y, hy⟩ := h2
  intro evs he ev hev
  exact h (evs ++ y) (by rw [hy, he, List.append_assoc]) ev (by simp [hev])
theorem NewIn.right {Fin : Event V → Prop} {a b c : World V E} (h : NewIn Fin a c) (h1 : TrExt a b) : NewIn Fin b c := by
  obtain ⟨x, hx⟩ := h1
  intro evs he ev hev
  exact h (x ++ evs) (by rw [he, hx, List.append_assoc]) ev (by simp [hev])

theorem kidsRun_ext (n : Nat) (hn : ∀ (e : Elem V) (p : Option Ref) (w w' : World V E) res, RefsLt w → syncElem S n e p w = (res, w') → TrExt w w')
    {q : Option Ref} {l : List (Elem V)} {acc : Bool} {w1 w2 : World V E} {res : Except Err Bool}
    (hk : KidsRun (fun k w w' res => syncElem S n k q w = (res, w')) l acc w1 w2 res) : RefsLt w1 → TrExt w1 w2 := by
  induction hk with
  | nil => exact fun _ => .refl _
  | err h1 => exact fun hw => hn _ _ _ _ _ hw h1
  | @cons k l acc w1 w3 w4 bb res h1 h2 ih2 =>
    intro hw
    have g := syncElem_grows (S := S) n k q w1 hw
    rw [h1] at g
    exact (hn _ _ _ _ _ hw h1).trans (ih2 (g.refs hw))

theorem body_ext' (n : Nat) (ih : ∀ (e : Elem V) (p : Option Ref) (w w' : World V E) res, RefsLt w → syncElem S n e p w = (res, w') → TrExt w w')
    {e : Elem V} {p : Option Ref} {c dst nat sk} {w1 w' : World V E} {res : Except Err Bool}
    (hb : Body S (fun q k w w' res => syncElem S n k q w = (res, w')) e c p dst nat sk w1 w' res)
    (hw1 : RefsLt w1) (hd1 : ∀ r, dst = some r → r < w1.next) : TrExt w1 w' := by
  have store : ∀ {w2 w3 : World V E} {evs a r sk y}, r < w2.next → w2.trace = w1.trace ++ evs → applyStore S a p r sk w2 = (y, w3) → TrExt w1 w3 := by
    intro w2 w3 evs a r sk y hr t1 hap
    obtain ⟨ws, q2, _⟩ := (applyStore_calm (S := S) a p r sk w2 hr).trace
    rw [hap] at q2
    exact ⟨evs ++ ws, by rw [q2, t1, List.append_assoc]⟩
  cases hb with
  | raised _ _ ht => exact ⟨_, ht⟩
  | @noObject evs w2 _ _ _ ht hw' => subst hw'; exact ⟨evs ++ [.noObject w2.slog], by simp [ht]⟩
  | storeFail o1 _ ht hap => exact store (o1.ref_lt hd1) ht hap
  | shortcut o1 _ ht hap _ _ => exact store (o1.ref_lt hd1) ht hap
  | @leaf _ _ w3 _ _ o1 _ ht hap _ _ _ hw' => subst hw'; exact (store (o1.ref_lt hd1) ht hap).trans ⟨[.syncProgress (w3.sproc + 1) w3.stotal], rfl⟩
  | @kids _ w2 w3 _ r _ o1 _ ht hap _ hk =>
    have h4 := (applyStore_grows (S := S) w1.sact p r sk w2 (o1.ref_lt hd1))
    rw [hap] at h4
    exact ((store (o1.ref_lt hd1) ht hap).trans ⟨[.syncProgress (w3.sproc + 1) w3.stotal], rfl⟩).trans
      (kidsRun_ext n ih hk ((tick_still w3).grows.refs (h4.refs (o1.grows.refs hw1))))

/-- A sync of an element only adds events. -/
theorem syncElem_ext (n : Nat) : ∀ (e : Elem V) (p : Option Ref) (w w' : World V E) res, RefsLt w → syncElem S n e p w = (res, w') → TrExt w w' := by
  induction n with
  | zero => intro e p w w' res _ h; cases h; exact .refl _
  | succ n ih =>
    intro e p w w' res hw h
    have hs := syncElem_gstep (S := S) n e p w hw
    rw [h] at hs
    dsimp only at hs
    have hdl : ∀ {c u dst w1}, GEntered S e c u dst w w1 → ∀ r, dst = some r → r < w1.next := fun ent => ent.lt
    cases hs with
    | noClass _ hw' => subst hw'; exact .refl _
    | noKey _ _ hw' => subst hw'; exact .refl _
    | natFail ent _ _ _ hk => exact (TrExt.of_eq ent.trace).trans (kidsRun_ext n ih hk (ent.still.grows.refs hw))
    | natural ent _ _ _ hk hb =>
      have hw1 := ent.still.grows.refs hw
      have g := kidsRun_grows n hk hw1
      exact ((TrExt.of_eq ent.trace).trans (kidsRun_ext n ih hk hw1)).trans
        (body_ext' n ih hb (g.refs hw1) (fun r hr => Nat.lt_of_lt_of_le (hdl ent r hr) g.next_le))
    | plain ent _ hb => exact (TrExt.of_eq ent.trace).trans (body_ext' n ih hb (ent.still.grows.refs hw) (hdl ent))

theorem body_ext (n : Nat) {e : Elem V} {p : Option Ref} {c dst nat sk} {w1 w' : World V E} {res : Except Err Bool}
    (hb : Body S (fun q k w w' res => syncElem S n k q w = (res, w')) e c p dst nat sk w1 w' res)
    (hw1 : RefsLt w1) (hd1 : ∀ r, dst = some r → r < w1.next) : TrExt w1 w' := body_ext' n (syncElem_ext n) hb hw1 hd1

/-- In a run whose events satisfy a condition, so do those of each part. -/
theorem kidsRun_fin {Fin : Event V → Prop} (n : Nat) {q : Option Ref} {l : List (Elem V)} {acc : Bool} {w1 w2 : World V E} {res : Except Err Bool}
    (hk : KidsRun (fun k w w' res => syncElem S n k q w = (res, w')) l acc w1 w2 res) : RefsLt w1 → NewIn Fin w1 w2 →
    KidsRun (fun k w w' res => syncElem S n k q w = (res, w') ∧ NewIn Fin w w') l acc w1 w2 res := by
  induction hk with
  | nil => exact fun _ _ => .nil
  | err h1 => exact fun hw hf => .err ⟨h1, hf⟩
  | @cons k l acc w1 w3 w4 bb res h1 h2 ih2 =>
    intro hw hf
    have g := syncElem_grows (S := S) n k q w1 hw
    rw [h1] at g
    exact .cons ⟨h1, hf.left (kidsRun_ext n (syncElem_ext n) h2 (g.refs hw))⟩ (ih2 (g.refs hw) (hf.right (syncElem_ext n _ _ _ _ _ hw h1)))

/-- After the elements below a deleted one, `self.action` is still "delete". -/
theorem sact_delete (n : Nat) : ∀ (e : Elem V) (p : Option Ref) (w w' : World V E) (x : Bool), RefsLt w → DelClosed [e] → e.action = some .delete →
    syncElem S n e p w = (.ok x, w') → w'.sact = some .delete := by
  induction n with
  | zero => intro e p w w' x _ _ _ h; cases h
  | succ n ih =>
    intro e p w w' x hw hd ha h
    have hs := syncElem_gstep (S := S) n e p w hw
    rw [h] at hs
    have kids : ∀ {q acc w1 w2 y}, KidsRun (fun k w w' res => syncElem S n k q w = (res, w')) (getChildren S.dc e.kids) acc w1 w2 (.ok y) →
        RefsLt w1 → w1.sact = some .delete → RefsLt w2 ∧ w2.sact = some .delete := by
      intro q acc w1 w2 y hk
      have hmem : ∀ k ∈ getChildren S.dc e.kids, k ∈ e.kids := fun k hk => mem_of_getChildren hk
      generalize getChildren S.dc e.kids = l at hk hmem
      generalize hres : (Except.ok y : Except Err Bool) = res at hk
      induction hk with
      | nil => exact fun h1 h2 => ⟨h1, h2⟩
      | err _ => cases hres
      | @cons k l acc w1 w3 w4 bb res h1 h2 ih2 =>
        intro hw1 hs1
        have hkk := hmem k (by simp)
        have hw3 : RefsLt w3 := by have := (syncElem_grows (S := S) n k q w1 hw1).refs hw1; rw [h1] at this; exact this
        exact ih2 (fun k' hk' => hmem k' (by simp [hk'])) hres hw3 (ih k q w1 w3 bb hw1 (hd.kid hkk) (hd e (inTree_self e) ha k (.here hkk)) h1)
    have body : ∀ {c dst nat sk w1}, RefsLt w1 → w1.sact = some .delete → (∀ r, dst = some r → r < w1.next) →
        Body S (fun q k w w' res => syncElem S n k q w = (res, w')) e c p dst nat sk w1 w' (.ok x) → w'.sact = some .delete := by
      intro c dst nat sk w1 hw1 hs1 hd1 hb
      cases hb with
      | noObject _ r1 _ hw' => subst hw'; exact r1.sact_eq.trans hs1
      | @shortcut _ w2 _ r o1 r1 _ h2 =>
        have := (applyStore_calm (S := S) w1.sact p r sk w2 (o1.ref_lt hd1)).regs
        rw [h2] at this
        exact (r1.trans this).sact_eq.trans hs1
      | @leaf _ w2 w3 _ r o1 r1 _ h2 _ _ _ hw' =>
        subst hw'
        have := (applyStore_calm (S := S) w1.sact p r sk w2 (o1.ref_lt hd1)).regs
        rw [h2] at this
        exact (r1.trans this).sact_eq.trans hs1
      | @kids _ w2 w3 _ r _ o1 r1 _ h2 _ hk =>
        have h3 := (applyStore_calm (S := S) w1.sact p r sk w2 (o1.ref_lt hd1)).regs
        have h4 := (applyStore_grows (S := S) w1.sact p r sk w2 (o1.ref_lt hd1))
        rw [h2] at h3 h4
        exact (kids hk ((tick_still w3).grows.refs (h4.refs (o1.grows.refs hw1))) ((r1.trans h3).sact_eq.trans hs1)).2
    cases hs with
    | natural ent _ _ _ hk hb =>
      have hw1 := ent.still.grows.refs hw
      have h1 := kids hk hw1 (ent.sact.trans ha)
      refine body h1.1 h1.2 ?_ hb
      intro r hr
      exact Nat.lt_of_lt_of_le (ent.lt r hr) (kidsRun_grows n hk hw1).next_le
    | plain ent _ hb =>
      exact body (ent.still.grows.refs hw) (ent.sact.trans ha) ent.lt hb

/-- The logger binding and `self.action` belong to the same element. -/
theorem slog_sact (n : Nat) : ∀ (e : Elem V) (p : Option Ref) (w w' : World V E) (x : Bool), RefsLt w → syncElem S n e p w = (.ok x, w') → w'.slog.action = w'.sact := by
  induction n with
  | zero => intro e p w w' x _ h; cases h
  | succ n ih =>
    intro e p w w' x hw h
    have hs := syncElem_gstep (S := S) n e p w hw
    rw [h] at hs
    have kids : ∀ {q acc w1 w2 y}, KidsRun (fun k w w' res => syncElem S n k q w = (res, w')) (getChildren S.dc e.kids) acc w1 w2 (.ok y) →
        RefsLt w1 → w1.slog.action = w1.sact → RefsLt w2 ∧ w2.slog.action = w2.sact := by
      intro q acc w1 w2 y hk
      generalize getChildren S.dc e.kids = l at hk
      generalize hres : (Except.ok y : Except Err Bool) = res at hk
      induction hk with
      | nil => exact fun h1 h2 => ⟨h1, h2⟩
      | err _ => cases hres
      | @cons k l acc w1 w3 w4 bb res h1 h2 ih2 =>
        intro hw1 hs1
        have hw3 : RefsLt w3 := by have := (syncElem_grows (S := S) n k q w1 hw1).refs hw1; rw [h1] at this; exact this
        exact ih2 hres hw3 (ih k q w1 w3 bb hw1 h1)
    have move : ∀ {w1 w2 : World V E}, Regs w1 w2 → w1.slog.action = w1.sact → w2.slog.action = w2.sact := fun r h => by rw [r.slog_eq, r.sact_eq, h]
    have body : ∀ {c dst nat sk w1}, RefsLt w1 → w1.slog.action = w1.sact → (∀ r, dst = some r → r < w1.next) →
        Body S (fun q k w w' res => syncElem S n k q w = (res, w')) e c p dst nat sk w1 w' (.ok x) → w'.slog.action = w'.sact := by
      intro c dst nat sk w1 hw1 hs1 hd1 hb
      cases hb with
      | noObject _ r1 _ hw' => subst hw'; have := move r1 hs1; exact this
      | @shortcut _ w2 _ r o1 r1 _ h2 =>
        have := (applyStore_calm (S := S) w1.sact p r sk w2 (o1.ref_lt hd1)).regs
        rw [h2] at this
        exact move (r1.trans this) hs1
      | @leaf _ w2 w3 _ r o1 r1 _ h2 _ _ _ hw' =>
        subst hw'
        have := (applyStore_calm (S := S) w1.sact p r sk w2 (o1.ref_lt hd1)).regs
        rw [h2] at this
        have := move (w2 := w3) (r1.trans this) hs1
        exact this
      | @kids _ w2 w3 _ r _ o1 r1 _ h2 _ hk =>
        have h3 := (applyStore_calm (S := S) w1.sact p r sk w2 (o1.ref_lt hd1)).regs
        have h4 := (applyStore_grows (S := S) w1.sact p r sk w2 (o1.ref_lt hd1))
        rw [h2] at h3 h4
        exact (kids hk ((tick_still w3).grows.refs (h4.refs (o1.grows.refs hw1))) (show w3.tick.slog.action = w3.tick.sact from move (w2 := w3) (r1.trans h3) hs1)).2
    cases hs with
    | natural ent _ _ _ hk hb =>
      have hw1 := ent.still.grows.refs hw
      have h1 := kids hk hw1 (by rw [ent.slog, ent.sact])
      refine body h1.1 h1.2 ?_ hb
      intro r hr
      exact Nat.lt_of_lt_of_le (ent.lt r hr) (kidsRun_grows n hk hw1).next_le
    | plain ent _ hb =>
      exact body (ent.still.grows.refs hw) (by rw [ent.slog, ent.sact]) ent.lt hb

theorem kidsRun_slog_sact (n : Nat) {q : Option Ref} {l : List (Elem V)} {acc y : Bool} {w1 w2 : World V E}
    (hk : KidsRun (fun k w w' res => syncElem S n k q w = (res, w')) l acc w1 w2 (.ok y)) (hw1 : RefsLt w1) (hs : w1.slog.action = w1.sact) : w2.slog.action = w2.sact := by
  generalize hres : (Except.ok y : Except Err Bool) = res at hk
  induction hk with
  | nil => exact hs
  | err _ => cases hres
  | @cons k l acc w1 w3 w4 bb res h1 h2 ih2 =>
    have hw3 : RefsLt w3 := by have := (syncElem_grows (S := S) n k q w1 hw1).refs hw1; rw [h1] at this; exact this
    exact ih2 hw3 (slog_sact n k q w1 w3 bb hw1 h1) hres

end

section
variable {S : SyncCtx V E} {sid : Nat} (hA : S.dst.ref.store = .local sid)
include hA

variable {b : Ref} {X : Key → Prop} {Gr : Key → Key → Prop} {SkipK : Key → Prop} {Fin : Event V → Prop}

omit hA in
theorem Own.fate {S : SyncCtx V E} {c : ModelClass V} {ids attrs : Dict V} {w w' : World V E} {a : Option Action} {dst : Option Ref}
    {evs : List (Event V)} {ch : Bool} {r : Ref} (h : Own S c ids attrs w w' a dst evs (.ok (ch, some r))) :
    (a = none ∧ dst = some r ∧ Still w w') ∨ (a = some .update ∧ dst = some r) ∨
    (a = some .create ∧ dst = none ∧ ∃ out m, Event.call (.create c.name ids attrs) out ∈ evs ∧ out.result = .object ∧ c.construct ids attrs = .ok m ∧ Still w w' ∧
      w.next ≤ r ∧ r < w'.next ∧ (w'.heap r).m = m) ∨
    (a = some .delete ∧ dst = some r ∧ Still w w' ∧ ∃ out, Event.call (.delete (w.heap r).m.type (w.heap r).m.uid) out ∈ evs ∧ out.result = .object) := by
  generalize hres : (Except.ok (ch, some r) : Except Err (Bool × Option Ref)) = res at h
  cases h with
  | idle h _ => cases hres; exact .inl ⟨rfl, rfl, h⟩
  | stale _ _ _ => split at hres <;> cases hres
  | crud _ _ _ _ _ => split at hres <;> cases hres
  | fatal _ _ _ _ _ => cases hres
  | failed _ _ _ _ => cases hres
  | created _ h2 h3 h4 h5 h6 h7 _ => cases hres; exact .inr (.inr (.inl ⟨rfl, rfl, _, _, by simp, h2, h3, h4, h5, h6, h7⟩))
  | @kept a r' call out st h1 _ h3 _ h5 _ =>
    cases hres
    cases a with
    | create => cases h1
    | update => exact .inr (.inl ⟨rfl, rfl⟩)
    | delete => cases h1; exact .inr (.inr (.inr ⟨rfl, rfl, h5, out, by simp, h3⟩))

section
variable {K : Option Action → Key → Prop} {e : Elem V} {parent dst : Option Ref} {c : ModelClass V} {u : String} {sk nat : Bool} {w1 : World V E}

/-- What is known of an element when its action is about to be performed: `dst` is the object stored under its key, or (after
its children have been deleted) the one that was. -/
structure AtBody (S : SyncCtx V E) (sid : Nat) (Gr : Key → Key → Prop) (SkipK X : Key → Prop) (Fin : Event V → Prop) (b : Ref) (e : Elem V) (parent dst : Option Ref) (c : ModelClass V)
    (u : String) (sk nat : Bool) (w1 : World V E) : Prop where
  env : FrameEnv S.dst Gr SkipK X Fin [e]
  cls : Dict.get? S.dst.classes e.type = some c
  uid : c.createUniqueId e.keys = some u
  inv : SInv S.dst sid Gr SkipK w1
  le : b ≤ w1.next
  par : ParOK S.dst Gr parent (e.type, u) w1
  act : w1.sact = e.action
  found : ∀ r, dst = some r → r < w1.next ∧ (w1.heap r).m.key = (e.type, u) ∧ (w1.heap r).m.cls = c
  mode : (dst = findRef w1 sid e.type u ∧ w1.scls = some c ∧ (sk = true → e.action = some .delete → SkipK (e.type, u))) ∨
    (e.action = some .delete ∧ sk = false ∧ nat = true)

theorem AtBody.own (at1 : AtBody S sid Gr SkipK X Fin b e parent dst c u sk nat w1) (hK : K e.action (e.type, u))
    {w2 : World V E} {evs : List (Event V)} {res' : Except Err (Bool × Option Ref)} (o : Own S (w1.scls.getD c) e.keys (e.plus.getD []) w1 w2 w1.sact dst evs res')
    (ht : w2.trace = w1.trace ++ evs) : Fr S.dst sid b K (fun p => parent = some p) X Gr SkipK w1 w2 := by
  obtain ⟨env, hc, hu, hi1, hb1, hpar1, hact, hdst, hmode⟩ := at1
  refine o.fr ht hb1 hi1 (by rw [hact]; exact hK) ?_ (fun ha => ⟨c, hc, fun x hx hid => (env.valid.valid _ _ hc).ids_attrs x hid (env.plain e (inTree_self e) (hact.symm.trans ha) c hc x hx)⟩)
  intro hnd
  rcases hmode with ⟨h, _⟩ | ⟨h, _⟩
  · exact h
  · rw [hact] at hnd; exact absurd h hnd

theorem AtBody.store (at1 : AtBody S sid Gr SkipK X Fin b e parent dst c u sk nat w1) (hK : K e.action (e.type, u))
    {w2 : World V E} {evs : List (Event V)} {ch : Bool} {r : Ref} (o : Own S (w1.scls.getD c) e.keys (e.plus.getD []) w1 w2 w1.sact dst evs (.ok (ch, some r)))
    (ht : w2.trace = w1.trace ++ evs) (hfin : ∀ ev ∈ evs, Fin ev) :
    Fr S.dst sid b K (fun p => parent = some p) X Gr SkipK w1 (applyStore S w1.sact parent r sk w2).2 ∧
    r < (applyStore S w1.sact parent r sk w2).2.next ∧ ((applyStore S w1.sact parent r sk w2).2.heap r).m.key = (e.type, u) ∧
    ((applyStore S w1.sact parent r sk w2).2.heap r).m.cls = c ∧ ((dst = some r ∧ e.action ≠ some .create) ∨ b ≤ r) := by
  have fo := at1.own hA hK o ht
  obtain ⟨env, hc, hu, hi1, hb1, hpar1, hact, hdst, hmode⟩ := at1
  have hname : c.name = e.type := env.valid.names _ _ hc
  have hek : ElemKey S.dst e (e.type, u) := ⟨c, u, hc, hu, rfl⟩
  have old : dst = some r → e.action ≠ some .create → ∀ w3, Fr S.dst sid b (K) (fun p => parent = some p) X Gr SkipK w1 w3 →
      r < w3.next ∧ (w3.heap r).m.key = (e.type, u) ∧ (w3.heap r).m.cls = c ∧ ((dst = some r ∧ e.action ≠ some .create) ∨ b ≤ r) := by
    intro hd hna w3 f
    obtain ⟨d1, d2, d3⟩ := hdst r hd
    obtain ⟨_, _, f', _⟩ := f
    obtain ⟨i1, _, i3⟩ := f'.ident r d1
    exact ⟨Nat.lt_of_lt_of_le d1 f'.next_le, i3.trans d2, i1.trans d3, .inl ⟨hd, hna⟩⟩
  rcases o.fate with ⟨ha, hd, _⟩ | ⟨ha, hd⟩ | ⟨ha, hd, out, m, hev, hob, hm, hst, hn1, hn2, hhm⟩ | ⟨ha, hd, hst, out, hev, hob⟩
  · have : applyStore S w1.sact parent r sk w2 = (.ok (), w2) := by rw [ha]; rfl
    rw [this]
    exact ⟨fo, old hd (by rw [← hact, ha]; simp) w2 fo⟩
  · have : applyStore S w1.sact parent r sk w2 = (.ok (), w2) := by rw [ha]; rfl
    rw [this]
    exact ⟨fo, old hd (by rw [← hact, ha]; simp) w2 fo⟩
  · rcases hmode with ⟨hdf, hscls, _⟩ | ⟨hdel, _⟩
    · rw [hscls, Option.getD_some] at hm hev
      rw [ha]
      obtain ⟨m1, m2, m3⟩ := construct_spec hm
      have hkey : (w2.heap r).m.key = (e.type, u) := by
        rw [hhm]; unfold Model.key Model.type
        rw [m1, hname, construct_uid (env.valid.valid _ _ hc) hm (env.ids e (inTree_self e) (hact.symm.trans ha) c hc) hu]
      have hbr : b ≤ r := Nat.le_trans hb1 hn1
      have hn : findRef w2 sid e.type u = none := by rw [hst.tbl_eq.findRef, ← hdf, hd]
      obtain ⟨s1, s2, s3, s4⟩ := applyStore_create_fr hA (b := b) (K := K) (X := X) (Gr := Gr) (SkipK := SkipK) (k := (e.type, u))
        (parent := parent) (r := r) (skip := sk) (w1 := w2) (Ev := (· ∈ evs)) (P := fun p => parent = some p)
        (fun p hp => ⟨hp, fun h => absurd (hpar1 p hp).1 (by rw [h]; exact Nat.not_lt.2 hn1)⟩) env.valid fo.sinv (fo.par hpar1) hkey hn hn2 hbr
        (Nat.le_trans hb1 fo.next_le) (by rw [← ha, hact]; exact hK) ⟨_, _, out, by rw [← hname]; exact hev, hob, c, u, hc, hu, rfl⟩
        (fun c' hc' => by rw [hhm, m1]; exact Option.some.inj (hc.symm.trans hc')) (by rw [hhm]; exact m3)
        (fun hf => env.dflt _ _ c hc (by rw [← m2, ← hhm]; exact hf))
      obtain ⟨i1, _, i3⟩ := s1.ident r hn2
      refine ⟨?_, Nat.lt_of_lt_of_le hn2 s1.next_le, i3.trans hkey, by rw [i1, hhm, m1], .inr hbr⟩
      obtain ⟨evs', t', f', i'⟩ := fo
      have he : evs' = evs := List.append_cancel_left (t'.symm.trans ht)
      subst he
      exact ⟨evs', by rw [s3, ht], f'.trans s1 hb1, s2⟩
    · rw [ha] at hact; rw [hdel] at hact; cases hact
  · rw [ha] at hact
    rw [ha]
    obtain ⟨d1, d2, d3⟩ := hdst r hd
    have k1 : (w1.heap r).m.type = e.type := congrArg Prod.fst d2
    have k2 : (w1.heap r).m.uid = u := congrArg Prod.snd d2
    rw [k1, k2] at hev
    have hkey : (w2.heap r).m.key = (e.type, u) := by rw [hst.heap_m r d1]; exact d2
    obtain ⟨s1, s2, ⟨evs2, s3, s3'⟩, s4, s5⟩ := applyStore_delete_fr hA (b := b) (K := K) (X := X) (Gr := Gr) (SkipK := SkipK) (k := (e.type, u))
        (parent := parent) (r := r) (skip := sk) (w1 := w2) (Ev := (· ∈ evs)) (P := fun p => parent = some p)
        (fun p hp => hp) fo.sinv hkey (Nat.le_trans hb1 fo.next_le) (by rw [hact]; exact hK) ⟨out, hev, hob⟩ env.closed
        (fun hsk => by
          rcases hmode with ⟨hdf, _, hsk'⟩ | ⟨_, h, _⟩
          · exact ⟨env.root e (inTree_self e) hact.symm _ hek (hsk' hsk hact.symm) ⟨out, hfin _ hev, hob⟩, by rw [hst.tbl_eq.findRef]; exact hdf.symm.trans hd⟩
          · rw [h] at hsk; cases hsk)
    have fall : Fr S.dst sid b (K) (fun p => parent = some p) X Gr SkipK w1 (applyStore S (some .delete) parent r sk w2).2 := by
      obtain ⟨evs', t', f', i'⟩ := fo
      have he : evs' = evs := List.append_cancel_left (t'.symm.trans ht)
      subst he
      refine ⟨evs' ++ evs2, by rw [s3, ht, List.append_assoc], ?_, s2⟩
      exact (f'.trans s1 hb1).mono (fun _ _ h => h) (fun _ h => h) (fun ev h => List.mem_append_left _ h)
    exact ⟨fall, old hd (by rw [← hact]; simp) _ fall⟩

/-- The parent passed on to the children. -/
theorem AtBody.par_kids (at1 : AtBody S sid Gr SkipK X Fin b e parent dst c u sk nat w1) {w3 : World V E} {r : Ref} (hr : r < w3.next)
    (hrk : (w3.heap r).m.key = (e.type, u)) (hrc : (w3.heap r).m.cls = c) :
    ∀ k ∈ e.kids, ∀ x, ElemKey S.dst k x → ParOK S.dst Gr (some r) x w3 := by
  intro k hkm x hx p hp
  cases hp
  have hty : (w3.heap r).m.type = e.type := congrArg Prod.fst hrk
  refine ⟨hr, by rw [hty, hrc]; exact at1.cls, ?_⟩
  rw [hrk]; exact at1.env.edge e (inTree_self e) k hkm _ _ ⟨c, u, at1.cls, at1.uid, rfl⟩ hx
end

end

end DS
