import Verif.Props.SyncDel
/-! # Arguments of calls (C25), supplied diffs (C35), protected objects (C52), types at the top (C20) -/
set_option linter.unusedSectionVars false

namespace DS
variable {V E : Type} [PyVal V]

theorem traverse_some {α β : Type} {f : α → Option β} {l : List α} {r : List β} (h : traverse f l = some r) : ∀ x ∈ l, ∃ y, f x = some y := by
  induction l generalizing r with
  | nil => intro x hx; cases hx
  | cons a l ih =>
    unfold traverse at h
    intro x hx
    cases ha : f a with
    | none => rw [ha] at h; cases h
    | some y =>
      rw [ha] at h
      rcases List.mem_cons.1 hx with rfl | hx
      · exact ⟨y, ha⟩
      · cases hl : traverse f l with
        | none => rw [hl] at h; cases h
        | some ys => exact ih hl x hx

/-- A unique id computed from the identifiers of an object is that of the object. -/
theorem createUniqueId_uid {c : ModelClass V} {m : Model V} (hi : c.identifiers = m.cls.identifiers) {u : String} (h : c.createUniqueId m.identifiers = some u) :
    u = m.uid := by
  have h' : m.cls.createUniqueId m.identifiers = some u := by
    rw [← h]; unfold ModelClass.createUniqueId; rw [hi]
  have : m.cls.createUniqueId m.identifiers = some m.uid := by
    apply Model.createUniqueId_of_agree
    intro k hk
    unfold ModelClass.createUniqueId at h'
    obtain ⟨vs, h1, _⟩ := Option.map_eq_some_iff.1 h'
    obtain ⟨v, hv⟩ := traverse_some h1 k hk
    have := Model.get?_identifiers m k
    rw [if_pos hk] at this
    exact ⟨this, v, by rw [← this]; exact hv⟩
  rw [h'] at this; exact Option.some.inj this

section
variable {n rl : Nat} {hooks : Hooks V E} {dst src : Adapter V} {dc : DiffClass V} {flags : Nat} {sid : Nat}
  {w w' : World V E} {d : Diff V} {res : Except Err (Diff V)}

/-- The place that an element of a computed diff is about. -/
theorem computed_place (h : Comparable src dst w) {w1 : World V E} (hd : diffFrom n dst src dc flags w = (.ok d, w1)) {e : Elem V} (he : InTree e d.kids) :
    ∃ q, Compared src dst flags (snap src w) (snap dst w) q ∧ q.Visible flags ∧ DescribesG src dst flags (snap src w) (snap dst w) e q :=
  (diffFrom_describes h.ok h.src_ok h.dst_ok h.fields h.src_types h.dst_types h.top_nodup hd).1.inTree he

theorem DescribesG.key {flags : Nat} {e : Elem V} {p : Pos V} (hr : DstReady dst w) (h : Comparable src dst w)
    (hg : DescribesG src dst flags (snap src w) (snap dst w) e p) (hs : SameIds dst (snap src w) ∨ p.src = none) {k : Key} (hk : ElemKey dst e k) : k = (p.type, p.uid) := by
  obtain ⟨c, u, h1, h2, rfl⟩ := hk
  have hh := hg.header
  rw [hh.type_eq] at h1 ⊢
  have fin : ∀ m, p.src.or p.dst = some m → m.uid = p.uid → c.identifiers = m.cls.identifiers → (p.type, u) = (p.type, p.uid) := by
    intro m hm hu hi
    rw [(hh.name_eq m hm).2] at h2
    rw [createUniqueId_uid hi h2, hu]
  cases hsrc : p.src with
  | some m =>
    have hf := hg.good.stored.src m hsrc
    rcases hs with hs | hs
    · exact fin m (by rw [hsrc]; rfl) (h.src_ok.key_ok _ _ _ hf).2 (hs _ _ _ _ hf h1)
    · rw [hsrc] at hs; cases hs
  | none =>
    cases hdst : p.dst with
    | none => rcases hg.good.some_side with h | h <;> contradiction
    | some m =>
      have hf := hg.good.stored.dst m hdst
      refine fin m (by rw [hsrc, hdst]; rfl) (h.dst_ok.key_ok _ _ _ hf).2 ?_
      rw [hr.inst _ _ _ c hf h1]

theorem Compared.stored {flags : Nat} {S D : Snap V} {p : Pos V} (h : Compared src dst flags S D p) : Stored S D p := by
  cases h with
  | top ht => exact ⟨fun m hm => by rw [← ht.src_eq, hm], fun m hm => by rw [← ht.dst_eq, hm]⟩
  | child _ _ hc =>
    constructor
    · intro m hm
      rw [hc.src_eq] at hm
      split at hm
      · exact hm
      · cases hm
    · intro m hm
      rw [hc.dst_eq] at hm
      split at hm
      · exact hm
      · cases hm

/-- The element and place behind a call. -/
theorem computed_call (h : Comparable src dst w) (hr : DstReady dst w) (hk0 : KeepsIdsOf dst (snap src w))
    (hs : syncFrom n rl hooks dst src dc flags none w = (res, w'))
    {c : CrudCall V} {out : Outcome} (hc : Event.call c out ∈ newEvents w w') :
    ∃ d w1 e q, diffFrom n dst src dc flags w = (.ok d, w1) ∧ InTree e d.kids ∧ Prescribes dst e c ∧ Compared src dst flags (snap src w) (snap dst w) q ∧
      q.Visible flags ∧ DescribesG src dst flags (snap src w) (snap dst w) e q := by
  rcases sync_master hr (applicable_computed h hr hk0) hs with ⟨x, _, _, _, ⟨evs, htr, ho⟩, _⟩ | ⟨d, evs0, evs, p, y, hu, hran⟩
  · rw [newEvents_eq htr] at hc
    obtain ⟨a, b, h⟩ := ho _ hc
    cases h
  · rcases hu with ⟨h1, _⟩ | ⟨_, h2⟩
    · cases h1
    · cases hd : diffFrom n dst src dc flags w with
      | mk r w1 =>
        rw [hd] at h2; dsimp only at h2; subst h2
        obtain ⟨e, he, hp, _⟩ := hran.tr.mem_call _ _ (hran.mem_call.1 hc)
        obtain ⟨q, q1, q2, q3⟩ := computed_place h hd (hran.inTree he)
        exact ⟨d, w1, e, q, rfl, hran.inTree he, hp, q1, q2, q3⟩

/-- The values of an element of both sides that differ. -/
theorem plus_iff {e : Elem V} {s m : Dict V} (hse : e.src = some s) (hde : e.dst = some m) (k : String) (v : V) :
    Dict.get? (e.plus.getD []) k = some v ↔ Dict.get? s k = some v ∧ ∃ v', Dict.get? m k = some v' ∧ PyVal.eq v v' = false := by
  have hpl : e.plus = some (Elem.pick s (e.attrsKeys.filter (Elem.differs s m))) := by unfold Elem.plus; rw [hse, hde]
  rw [hpl, Option.getD_some, get?_pick]
  have hak : ∀ x, x ∈ e.attrsKeys ↔ x ∈ Dict.keys s ∧ x ∈ Dict.keys m := by
    intro x
    unfold Elem.attrsKeys
    rw [hse, hde]
    rw [mem_intersection]
    exact and_comm
  constructor
  · intro hv
    split at hv
    · rename_i hmem
      have hdf := (List.mem_filter.1 hmem).2
      unfold Elem.differs at hdf
      rw [hv] at hdf
      cases hg' : Dict.get? m k with
      | none => rw [hg'] at hdf; cases hdf
      | some v' => rw [hg'] at hdf; exact ⟨hv, v', rfl, by simpa using hdf⟩
    · cases hv
  · rintro ⟨hv, v', hv', hne⟩
    rw [if_pos]
    · exact hv
    · refine List.mem_filter.2 ⟨(hak k).2 ⟨Dict.mem_keys_iff.2 ⟨v, hv⟩, Dict.mem_keys_iff.2 ⟨v', hv'⟩⟩, ?_⟩
      unfold Elem.differs
      rw [hv, hv']; simp [hne]

/-! ## C25 -/

/-- **C25** A create call gets the identifiers and attributes of an object that the source stores. -/
theorem C25_create_arguments (h : Comparable src dst w) (hr : DstReady dst w) (hk0 : KeepsIdsOf dst (snap src w))
    (hs : syncFrom n rl hooks dst src dc flags none w = (res, w'))
    {t : String} {ids attrs : Dict V} {out : Outcome} (hc : Event.call (.create t ids attrs) out ∈ newEvents w w') :
    ∃ u m, (snap src w).find t u = some m ∧ ids = m.identifiers ∧ ∀ k, Dict.get? attrs k = Dict.get? m.attrs k := by
  obtain ⟨d, w1, e, q, _, _, ⟨u, hk, hp⟩, _, _, hg⟩ := computed_call h hr hk0 hs hc
  have hh := hg.header
  split at hp
  · cases hp
  · rename_i ha
    cases hp
    obtain ⟨h1, h2⟩ := (action_create_iff e).1 ha
    rw [hh.src_eq] at h1
    cases hm : q.src with
    | none => rw [hm] at h1; exact absurd rfl h1
    | some m =>
      refine ⟨q.uid, m, by rw [hh.type_eq]; exact hg.good.stored.src m hm, (hh.name_eq m (by rw [hm]; rfl)).2, fun k => ?_⟩
      have hse : e.src = some m.attrs := by rw [hh.src_eq, hm]; rfl
      have hpl : e.plus = some (Elem.pick m.attrs e.attrsKeys) := by unfold Elem.plus; rw [hse, h2]
      rw [hpl, Option.getD_some, get?_pick]
      split
      · rfl
      · rename_i hnk
        unfold Elem.attrsKeys at hnk
        rw [hse, h2] at hnk
        exact (Dict.get?_eq_none_iff.2 hnk).symm
  · cases hp
  · cases hp

/-- **C25** An update call is made on an object that both sides store, and gets exactly the attributes that both have and that differ, with the source's
values. -/
theorem C25_update_arguments (h : Comparable src dst w) (hr : DstReady dst w) (hk0 : KeepsIdsOf dst (snap src w))
    (hi : SameIds dst (snap src w))
    (hs : syncFrom n rl hooks dst src dc flags none w = (res, w')) {t u : String} {attrs : Dict V} {out : Outcome}
    (hc : Event.call (.update t u attrs) out ∈ newEvents w w') :
    ∃ s m, (snap src w).find t u = some s ∧ (snap dst w).find t u = some m ∧
      ∀ k v, Dict.get? attrs k = some v ↔ Dict.get? s.attrs k = some v ∧ ∃ v', Dict.get? m.attrs k = some v' ∧ PyVal.eq v v' = false := by
  obtain ⟨d, w1, e, q, _, _, ⟨u', hk, hp⟩, _, _, hg⟩ := computed_call h hr hk0 hs hc
  have hh := hg.header
  split at hp
  · cases hp
  · cases hp
  · rename_i ha
    cases hp
    have hq := hg.key hr h (.inl hi) hk
    obtain ⟨h1, h2⟩ := action_update_sides ha
    rw [hh.src_eq] at h1
    rw [hh.dst_eq] at h2
    cases hm : q.src with
    | none => rw [hm] at h1; exact absurd rfl h1
    | some s =>
      cases hm' : q.dst with
      | none => rw [hm'] at h2; exact absurd rfl h2
      | some m =>
        have e1 := hg.good.stored.src s hm
        have e2 := hg.good.stored.dst m hm'
        obtain ⟨g1, g2⟩ := Prod.mk.inj hq
        rw [← g1, ← g2] at e1 e2
        exact ⟨s, m, e1, e2, plus_iff (by rw [hh.src_eq, hm]; rfl) (by rw [hh.dst_eq, hm']; rfl)⟩
  · cases hp

/-- **C25** A delete call is made on an object that the destination stores. -/
theorem C25_delete_target (h : Comparable src dst w) (hr : DstReady dst w) (hk0 : KeepsIdsOf dst (snap src w))
    (hs : syncFrom n rl hooks dst src dc flags none w = (res, w'))
    {t u : String} {out : Outcome} (hc : Event.call (.delete t u) out ∈ newEvents w w') : ∃ m, (snap dst w).find t u = some m := by
  obtain ⟨d, w1, e, q, _, _, ⟨u', hk, hp⟩, _, _, hg⟩ := computed_call h hr hk0 hs hc
  have hh := hg.header
  split at hp
  · cases hp
  · cases hp
  · cases hp
  · rename_i ha
    cases hp
    obtain ⟨h1, h2⟩ := (action_delete_iff e).1 ha
    rw [hh.src_eq] at h1
    rw [hh.dst_eq] at h2
    have hq := hg.key hr h (.inr (by simpa using h1)) hk
    cases hm' : q.dst with
    | none => rw [hm'] at h2; exact absurd rfl h2
    | some m =>
      have e2 := hg.good.stored.dst m hm'
      obtain ⟨g1, g2⟩ := Prod.mk.inj hq
      rw [← g1, ← g2] at e2
      exact ⟨m, e2⟩

/-! ## C20 -/

/-- **C20** Every call of a sync is about an object of a type that is top level in both adapters, or one that an object listed in one of the adapters'
child lists. -/
theorem C20_sync_types (h : Comparable src dst w) (hr : DstReady dst w) (hk0 : KeepsIdsOf dst (snap src w))
    (hs : syncFrom n rl hooks dst src dc flags none w = (res, w'))
    {c : CrudCall V} {out : Outcome} (hc : Event.call c out ∈ newEvents w w') {k : Key} (hk : CallKey dst c k)
    (htop : k.1 ∉ src.topLevel ∨ k.1 ∉ dst.topLevel) :
    ∃ t u m v, ((snap src w).find t u = some m ∨ (snap dst w).find t u = some m) ∧ m.lists k.1 v = true ∧ (SameIds dst (snap src w) → v = k.2) := by
  obtain ⟨d, w1, e, q, _, _, hp, hq, _, hg⟩ := computed_call h hr hk0 hs hc
  have hek : ElemKey dst e k := by
    obtain ⟨u, h1, h2⟩ := hp
    split at h2
    · cases h2
    · cases h2; obtain ⟨c', u', a, b, rfl⟩ := hk; exact ⟨c', u', a, b, rfl⟩
    · cases h2; cases hk; exact h1
    · cases h2; cases hk; exact h1
  have ht : k.1 = q.type := by obtain ⟨_, _, _, _, rfl⟩ := hek; exact hg.header.type_eq
  have hv : SameIds dst (snap src w) → q.uid = k.2 := fun hi => by rw [hg.key hr h (.inl hi) hek]
  cases hq with
  | top htp =>
    rw [ht] at htop
    rcases htop with h | h
    · exact absurd htp.src_top h
    · exact absurd htp.dst_top h
  | @child p _ hp hvis hch =>
    have st := hp.stored
    rcases hch.listed with hl | hl
    · cases hm : p.src with
      | none => rw [hm] at hl; cases hl
      | some m =>
        rw [hm] at hl
        exact ⟨p.type, p.uid, m, q.uid, .inl (st.src m hm), by rw [ht]; exact hl, hv⟩
    · cases hm : p.dst with
      | none => rw [hm] at hl; cases hl
      | some m =>
        rw [hm] at hl
        exact ⟨p.type, p.uid, m, q.uid, .inr (st.dst m hm), by rw [ht]; exact hl, hv⟩

/-! ## C35 -/

/-- **C35** A supplied diff that is not an instance of `diff_class` is refused, and nothing happens.  (An empty one is not looked at,
`C35_empty_diff_ignored`.) -/
theorem C35_class_mismatch (hl : d.len ≠ 0) (hc : d.cls.bases.contains dc.id = false) :
    syncFrom n rl hooks dst src dc flags (some d) w = (.error .diffClassMismatch, w) := by
  have ht : d.truthy = true := by unfold Diff.truthy; simpa using hl
  have : checkDiffClass dc (some d) w = ((.error .diffClassMismatch : Except Err Unit), w) := by
    unfold checkDiffClass
    simp only [ht, hc]; rfl
  unfold syncFrom
  rw [M.bind_err this]

/-- **C35** A supplied diff that is not empty is what is applied: no comparison takes place, every call is one prescribed by an element of it,
and it is what the sync returns. -/
theorem C35_supplied_diff_applied_partial (hr : DstReady dst w) (hg : GoodDiff dst d.kids) (hl : d.len ≠ 0)
    (hs : syncFrom n rl hooks dst src dc flags (some d) w = (res, w')) :
    (∀ a b, Event.diffProgress a b ∉ newEvents w w') ∧ (∀ d', res = .ok d' → d' = d) ∧
    ∀ c out, Event.call c out ∈ newEvents w w' → ∃ e, InTree e d.kids ∧ Prescribes dst e c := by
  rcases syncFrom_run_fresh (D := False) hr (.inl ⟨rfl, hl⟩) hg False.elim hs with ⟨rfl, rfl, _⟩ | ⟨evs0, evs, p, y, hran, hf⟩
  · rw [show newEvents w' w' = [] by simp [newEvents]]
    exact ⟨fun _ _ h => (by cases h), fun _ h => (by cases h), fun _ _ h => (by cases h)⟩
  · have h0 := hf rfl hl
    subst h0
    refine ⟨?_, ?_, ?_⟩
    · intro a b hm
      rw [hran.new] at hm
      simp only [List.nil_append, List.mem_append] at hm
      rcases hm with hm | hm
      · exact hran.tr.no_diffProgress a b hm
      · split at hm
        · rcases List.mem_singleton.1 hm with h; cases h
        · cases hm
    · intro d' hd'
      rw [hran.res_eq] at hd'
      cases y with
      | error x => cases hd'
      | ok b => cases hd'; rfl
    · intro c out hc
      obtain ⟨e, he, hp, _⟩ := hran.tr.mem_call _ _ (hran.mem_call.1 hc)
      exact ⟨e, hran.inTree he, hp⟩

/-! ## C52 -/

/-- **C52** An object of the destination that is flagged IGNORE, or flagged SKIP_UNMATCHED_DST and not stored by the source, is stored and unchanged after a
sync, whatever the user's methods do.  Proved unless it is removed along with an object flagged SKIP_CHILDREN_ON_DELETE; then it is false
(`C52_removed_along`). -/
theorem C52_protected_partial (h : Comparable src dst w) (hr : DstReady dst w) (hk0 : KeepsIdsOf dst (snap src w))
    (hi : SameIds dst (snap src w))
    (hrun : SyncRun n rl hooks dst src dc flags none w d res w') (ht : Tidy dst d) {t u : String} {m : Model V} (hm : (snap dst w).find t u = some m)
    (hf : flagOn m.flags MF.IGNORE = true ∨ (flagOn m.flags MF.SKIP_UNMATCHED_DST = true ∧ (snap src w).find t u = none))
    (htk : ¬ TakenAlong dst (snap dst w) d.kids (newEvents w w') (t, u)) : (snap dst w').find t u = some m := by
  refine Classical.byContradiction fun hne => ?_
  have happ : Applicable n dst src dc flags none w := applicable_computed h hr hk0
  obtain ⟨d', hu', g⟩ := C23_only_diffed_objects_change hr happ hrun.run (t := t) (u := u) (by rw [hm]; exact hne)
  cases hrun.used.unique hu'
  rcases g with ⟨e, he, hk⟩ | g
  · have hd : ∃ w1, diffFrom n dst src dc flags w = (.ok d, w1) := by
      rcases hrun.used with ⟨h1, _⟩ | ⟨_, h2⟩
      · cases h1
      · cases hd : diffFrom n dst src dc flags w with
        | mk r w1 => rw [hd] at h2; dsimp only at h2; subst h2; exact ⟨w1, rfl⟩
    obtain ⟨w1, hd⟩ := hd
    obtain ⟨q, q1, q2, q3⟩ := computed_place h hd he
    have hq := q3.key hr h (.inl hi) hk
    obtain ⟨g1, g2⟩ := Prod.mk.inj hq
    subst g1 g2
    have hno : q.dst ≠ some m := by
      intro hqd
      apply q2
      rw [hqd]
      rcases hf with hf | ⟨hf, hsn⟩
      · exact .ignoreDst _ _ hf
      · cases hqs : q.src with
        | none => exact .modelDst _ hf
        | some s => have := q3.good.stored.src s hqs; rw [hsn] at this; cases this
    have hqn : q.dst = none := by
      cases hqd : q.dst with
      | none => rfl
      | some m' =>
        have := q3.good.stored.dst m' hqd
        rw [hm] at this; cases this
        exact absurd hqd hno
    have ha : e.action = some .create := by
      rw [action_create_iff, q3.header.src_eq, q3.header.dst_eq, hqn]
      refine ⟨?_, rfl⟩
      rcases q3.good.some_side with h | h
      · simpa using h
      · exact absurd hqn h
    have hst : Stale dst (snap dst w) e .create := ⟨ha, _, hk, by rw [hm]; simp⟩
    refine hne ?_
    rw [(C34_stale_refused hrun ht he hst (fun _ k hk' => by
      rw [q3.key hr h (.inl hi) hk']; exact htk)).2 _ _ hk, hm]
  · exact htk g
end

end DS
