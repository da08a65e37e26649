import Verif.Spec.Declared
import Verif.Props.History
import Verif.Props.Converge
/-! # Convergence after any history -/
set_option linter.unusedSectionVars false

namespace DS
variable {V E : Type} [PyVal V] {F : Decls V} {D : Prop}

theorem pyEq_of_same {d e : Dict V} (hk : Dict.keys d = Dict.keys e) (hg : ∀ k, Dict.get? d k = Dict.get? e k) (hw : Dict.WF d)
    (hs : ∀ k v, Dict.get? d k = some v → PyVal.eq v v = true) : Dict.pyEq d e = true := by
  unfold Dict.pyEq Dict.pyEqBy
  rw [Bool.and_eq_true, List.all_eq_true]
  refine ⟨?_, fun p hp => ?_⟩
  · have := congrArg List.length hk
    simp only [Dict.keys, List.length_map] at this
    rw [this]; exact BEq.rfl
  · obtain ⟨k, v⟩ := p
    have h := Dict.get?_of_mem hw hp
    rw [← hg k, h]
    exact hs k v h

theorem Good.sound {m : Model V} (h : Good m) : Sound m := by
  refine ⟨h.valid, h.complete.vals_keys, fun ct f hf => ?_⟩
  have : f ∈ Dict.keys m.kids := (h.complete.kids_keys f).2 (List.mem_map.2 ⟨(ct, f), Dict.mem_of_get? hf, rfl⟩)
  obtain ⟨l, hl⟩ := Dict.mem_keys_iff.1 this
  exact ⟨l, hl, h.kids f l hl⟩

theorem attrs_mem {m : Model V} {f : String} {v : V} (h : Dict.get? m.attrs f = some v) : f ∈ m.cls.attributes := by
  rw [Model.get?_attrs] at h
  split at h
  · assumption
  · cases h

/-- Complete instances of one class with the same identifiers fit. -/
theorem fits_of_same {s d : Model V} (hs : Good s) (hd : Good d) (hc : d.cls = s.cls) (hsh : ∀ f ∈ s.cls.shortname, f ∈ s.cls.identifiers)
    (hi : ∀ f ∈ s.cls.identifiers, Dict.get? s.vals f = Dict.get? d.vals f) (he : ∀ f v, f ∈ s.cls.identifiers → Dict.get? s.vals f = some v → PyVal.eq v v = true) : Fits s d := by
  refine ⟨pyEq_of_same ?_ (fun k => ?_) ?_ (fun k v hv => ?_), by rw [hc], fun f hf => strField_congr (hi f (hsh f hf))⟩
  · rw [Model.keys_identifiers s hs.complete, Model.keys_identifiers d hd.complete, hc]
  · rw [Model.get?_identifiers, Model.get?_identifiers, hc]
    split
    · rename_i h; exact hi k h
    · rfl
  · show (Dict.keys s.identifiers).Nodup
    rw [Model.keys_identifiers s hs.complete]
    exact hs.valid.fields_nodup.sublist List.filter_sublist
  · rw [Model.get?_identifiers] at hv
    split at hv
    · rename_i h; exact he k v h hv
    · cases hv

/-- An object can be rebuilt from its identifiers and attributes. -/
theorem rebuild {s : Model V} (hs : Good s) (hp : ∀ f v, f ∈ s.cls.identifiers ∨ f ∈ s.cls.attributes → Dict.get? s.vals f = some v → s.cls.reads f v = some v) (hr : ∀ f, (f, none) ∈ s.cls.fields → f ∈ s.cls.identifiers ∨ f ∈ s.cls.attributes) :
    ∃ m, s.cls.construct s.identifiers s.attrs = .ok m ∧ Good m ∧ m.cls = s.cls ∧ ∀ f ∈ s.cls.identifiers, Dict.get? s.vals f = Dict.get? m.vals f := by
  have hval : ∀ f ∈ s.cls.fieldNames, ∃ v, Dict.get? s.vals f = some v := fun f hf => Dict.mem_keys_iff.1 (by rw [hs.complete.vals_keys]; exact hf)
  have hk : ∀ f, (f, none) ∈ s.cls.fields → f ∈ Dict.keys (s.identifiers ++ s.attrs) := by
    intro f hf
    obtain ⟨v, hv⟩ := hval f (List.mem_map.2 ⟨(f, none), hf, rfl⟩)
    refine Dict.mem_keys_iff.2 ?_
    rw [Dict.get?_append, Model.get?_identifiers, Model.get?_attrs, hv]
    by_cases h1 : f ∈ s.cls.identifiers
    · rw [if_pos h1]; exact ⟨v, rfl⟩
    · rw [if_neg h1, if_pos ((hr f hf).resolve_left h1)]; exact ⟨v, rfl⟩
  obtain ⟨m, hm⟩ := instantiate_isOk (c := s.cls) [] none hk (fun f _ v hv => by
    rw [Dict.get?_append, Model.get?_identifiers, Model.get?_attrs] at hv
    have : Dict.get? s.vals f = some v ∧ (f ∈ s.cls.identifiers ∨ f ∈ s.cls.attributes) := by
      split at hv <;> split at hv <;> simp_all
    rw [hp f v this.2 this.1]; simp)
  have hm' : s.cls.construct s.identifiers s.attrs = .ok m := by
    unfold ModelClass.construct
    rw [if_neg, hm]
    rw [List.any_eq_true]
    rintro ⟨k, h1, h2⟩
    obtain ⟨a, ha⟩ := Dict.mem_keys_iff.1 h1
    obtain ⟨b, hb⟩ := Dict.mem_keys_iff.1 (List.contains_iff_mem.1 h2)
    rw [Model.get?_attrs] at ha
    rw [Model.get?_identifiers] at hb
    split at ha
    · split at hb
      · rename_i h3 h4; exact hs.valid.ids_attrs k h4 h3
      · cases hb
    · cases ha
  refine ⟨m, hm', Good.construct hs.valid hm', (instantiate_ok hm).1, fun f hf => ?_⟩
  obtain ⟨v, hv⟩ := hval f (hs.valid.ids_fields f hf)
  obtain ⟨⟨f', d⟩, hfd, rfl⟩ := List.mem_map.1 (hs.valid.ids_fields f hf)
  rw [construct_get? hs.valid hm' hfd]
  unfold ModelClass.newValue
  rw [Model.get?_identifiers, if_pos hf, hv]
  exact (hp _ _ (.inl hf) hv).symm

/-- **C57** After any history, two adapters that declare the same models and hold alike forests are fit for the theorems about convergence. -/
theorem C57_fit_for_convergence {w : World V E} (h : Reachable F D w) {src dst : Adapter V} (hs : Family F src) (hd : Family F dst) {sid : Nat}
    (hl : dst.ref.store = .local sid) (ht : dst.topLevel.Nodup) (hm : SameModels src dst) (hsep : Separate src dst w) {n : Nat}
    (ha : Alike src dst n (snap src w) (snap dst w)) : CanConverge n src dst sid w where
  comparable := by
    refine h.inv.comparable hs hd (fun t a b h1 h2 ct f f' h3 h4 => ?_) ht
    rw [hm.same, h2] at h1
    cases h1
    exact Option.some.inj (h3.symm.trans h4)
  ready := h.inv.syncReady hd hl
  separate := hsep
  reconcilable := by
    have hi := h.inv
    refine ⟨ha.one_parent, ha.not_top, ha.depth, ha.src_stored, ha.dst_stored, ha.src_place, ha.dst_place, fun t ht => ?_, fun t c ct hc hct => ?_,
      fun k m hmem => ?_, fun k s c hsk hc => ?_, fun k s d hsk hdk => ?_, ha.names⟩
    · obtain ⟨c, hc⟩ := Dict.mem_keys_iff.1 (hd.top t ht)
      rw [hc]; exact Option.some_ne_none c
    · obtain ⟨c, hc⟩ := Dict.mem_keys_iff.1 (hm.children t c ct hc hct)
      rw [hc]; exact Option.some_ne_none c
    · rcases hmem with h | h
      · exact (hi.find hs h).2.2.2.sound
      · exact (hi.find hd h).2.2.2.sound
    · obtain ⟨h1, h2, h3, h4⟩ := hi.find hs hsk
      rw [hm.same, hc] at h3
      cases h3
      obtain ⟨m, b1, b2, b3, b4⟩ := rebuild h4 (fun f v hf hv => ha.parsed k s f v hsk hf hv) (hm.required _ _ hc)
      exact ⟨rfl, fun ct f hf => hf, fun f hf v v' hv hv' => (by
        rw [Model.get?_identifiers, if_pos hf] at hv
        rw [ha.parsed k s f v hsk (.inl hf) hv] at hv'; cases hv'; rfl), m, b1, fits_of_same h4 b2 b3 (hm.short _ _ hc) b4 (fun f v hf hv => ha.self_eq k s f v hsk (.inl hf) hv)⟩
    · obtain ⟨h1, h2, h3, h4⟩ := hi.find hs hsk
      obtain ⟨g1, g2, g3, g4⟩ := hi.find hd hdk
      rw [hm.same, g3] at h3
      exact fits_of_same h4 g4 (Option.some.inj h3) (fun f hf => by
          rw [← Option.some.inj h3] at hf ⊢; exact hm.short _ _ g3 f hf) (ha.same_ids k s d hsk hdk)
        (fun f v hf hv => ha.self_eq k s f v hsk (.inl hf) hv)

/-- **C21** Whatever happened before, a sync between two adapters that declare the same models and hold alike forests converges if all calls
of user code succeed: it returns, leaves the source as it was, and no diff is left. -/
theorem C21_after_any_history {w : World V E} (h : Reachable F D w) {src dst : Adapter V} (hs : Family F src) (hd : Family F dst) {sid : Nat}
    (hl : dst.ref.store = .local sid) (ht : dst.topLevel.Nodup) (hm : SameModels src dst) (hsep : Separate src dst w) {n : Nat}
    (ha : Alike src dst n (snap src w) (snap dst w)) {rl : Nat} (hrl : n ≤ rl) {hooks : Hooks V E} {dc : DiffClass V} (hR : dc.Reorders) {flags : Nat}
    {res : Except Err (Diff V)} {w' : World V E} (hr : syncFrom n rl hooks dst src dc flags none w = (res, w')) (hall : AllSucceed (newEvents w w')) :
    (∃ d, res = .ok d) ∧ snap src w' = snap src w ∧ (∀ p, Compared src dst flags (snap src w') (snap dst w') p → p.Visible flags → p.Agrees) ∧
      ∀ dc', ∃ d' w'', diffFrom n dst src dc' flags w' = (.ok d', w'') ∧ d'.hasDiffs = false := by
  refine C21_sync_converges (C57_fit_for_convergence h hs hd hl ht hm hsep ha) (fun k s f v hk hv => ha.self_eq k s f v hk (.inr (attrs_mem hv)) (attrs_vals hv))
    (KeepsValuesOf.new fun k s c hk hc f v v' hv hv' => ?_) hR hrl hr hall
  obtain ⟨_, _, h3, _⟩ := h.inv.find hs hk
  rw [hm.same, hc] at h3
  cases h3
  rw [ha.parsed k s f v hk (.inr (attrs_mem hv)) (attrs_vals hv)] at hv'
  cases hv'
  exact ha.self_eq k s f v hk (.inr (attrs_mem hv)) (attrs_vals hv)

end DS
