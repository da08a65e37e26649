import Verif.Lemmas.Reach
/-! # Whatever a program did before: consistent stores, lasting identities, and worlds fit for diffs and syncs -/
set_option linter.unusedSectionVars false

namespace DS
variable {V E : Type} [PyVal V] {F : Decls V} {D : Prop}

/-- **C57** After any history of calls (creating and changing objects, storing, updating and removing them, reading, diffs, syncs with any
user code and any failures, exports and imports, local and Redis stores), whatever an adapter holds under a key is a well-formed instance of
the class it declares for that model name and carries that unique id. -/
theorem C57_stored_objects_well_formed {w : World V E} (h : Reachable F D w) {A : Adapter V} (hA : Family F A) {t u : String} {m : Model V}
    (hm : (snap A w).find t u = some m) : WellFormed A t u m := by
  obtain ⟨h1, h2, h3, h4⟩ := h.inv.find hA hm
  refine ⟨h1, h2, h3, fun k hk => ?_, fun ct f hf => ?_⟩
  · exact Dict.mem_keys_iff.1 (by rw [h4.complete.vals_keys]; exact hk)
  · have : f ∈ Dict.keys m.kids := (h4.complete.kids_keys f).2 (List.mem_map.2 ⟨(ct, f), Dict.mem_of_get? hf, rfl⟩)
    obtain ⟨l, hl⟩ := Dict.mem_keys_iff.1 this
    exact ⟨l, hl, h4.kids f l hl⟩

/-- **C57** After any history, `get_all` returns, each once, the very objects that `get` finds. -/
theorem C57_get_all_agrees_with_get {w : World V E} (h : Reachable F D w) {A : Adapter V} (hA : Family F A) {t : String} (ht : t ∈ Dict.keys A.classes) :
    ∃ rs w', getAll A t w = (.ok rs, w') ∧ (rs.map (fun r => (w'.heap r).m.uid)).Nodup ∧
      ∀ m, (∃ r ∈ rs, (w'.heap r).m = m) ↔ ∃ u r w'', get A (.name t) (.uid u) w = (.ok r, w'') ∧ (w''.heap r).m = m := by
  have hi := h.inv
  have hT := hA.takes ht
  have hc := hi.consistent hA
  obtain ⟨h1, rs, h2, h3, _⟩ := getAll_spec A t w hi.ok.refs_lt hi.ok.tbl_wf
  rw [← snap_all hT] at h3
  refine ⟨rs, _, Prod.ext h2 rfl, ?_, fun m => ?_⟩
  · have := hc.all_nodup t
    rw [← h3, List.map_map] at this
    exact this
  · have e : (∃ r ∈ rs, ((getAll A t w).2.heap r).m = m) ↔ m ∈ (snap A w).all t := by rw [← h3, List.mem_map]
    rw [e, hc.all_iff]
    refine exists_congr (fun u => ?_)
    have hg := (getRaw_spec A t u w hi.ok.refs_lt).2
    rw [← snap_find hT] at hg
    have eg : get A (.name t) (.uid u) w = getRaw A t u w := rfl
    rw [eg]
    cases hf : (snap A w).find t u with
    | none =>
      rw [hf] at hg
      constructor
      · intro h; cases h
      · rintro ⟨r, w'', h, _⟩; rw [h] at hg; cases hg
    | some m' =>
      rw [hf] at hg
      obtain ⟨r, hr, hm, _, _⟩ := hg
      constructor
      · intro h; cases h
        exact ⟨r, _, Prod.ext hr rfl, hm⟩
      · rintro ⟨r', w'', h, h'⟩
        rw [h] at hr hm
        cases hr
        rw [← hm]; exact congrArg some h'

theorem Leads.keeps {w w' : World V E} (hw : Inv F none none w) (h : Leads F D w w') : Inv F none none w' ∧ Evo none w w' := by
  induction h with
  | refl => exact ⟨hw, Evo.refl w⟩
  | step _ hs ih =>
    obtain ⟨h1, h2⟩ := hs.keeps ih.1 (fun h => absurd rfl h)
    exact ⟨h1, ih.2.trans h2⟩

/-- **C57** An object keeps its class and its unique id for ever, whatever the library does with it. -/
theorem C57_identities_last {w w' : World V E} (h : Reachable F D w) (hl : Leads F D w w') {r : Ref} (hr : r < w.next) :
    r < w'.next ∧ (w'.heap r).m.cls = (w.heap r).m.cls ∧ (w'.heap r).m.uid = (w.heap r).m.uid := by
  obtain ⟨_, he⟩ := hl.keeps h.inv
  exact ⟨he.lt hr, he.cls_eq r hr, he.uid_eq r hr⟩

/-- **C57** After any history, two adapters whose classes name fields of children alike are fit for the theorems about diffs. -/
theorem C57_fit_for_diffs {w : World V E} (h : Reachable F D w) {src dst : Adapter V} (hs : Family F src) (hd : Family F dst) (hf : FieldsAgree src dst)
    (ht : dst.topLevel.Nodup) : Comparable src dst w := h.inv.comparable hs hd hf ht

/-- **C57** After any history, an adapter, whatever its store, is fit for the theorems about syncs. -/
theorem C57_fit_for_syncs {w : World V E} (h : Reachable F D w) {A : Adapter V} (hA : Family F A) : DstReady A w := h.inv.dstReady hA

/-- **C57** After any history, what is under the keys of a Redis store is as the theorems about Redis stores ask. -/
theorem C57_fit_for_redis {w : World V E} (h : Reachable F D w) {A : Adapter V} (hA : Family F A) {sid : String} (hs : A.ref.store = .redis sid) :
    RedisStoreOK sid w := h.inv.redisStoreOK hA hs

end DS
