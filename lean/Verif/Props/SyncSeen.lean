import Verif.Props.DiffCmd
import Verif.Props.SyncArgs
import Verif.Spec.SyncSeen
/-! # C83: a sync from a Redis store that other clients write to -/
set_option linter.unusedSectionVars false

namespace DS
variable {V E : Type} [PyVal V]

section
variable {C : DiffCtx V} {vs vd : View V} {H : Dict (Obj V) → Prop}

theorem Reports.header {e : Elem V} {p : Pos V} (h : Reports C vs vd H e p) : Header C.src C.dst e p := by
  cases h with
  | mk _ h1 => exact h1

theorem Reports.inTree {e : Elem V} {p : Pos V} (h : Reports C vs vd H e p) {k : Nat} (hm : Met C vs vd H k p) (hv : p.Visible C.flags) {x : Elem V} (hx : InTree x e.kids) :
    ∃ j r q, Met C vs vd H j r ∧ ChildSeen vs vd H r q ∧ Met C vs vd H (j + 1) q ∧ q.Visible C.flags ∧ Reports C vs vd H x q := by
  induction h generalizing k with
  | @mk e p ps h1 h2 h3 h4 h5 h6 ih =>
    have step : ∀ y ∈ e.kids, ∃ q ∈ ps, (y, q) ∈ e.kids.zip ps := fun y hy => by
      obtain ⟨q, hq, hyq⟩ := zip_mem_left h5 hy
      exact ⟨q, hq, hyq⟩
    cases hx with
    | here hx =>
      obtain ⟨q, hq, hyq⟩ := step x hx
      exact ⟨k, p, q, hm, (h3 q hq).1, .child hm hv (h3 q hq).1, (h3 q hq).2, h6 _ hyq⟩
    | under hk hx =>
      obtain ⟨q, hq, hyq⟩ := step _ hk
      exact ih _ hyq (.child hm hv (h3 q hq).1) (h3 q hq).2 hx

/-- What every element of the diff reports. -/
theorem ReportsTop.inTree {es : List (Elem V)} (h : ReportsTop C vs vd H es) {x : Elem V} (hx : InTree x es) :
    ∃ j q, Met C vs vd H j q ∧ q.Visible C.flags ∧ Reports C vs vd H x q ∧
      (TopSeen C vs vd H q ∨ ∃ r, Met C vs vd H (j - 1) r ∧ ChildSeen vs vd H r q) := by
  obtain ⟨ps, h1, h2, h3, h4, h5⟩ := h
  cases hx with
  | here hx =>
    obtain ⟨q, hq, hyq⟩ := zip_mem_left h4 hx
    exact ⟨0, q, .top (h2 q hq).1, (h2 q hq).2, h5 _ hyq, .inl (h2 q hq).1⟩
  | under hk hx =>
    obtain ⟨q, hq, hyq⟩ := zip_mem_left h4 hk
    obtain ⟨j, r, q', a, b, c, d, f⟩ := (h5 _ hyq).inTree (.top (h2 q hq).1) (h2 q hq).2 hx
    exact ⟨j + 1, q', c, d, f, .inr ⟨r, a, b⟩⟩

/-- A place that takes part is about objects that were stored, under types that the stores can tell apart. -/
theorem Met.atHand (hR : Readable C vs vd H) {k : Nat} {p : Pos V} (h : Met C vs vd H k p) : AtHand vs vd H p := by
  induction h with
  | top hc =>
    exact ⟨fun m hm => ⟨hR.src_types _ hc.src_top, by rw [← hm]; exact hc.src⟩, fun m hm => ⟨hR.dst_types _ hc.dst_top, by rw [← hm]; exact hc.dst⟩⟩
  | @child k p c _ _ hc ih =>
    refine AtHand.child ⟨fun m hm => ?_, fun m hm => ?_⟩ hc
    · exact (hR.src.kids _ _ _ (ih.src m hm).1 (ih.src m hm).2).2 _ (hc.compared.1 m hm)
    · exact (hR.dst.kids _ _ _ (ih.dst m hm).1 (ih.dst m hm).2).2 _ (hc.compared.2 m hm)

theorem Met.src_seen {k : Nat} {p : Pos V} (h : Met C vs vd H k p) {m : Model V} (hm : p.src = some m) : Seen vs H p.type p.uid (some m) := by
  cases h with
  | top hc => rw [← hm]; exact hc.src
  | child _ _ hc => have := hc.src; rw [hm] at this; exact this.some.2
theorem Met.dst_seen {k : Nat} {p : Pos V} (h : Met C vs vd H k p) {m : Model V} (hm : p.dst = some m) : Seen vd H p.type p.uid (some m) := by
  cases h with
  | top hc => rw [← hm]; exact hc.dst
  | child _ _ hc => have := hc.dst; rw [hm] at this; exact this.some.2

theorem Reports.delClosed {e : Elem V} {p : Pos V} (h : Reports C vs vd H e p) (hp : p.src = none) : ∀ x, InTree x e.kids → x.action = some .delete := by
  induction h with
  | @mk e p ps h1 h2 h3 h4 h5 h6 ih =>
    intro x hx
    have step : ∀ y ∈ e.kids, ∃ q, q.src = none ∧ y.action = some .delete ∧ (y, q) ∈ e.kids.zip ps := by
      intro y hy
      obtain ⟨q, hq, hyq⟩ := zip_mem_left h5 hy
      have hc := (h3 q hq).1
      have hl : listsO p.src q.type q.uid = false := by rw [hp]; rfl
      have hq1 : q.src = none := by
        have := hc.src
        unfold SideSeen at this
        rw [hl] at this
        simpa using this
      have hq2 : q.dst ≠ none := by
        have := hc.dst
        unfold SideSeen at this
        rw [if_pos (hc.listed.resolve_left (by rw [hl]; simp))] at this
        exact this.1
      refine ⟨q, hq1, ?_, hyq⟩
      rw [action_delete_iff, (h6 _ hyq).header.src_eq, (h6 _ hyq).header.dst_eq, hq1]
      exact ⟨rfl, by simpa using hq2⟩
    cases hx with
    | here hx => exact (step x hx).choose_spec.2.1
    | under hk hx =>
      obtain ⟨q, a, b, c⟩ := step _ hk
      exact ih _ c a x hx
end

/-! ## The calls -/

section
variable {n rl N : Nat} {hooks : Hooks V E} {dst src : Adapter V} {dc : DiffClass V} {flags sid : Nat} {vs : View V} {H : Dict (Obj V) → Prop}
  {w w' : World V E} {d : Diff V} {res : Except Err (Diff V)}

/-- What the destination, in local memory, was seen to hold is what it holds. -/
theorem seen_local (hA : dst.ref.store = .local sid) {t u : String} {o : Option (Model V)} (h : Seen (View.of dst w) H t u o) : (snap dst w).find t u = o := by
  obtain ⟨x, _, hx⟩ := h
  unfold View.of at hx
  rw [hA] at hx
  exact hx

/-- A destination in local memory that is fit for syncs is sound for diffs. -/
theorem sound_local (hA : dst.ref.store = .local sid) (hc : (snap dst w).Consistent) (hr : DstReady dst w) (H : Dict (Obj V) → Prop) : (View.of dst w).Sound H := by
  have hv : View.of dst w = .held (snap dst w).all (snap dst w).find := by unfold View.of; rw [hA]
  refine ⟨by rw [hv]; exact hc, fun t u m _ h => hc.key_ok t u m (seen_local hA h), fun t u m _ h => ⟨hr.children t u m (seen_local hA h), fun ct _ => ?_⟩⟩
  rw [hv]
  trivial

theorem reported_good (hA : dst.ref.store = .local sid) (hr : DstReady dst w) (hf : FitIds dst vs H) {es : List (Elem V)}
    (h : ReportsTop ⟨src, dst, flags⟩ vs (View.of dst w) H es) : GoodDiff dst es := by
  refine ⟨?_, ?_, ?_⟩
  · intro e he ha c hc k hk
    obtain ⟨j, q, hm, _, hq, _⟩ := h.inTree he
    obtain ⟨h1, h2⟩ := action_update_sides ha
    rw [hq.header.dst_eq] at h2
    cases hd : q.dst with
    | none => rw [hd] at h2; exact absurd rfl h2
    | some m =>
      have hk' := plus_keys h1 (by rw [hq.header.dst_eq, hd]; rfl) k hk
      obtain ⟨v, hv⟩ := Dict.mem_keys_iff.1 hk'
      rw [Model.get?_attrs] at hv
      split at hv
      · rename_i hka
        have hcls := hr.inst _ _ _ c (seen_local hA (hm.dst_seen hd)) (by rw [← hq.header.type_eq]; exact hc)
        rw [hcls] at hka
        exact hka
      · cases hv
  · intro e he ha e' he'
    obtain ⟨j, q, hm, _, hq, _⟩ := h.inTree he
    rw [action_delete_iff, hq.header.src_eq] at ha
    exact hq.delClosed (by simpa using ha.1) e' he'
  · intro e he ha c hc
    obtain ⟨j, q, hm, _, hq, _⟩ := h.inTree he
    rw [action_create_iff, hq.header.src_eq, hq.header.dst_eq] at ha
    cases hs : q.src with
    | none => rw [hs] at ha; exact absurd rfl ha.1
    | some m =>
      rw [(hq.header.name_eq m (by rw [hs]; rfl)).2]
      exact (hf _ _ m c (hm.src_seen hs) (by rw [← hq.header.type_eq]; exact hc)).2

theorem Reports.key (hA : dst.ref.store = .local sid) (hr : DstReady dst w) (hf : FitIds dst vs H) (hR : Readable ⟨src, dst, flags⟩ vs (View.of dst w) H)
    {e : Elem V} {q : Pos V} (hq : Reports ⟨src, dst, flags⟩ vs (View.of dst w) H e q) {j : Nat} (hm : Met ⟨src, dst, flags⟩ vs (View.of dst w) H j q) {k : Key} (hk : ElemKey dst e k) : k = (q.type, q.uid) := by
  obtain ⟨c, u, h1, h2, rfl⟩ := hk
  have hh := hq.header
  rw [hh.type_eq] at h1 ⊢
  have fin : ∀ m, q.src.or q.dst = some m → m.uid = q.uid → c.identifiers = m.cls.identifiers → (q.type, u) = (q.type, q.uid) := by
    intro m hm hu hi
    rw [(hh.name_eq m hm).2] at h2
    rw [createUniqueId_uid hi h2, hu]
  cases hsrc : q.src with
  | some m => exact fin m (by rw [hsrc]; rfl) (hR.src.keys _ _ _ ((hm.atHand hR).src m hsrc).1 (hm.src_seen hsrc)).2 (hf _ _ _ _ (hm.src_seen hsrc) h1).1
  | none =>
    cases hdst : q.dst with
    | none => rcases hm.some_side with h | h <;> contradiction
    | some m =>
      have hd := hm.dst_seen hdst
      refine fin m (by rw [hsrc, hdst]; rfl) (hR.dst.keys _ _ _ ((hm.atHand hR).dst m hdst).1 hd).2 ?_
      rw [hr.inst _ _ _ c (seen_local hA hd) h1]

/-- The element and place behind a call of a sync with a diff that reports what was seen. -/
theorem reported_call (hA : dst.ref.store = .local sid) (hr : DstReady dst w) (hf : FitIds dst vs H) (h : ReportsTop ⟨src, dst, flags⟩ vs (View.of dst w) H d.kids)
    (hl : d.len ≠ 0) (hs : syncFrom n rl hooks dst src dc flags (some d) w = (res, w')) {c : CrudCall V} {out : Outcome} (hc : Event.call c out ∈ newEvents w w') :
    ∃ e j q, Prescribes dst e c ∧ Met ⟨src, dst, flags⟩ vs (View.of dst w) H j q ∧ Reports ⟨src, dst, flags⟩ vs (View.of dst w) H e q ∧
      (TopSeen ⟨src, dst, flags⟩ vs (View.of dst w) H q ∨ ∃ r, Met ⟨src, dst, flags⟩ vs (View.of dst w) H (j - 1) r ∧ ChildSeen vs (View.of dst w) H r q) := by
  obtain ⟨e, he, hp⟩ := (C35_supplied_diff_applied_partial hr (reported_good hA hr hf h) hl hs).2.2 c out hc
  obtain ⟨j, q, h1, _, h2, h3⟩ := h.inTree he
  exact ⟨e, j, q, hp, h1, h2, h3⟩

section
variable {i : Nat} {s s' : Sys V (List (Elem V))} {l : List (Sys V (List (Elem V)))}

theorem DiffThenSync.reports (h : DiffThenSync i s l s' N n rl hooks dst src dc flags d w res w') :
    ReportsTop ⟨src, dst, flags⟩ (View.of src w) (View.of dst w) (Moments l) d.kids :=
  C82_diff h.exec h.starts h.readable h.ends
theorem DiffThenSync.seen (h : DiffThenSync i s l s' N n rl hooks dst src dc flags d w res w') {H : Dict (Obj V) → Prop} {t u : String} {o : Option (Model V)}
    (ho : Seen (View.of dst w) H t u o) : (snap dst w).find t u = o := by
  obtain ⟨sid, hA⟩ := h.inMemory
  exact seen_local hA ho
theorem DiffThenSync.key (h : DiffThenSync i s l s' N n rl hooks dst src dc flags d w res w') {e : Elem V} {q : Pos V}
    (hq : Reports ⟨src, dst, flags⟩ (View.of src w) (View.of dst w) (Moments l) e q) {j : Nat} (hm : Met ⟨src, dst, flags⟩ (View.of src w) (View.of dst w) (Moments l) j q)
    {k : Key} (hk : ElemKey dst e k) : k = (q.type, q.uid) := by
  obtain ⟨sid, hA⟩ := h.inMemory
  exact hq.key hA h.ready h.fits h.readable hm hk
theorem DiffThenSync.call (h : DiffThenSync i s l s' N n rl hooks dst src dc flags d w res w') {c : CrudCall V} {out : Outcome} (hc : Event.call c out ∈ newEvents w w') :
    ∃ e j q, Prescribes dst e c ∧ Met ⟨src, dst, flags⟩ (View.of src w) (View.of dst w) (Moments l) j q ∧
      Reports ⟨src, dst, flags⟩ (View.of src w) (View.of dst w) (Moments l) e q := by
  obtain ⟨sid, hA⟩ := h.inMemory
  obtain ⟨e, j, q, h1, h2, h3, _⟩ := reported_call hA h.ready h.fits h.reports h.nonempty h.sync hc
  exact ⟨e, j, q, h1, h2, h3⟩
end

/-- **C83** A create call of a sync whose diff was computed while other clients wrote to the source gets the identifiers and attributes of an object that the source
stored at some moment of the diff, all of one and the same moment. -/
theorem C83_create {i : Nat} {s s' : Sys V (List (Elem V))} {l : List (Sys V (List (Elem V)))} (h : DiffThenSync i s l s' N n rl hooks dst src dc flags d w res w')
    {t : String} {ids attrs : Dict V} {out : Outcome} (hc : Event.call (.create t ids attrs) out ∈ newEvents w w') :
    ∃ u m, Seen (View.of src w) (Moments l) t u (some m) ∧ ids = m.identifiers ∧ ∀ k, Dict.get? attrs k = Dict.get? m.attrs k := by
  obtain ⟨e, j, q, ⟨u, hk, hp⟩, hm, hq⟩ := h.call hc
  have hh := hq.header
  split at hp
  · cases hp
  · rename_i ha
    cases hp
    obtain ⟨h1, h2⟩ := (action_create_iff e).1 ha
    rw [hh.src_eq] at h1
    cases hs : q.src with
    | none => rw [hs] at h1; exact absurd rfl h1
    | some m =>
      refine ⟨q.uid, m, by rw [hh.type_eq]; exact hm.src_seen hs, (hh.name_eq m (by rw [hs]; rfl)).2, fun k => ?_⟩
      have hse : e.src = some m.attrs := by rw [hh.src_eq, hs]; rfl
      have hpl : e.plus = some (Elem.pick m.attrs e.attrsKeys) := by unfold Elem.plus; rw [hse, h2]
      rw [hpl, Option.getD_some, get?_pick]
      split
      · rfl
      · rename_i hnk
        unfold Elem.attrsKeys at hnk
        rw [hse, h2] at hnk
        exact (Dict.get?_eq_none_iff.2 hnk).symm
  · cases hp
  · cases hp

/-- **C83** An update call is made on an object that the destination stores, and gets exactly the attributes in which it differs from an object with the same type and
unique id that the source stored at some moment of the diff, with the values of that object. -/
theorem C83_update {i : Nat} {s s' : Sys V (List (Elem V))} {l : List (Sys V (List (Elem V)))} (h : DiffThenSync i s l s' N n rl hooks dst src dc flags d w res w')
    {t u : String} {attrs : Dict V} {out : Outcome} (hc : Event.call (.update t u attrs) out ∈ newEvents w w') :
    ∃ s m, Seen (View.of src w) (Moments l) t u (some s) ∧ (snap dst w).find t u = some m ∧
      ∀ k v, Dict.get? attrs k = some v ↔ Dict.get? s.attrs k = some v ∧ ∃ v', Dict.get? m.attrs k = some v' ∧ PyVal.eq v v' = false := by
  obtain ⟨e, j, q, ⟨u', hk, hp⟩, hm, hq⟩ := h.call hc
  have hh := hq.header
  split at hp
  · cases hp
  · cases hp
  · rename_i ha
    cases hp
    obtain ⟨h1, h2⟩ := action_update_sides ha
    rw [hh.src_eq] at h1
    rw [hh.dst_eq] at h2
    cases hs : q.src with
    | none => rw [hs] at h1; exact absurd rfl h1
    | some s =>
      cases hd : q.dst with
      | none => rw [hd] at h2; exact absurd rfl h2
      | some m =>
        obtain ⟨g1, g2⟩ := Prod.mk.inj (h.key hq hm hk)
        have e1 := hm.src_seen hs
        have e2 := h.seen (hm.dst_seen hd)
        rw [← g1, ← g2] at e1 e2
        exact ⟨s, m, e1, e2, plus_iff (by rw [hh.src_eq, hs]; rfl) (by rw [hh.dst_eq, hd]; rfl)⟩
  · cases hp

/-- A place that takes part with nothing on the source side: why the source is held not to have it. -/
theorem Met.gone {i : Nat} {s s' : Sys V (List (Elem V))} {l : List (Sys V (List (Elem V)))} (h : DiffThenSync i s l s' N n rl hooks dst src dc flags d w res w')
    {k : Nat} {q : Pos V} (hm : Met ⟨src, dst, flags⟩ (View.of src w) (View.of dst w) (Moments l) k q) (hs : q.src = none) :
    Gone src dst (View.of src w) (snap dst w) (Moments l) q.type q.uid := by
  induction hm with
  | top ht => exact .top ht.src_top ht.dst_top (by have := ht.src; rwa [hs] at this)
  | @child k p q hp _ hc ih =>
    have hsl : ¬ listsO p.src q.type q.uid = true := fun hx => hc.src.listed.2 hx hs
    have hdl := hc.listed.resolve_left hsl
    cases hpd : p.dst with
    | none => rw [hpd] at hdl; cases hdl
    | some m' =>
      rw [hpd] at hdl
      have hf := h.seen (hp.dst_seen hpd)
      cases hps : p.src with
      | none => exact .beneath hf hdl (ih hps)
      | some s' =>
        rw [hps] at hsl
        exact .unlisted hf hdl (hp.src_seen hps) (by simpa [listsO] using hsl)

/-- **C83** A delete call is made on an object that the destination stores, and for a reason: it is a top-level object and the source stored no such object at some
moment of the diff; or an object of the destination lists it, which the source stored at some moment without listing it, or which is gone itself in this sense. -/
theorem C83_delete {i : Nat} {s s' : Sys V (List (Elem V))} {l : List (Sys V (List (Elem V)))} (h : DiffThenSync i s l s' N n rl hooks dst src dc flags d w res w')
    {t u : String} {out : Outcome} (hc : Event.call (.delete t u) out ∈ newEvents w w') :
    (∃ m, (snap dst w).find t u = some m) ∧ Gone src dst (View.of src w) (snap dst w) (Moments l) t u := by
  obtain ⟨e, j, q, ⟨u', hk, hp⟩, hm, hq⟩ := h.call hc
  have hh := hq.header
  split at hp
  · cases hp
  · cases hp
  · cases hp
  · rename_i ha
    cases hp
    obtain ⟨h1, h2⟩ := (action_delete_iff e).1 ha
    rw [hh.src_eq] at h1
    rw [hh.dst_eq] at h2
    obtain ⟨g1, g2⟩ := Prod.mk.inj (h.key hq hm hk)
    have e3 := hm.gone h (by simpa using h1)
    cases hd : q.dst with
    | none => rw [hd] at h2; exact absurd rfl h2
    | some m =>
      have e2 := h.seen (hm.dst_seen hd)
      rw [← g1, ← g2] at e2 e3
      exact ⟨⟨m, e2⟩, e3⟩

end

end DS
