import Verif.Lemmas.DiffOk
import Verif.Props.Diff
import Verif.Model.Tests
/-!
# Properties of `diff_from`: C06, C10-C20

The vocabulary (`Comparable`, `Pos`, `IsTop`, `IsChild`, `Visible`, `Compared`, `Describes`, …) is defined in
Verif/Spec/Differ.lean on the contents (`Snap`) of the adapters.
-/

set_option linter.unusedSectionVars false

namespace DS
variable {V E : Type} [PyVal V]

/-! ## C06 -/

/-- **C06** (what `skip` counts is `C06_skip_exact`) For a diff computed
by `diff_from`, `skip` is never negative and completes the other counters to the number of models processed. -/
theorem C06_skip_count {n : Nat} {src dst : Adapter V} {dc : DiffClass V} {flags : Nat} {w w' : World V E}
    {d : Diff V} (h : Comparable src dst w) (hdc : dc.Reorders) (hr : diffFrom n dst src dc flags w = (.ok d, w')) :
    0 ≤ d.skip ∧
    (d.summary.create : Int) + d.summary.delete + 2 * d.summary.update + 2 * d.summary.noChange + d.skip = d.processed := by
  have hd := diffFrom_describes h.ok h.src_ok h.dst_ok h.fields h.src_types h.dst_types h.top_nodup hr
  have hw : weightL d.kids ≤ d.processed := by
    obtain ⟨_, h2⟩ := diffFrom_spec n dst src dc flags w h.ok.refs_lt h.ok.tbl_wf h.src_types h.dst_types
    cases hp : pDiff ⟨src, dst, flags⟩ (snap src w) (snap dst w) n with
    | error e => rw [hp, hr] at h2; cases h2
    | ok r =>
      obtain ⟨es, k⟩ := r
      rw [hp, hr] at h2
      obtain ⟨h2, _⟩ := h2
      cases h2
      exact pDiff_weight hp
  have hs : ∀ e, InTree e d.kids → e.src ≠ none ∨ e.dst ≠ none := by
    intro e he
    obtain ⟨p, _, _, hde⟩ := hd.1.inTree he
    rw [hde.header.src_eq, hde.header.dst_eq]
    have := hde.good.some_side
    simpa using this
  have hsum := weightL_summary d.kids hs
  rw [← Diff.summary_eq_nodes d (by rw [hd.2]; exact hdc)] at hsum
  unfold Diff.skip
  constructor <;> omega

/-! ## C10 -/

/-- **C10** Whatever the flags, a returned diff describes exactly the visible places: one element per place at the
top, and recursively one element per place below each of them. -/
theorem C10_diff_describes_contents {n : Nat} {src dst : Adapter V} {dc : DiffClass V} {flags : Nat} {w w' : World V E}
    {d : Diff V} (h : Comparable src dst w) (hr : diffFrom n dst src dc flags w = (.ok d, w')) :
    DescribesTop src dst flags (snap src w) (snap dst w) d.kids :=
  (diffFrom_describes h.ok h.src_ok h.dst_ok h.fields h.src_types h.dst_types h.top_nodup hr).1.describesTop

/-- **C10** Without flags, at the top: for a type that is top level in both adapters, the elements of that type stand,
one for one and without repetition, for the unique ids stored in either adapter, and carry exactly the
attributes of the stored objects; no element of another type occurs. -/
theorem C10_top_exact {n : Nat} {src dst : Adapter V} {dc : DiffClass V} {w w' : World V E}
    {d : Diff V} (h : Comparable src dst w) (hr : diffFrom n dst src dc 0 w = (.ok d, w'))
    (hi : ∀ t u m, (snap src w).find t u = some m ∨ (snap dst w).find t u = some m → m.flags = 0) :
    (∀ e ∈ d.kids, e.type ∈ src.topLevel ∧ e.type ∈ dst.topLevel) ∧
    ∀ t, t ∈ src.topLevel → t ∈ dst.topLevel →
      ∃ us : List String, us.Nodup ∧ (∀ u, u ∈ us ↔ (snap src w).find t u ≠ none ∨ (snap dst w).find t u ≠ none) ∧
        (d.kids.filter (fun e => e.type == t)).map (fun e => (e.src, e.dst)) =
          us.map (fun u => (((snap src w).find t u).map Model.attrs, ((snap dst w).find t u).map Model.attrs)) := by
  obtain ⟨ps, hd, hps, hl, hz⟩ := C10_diff_describes_contents h hr
  have hz' : ∀ x ∈ d.kids.zip ps, Header src dst x.1 x.2 := fun x hx => by
    cases hz x hx; assumption
  have hvis : ∀ c, IsTop src dst (snap src w) (snap dst w) c → c.Visible 0 := by
    intro c hc hh
    have h1 : ∀ m, c.src = some m → m.flags = 0 := fun m hm => hi _ _ m (.inl (hc.src_eq.symm.trans hm))
    have h2 : ∀ m, c.dst = some m → m.flags = 0 := fun m hm => hi _ _ m (.inr (hc.dst_eq.symm.trans hm))
    obtain ⟨t, u, s, dd⟩ := c
    simp only at hh h1 h2
    cases hh with
    | globalSrc s hf => exact absurd hf (by decide)
    | globalDst s hf => exact absurd hf (by decide)
    | modelSrc s hf => rw [h1 s rfl] at hf; exact absurd hf (by decide)
    | modelDst s hf => rw [h2 s rfl] at hf; exact absurd hf (by decide)
    | ignoreSrc s _ hf => rw [h1 s rfl] at hf; exact absurd hf (by decide)
    | ignoreDst _ s hf => rw [h2 s rfl] at hf; exact absurd hf (by decide)
  constructor
  · intro e he
    obtain ⟨q, hq, hx⟩ := zip_mem_left hl he
    rw [(hz' _ hx).type_eq]
    exact ⟨((hps q).1 hq).1.src_top, ((hps q).1 hq).1.dst_top⟩
  · intro t h1 h2
    refine ⟨(ps.filter (fun p => p.type == t)).map Pos.uid, ?_, ?_, ?_⟩
    · unfold List.Nodup
      rw [List.pairwise_map]
      have := List.Pairwise.filter (fun p : Pos V => p.type == t) hd
      refine List.Pairwise.imp_of_mem ?_ this
      intro a b ha hb hab he
      apply hab
      have ha := (List.mem_filter.1 ha).2
      have hb := (List.mem_filter.1 hb).2
      simp only [beq_iff_eq] at ha hb
      exact ⟨ha.trans hb.symm, he⟩
    · intro u
      rw [List.mem_map]
      constructor
      · rintro ⟨p, hp, rfl⟩
        obtain ⟨hp, ht⟩ := List.mem_filter.1 hp
        simp only [beq_iff_eq] at ht
        have := ((hps p).1 hp).1
        rw [← ht, ← this.src_eq, ← this.dst_eq]
        exact this.some_side
      · intro hs
        have ht : IsTop src dst (snap src w) (snap dst w) ⟨t, u, (snap src w).find t u, (snap dst w).find t u⟩ :=
          ⟨h1, h2, rfl, rfl, hs⟩
        exact ⟨_, List.mem_filter.2 ⟨(hps _).2 ⟨ht, hvis _ ht⟩, by simp⟩, rfl⟩
    · have key : ∀ p ∈ ps, p.src = (snap src w).find p.type p.uid ∧ p.dst = (snap dst w).find p.type p.uid :=
        fun p hp => ⟨((hps p).1 hp).1.src_eq, ((hps p).1 hp).1.dst_eq⟩
      clear hps hd hr hz
      revert hl hz' key
      generalize d.kids = es
      intro hl hz' key
      induction es generalizing ps with
      | nil => cases ps with
        | nil => rfl
        | cons => simp at hl
      | cons e es ih => cases ps with
        | nil => simp at hl
        | cons p ps =>
          have hh := hz' (e, p) (by rw [List.zip_cons_cons]; simp)
          have ih := ih ps (by simpa using hl) (fun x hx => hz' x (by rw [List.zip_cons_cons]; exact List.mem_cons_of_mem _ hx))
            (fun q hq => key q (List.mem_cons_of_mem _ hq))
          have hk := key p (by simp)
          have e1 : e.type = p.type := hh.type_eq
          have e2 : e.src = p.src.map Model.attrs := hh.src_eq
          have e3 : e.dst = p.dst.map Model.attrs := hh.dst_eq
          simp only [List.filter_cons, e1]
          by_cases hpt : p.type = t
          · simp only [hpt, beq_self_eq_true, if_true, List.map_cons, ih, e2, e3, hk.1, hk.2]
          · have : (p.type == t) = false := by simp [hpt]
            simp only [this, Bool.false_eq_true, if_false]
            exact ih

/-- **C10** Below the top, the same holds: an element stands for a compared place exactly when that place is visible,
at every depth. -/
theorem C10_all_depths {n : Nat} {src dst : Adapter V} {dc : DiffClass V} {flags : Nat} {w w' : World V E}
    {d : Diff V} (h : Comparable src dst w) (hr : diffFrom n dst src dc flags w = (.ok d, w')) :
    (∀ e, InTree e d.kids → ∃ p, Compared src dst flags (snap src w) (snap dst w) p ∧ p.Visible flags ∧
      Describes src dst flags (snap src w) (snap dst w) e p) ∧
    (∀ p, Compared src dst flags (snap src w) (snap dst w) p → p.Visible flags →
      ∃ e, InTree e d.kids ∧ Describes src dst flags (snap src w) (snap dst w) e p) := by
  have hd := (diffFrom_describes h.ok h.src_ok h.dst_ok h.fields h.src_types h.dst_types h.top_nodup hr).1
  constructor
  · intro e he
    obtain ⟨p, h1, h2, h3⟩ := hd.inTree he
    exact ⟨p, h1, h2, h3.describes⟩
  · intro p hp hv
    obtain ⟨e, h1, h2⟩ := hd.complete hp hv
    exact ⟨e, h1, h2.describes⟩

/-! ## C11 -/

/-- **C11** Computing a diff, whether it returns or raises, leaves the contents of every adapter (local or Redis), every
existing object and what user code can see of it, and all Redis data as they were; no CRUD method is called. -/
theorem C11_diff_changes_nothing (n : Nat) (src dst : Adapter V) (dc : DiffClass V) (flags : Nat) (w : World V E)
    (h : w.OK) :
    (∀ A : Adapter V, snap A (diffFrom n dst src dc flags w).2 = snap A w) ∧
    (∀ r, r < w.next → (diffFrom n dst src dc flags w).2.heap r = w.heap r) ∧
    (∀ sid t u, findRef (diffFrom n dst src dc flags w).2 sid t u = findRef w sid t u) ∧
    (diffFrom n dst src dc flags w).2.redis = w.redis ∧ (diffFrom n dst src dc flags w).2.env = w.env ∧
    (∀ c o, Event.call c o ∈ (diffFrom n dst src dc flags w).2.trace → Event.call c o ∈ w.trace) := by
  obtain ⟨h1, _⟩ := diffFrom_drel n dst src dc flags w h.refs_lt h.tbl_wf
  refine ⟨fun A => ?_, fun r hr => h1.heap_eq r hr, fun sid t u => ?_, h1.redis_eq, h1.env_eq, ?_⟩
  · have := h1.snap_eq h.refs_lt h.tbl_wf A
    exact this
  · exact h1.findRef_eq sid t u
  · intro c o hc
    obtain ⟨evs, he, hch⟩ := h1.trace
    rw [he] at hc
    rcases List.mem_append.1 hc with hc' | hc'
    · exact hc'
    · exfalso
      clear hc
      revert hc' hch
      generalize (startDiff dst src w).dproc = a
      generalize (diffFrom n dst src dc flags w).2.dproc = b
      clear he
      intro hch hc
      induction hch with
      | nil => cases hc
      | step _ _ ih =>
        rcases List.mem_cons.1 hc with hc | hc
        · cases hc
        · exact ih hc

/-! ## C12 -/

theorem header_action {src dst : Adapter V} {e : Elem V} {p : Pos V} (h : Header src dst e p)
    (hs : p.src ≠ none ∨ p.dst ≠ none) : e.action = none ↔ p.Agrees := by
  have hc := (C01_action_classification e).2.2.2
  rw [hc, h.src_eq, h.dst_eq]
  cases h1 : p.src with
  | none =>
    cases h2 : p.dst with
    | none => rw [h1, h2] at hs; simp at hs
    | some d => simp [Pos.Agrees, h1]
  | some s =>
    cases h2 : p.dst with
    | none => simp [Pos.Agrees, h2]
    | some d =>
      simp only [Option.map_some, Pos.Agrees, h1, h2, Elem.DiffersAt, Elem.srcVal, Elem.dstVal, h.src_eq, h.dst_eq]
      constructor
      · rintro (h | ⟨_, _, h⟩)
        · simp at h
        · refine ⟨s, d, rfl, rfl, fun k a b ha hb => ?_⟩
          cases hab : PyVal.eq a b with
          | true => rfl
          | false => exact absurd ⟨k, a, b, ha, hb, hab⟩ h
      · rintro ⟨s', d', e1, e2, h⟩
        cases e1; cases e2
        refine .inr ⟨by simp, by simp, ?_⟩
        rintro ⟨k, a, b, ha, hb, hab⟩
        rw [h k a b ha hb] at hab
        cases hab

/-- **C12** A returned diff has no diffs exactly when every compared, not excluded place holds objects on both sides that
agree on all shared attributes. -/
theorem C12_no_diffs_iff_agree {n : Nat} {src dst : Adapter V} {dc : DiffClass V} {flags : Nat} {w w' : World V E}
    {d : Diff V} (h : Comparable src dst w) (hr : diffFrom n dst src dc flags w = (.ok d, w')) :
    d.hasDiffs = false ↔
      ∀ p, Compared src dst flags (snap src w) (snap dst w) p → p.Visible flags → p.Agrees := by
  have hd := (diffFrom_describes h.ok h.src_ok h.dst_ok h.fields h.src_types h.dst_types h.top_nodup hr).1
  have hiff : d.hasDiffs = true ↔ ∃ e, InTree e d.kids ∧ e.action ≠ none := hasDiffsL_iff d.kids
  rw [← Bool.not_eq_true, hiff]
  constructor
  · intro hno p hp hv
    obtain ⟨e, he, hde⟩ := hd.complete hp hv
    rw [← header_action hde.header hde.good.some_side]
    apply Classical.byContradiction
    intro ha
    exact hno ⟨e, he, ha⟩
  · rintro hall ⟨e, he, ha⟩
    obtain ⟨p, hp, hv, hde⟩ := hd.inTree he
    exact ha ((header_action hde.header hde.good.some_side).2 (hall p hp hv))

/-- **C12** Without flags a diff without diffs means that both adapters store the same unique ids for every common
top-level type, and at every compared place the same children are listed on both sides. -/
theorem C12_no_diffs_same_ids {n : Nat} {src dst : Adapter V} {dc : DiffClass V} {w w' : World V E}
    {d : Diff V} (h : Comparable src dst w) (hr : diffFrom n dst src dc 0 w = (.ok d, w'))
    (hi : ∀ t u m, (snap src w).find t u = some m ∨ (snap dst w).find t u = some m → m.flags = 0)
    (hno : d.hasDiffs = false) :
    (∀ t u, t ∈ src.topLevel → t ∈ dst.topLevel → ((snap src w).find t u ≠ none ↔ (snap dst w).find t u ≠ none)) ∧
    (∀ p ct u, Compared src dst 0 (snap src w) (snap dst w) p → comparesType p.src p.dst ct →
      listsO p.src ct u = listsO p.dst ct u) := by
  have hall := (C12_no_diffs_iff_agree h hr).1 hno
  have hd := (diffFrom_describes h.ok h.src_ok h.dst_ok h.fields h.src_types h.dst_types h.top_nodup hr).1
  have hvis : ∀ p : Pos V, (∀ m, p.src = some m → m.flags = 0) → (∀ m, p.dst = some m → m.flags = 0) → p.Visible 0 := by
    intro c h1 h2 hh
    obtain ⟨t, u, s, dd⟩ := c
    simp only at hh h1 h2
    cases hh with
    | globalSrc s hf => exact absurd hf (by decide)
    | globalDst s hf => exact absurd hf (by decide)
    | modelSrc s hf => rw [h1 s rfl] at hf; exact absurd hf (by decide)
    | modelDst s hf => rw [h2 s rfl] at hf; exact absurd hf (by decide)
    | ignoreSrc s _ hf => rw [h1 s rfl] at hf; exact absurd hf (by decide)
    | ignoreDst _ s hf => rw [h2 s rfl] at hf; exact absurd hf (by decide)
  have hst : ∀ p, Compared src dst 0 (snap src w) (snap dst w) p → Stored (snap src w) (snap dst w) p := by
    intro p hp
    cases hp with
    | top ht => exact ⟨fun m hm => ht.src_eq.symm.trans hm, fun m hm => ht.dst_eq.symm.trans hm⟩
    | child _ _ hc =>
      constructor
      · intro m hm
        have := hc.src_eq.symm.trans hm
        split at this
        · exact this
        · cases this
      · intro m hm
        have := hc.dst_eq.symm.trans hm
        split at this
        · exact this
        · cases this
  have hv : ∀ p, Compared src dst 0 (snap src w) (snap dst w) p → p.Visible 0 := fun p hp =>
    hvis p (fun m hm => hi _ _ m (.inl ((hst p hp).src m hm))) (fun m hm => hi _ _ m (.inr ((hst p hp).dst m hm)))
  constructor
  · intro t u h1 h2
    by_cases hs : (snap src w).find t u ≠ none ∨ (snap dst w).find t u ≠ none
    · have ht : IsTop src dst (snap src w) (snap dst w) ⟨t, u, (snap src w).find t u, (snap dst w).find t u⟩ :=
        ⟨h1, h2, rfl, rfl, hs⟩
      obtain ⟨s, d', e1, e2, _⟩ := hall _ (.top ht) (hv _ (.top ht))
      simp only at e1 e2
      simp [e1, e2]
    · constructor <;> intro hh
      · exact absurd (.inl hh) hs
      · exact absurd (.inr hh) hs
  · intro p ct u hp hct
    by_cases hl : listsO p.src ct u = true ∨ listsO p.dst ct u = true
    · have hc : IsChild (snap src w) (snap dst w) p ⟨ct, u, below (snap src w) p.src ct u, below (snap dst w) p.dst ct u⟩ :=
        ⟨hct, hl, rfl, rfl⟩
      obtain ⟨s, d', e1, e2, _⟩ := hall _ (.child hp (hv p hp) hc) (hv _ (.child hp (hv p hp) hc))
      have l1 := below_ne_none (S := snap src w) (o := p.src) (ct := ct) (u := u) (by simp only at e1; rw [e1]; simp)
      have l2 := below_ne_none (S := snap dst w) (o := p.dst) (ct := ct) (u := u) (by simp only at e2; rw [e2]; simp)
      rw [l1, l2]
    · cases h1 : listsO p.src ct u <;> cases h2 : listsO p.dst ct u <;> simp_all

/-- **C12** An adapter against itself, or against one with equal contents, has no diffs (for values on which `==` is
reflexive). -/
theorem C12_self_diff [PyVal.Refl V] {n : Nat} {src dst : Adapter V} {dc : DiffClass V} {flags : Nat} {w w' : World V E}
    {d : Diff V} (h : Comparable src dst w) (heq : snap src w = snap dst w)
    (hr : diffFrom n dst src dc flags w = (.ok d, w')) : d.hasDiffs = false := by
  rw [C12_no_diffs_iff_agree h hr]
  have hsame : ∀ p, Compared src dst flags (snap src w) (snap dst w) p → p.src = p.dst ∧ p.src ≠ none := by
    have hd := (diffFrom_describes h.ok h.src_ok h.dst_ok h.fields h.src_types h.dst_types h.top_nodup hr).1
    intro p hp
    induction hp with
    | top ht =>
      have : _ := ht.some_side
      rw [ht.src_eq, ht.dst_eq, heq] at this ⊢
      exact ⟨rfl, by simpa using this⟩
    | @child p c hp hv hc ih =>
      obtain ⟨e1, e2⟩ := ih
      obtain ⟨x, _, hx⟩ := hd.complete hp hv
      have hres := hx.good.resolved c.type c.uid hc.compared
      have hl := hc.listed
      rw [← e1] at hl
      have hl : listsO p.src c.type c.uid = true := by simpa using hl
      rw [hc.src_eq, hc.dst_eq, ← e1, hl, ← heq]
      exact ⟨rfl, by simpa using hres.1 hl⟩
  intro p hp _
  obtain ⟨e1, e2⟩ := hsame p hp
  cases hs : p.src with
  | none => exact absurd hs e2
  | some s =>
    refine ⟨s, s, hs, e1 ▸ hs, fun k a b ha hb => ?_⟩
    rw [ha] at hb
    cases hb
    exact PyVal.Refl.eq_refl a

/-! ## C13 -/

/-- `diff_from` returns exactly when there is no `DiffProblem`, and raises `e` only if there is the problem of kind `e`. -/
theorem diff_returns_iff {n : Nat} {src dst : Adapter V} {dc : DiffClass V} {flags : Nat} {w : World V E}
    (h : Comparable src dst w) :
    (∃ d, (diffFrom n dst src dc flags w).1 = .ok d) ↔ ∀ e, ¬ DiffProblem src dst flags (snap src w) (snap dst w) n e := by
  obtain ⟨_, g⟩ := diffFrom_spec n dst src dc flags w h.ok.refs_lt h.ok.tbl_wf h.src_types h.dst_types
  constructor
  · rintro ⟨d, hd⟩
    cases hp : pDiff ⟨src, dst, flags⟩ (snap src w) (snap dst w) n with
    | error e => rw [hp, hd] at g; cases g
    | ok r =>
      obtain ⟨es, k⟩ := r
      exact pDiff_no_problem (C := ⟨src, dst, flags⟩) h.src_ok h.dst_ok h.fields h.top_nodup hp
  · intro hno
    cases hr : diffFrom n dst src dc flags w with
    | mk r w' =>
      cases r with
      | ok d => exact ⟨d, rfl⟩
      | error e => exact absurd (diffFrom_problem h.ok h.src_ok h.dst_ok h.fields h.src_types h.dst_types h.top_nodup hr) (hno e)

theorem Comparable.swap {src dst : Adapter V} {w : World V E} (h : Comparable src dst w) (ht : src.topLevel.Nodup) :
    Comparable dst src w :=
  ⟨h.ok, h.dst_ok, h.src_ok, h.dst_types, h.src_types, fun t u s d hs hd ct f f' h1 h2 => (h.fields t u d s hd hs ct f' f h2 h1).symm, ht⟩

theorem comparedAt_swap {src dst : Adapter V} {flags flags' : Nat} {S D : Snap V} (hf : FlagsSwapped flags flags')
    (hS : S.SymmetricFlags) (hD : D.SymmetricFlags) {k : Nat} {p : Pos V} (h : ComparedAt src dst flags S D k p) :
    ComparedAt dst src flags' D S k p.swap := by
  induction h with
  | top ht => exact .top ht.swap
  | @child k p c hp hv hc ih =>
    have hst : Stored S D p := by
      cases hp with
      | top ht => exact isTop_stored ht
      | child _ _ hc => exact isChild_stored hc
    exact .child ih ((visible_swap hf hS hD hst).1 hv) hc.swap

theorem problem_swap [PyVal.Equiv V] {src dst : Adapter V} {flags flags' : Nat} {S D : Snap V} (hf : FlagsSwapped flags flags')
    (hS : S.SymmetricFlags) (hD : D.SymmetricFlags) (hwS : ∀ t u m, S.find t u = some m → Dict.WF m.identifiers)
    (hwD : ∀ t u m, D.find t u = some m → Dict.WF m.identifiers) {n : Nat} {e : Err}
    (h : DiffProblem src dst flags S D n e) : ∃ e', DiffProblem dst src flags' D S n e' := by
  have hcs : ∀ {p}, Compared src dst flags S D p → Compared dst src flags' D S p.swap := by
    intro p hp
    obtain ⟨k, hk⟩ := hp.at
    exact (comparedAt_swap hf hS hD hk).compared
  have hstored : ∀ {p}, Compared src dst flags S D p → Stored S D p := by
    intro p hp
    cases hp with
    | top ht => exact isTop_stored ht
    | child _ _ hc => exact isChild_stored hc
  have hvs : ∀ {p}, Compared src dst flags S D p → p.Visible flags → p.swap.Visible flags' :=
    fun hp hv => (visible_swap hf hS hD (hstored hp)).1 hv
  cases e with
  | objectNotFound =>
    obtain ⟨p, hp, hv, ct, u, hct, hl⟩ := h
    exact ⟨.objectNotFound, p.swap, hcs hp, hvs hp hv, ct, u, ⟨hct.2, hct.1⟩, hl.symm⟩
  | valueError =>
    obtain ⟨p, hp, s, d, hs, hd, hu⟩ := h
    refine ⟨.valueError, p.swap, hcs hp, d, s, hd, hs, ?_⟩
    rcases hu with h1 | h1 | h1
    · exact .inl (Ne.symm h1)
    · exact .inr (.inl (Ne.symm h1))
    · refine .inr (.inr ?_)
      cases hb : Dict.pyEq d.identifiers s.identifiers with
      | false => rfl
      | true =>
        have := pyEq_symm (hwD _ _ _ ((hstored hp).dst d hd)) (hwS _ _ _ ((hstored hp).src s hs)) hb
        rw [this] at h1; cases h1
  | objectAlreadyExists =>
    obtain ⟨c, c', hv, hv', ⟨ht1, hu, m, m', hm, hm', hsn⟩, hwhere⟩ := h
    have hcc : Compared src dst flags S D c ∧ Compared src dst flags S D c' := by
      rcases hwhere with ⟨h1, h2⟩ | ⟨p, hp, hvp, h1, h2⟩
      · exact ⟨.top h1, .top h2⟩
      · exact ⟨.child hp hvp h1, .child hp hvp h2⟩
    have key : ∀ (c : Pos V) (m : Model V), Compared src dst flags S D c → c.src.or c.dst = some m →
        (∃ e', DiffProblem dst src flags' D S n e') ∨ ∃ m2, c.swap.src.or c.swap.dst = some m2 ∧ m2.shortname = m.shortname := by
      intro c m hc hm
      cases hs : c.src with
      | none =>
        right
        rw [hs] at hm
        cases hd : c.dst with
        | none => rw [hd] at hm; cases hm
        | some d => rw [hd] at hm; cases hm; exact ⟨m, by simp [Pos.swap, hs, hd], rfl⟩
      | some s =>
        rw [hs] at hm; cases hm
        cases hd : c.dst with
        | none => right; exact ⟨m, by simp [Pos.swap, hs, hd], rfl⟩
        | some d =>
          by_cases hsd : m.shortname = d.shortname
          · right; exact ⟨d, by simp [Pos.swap, hd], hsd.symm⟩
          · left; exact ⟨.valueError, c.swap, hcs hc, d, m, hd, hs, .inr (.inl (Ne.symm hsd))⟩
    rcases key c m hcc.1 hm with hh | ⟨m2, e1, e2⟩
    · exact hh
    rcases key c' m' hcc.2 hm' with hh | ⟨m3, e3, e4⟩
    · exact hh
    refine ⟨.objectAlreadyExists, c.swap, c'.swap, hvs hcc.1 hv, hvs hcc.2 hv', ⟨ht1, hu, m2, m3, e1, e3, ?_⟩, ?_⟩
    · rw [e2, e4, hsn]
    · rcases hwhere with ⟨h1, h2⟩ | ⟨p, hp, hvp, h1, h2⟩
      · exact .inl ⟨h1.swap, h2.swap⟩
      · exact .inr ⟨p.swap, hcs hp, hvs hp hvp, h1.swap, h2.swap⟩
  | attributeError =>
    obtain ⟨p, hp, hv, ct, f, m, hct, hside, h1, h2⟩ := h
    exact ⟨.attributeError, p.swap, hcs hp, hvs hp hv, ct, f, m, ⟨hct.2, hct.1⟩, hside.symm, h1, h2⟩
  | recursionError =>
    rcases h with ⟨h0, t, t1, t2⟩ | ⟨j, p, hj, hp, hv, hs, ct, hct⟩
    · exact ⟨.recursionError, .inl ⟨h0, t, t2, t1⟩⟩
    · exact ⟨.recursionError, .inr ⟨j, p.swap, hj, comparedAt_swap hf hS hD hp, hvs hp.compared hv, hs.symm, ct, hct.2, hct.1⟩⟩
  | _ => exact h.elim

/-- **C13** `diff_from` returns in one direction exactly when it does in the other (for values on which `==` is an
equivalence). -/
theorem C13_returns_both_ways [PyVal.Equiv V] {n : Nat} {a b : Adapter V} {dc dc' : DiffClass V} {flags flags' : Nat} {w : World V E}
    (h : Comparable a b w) (ht : a.topLevel.Nodup) (hf : FlagsSwapped flags flags')
    (ha : (snap a w).SymmetricFlags) (hb : (snap b w).SymmetricFlags)
    (hwa : ∀ t u m, (snap a w).find t u = some m → Dict.WF m.identifiers)
    (hwb : ∀ t u m, (snap b w).find t u = some m → Dict.WF m.identifiers) :
    (∃ d, (diffFrom n b a dc flags w).1 = .ok d) ↔ ∃ d, (diffFrom n a b dc' flags' w).1 = .ok d := by
  rw [diff_returns_iff h, diff_returns_iff (h.swap ht)]
  constructor
  · intro hno e hp
    obtain ⟨e', hp'⟩ := problem_swap (flags' := flags) ⟨hf.2.symm, hf.1.symm⟩ hb ha hwb hwa hp
    exact hno e' hp'
  · intro hno e hp
    obtain ⟨e', hp'⟩ := problem_swap hf ha hb hwa hwb hp
    exact hno e' hp'

/-- **C13** `a.diff_to(b)` mirrors `a.diff_from(b)`: swapping the adapters (and, if used, the SKIP_UNMATCHED flags) mirrors the diff: the elements are the same up to
order, at every depth, with the two sides exchanged. -/
theorem C13_mirrored {n n' : Nat} {a b : Adapter V} {dc dc' : DiffClass V} {flags flags' : Nat} {w wa wb : World V E}
    {d d' : Diff V} (h : Comparable a b w) (ht : a.topLevel.Nodup) (hf : FlagsSwapped flags flags')
    (ha : (snap a w).SymmetricFlags) (hb : (snap b w).SymmetricFlags)
    (hr : diffTo n a b dc flags w = (.ok d, wa)) (hr' : diffFrom n' a b dc' flags' w = (.ok d', wb)) :
    MirrorL d.kids d'.kids :=
  describesTop_mirror hf ha hb (diffFrom_describes h.ok h.src_ok h.dst_ok h.fields h.src_types h.dst_types h.top_nodup hr).1
    (diffFrom_describes h.ok h.dst_ok h.src_ok (h.swap ht).fields h.dst_types h.src_types ht hr').1

/-- **C13** Hence `has_diffs()` is the same in both directions, and `summary()` has create and delete exchanged and the same
update and no-change. -/
theorem C13_summary_mirrored [PyVal.Equiv V] {n n' : Nat} {a b : Adapter V} {dc dc' : DiffClass V} {flags flags' : Nat}
    {w wa wb : World V E} {d d' : Diff V} (h : Comparable a b w) (ht : a.topLevel.Nodup) (hf : FlagsSwapped flags flags')
    (ha : (snap a w).SymmetricFlags) (hb : (snap b w).SymmetricFlags) (hdc : dc.Reorders) (hdc' : dc'.Reorders)
    (hr : diffTo n a b dc flags w = (.ok d, wa)) (hr' : diffFrom n' a b dc' flags' w = (.ok d', wb)) :
    d'.hasDiffs = d.hasDiffs ∧ d'.summary.create = d.summary.delete ∧ d'.summary.delete = d.summary.create ∧
      d'.summary.update = d.summary.update ∧ d'.summary.noChange = d.summary.noChange := by
  have hm := C13_mirrored h ht hf ha hb hr hr'
  have e1 : d.cls = dc := (diffFrom_describes h.ok h.src_ok h.dst_ok h.fields h.src_types h.dst_types h.top_nodup hr).2
  have e2 : d'.cls = dc' := (diffFrom_describes h.ok h.dst_ok h.src_ok (h.swap ht).fields h.dst_types h.src_types ht hr').2
  have hc : d'.summary.create = d.summary.delete ∧ d'.summary.delete = d.summary.create ∧
      d'.summary.update = d.summary.update ∧ d'.summary.noChange = d.summary.noChange := by
    rw [Diff.summary_eq_nodes d (e1 ▸ hdc), Diff.summary_eq_nodes d' (e2 ▸ hdc')]
    exact ⟨hm.count (some .delete), hm.count (some .create), hm.count (some .update), hm.count none⟩
  refine ⟨?_, hc⟩
  have g1 := (C02_has_diffs d (e1 ▸ hdc)).2.1
  have g2 := (C02_has_diffs d' (e2 ▸ hdc')).2.1
  obtain ⟨c1, c2, c3, _⟩ := hc
  rw [Bool.eq_iff_iff, g1, g2]
  omega

/-! ## C14 -/

/-- **C14** With SKIP_UNMATCHED_SRC no element at any depth of a returned diff has action create; with
SKIP_UNMATCHED_DST none has action delete. -/
theorem C14_no_unmatched {n : Nat} {src dst : Adapter V} {dc : DiffClass V} {flags : Nat} {w w' : World V E}
    {d : Diff V} (h : Comparable src dst w) (hr : diffFrom n dst src dc flags w = (.ok d, w')) (e : Elem V)
    (he : InTree e d.kids) :
    (flagOn flags GF.SKIP_UNMATCHED_SRC = true → e.action ≠ some .create) ∧
    (flagOn flags GF.SKIP_UNMATCHED_DST = true → e.action ≠ some .delete) := by
  have hd := (diffFrom_describes h.ok h.src_ok h.dst_ok h.fields h.src_types h.dst_types h.top_nodup hr).1
  obtain ⟨p, _, hv, hde⟩ := hd.inTree he
  obtain ⟨c1, c2, _⟩ := C01_action_classification e
  rw [hde.header.src_eq, hde.header.dst_eq] at c1 c2
  constructor
  · intro hf ha
    obtain ⟨g1, g2⟩ := c1.1 ha
    cases hs : p.src with
    | none => rw [hs] at g1; simp at g1
    | some s =>
      cases hdd : p.dst with
      | some d => rw [hdd] at g2; simp at g2
      | none => exact hv (by rw [hs, hdd]; exact .globalSrc s hf)
  · intro hf ha
    obtain ⟨g1, g2⟩ := c2.1 ha
    cases hs : p.src with
    | some s => rw [hs] at g1; simp at g1
    | none =>
      cases hdd : p.dst with
      | none => rw [hdd] at g2; simp at g2
      | some d => exact hv (by rw [hs, hdd]; exact .globalDst d hf)

/-- **C14** Adding SKIP_UNMATCHED flags to those of a diff that returns gives a diff that returns too, and it is the
first one with the one-sided elements of the skipped sides, and what is below them, removed. -/
theorem C14_flags_prune {n : Nat} {src dst : Adapter V} {dc : DiffClass V} {flags flags' : Nat} {w w' : World V E}
    {d : Diff V} (h : w.OK) (hr : diffFrom n dst src dc flags w = (.ok d, w'))
    (h1 : flagOn flags GF.SKIP_UNMATCHED_SRC = true → flagOn flags' GF.SKIP_UNMATCHED_SRC = true)
    (h2 : flagOn flags GF.SKIP_UNMATCHED_DST = true → flagOn flags' GF.SKIP_UNMATCHED_DST = true) :
    ∃ d', (diffFrom n dst src dc flags' w).1 = .ok d' ∧ d'.cls = d.cls ∧ d'.kids = pruneL (skippedBy flags') d.kids := by
  obtain ⟨_, g⟩ := diffFrom_raw n dst src dc flags w h.refs_lt h.tbl_wf
  obtain ⟨_, g'⟩ := diffFrom_raw n dst src dc flags' w h.refs_lt h.tbl_wf
  cases hp : pDiff ⟨src, dst, flags⟩ (rawSnap src w) (rawSnap dst w) n with
  | error e => rw [hp, hr] at g; cases g
  | ok r =>
    obtain ⟨es, k⟩ := r
    rw [hp, hr] at g
    obtain ⟨g, _⟩ := g
    cases g
    obtain ⟨k', hp'⟩ := pDiff_prune h1 h2 hp
    rw [hp'] at g'
    exact ⟨_, g'.1, rfl, rfl⟩

/-! ## C15 -/

/-- **C15** Every element of a returned diff stands for a place whose objects are not flagged IGNORE, nor
SKIP_UNMATCHED_SRC / SKIP_UNMATCHED_DST while unmatched on that side; and it is reached from the top through such
places only (`Compared`). -/
theorem C15_model_flags {n : Nat} {src dst : Adapter V} {dc : DiffClass V} {flags : Nat} {w w' : World V E}
    {d : Diff V} (h : Comparable src dst w) (hr : diffFrom n dst src dc flags w = (.ok d, w')) (e : Elem V)
    (he : InTree e d.kids) :
    ∃ p, Compared src dst flags (snap src w) (snap dst w) p ∧ Describes src dst flags (snap src w) (snap dst w) e p ∧
      (∀ s, p.src = some s → flagOn s.flags MF.IGNORE = false ∧
        (p.dst = none → flagOn s.flags MF.SKIP_UNMATCHED_SRC = false)) ∧
      (∀ d, p.dst = some d → flagOn d.flags MF.IGNORE = false ∧
        (p.src = none → flagOn d.flags MF.SKIP_UNMATCHED_DST = false)) := by
  obtain ⟨p, hp, hv, hd⟩ := (C10_all_depths h hr).1 e he
  refine ⟨p, hp, hd, ?_, ?_⟩
  · intro s hs
    constructor
    · cases hf : flagOn s.flags MF.IGNORE with
      | false => rfl
      | true => exact absurd (show Hidden flags p.src p.dst by rw [hs]; exact .ignoreSrc s _ hf) hv
    · intro hdn
      cases hf : flagOn s.flags MF.SKIP_UNMATCHED_SRC with
      | false => rfl
      | true => exact absurd (show Hidden flags p.src p.dst by rw [hs, hdn]; exact .modelSrc s hf) hv
  · intro s hs
    constructor
    · cases hf : flagOn s.flags MF.IGNORE with
      | false => rfl
      | true => exact absurd (show Hidden flags p.src p.dst by rw [hs]; exact .ignoreDst _ s hf) hv
    · intro hdn
      cases hf : flagOn s.flags MF.SKIP_UNMATCHED_DST with
      | false => rfl
      | true => exact absurd (show Hidden flags p.src p.dst by rw [hs, hdn]; exact .modelDst s hf) hv

/-- **C15** An object flagged so as to be excluded has no element at the top of the diff: no element there has its type
and shortname (among compared objects of that type, shortnames being distinct). -/
theorem C15_no_element_at_top {n : Nat} {src dst : Adapter V} {dc : DiffClass V} {flags : Nat} {w w' : World V E}
    {d : Diff V} (h : Comparable src dst w) (hr : diffFrom n dst src dc flags w = (.ok d, w'))
    {c : Pos V} (hc : IsTop src dst (snap src w) (snap dst w) c) (hh : Hidden flags c.src c.dst)
    {m : Model V} (_hm : c.src = some m ∨ c.dst = some m)
    (huniq : ∀ c' m', IsTop src dst (snap src w) (snap dst w) c' → c'.type = c.type →
      (c'.src = some m' ∨ c'.dst = some m') → m'.shortname = m.shortname → c'.uid = c.uid) :
    ∀ e ∈ d.kids, ¬ (e.type = c.type ∧ e.name = m.shortname) := by
  obtain ⟨ps, hd, hps, hl, hz⟩ := C10_diff_describes_contents h hr
  rintro e he ⟨h1, h2⟩
  obtain ⟨q, hq, hx⟩ := zip_mem_left hl he
  have hhd : Header src dst e q := by cases hz _ hx; assumption
  obtain ⟨hqt, hqv⟩ := (hps q).1 hq
  obtain ⟨m', hm'⟩ := or_some_of hqt.some_side
  have hm'' : q.src = some m' ∨ q.dst = some m' := by
    cases hqs : q.src with
    | none => rw [hqs] at hm'; exact .inr hm'
    | some s => rw [hqs] at hm'; exact .inl hm'
  have ht : q.type = c.type := hhd.type_eq.symm.trans h1
  have hu := huniq q m' hqt ht hm'' (((hhd.name_eq m' hm').1).symm.trans h2)
  have e1 : q.src = c.src := by rw [hqt.src_eq, hc.src_eq, ht, hu]
  have e2 : q.dst = c.dst := by rw [hqt.dst_eq, hc.dst_eq, ht, hu]
  exact hqv (by rw [e1, e2]; exact hh)

/-- **C15** The same below an element: an excluded child has no element among the element's children. -/
theorem C15_no_element_below {n : Nat} {src dst : Adapter V} {dc : DiffClass V} {flags : Nat} {w w' : World V E}
    {d : Diff V} (h : Comparable src dst w) (hr : diffFrom n dst src dc flags w = (.ok d, w'))
    {x : Elem V} (hx : InTree x d.kids) :
    ∃ p, Describes src dst flags (snap src w) (snap dst w) x p ∧
      ∀ c m, IsChild (snap src w) (snap dst w) p c → Hidden flags c.src c.dst → (c.src = some m ∨ c.dst = some m) →
        (∀ c' m', IsChild (snap src w) (snap dst w) p c' → c'.type = c.type →
          (c'.src = some m' ∨ c'.dst = some m') → m'.shortname = m.shortname → c'.uid = c.uid) →
        ∀ e ∈ x.kids, ¬ (e.type = c.type ∧ e.name = m.shortname) := by
  have hd := (diffFrom_describes h.ok h.src_ok h.dst_ok h.fields h.src_types h.dst_types h.top_nodup hr).1
  obtain ⟨p, hp, hv, hdx⟩ := hd.inTree hx
  refine ⟨p, hdx.describes, ?_⟩
  intro c m hc hh hm huniq
  rintro e he ⟨h1, h2⟩
  cases hdx with
  | mk ps _ _ _ hps _ _ hl hz =>
    obtain ⟨q, hq, hxq⟩ := zip_mem_left hl he
    have hhd := (hz _ hxq).header
    obtain ⟨hqt, hqv⟩ := (hps q).1 hq
    obtain ⟨m', hm'⟩ := or_some_of (hz _ hxq).good.some_side
    have hm'' : q.src = some m' ∨ q.dst = some m' := by
      cases hqs : q.src with
      | none => simp only at hm'; rw [hqs] at hm'; exact .inr hm'
      | some s => simp only at hm'; rw [hqs] at hm'; exact .inl hm'
    have ht : q.type = c.type := hhd.type_eq.symm.trans h1
    have hu := huniq q m' hqt ht hm'' (((hhd.name_eq m' hm').1).symm.trans h2)
    have e1 : q.src = c.src := by rw [hqt.src_eq, hc.src_eq, ht, hu]
    have e2 : q.dst = c.dst := by rw [hqt.dst_eq, hc.dst_eq, ht, hu]
    exact hqv (by rw [e1, e2]; exact hh)

/-! ## C16 -/

/-- **C16** Whenever `diff_from` returns, every child id listed, for a compared child type, by an object at a place in the
diff is the id of a stored object. -/
theorem C16_returned_means_resolved {n : Nat} {src dst : Adapter V} {dc : DiffClass V} {flags : Nat} {w w' : World V E}
    {d : Diff V} (h : Comparable src dst w) (hr : diffFrom n dst src dc flags w = (.ok d, w')) (p : Pos V)
    (hp : Compared src dst flags (snap src w) (snap dst w) p) (hv : p.Visible flags) (ct u : String)
    (hct : comparesType p.src p.dst ct) :
    (listsO p.src ct u = true → (snap src w).find ct u ≠ none) ∧ (listsO p.dst ct u = true → (snap dst w).find ct u ≠ none) := by
  have hd := (diffFrom_describes h.ok h.src_ok h.dst_ok h.fields h.src_types h.dst_types h.top_nodup hr).1
  obtain ⟨x, _, hx⟩ := hd.complete hp hv
  exact hx.good.resolved ct u hct

/-- **C16** If an object that takes part lists a child that is not stored, `diff_from` raises; and the exception is
`ObjectNotFound` unless there is another problem of one of the listed kinds. -/
theorem C16_dangling_raises {n : Nat} {src dst : Adapter V} (dc : DiffClass V) {flags : Nat} {w : World V E}
    (h : Comparable src dst w) (p : Pos V) (hp : Compared src dst flags (snap src w) (snap dst w) p)
    (hv : p.Visible flags) (hdang : p.Dangling (snap src w) (snap dst w)) :
    ∃ e, (diffFrom n dst src dc flags w).1 = .error e ∧ DiffProblem src dst flags (snap src w) (snap dst w) n e ∧
      ((∀ e', DiffProblem src dst flags (snap src w) (snap dst w) n e' → e' = .objectNotFound) → e = .objectNotFound) := by
  cases hr : diffFrom n dst src dc flags w with
  | mk r w' =>
    cases r with
    | ok d =>
      exfalso
      obtain ⟨ct, u, hct, hl⟩ := hdang
      obtain ⟨g1, g2⟩ := C16_returned_means_resolved h hr p hp hv ct u hct
      rcases hl with ⟨h1, h2⟩ | ⟨h1, h2⟩
      · exact g1 h1 h2
      · exact g2 h1 h2
    | error e =>
      have := diffFrom_problem h.ok h.src_ok h.dst_ok h.fields h.src_types h.dst_types h.top_nodup hr
      exact ⟨e, rfl, this, fun hall => hall e this⟩

/-! ## C17 -/

/-- **C17** Whenever `diff_from` returns, the two objects at every compared place (shown in the diff or excluded) have
equal type, shortname and identifiers. -/
theorem C17_only_like_objects {n : Nat} {src dst : Adapter V} {dc : DiffClass V} {flags : Nat} {w w' : World V E}
    {d : Diff V} (h : Comparable src dst w) (hr : diffFrom n dst src dc flags w = (.ok d, w')) (p : Pos V)
    (hp : Compared src dst flags (snap src w) (snap dst w) p) (a b : Model V) (ha : p.src = some a) (hb : p.dst = some b) :
    a.type = b.type ∧ a.shortname = b.shortname ∧ Dict.pyEq a.identifiers b.identifiers = true := by
  have hd := (diffFrom_describes h.ok h.src_ok h.dst_ok h.fields h.src_types h.dst_types h.top_nodup hr).1
  have hv := hd.validated hp
  rw [ha, hb] at hv
  unfold validatePair at hv
  simp only at hv
  split at hv
  · cases hv
  · split at hv
    · cases hv
    · split at hv
      · rename_i h1 h2 h3
        exact ⟨by simpa using h1, by simpa using h2, h3⟩
      · cases hv

/-- **C17** A pair that shares a unique id but differs in type, shortname or identifiers makes `diff_from` raise; and
`ValueError` is raised only because of such a pair. -/
theorem C17_unlike_raises {n : Nat} {src dst : Adapter V} (dc : DiffClass V) {flags : Nat} {w : World V E}
    (h : Comparable src dst w) :
    ((∃ p, Compared src dst flags (snap src w) (snap dst w) p ∧ p.Unlike) →
      ∃ e, (diffFrom n dst src dc flags w).1 = .error e ∧ DiffProblem src dst flags (snap src w) (snap dst w) n e) ∧
    ((diffFrom n dst src dc flags w).1 = .error .valueError →
      ∃ p, Compared src dst flags (snap src w) (snap dst w) p ∧ p.Unlike) := by
  cases hr : diffFrom n dst src dc flags w with
  | mk r w' =>
    constructor
    · rintro ⟨p, hp, a, b, ha, hb, hun⟩
      cases r with
      | ok d =>
        exfalso
        obtain ⟨g1, g2, g3⟩ := C17_only_like_objects h hr p hp a b ha hb
        rcases hun with h1 | h1 | h1
        · exact h1 g1
        · exact h1 g2
        · rw [g3] at h1; cases h1
      | error e => exact ⟨e, rfl, diffFrom_problem h.ok h.src_ok h.dst_ok h.fields h.src_types h.dst_types h.top_nodup hr⟩
    · intro he
      simp only at he
      subst he
      exact diffFrom_problem h.ok h.src_ok h.dst_ok h.fields h.src_types h.dst_types h.top_nodup hr

/-! ## C18 -/

theorem chain_list {tot a b : Nat} {evs : List (Event V)} (h : Chain tot a evs b) :
    ∃ cs : List Nat, evs = cs.map (fun c => Event.diffProgress c tot) ∧ (a :: cs).Pairwise (· < ·) ∧
      (a :: cs).getLast (by simp) = b := by
  induction h with
  | nil => exact ⟨[], rfl, by simp, rfl⟩
  | @step a b c evs hab _ ih =>
    obtain ⟨cs, rfl, h1, h2⟩ := ih
    refine ⟨b :: cs, rfl, ?_, ?_⟩
    · rw [List.pairwise_cons]
      refine ⟨?_, h1⟩
      intro x hx
      rcases List.mem_cons.1 hx with rfl | hx
      · exact hab
      · exact Nat.lt_trans hab ((List.pairwise_cons.1 h1).1 x hx)
    · rw [List.getLast_cons (by simp)]
      exact h2

/-- **C18** (all but the last clause, which is `C18_current_within_total`) The
callbacks of a diff carry strictly increasing positive `current` values and one constant `total`, the number of objects
in the two stores as `count` gives it; when the diff returns, the last value is the number of models processed. -/
theorem C18_diff_progress (n : Nat) (src dst : Adapter V) (dc : DiffClass V) (flags : Nat) (w : World V E) (h : w.OK) :
    ∃ cs : List Nat,
      (diffFrom n dst src dc flags w).2.trace = w.trace ++
        cs.map (fun c => Event.diffProgress c (countStore src.ref.store w + countStore dst.ref.store w)) ∧
      (0 :: cs).Pairwise (· < ·) ∧
      ∀ d, (diffFrom n dst src dc flags w).1 = .ok d → (0 :: cs).getLast (by simp) = d.processed := by
  obtain ⟨h1, h2⟩ := diffFrom_raw n dst src dc flags w h.refs_lt h.tbl_wf
  obtain ⟨evs, he, hc⟩ := h1.trace
  obtain ⟨cs, rfl, c1, c2⟩ := chain_list hc
  refine ⟨cs, he, c1, ?_⟩
  intro d hd
  split at h2
  · rw [hd] at h2
    obtain ⟨h2, h3⟩ := h2
    cases h2
    rw [← h3]
    exact c2
  · rw [hd] at h2; cases h2

/-! ## C19 -/

theorem comparedAt_chain {src dst : Adapter V} {flags : Nat} {S D : Snap V} {k : Nat} {p : Pos V}
    (h : ComparedAt src dst flags S D k p) :
    (p.src ≠ none → ∃ a, ListsChain S k a (p.type, p.uid)) ∧ (p.dst ≠ none → ∃ a, ListsChain D k a (p.type, p.uid)) ∧
    (∀ m, p.src = some m → S.find p.type p.uid = some m) ∧ (∀ m, p.dst = some m → D.find p.type p.uid = some m) := by
  induction h with
  | top ht =>
    exact ⟨fun _ => ⟨_, .refl _⟩, fun _ => ⟨_, .refl _⟩, fun m hm => ht.src_eq.symm.trans hm, fun m hm => ht.dst_eq.symm.trans hm⟩
  | @child k p c hp hv hc ih =>
    have key : ∀ (X : Snap V) (o o' : Option (Model V)), o' = (if listsO o c.type c.uid then X.find c.type c.uid else none) →
        (o ≠ none → ∃ a, ListsChain X k a (p.type, p.uid)) → (∀ m, o = some m → X.find p.type p.uid = some m) →
        (o' ≠ none → ∃ a, ListsChain X (k + 1) a (c.type, c.uid)) ∧ (∀ m, o' = some m → X.find c.type c.uid = some m) := by
      intro X o o' ho h1 h2
      by_cases hl : listsO o c.type c.uid = true
      · rw [if_pos hl] at ho
        refine ⟨fun hne => ?_, fun m hm => ho.symm.trans hm⟩
        cases o with
        | none => simp [listsO] at hl
        | some m =>
          obtain ⟨a, ha⟩ := h1 (by simp)
          exact ⟨a, .step ha (h2 m rfl) hl⟩
      · rw [if_neg hl] at ho
        subst ho
        exact ⟨fun hne => absurd rfl hne, fun m hm => by cases hm⟩
    obtain ⟨i1, i2, i3, i4⟩ := ih
    obtain ⟨a1, a2⟩ := key S p.src c.src hc.src_eq i1 i3
    obtain ⟨b1, b2⟩ := key D p.dst c.dst hc.dst_eq i2 i4
    exact ⟨a1, b1, a2, b2⟩

/-- **C19** If child chains have at most `H` steps in both adapters, a recursion limit of `H + 2` calls suffices: the diff
does not raise `RecursionError`. -/
theorem C19_bounded_depth {n H : Nat} {src dst : Adapter V} (dc : DiffClass V) {flags : Nat} {w : World V E}
    (h : Comparable src dst w)
    (hs : ∀ k a b, ListsChain (snap src w) k a b → k ≤ H) (hd : ∀ k a b, ListsChain (snap dst w) k a b → k ≤ H)
    (hn : H + 2 ≤ n) : (diffFrom n dst src dc flags w).1 ≠ .error .recursionError := by
  intro he
  have := diffFrom_problem h.ok h.src_ok h.dst_ok h.fields h.src_types h.dst_types h.top_nodup (Prod.ext he rfl)
  rcases this with ⟨h0, _⟩ | ⟨k, p, hk, hp, hv, hsome, ct, hct⟩
  · omega
  · obtain ⟨c1, c2, _, _⟩ := comparedAt_chain hp
    rcases hsome with h1 | h1
    · obtain ⟨a, ha⟩ := c1 h1
      have := hs _ _ _ ha; omega
    · obtain ⟨a, ha⟩ := c2 h1
      have := hd _ _ _ ha; omega

theorem acyclic_chain {S : Snap V} (hac : S.Acyclic) {k : Nat} {a b : String × String} (h : ListsChain S k a b) :
    ∃ xs : List (String × String), xs.length = k ∧ xs.Nodup ∧ ∀ x ∈ xs, S.find x.1 x.2 ≠ none ∧ ∃ j, ListsChain S (j + 1) x b := by
  induction h with
  | refl a => exact ⟨[], rfl, List.nodup_nil, by simp⟩
  | @step k a t u ct v m hc hf hl ih =>
    obtain ⟨xs, h1, h2, h3⟩ := ih
    refine ⟨(t, u) :: xs, by simp [h1], List.nodup_cons.2 ⟨?_, h2⟩, ?_⟩
    · intro hm
      obtain ⟨_, j, hj⟩ := h3 _ hm
      exact hac j _ hj
    · intro x hx
      rcases List.mem_cons.1 hx with rfl | hx
      · exact ⟨by simp [hf], 0, .step (.refl _) hf hl⟩
      · obtain ⟨g1, j, hj⟩ := h3 x hx
        exact ⟨g1, j + 1, .step hj hf hl⟩

/-- **C19** If no object of either adapter is its own transitive child, the diff does not raise `RecursionError` once the
limit exceeds the number of stored objects of each by two (`Ls`, `Ld` list the stored keys). -/
theorem C19_acyclic_terminates {n : Nat} {src dst : Adapter V} (dc : DiffClass V) {flags : Nat} {w : World V E}
    (h : Comparable src dst w) (hs : (snap src w).Acyclic) (hd : (snap dst w).Acyclic)
    (Ls Ld : List (String × String)) (hLs : ∀ t u, (snap src w).find t u ≠ none → (t, u) ∈ Ls)
    (hLd : ∀ t u, (snap dst w).find t u ≠ none → (t, u) ∈ Ld)
    (hn : Ls.length + 2 ≤ n) (hn' : Ld.length + 2 ≤ n) :
    (diffFrom n dst src dc flags w).1 ≠ .error .recursionError := by
  refine C19_bounded_depth (H := max Ls.length Ld.length) dc h ?_ ?_ (by omega)
  · intro k a b hc
    obtain ⟨xs, h1, h2, h3⟩ := acyclic_chain hs hc
    have := nodup_length_le h2 (m := Ls) (fun x hx => hLs x.1 x.2 (h3 x hx).1)
    omega
  · intro k a b hc
    obtain ⟨xs, h1, h2, h3⟩ := acyclic_chain hd hc
    have := nodup_length_le h2 (m := Ld) (fun x hx => hLd x.1 x.2 (h3 x hx).1)
    omega

theorem FarBelow.head {flags : Nat} {S D : Snap V} {p q : Pos V} (h : FarBelow flags S D p q) :
    ∃ c, Below flags S D p c ∧ (c = q ∨ FarBelow flags S D c q) := by
  induction h with
  | one h => exact ⟨_, h, .inl rfl⟩
  | more _ h2 ih =>
    obtain ⟨c, hc, h | h⟩ := ih
    · subst h; exact ⟨c, hc, .inr (.one h2)⟩
    · exact ⟨c, hc, .inr (.more h h2)⟩

theorem no_cycle {src dst : Adapter V} {flags : Nat} {S D : Snap V} {e : Elem V} : ∀ {p : Pos V},
    DescribesG src dst flags S D e p → FarBelow flags S D p p → False := by
  induction e using Elem.ind with
  | h e ih =>
    intro p hd hc
    obtain ⟨c, hb, hrest⟩ := hc.head
    have hcc : FarBelow flags S D c c := by
      rcases hrest with rfl | hr
      · exact .one hb
      · exact .more hr hb
    cases hd with
    | mk ps _ _ _ hps _ _ hl hz =>
      obtain ⟨y, hy, hyc⟩ := zip_mem_right hl ((hps c).2 ⟨hb.2.1, hb.2.2⟩)
      exact ih y hy (hz _ hyc) hcc

/-- **C19** If following child lists from a compared place leads back to it, no recursion limit suffices: `diff_from`
raises for every limit, and what it raises is `RecursionError` unless there is another problem. -/
theorem C19_cycle_never_returns {src dst : Adapter V} (dc : DiffClass V) {flags : Nat} {w : World V E}
    (h : Comparable src dst w) (p : Pos V) (hp : Compared src dst flags (snap src w) (snap dst w) p)
    (hcyc : FarBelow flags (snap src w) (snap dst w) p p) (n : Nat) :
    ∃ e, (diffFrom n dst src dc flags w).1 = .error e ∧ DiffProblem src dst flags (snap src w) (snap dst w) n e ∧
      ((∀ e', DiffProblem src dst flags (snap src w) (snap dst w) n e' → e' = .recursionError) → e = .recursionError) := by
  cases hr : diffFrom n dst src dc flags w with
  | mk r w' =>
    cases r with
    | ok d =>
      exfalso
      obtain ⟨c, hb, _⟩ := hcyc.head
      obtain ⟨x, _, hx⟩ := (diffFrom_describes h.ok h.src_ok h.dst_ok h.fields h.src_types h.dst_types h.top_nodup hr).1.complete hp hb.1
      exact no_cycle hx hcyc
    | error e =>
      have := diffFrom_problem h.ok h.src_ok h.dst_ok h.fields h.src_types h.dst_types h.top_nodup hr
      exact ⟨e, rfl, this, fun hall => hall e this⟩

/-! ## C20 -/

/-- **C20** Every element at the top of a diff is of a type that is top level in both adapters. -/
theorem C20_top_types {n : Nat} {src dst : Adapter V} {dc : DiffClass V} {flags : Nat} {w w' : World V E}
    {d : Diff V} (h : Comparable src dst w) (hr : diffFrom n dst src dc flags w = (.ok d, w')) :
    ∀ e ∈ d.kids, e.type ∈ src.topLevel ∧ e.type ∈ dst.topLevel := by
  obtain ⟨ps, hd, hps, hl, hz⟩ := C10_diff_describes_contents h hr
  intro e he
  obtain ⟨q, hq, hx⟩ := zip_mem_left hl he
  have hh : Header src dst e q := by cases hz _ hx; assumption
  rw [hh.type_eq]
  exact ⟨((hps q).1 hq).1.src_top, ((hps q).1 hq).1.dst_top⟩

end DS

/-! ## The hypotheses are met -/

namespace DS.Ex

theorem w1_ok : w1.OK := addModels_ok _ _ _ (addModels_ok _ _ _ (world0_ok _))

/-- `Comparable` holds of the example world of Verif/Model/Tests.lean: three levels, with creates, updates and deletes. -/
theorem comparable_w1 : Comparable (ad 1) (ad 2) w1 :=
  comparable_local w1_ok rfl rfl (by decide +kernel) (by decide +kernel) (by decide +kernel)

/-- and in it `diff_from` returns, with diffs, so C06, C10-C15, C18 and C20 speak about it. -/
example : ∃ d w', diffFrom 10 (ad 2) (ad 1) (DiffClass.default _) 0 w1 = (.ok d, w') ∧ d.hasDiffs = true := by
  have h : (match (diffFrom 10 (ad 2) (ad 1) (DiffClass.default _) 0 w1).1 with | .ok d => d.hasDiffs | .error _ => false) = true := by
    decide +kernel
  cases hr : diffFrom 10 (ad 2) (ad 1) (DiffClass.default _) 0 w1 with
  | mk r w' =>
    rw [hr] at h
    cases r with
    | ok d => exact ⟨d, w', rfl, h⟩
    | error e => cases h

/-- The conclusion of C12 on an equal copy (`C12_self_diff`): same contents in two stores. -/
def wEq : World String (List Outcome) :=
  addModels (ad 1) [site "nyc" ["a"], device "a" "leaf" []] (addModels (ad 2) [site "nyc" ["a"], device "a" "leaf" []] (world0 String _ []))
example : sumOf (diffFrom 10 (ad 2) (ad 1) (DiffClass.default _) 0 wEq) = some (⟨0, 0, 0, 2⟩, 0, 2, false) := by decide +kernel

/-- Objects with flags (C15): the device `a` is flagged IGNORE on one side, `b` SKIP_UNMATCHED_SRC. -/
def wFlags : World String (List Outcome) :=
  addModels (ad 1) [site "nyc" ["a", "b"], device "a" "leaf" ["a__e"] 1, device "b" "x" [] 4, interface "a" "e" "up"]
    (addModels (ad 2) [site "nyc" ["a"], device "a" "spine" []] (world0 String _ []))
theorem comparable_wFlags : Comparable (ad 1) (ad 2) wFlags :=
  comparable_local (addModels_ok _ _ _ (addModels_ok _ _ _ (world0_ok _))) rfl rfl (by decide +kernel) (by decide +kernel)
    (by decide +kernel)
example : sumOf (diffFrom 10 (ad 2) (ad 1) (DiffClass.default _) 0 wFlags) = some (⟨0, 0, 0, 1⟩, 2, 1, false) := by decide +kernel

/-- **C06** `skip` is not a number of models: an excluded pair counts as one although two models were visited.  Here the models are
two sites and the device `a` on both sides, flagged IGNORE; four models were visited, two are represented, but `skip`
is 1. -/
theorem C06_hidden_pair_counts_once :
    sumOf (diffFrom 10 (ad 2) (ad 1) (DiffClass.default _) 0
      (addModels (ad 1) [site "nyc" ["a"], device "a" "leaf" [] 1]
        (addModels (ad 2) [site "nyc" ["a"], device "a" "spine" []] (world0 String (List Outcome) [])))) =
      some (⟨0, 0, 0, 1⟩, 1, 1, false) := by decide +kernel

/-- The global flags (C14). -/
example : sumOf (diffFrom 10 (ad 2) (ad 1) (DiffClass.default _) GF.SKIP_UNMATCHED_SRC w1) = some (⟨0, 1, 4, 1⟩, 3, 6, true) := by
  decide +kernel

/-- A site that lists a device that is not stored (C16). -/
def wDangling : World String (List Outcome) :=
  addModels (ad 1) [site "nyc" ["a"]] (addModels (ad 2) [site "nyc" []] (world0 String _ []))
theorem comparable_wDangling : Comparable (ad 1) (ad 2) wDangling :=
  comparable_local (addModels_ok _ _ _ (addModels_ok _ _ _ (world0_ok _))) rfl rfl (by decide +kernel) (by decide +kernel)
    (by decide +kernel)

/-- The place of the site in a world where both adapters know it. -/
def sitePos (w : World String (List Outcome)) (u : String) : Pos String :=
  ⟨"site", u, (snap (ad 1) w).find "site" u, (snap (ad 2) w).find "site" u⟩
theorem sitePos_compared {w : World String (List Outcome)} {u : String} {flags : Nat}
    (h : (snap (ad 1) w).find "site" u ≠ none ∨ (snap (ad 2) w).find "site" u ≠ none) :
    Compared (ad 1) (ad 2) flags (snap (ad 1) w) (snap (ad 2) w) (sitePos w u) :=
  .top ⟨List.mem_singleton.2 rfl, List.mem_singleton.2 rfl, rfl, rfl, h⟩

theorem visible_of_not_skip {flags : Nat} {p : Pos V} [PyVal V] (hs : p.src ≠ none ∨ p.dst ≠ none)
    (h : skipPair flags p.src p.dst = false) : p.Visible flags := by
  intro hh
  rw [(skipPair_iff _ _ _ hs).2 hh] at h
  cases h

theorem sitePos_dangling : ∃ p, Compared (ad 1) (ad 2) 0 (snap (ad 1) wDangling) (snap (ad 2) wDangling) p ∧ p.Visible 0 ∧
    p.Dangling (snap (ad 1) wDangling) (snap (ad 2) wDangling) := by
  refine ⟨sitePos wDangling "nyc", sitePos_compared (.inl (by decide +kernel)), visible_of_not_skip (.inl (by decide +kernel)) (by decide +kernel), "device", "a", ?_, .inl ⟨by decide +kernel, by decide +kernel⟩⟩
  have h1 : sitePos wDangling "nyc" = ⟨"site", "nyc", some (site "nyc" ["a"]), some (site "nyc" [])⟩ := by rfl
  rw [h1]
  constructor <;> (intro m hm; cases hm; decide)

/-- C16 in action. -/
example : (diffFrom 10 (ad 2) (ad 1) (DiffClass.default _) 0 wDangling).1.toOption.isNone = true := by decide +kernel

/-- Interfaces with different identifiers but the same unique id (C17), listed at the top. -/
def adI (k : Nat) : Adapter String := { ad k with topLevel := ["interface"] }
def wUnlike : World String (List Outcome) :=
  addModels (adI 1) [interface "a__b" "c" ""] (addModels (adI 2) [interface "a" "b__c" ""] (world0 String _ []))
theorem comparable_wUnlike : Comparable (adI 1) (adI 2) wUnlike :=
  comparable_local (addModels_ok _ _ _ (addModels_ok _ _ _ (world0_ok _))) rfl rfl (by decide +kernel) (by decide +kernel)
    (by decide +kernel)
example : ∃ p, Compared (adI 1) (adI 2) 0 (snap (adI 1) wUnlike) (snap (adI 2) wUnlike) p ∧ p.Unlike :=
  ⟨⟨"interface", "a__b__c", _, _⟩, .top ⟨List.mem_singleton.2 rfl, List.mem_singleton.2 rfl, rfl, rfl, .inl (by decide +kernel)⟩,
    interface "a__b" "c" "", interface "a" "b__c" "", rfl, rfl, .inr (.inl (by decide +kernel))⟩

/-- A class whose instances can be children of each other, and a world with a cycle (C19). -/
def nodeC : ModelClass String where
  name := "node"
  fields := [("name", none)]
  identifiers := ["name"]
  children := [("node", "nodes")]
def nodeM (name : String) (kids : List String) : Model String := ⟨nodeC, [("name", name)], [("nodes", kids)], 0⟩
def adN (k : Nat) : Adapter String := { ad k with topLevel := ["node"], classes := [("node", nodeC)] }
def wCycle : World String (List Outcome) := addModels (adN 1) [nodeM "a" ["b"], nodeM "b" ["a"]] (world0 String _ [])
theorem comparable_wCycle : Comparable (adN 1) (adN 2) wCycle :=
  comparable_local (addModels_ok _ _ _ (world0_ok _)) rfl rfl (by decide +kernel) (by decide +kernel) (by decide +kernel)
example : ∃ p, Compared (adN 1) (adN 2) 0 (snap (adN 1) wCycle) (snap (adN 2) wCycle) p ∧
    FarBelow 0 (snap (adN 1) wCycle) (snap (adN 2) wCycle) p p := by
  have ha : (snap (adN 1) wCycle).find "node" "a" = some (nodeM "a" ["b"]) := by rfl
  have hb : (snap (adN 1) wCycle).find "node" "b" = some (nodeM "b" ["a"]) := by rfl
  have hv : ∀ n l, (⟨"node", n, some (nodeM n l), none⟩ : Pos String).Visible 0 := fun n l =>
    visible_of_not_skip (.inl (by simp)) (by simp [skipPair, nodeM, flagOn])
  refine ⟨⟨"node", "a", some (nodeM "a" ["b"]), none⟩, .top ⟨List.mem_singleton.2 rfl, List.mem_singleton.2 rfl, ha.symm, rfl, .inl (by simp)⟩,
    .more (.one (q := ⟨"node", "b", some (nodeM "b" ["a"]), none⟩) ⟨hv _ _, ⟨⟨?_, by simp⟩, .inl (by decide +kernel), ?_, rfl⟩, hv _ _⟩)
      ⟨hv _ _, ⟨⟨?_, by simp⟩, .inl (by decide +kernel), ?_, rfl⟩, hv _ _⟩⟩
  · intro m hm; cases hm; decide
  · exact hb.symm
  · intro m hm; cases hm; decide
  · exact ha.symm

/-- Types ranked by their place in the hierarchy. -/
def rank (t : String) : Nat := if t = "site" then 2 else if t = "device" then 1 else 0

/-- In worlds of sites, devices and interfaces child chains have at most two steps, so `C19_bounded_depth` applies with
`H = 2`. -/
theorem chain_le_two {w : World String (List Outcome)} (h : w.OK) (k : Nat)
    (hr : ∀ r, r < w.next → ∀ ct ∈ Dict.keys (w.heap r).m.cls.children, rank ct + 1 ≤ rank (w.heap r).m.type)
    {n : Nat} {a b : String × String} (hc : ListsChain (snap (ad k) w) n a b) : n + rank b.1 ≤ 2 := by
  induction hc with
  | refl a =>
    simp only [rank]
    repeat' split
    all_goals omega
  | @step n a t u ct v m hc hf hl ih =>
    simp only [snap, ad, Option.map_eq_some_iff] at hf
    obtain ⟨r, hr', rfl⟩ := hf
    have ht := (h.key_ok _ _ _ _ hr').1
    have hmem : ct ∈ Dict.keys (w.heap r).m.cls.children := by
      unfold Model.lists at hl
      split at hl
      · cases hl
      · rename_i f hf; exact Dict.mem_keys_iff.2 ⟨f, hf⟩
    have := hr r (h.refs_lt _ _ _ _ hr') ct hmem
    rw [ht] at this
    simp only at ih ⊢
    omega

example : (diffFrom 4 (ad 2) (ad 1) (DiffClass.default _) 0 w1).1 ≠ .error .recursionError :=
  C19_bounded_depth (H := 2) _ comparable_w1
    (fun _ _ _ hc => by have := chain_le_two w1_ok 1 (by decide +kernel) hc; omega)
    (fun _ _ _ hc => by have := chain_le_two w1_ok 2 (by decide +kernel) hc; omega) (by omega)

end DS.Ex
