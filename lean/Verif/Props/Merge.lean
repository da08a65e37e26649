import Verif.Lemmas.Merge
import Verif.Props.Chain
import Verif.Props.Remains
/-! # Two syncs merge two adapters -/
set_option linter.unusedSectionVars false

namespace DS
variable {V E : Type} [PyVal V] {F : Decls V} {D : Prop}
variable {a b : Adapter V} {n rl sa sb f1 f2 : Nat} {w w1 w2 : World V E} {dc1 dc2 : DiffClass V} {hooks1 hooks2 : Hooks V E} {res1 res2 : Except Err (Diff V)}

theorem SameModels.symm (h : SameModels a b) : SameModels b a :=
  ⟨h.same.symm, h.same.symm ▸ h.required, h.same.symm ▸ h.short, h.same.symm ▸ h.children⟩

theorem Mergeable.can (h : Mergeable F D n a b sa sb w) : CanConverge n a b sb w :=
  C57_fit_for_convergence h.reachable h.first h.second h.second_store h.second_top h.models h.separate h.alike

theorem Mergeable.cls_a (h : Mergeable F D n a b sa sb w) (k : Key) (s : Model V) (hs : (snap a w).find k.1 k.2 = some s) :
    Dict.get? b.classes k.1 = some s.cls ∧ Good s := by
  obtain ⟨_, _, h3, h4⟩ := h.reachable.inv.find h.first hs
  rw [h.models.same] at h3
  exact ⟨h3, h4⟩

theorem Mergeable.cls_b (h : Mergeable F D n a b sa sb w) (k : Key) (s : Model V) (hs : (snap b w).find k.1 k.2 = some s) :
    Dict.get? b.classes k.1 = some s.cls ∧ Good s := by
  obtain ⟨_, _, h3, h4⟩ := h.reachable.inv.find h.second hs
  exact ⟨h3, h4⟩

/-- The value that a new object gets for an identifier or attribute. -/
theorem newValue_own {s : Model V} (hg : Good s) (hp : ∀ f v, f ∈ s.cls.identifiers ∨ f ∈ s.cls.attributes → Dict.get? s.vals f = some v → s.cls.reads f v = some v)
    {f : String} (hf : f ∈ s.cls.identifiers ∨ f ∈ s.cls.attributes) (d : Option V) : s.cls.newValue s.identifiers s.attrs f d = Dict.get? s.vals f := by
  have hfn : f ∈ s.cls.fieldNames := by
    rcases hf with hf | hf
    · exact hg.valid.ids_fields f hf
    · exact hg.valid.attrs_fields f hf
  obtain ⟨v, hv⟩ := Dict.mem_keys_iff.1 (show f ∈ Dict.keys s.vals by rw [hg.complete.vals_keys]; exact hfn)
  have : (Dict.get? s.identifiers f).or (Dict.get? s.attrs f) = some v := by
    rw [Model.get?_identifiers, Model.get?_attrs, hv]
    by_cases h1 : f ∈ s.cls.identifiers
    · rw [if_pos h1]; rfl
    · rw [if_neg h1, if_pos (hf.resolve_left h1)]; rfl
  unfold ModelClass.newValue
  rw [this, hv]
  exact hp f v hf hv

theorem Mergeable.again [PyVal.Equiv V] (h : Mergeable F D n a b sa sb w) (hd1 : flagOn f1 GF.SKIP_UNMATCHED_DST = true)
    (hR1 : dc1.Reorders) (hrl : n ≤ rl) (hr1 : syncFrom n rl hooks1 b a dc1 f1 none w = (res1, w1)) (ha1 : AllSucceed (newEvents w w1)) :
    CanConverge n b a sa w1 := by
  have hcan := h.can
  have h1 := hcan.again hrl hr1
  have P := C70_outcome hcan hR1 hrl hr1 ha1
  have R := hcan.reconcilable
  have R1 := h1.reconcilable
  have hi := hcan.ready.instOf
  have hA := h.first_unflagged
  have hB := h.second_unflagged
  have hsame := hcan.src_same hr1
  have hreach : Reachable F D w1 := .step h.reachable ⟨_, by
    have := StepOn.sync (F := F) (D := D) (w := w) (n := n) (rl := rl) (hooks := hooks1) (dc := dc1) (flags := f1) (diff := none) h.second h.first (by intro d hd; cases hd)
    rw [hr1] at this
    exact this⟩
  rw [hsame] at R1
  have lk : ∀ {k c : Key}, Linked (snap b w1) (snap a w) k c → Linked (snap a w) (snap b w1) k c := fun h => h.symm
  refine C57_fit_for_convergence hreach h.second h.first h.first_store h.first_top h.models.symm (h1.separate.symm_local h.first_store h.second_store) ?_
  rw [hsame]
  refine ⟨fun k k' c g1 g2 => R1.one_parent k k' c (lk g1) (lk g2), fun k c g hn => R1.not_top k c (lk g) ⟨hn.2, hn.1⟩, fun j k hj => R1.depth j k ?_,
    R1.dst_stored, R1.src_stored, R1.dst_place, R1.src_place, fun k d s hk hks f hf => ?_,
    fun k k' m m' g1 g2 g3 g4 => R1.names k k' m m' ⟨g1.1, ?_⟩ g2 g3.symm g4.symm, fun _ _ _ v _ _ _ => PyVal.Refl.eq_refl v, fun k d f v hk hf hv => ?_⟩
  · induction hj with
    | top g1 g2 => exact .top g2 g1
    | down _ hl ih => exact .down ih (lk hl)
  · obtain ⟨hc, hg⟩ := h.cls_a k s hks
    cases h0 : (snap b w).find k.1 k.2 with
    | none =>
      obtain ⟨s', c, g1, _, g3, g4, _, g6⟩ := synced_new R hi hA hB hd1 P hk h0
      rw [hks] at g1
      cases g1
      rw [hc] at g3
      cases g3
      rw [g4] at hf
      obtain ⟨⟨f', dd⟩, hfd, rfl⟩ := List.mem_map.1 (hg.valid.ids_fields f hf)
      rw [g6 _ _ hfd]
      exact newValue_own hg (fun f v hf hv => h.alike.parsed k s f v hks hf hv) (.inl hf) dd
    | some m0 =>
      obtain ⟨m, g1, g2, _, g4⟩ := synced_keeps R hi hA hB hd1 P h0
      rw [hk] at g1
      cases g1
      obtain ⟨hc0, hg0⟩ := h.cls_b k m0 h0
      rw [hc] at hc0
      have hc1 := Option.some.inj hc0
      rw [g2, ← hc1] at hf
      rcases g4 f with g4 | ⟨s', v, g5, g6, _⟩
      · rw [g4]; exact (h.alike.same_ids k s m0 hks h0 f hf).symm
      · rw [hks] at g5
        cases g5
        exact absurd (attrs_mem g6.1) (hg.valid.ids_attrs f hf)
  · rcases g1.2 with g | ⟨p, g, g'⟩
    · exact .inl ⟨g.2, g.1⟩
    · exact .inr ⟨p, lk g, lk g'⟩
  · cases h0 : (snap b w).find k.1 k.2 with
    | none =>
      obtain ⟨s, c, g1, _, g3, g4, _, g6⟩ := synced_new R hi hA hB hd1 P hk h0
      obtain ⟨hc, hg⟩ := h.cls_a k s g1
      rw [hc] at g3
      cases g3
      rw [g4] at hf ⊢
      have hfn : f ∈ s.cls.fieldNames := by
        rcases hf with hf | hf
        · exact hg.valid.ids_fields f hf
        · exact hg.valid.attrs_fields f hf
      obtain ⟨⟨f', dd⟩, hfd, rfl⟩ := List.mem_map.1 hfn
      rw [g6 _ _ hfd, newValue_own hg (fun f v hf hv => h.alike.parsed k s f v g1 hf hv) hf dd] at hv
      exact h.alike.parsed k s _ v g1 hf hv
    | some m0 =>
      obtain ⟨m, g1, g2, _, g4⟩ := synced_keeps R hi hA hB hd1 P h0
      rw [hk] at g1
      cases g1
      rw [g2] at hf ⊢
      rcases g4 f with g4 | ⟨s, v', g5, g6, g7⟩
      · rw [g4] at hv; exact h.parsed k m0 f v h0 hf hv
      · rw [hv] at g7
        cases g7
        have := (h.cls_a k s g5).1.symm.trans (h.cls_b k m0 h0).1
        rw [← Option.some.inj this]
        exact h.alike.parsed k s f v g5 (.inr (attrs_mem g6.1)) (attrs_vals g6.1)

section
variable [PyVal.Equiv V] (h : Mergeable F D n a b sa sb w) (hs1 : flagOn f1 GF.SKIP_UNMATCHED_SRC = false) (hd1 : flagOn f1 GF.SKIP_UNMATCHED_DST = true)
  (hs2 : flagOn f2 GF.SKIP_UNMATCHED_SRC = false) (hR1 : dc1.Reorders) (hrl : n ≤ rl)
  (hr1 : syncFrom n rl hooks1 b a dc1 f1 none w = (res1, w1)) (ha1 : AllSucceed (newEvents w w1))
include h hs1 hd1 hs2 hR1 hrl hr1 ha1

/-- What the second sync compares: the same objects, `b` has all of them, and agrees with `a` on those that `a` has. -/
theorem Mergeable.between :
    (∀ {k : Key}, Shown b a f2 (snap b w1) (snap a w) k ↔ Shown a b 0 (snap a w) (snap b w) k) ∧
    (∀ {k : Key}, Shown a b 0 (snap a w) (snap b w) k → (snap b w1).find k.1 k.2 ≠ none) ∧
    (∀ (k : Key) s d, Shown a b 0 (snap a w) (snap b w) k → (snap a w).find k.1 k.2 = some s → (snap b w1).find k.1 k.2 = some d → AttrsAgree s d) ∧
    KeepsNew a b f1 (snap a w) (snap b w) ∧ KeepsNew b a f2 (snap b w1) (snap a w) := by
  have hcan := h.can
  have hcan2 := h.again hd1 hR1 hrl hr1 ha1
  have P := C70_outcome hcan hR1 hrl hr1 ha1
  have R := hcan.reconcilable
  have R2 := hcan2.reconcilable
  have hi := hcan.ready.instOf
  have hi2 := hcan2.ready.instOf
  have hA := h.first_unflagged
  have hB := h.second_unflagged
  have hsame := hcan.src_same hr1
  rw [hsame] at R2 hi2
  have reach : ∀ {k : Key}, Shown b a f2 (snap b w1) (snap a w) k ↔ Shown a b 0 (snap a w) (snap b w) k := fun {k} => by
    rw [shown_iff_reached R2 hi2, shown_iff_reached R hi]
    exact merge_reached R hi hA hB hs1 hd1 P (fun k s hs => (h.cls_a k s hs).1) h.makes hs2
  have has : ∀ {k : Key}, Shown a b 0 (snap a w) (snap b w) k → (snap b w1).find k.1 k.2 ≠ none := by
    intro k hk
    have hk := (shown_iff_reached R hi).1 hk
    by_cases ha : (snap a w).find k.1 k.2 = none
    · have : (snap a w).find k.1 k.2 ≠ none ∨ (snap b w).find k.1 k.2 ≠ none := by
        cases hk with
        | top _ _ h3 _ => exact h3
        | child _ hl _ _ => exact linked_stored R hA hB hl
      obtain ⟨m0, h0⟩ := Option.ne_none_iff_exists'.1 (this.resolve_left (fun h => h ha))
      obtain ⟨m, g, _⟩ := synced_keeps R hi hA hB hd1 P h0
      rw [g]; simp
    · exact synced_has R hi hA hB hs1 P hk ha
  have agree : ∀ (k : Key) s d, Shown a b 0 (snap a w) (snap b w) k → (snap a w).find k.1 k.2 = some s → (snap b w1).find k.1 k.2 = some d → AttrsAgree s d := by
    intro k s d hk hs hd f v v' hv hv'
    obtain ⟨hc, hg⟩ := h.cls_a k s hs
    cases h0 : (snap b w).find k.1 k.2 with
    | none =>
      obtain ⟨s', c, g1, _, g3, g4, _, g6⟩ := synced_new R hi hA hB hd1 P hd h0
      rw [hs] at g1
      cases g1
      rw [hc] at g3
      cases g3
      obtain ⟨⟨f', dd⟩, hfd, rfl⟩ := List.mem_map.1 (hg.valid.attrs_fields f (attrs_mem hv))
      have := attrs_vals hv'
      rw [g6 _ _ hfd, newValue_own hg (fun f v hf hv => h.alike.parsed k s f v hs hf hv) (.inr (attrs_mem hv)) dd, attrs_vals hv] at this
      cases this
      exact PyVal.Refl.eq_refl v
    | some m0 =>
      have hsh := (shown_iff_reached R hi).2 (reached_skip R hA hB hs1 ((shown_iff_reached R hi).1 hk) (by rw [hs]; simp))
      obtain ⟨m, g1, g2, _, g4, g5⟩ := P.updated k s m0 hsh hs h0
      rw [hd] at g1
      cases g1
      by_cases hx : ∃ x, Differs s m0 f x
      · obtain ⟨x, hx⟩ := hx
        have := g4 f x hx
        rw [attrs_vals hv'] at this
        cases this
        rw [hx.1] at hv
        cases hv
        exact PyVal.Refl.eq_refl v
      · have hm0 : Dict.get? m0.attrs f = some v' := by
          rw [← attrs_get g2 (g5 f (fun x hd => hx ⟨x, hd⟩))]
          exact hv'
        cases he : PyVal.eq v v' with
        | true => rfl
        | false => exact absurd ⟨v, hv, v', hm0, he⟩ hx
  refine ⟨reach, has, agree, KeepsValuesOf.new fun k s c hk hc f v v' hv hv' => ?_, ?_⟩
  · rw [(h.cls_a k s hk).1] at hc
    cases hc
    rw [h.alike.parsed k s f v hk (.inr (attrs_mem hv)) (attrs_vals hv)] at hv'
    cases hv'
    exact PyVal.Refl.eq_refl v
  · intro k d c hk hd hn hc f v v' hv hv'
    have hk' := reach.1 hk
    have hnr : ¬ Shown a b f1 (snap a w) (snap b w) k := fun hs => reached_skip_src R hA hB hd1 ((shown_iff_reached R hi).1 hs) hn
    rw [P.others k hnr (not_goesAlong_skip R hi hA hB hd1)] at hd
    rw [h.models.same, (h.cls_b k d hd).1] at hc
    cases hc
    rw [h.parsed k d f v hd (.inr (attrs_mem hv)) (attrs_vals hv)] at hv'
    cases hv'
    exact PyVal.Refl.eq_refl v
end

/-- **C79** When `b` is synced from `a` with SKIP_UNMATCHED_DST and then `a` from `b` (with or without that flag), and all calls succeed, both
syncs return and both adapters hold the union of what they held: every object of `a`, with the values it had in `a`, and every object that only
`b` had, as it was in `b`; nothing is lost on either side. -/
theorem C79_merge [PyVal.Equiv V] (h : Mergeable F D n a b sa sb w) (hs1 : flagOn f1 GF.SKIP_UNMATCHED_SRC = false) (hd1 : flagOn f1 GF.SKIP_UNMATCHED_DST = true)
    (hs2 : flagOn f2 GF.SKIP_UNMATCHED_SRC = false) (hR1 : dc1.Reorders) (hR2 : dc2.Reorders) (hrl : n ≤ rl)
    (hr1 : syncFrom n rl hooks1 b a dc1 f1 none w = (res1, w1)) (ha1 : AllSucceed (newEvents w w1))
    (hr2 : syncFrom n rl hooks2 a b dc2 f2 none w1 = (res2, w2)) (ha2 : AllSucceed (newEvents w1 w2)) :
    (∃ d, res1 = .ok d) ∧ (∃ d, res2 = .ok d) ∧ Merged a b (snap a w) (snap b w) (snap a w2) (snap b w2) := by
  have hcan := h.can
  have hcan2 := h.again hd1 hR1 hrl hr1 ha1
  have P := C70_outcome hcan hR1 hrl hr1 ha1
  have R := hcan.reconcilable
  have hi := hcan.ready.instOf
  have hA := h.first_unflagged
  have hB := h.second_unflagged
  have hsame := hcan.src_same hr1
  have P2 := C70_outcome hcan2 hR2 hrl hr2 ha2
  obtain ⟨reach, has, agree, hk1, hk2⟩ := h.between hs1 hd1 hs2 hR1 hrl hr1 ha1
  have along : ∀ {k : Key}, ¬ GoesAlong b a f2 (snap b w1) (snap a w) k := by
    rintro k ⟨k0, g1, g2, _⟩
    exact has (reach.1 g1) g2
  rw [← hsame] at hk2
  refine ⟨(C21_sync_converges hcan (fun _ _ _ v _ _ => PyVal.Refl.eq_refl v) hk1 hR1 hrl hr1 ha1).1,
    (C21_sync_converges hcan2 (fun _ _ _ v _ _ => PyVal.Refl.eq_refl v) hk2 hR2 hrl hr2 ha2).1, ?_⟩
  rw [hcan2.src_same hr2]
  rw [hsame] at P2
  refine ⟨fun k s hk hs => ?_, fun k d hk hn hd => ?_, fun k hk => ?_, fun k c hk hc => ?_⟩
  · obtain ⟨d, hd⟩ := Option.ne_none_iff_exists'.1 (has hk)
    obtain ⟨m, g1, g2, _, _, g5⟩ := P2.updated k d s (reach.2 hk) hd hs
    have hag := agree k s d hk hs hd
    have hvals : ∀ f, Dict.get? m.vals f = Dict.get? s.vals f := fun f => g5 f (fun v hx => by
      obtain ⟨e1, v', e2, e3⟩ := hx
      rw [PyVal.Equiv.eq_symm _ _ (hag f v' v e2 e1)] at e3
      cases e3)
    refine ⟨m, d, g1, hd, g2, hvals, fun f v v' hv hv' => hag f v v' ?_ hv'⟩
    rw [← attrs_get g2 (hvals f)]
    exact hv
  · have hnr : ¬ Shown a b f1 (snap a w) (snap b w) k := fun hs => reached_skip_src R hA hB hd1 ((shown_iff_reached R hi).1 hs) hn
    have hd1' := P.others k hnr (not_goesAlong_skip R hi hA hB hd1)
    rw [hd] at hd1'
    obtain ⟨c, m, g1, g2, g3, _, g5⟩ := P2.created k d (reach.2 hk) hd1' hn
    obtain ⟨hc, hg⟩ := h.cls_b k d hd
    rw [h.models.same, hc] at g1
    cases g1
    refine ⟨m, g2, hd1', g3, fun f hf => ?_⟩
    have hfn : f ∈ d.cls.fieldNames := by
      rcases hf with hf | hf
      · exact hg.valid.ids_fields f hf
      · exact hg.valid.attrs_fields f hf
    obtain ⟨⟨f', dd⟩, hfd, rfl⟩ := List.mem_map.1 hfn
    rw [g5 _ _ hfd]
    exact newValue_own hg (fun f v hf hv => h.parsed k d f v hd hf hv) hf dd
  · refine ⟨P2.others k (fun hs => hk (reach.1 hs)) along, P.others k (fun hs => hk ?_) (not_goesAlong_skip R hi hA hB hd1)⟩
    exact (shown_iff_reached R hi).2 (reached_0_of R hA hB ((shown_iff_reached R hi).1 hs))
  · have hk2 : ∀ {k : Key}, Shown a b 0 (snap a w) (snap b w) k → (snap a w2).find k.1 k.2 ≠ none := by
      intro k hk
      obtain ⟨d, hd⟩ := Option.ne_none_iff_exists'.1 (has hk)
      cases hs : (snap a w).find k.1 k.2 with
      | none => obtain ⟨_, m, _, g, _⟩ := P2.created k d (reach.2 hk) hd hs; rw [g]; simp
      | some s => obtain ⟨m, g, _⟩ := P2.updated k d s (reach.2 hk) hd hs; rw [g]; simp
    rw [P2.lists, P.lists, synced_linked R hi hA hB hd1 P]
    exact ⟨⟨fun g => g.2.2, fun g => ⟨hk2 hk, hk2 hc, g⟩⟩, ⟨fun g => g.2.2, fun g => ⟨has hk, has hc, g⟩⟩⟩

/-- **C79** Neither sync deletes anything, and the second one, whatever its calls return, only creates: it makes no update call, and creates only objects that
`b` had and `a` had not. -/
theorem C79_calls [PyVal.Equiv V] (h : Mergeable F D n a b sa sb w) (hs1 : flagOn f1 GF.SKIP_UNMATCHED_SRC = false) (hd1 : flagOn f1 GF.SKIP_UNMATCHED_DST = true)
    (hs2 : flagOn f2 GF.SKIP_UNMATCHED_SRC = false) (hR1 : dc1.Reorders) (hrl : n ≤ rl)
    (hr1 : syncFrom n rl hooks1 b a dc1 f1 none w = (res1, w1)) (ha1 : AllSucceed (newEvents w w1))
    (hr2 : syncFrom n rl hooks2 a b dc2 f2 none w1 = (res2, w2)) :
    (∀ c out, Event.call c out ∈ newEvents w w1 → c.act ≠ .delete) ∧
    ∀ c out, Event.call c out ∈ newEvents w1 w2 → c.act = .create ∧
      ∀ k, CallKey a c k → Shown a b 0 (snap a w) (snap b w) k ∧ (snap a w).find k.1 k.2 = none ∧ (snap b w).find k.1 k.2 ≠ none := by
  have hcan := h.can
  have hcan2 := h.again hd1 hR1 hrl hr1 ha1
  have R := hcan.reconcilable
  have hi := hcan.ready.instOf
  have hA := h.first_unflagged
  have hB := h.second_unflagged
  have P := C70_outcome hcan hR1 hrl hr1 ha1
  have hsame := hcan.src_same hr1
  obtain ⟨reach, has, agree, _, _⟩ := h.between hs1 hd1 hs2 hR1 hrl hr1 ha1
  have key : ∀ {x y : Adapter V} {sid : Nat} {dc : DiffClass V} {f : Nat} {hooks : Hooks V E} {u u' : World V E} {res c out}, CanConverge n x y sid u →
      syncFrom n rl hooks y x dc f none u = (res, u') → Event.call c out ∈ newEvents u u' → ∃ k, CallKey y c k := by
    intro x y sid dc f hooks u u' res c out hc hr hm
    obtain ⟨_, _, e, _, _, _, g3, _⟩ := computed_call hc.comparable hc.ready.dst hc.keepsIds hr hm
    obtain ⟨k, _, g5⟩ := g3.key
    exact ⟨k, g5⟩
  refine ⟨fun c out hm hx => ?_, fun c out hm => ?_⟩
  · obtain ⟨k, hk⟩ := key hcan hr1 hm
    obtain ⟨g1, _, _, g4⟩ := hcan.call_about hrl hr1 hm hk
    exact reached_skip_src R hA hB hd1 ((shown_iff_reached R hi).1 g1) (g4 hx).1
  · obtain ⟨k0, hk0⟩ := key hcan2 hr2 hm
    have about := @CanConverge.call_about _ _ _ _ _ _ _ _ _ _ _ _ _ _ hcan2 hrl hr2 c out hm
    rw [hsame] at about
    have hact : c.act = .create := by
      obtain ⟨g1, _, _, g4⟩ := about hk0
      cases hx : c.act with
      | create => rfl
      | delete => exact absurd (g4 hx).1 (has (reach.1 g1))
      | update =>
        obtain ⟨d, u1, e, q, e1, e2, e3, _⟩ := computed_call hcan2.comparable hcan2.ready.dst hcan2.keepsIds hr2 hm
        obtain ⟨k, e4, _⟩ := e3.key
        have hpl := (hcan2.plans_update e1 k).1 ⟨e, e2, e4, (prescribes_act e3).trans (by rw [hx])⟩
        rw [hsame] at hpl
        obtain ⟨f, v, i1, s, m, i2, i3, i4, v', i5, i6⟩ := hpl
        rw [PyVal.Equiv.eq_symm _ _ (agree k m s (reach.1 i1) i3 i2 f v' v i5 i4)] at i6
        cases i6
    refine ⟨hact, fun k hk => ?_⟩
    obtain ⟨g1, g2, _, _⟩ := about hk
    have g3 := (g2 hact).2
    have g4 := reach.1 g1
    refine ⟨g4, g3, fun hn => ?_⟩
    have hk := (shown_iff_reached R hi).1 g4
    have : (snap a w).find k.1 k.2 ≠ none ∨ (snap b w).find k.1 k.2 ≠ none := by
      cases hk with
      | top _ _ h3 _ => exact h3
      | child _ hl _ _ => exact linked_stored R hA hB hl
    rcases this with e | e
    · exact e g3
    · exact e hn

/-- **C79** After the two syncs, if the second one compares all objects, diffs that compare all objects return in both directions and report nothing. -/
theorem C79_in_sync [PyVal.Equiv V] (h : Mergeable F D n a b sa sb w) (hs1 : flagOn f1 GF.SKIP_UNMATCHED_SRC = false) (hd1 : flagOn f1 GF.SKIP_UNMATCHED_DST = true)
    (hf2 : ComparesAll f2) (hR1 : dc1.Reorders) (hR2 : dc2.Reorders) (hrl : n ≤ rl)
    (hr1 : syncFrom n rl hooks1 b a dc1 f1 none w = (res1, w1)) (ha1 : AllSucceed (newEvents w w1))
    (hr2 : syncFrom n rl hooks2 a b dc2 f2 none w1 = (res2, w2)) (ha2 : AllSucceed (newEvents w1 w2)) {dc : DiffClass V} (hR : dc.Reorders) {f : Nat} (hf : ComparesAll f) :
    (∃ d w3, diffFrom n a b dc f w2 = (.ok d, w3) ∧ d.hasDiffs = false) ∧ ∃ d w3, diffFrom n b a dc f w2 = (.ok d, w3) ∧ d.hasDiffs = false := by
  have hcan := h.can
  have hcan2 := h.again hd1 hR1 hrl hr1 ha1
  have P := C70_outcome hcan hR1 hrl hr1 ha1
  have P2 := C70_outcome hcan2 hR2 hrl hr2 ha2
  have hsame := hcan.src_same hr1
  have hi := hcan.ready.instOf
  obtain ⟨reach, has, _, _, hk2⟩ := h.between hs1 hd1 hf2.1 hR1 hrl hr1 ha1
  rw [← hsame] at hk2
  have conv := (C21_sync_converges hcan2 (fun _ _ _ v _ _ => PyVal.Refl.eq_refl v) hk2 hR2 hrl hr2 ha2).2.2.2
  have hcan3 := hcan2.again hrl hr2
  have ub : (snap b w2).Unflagged := by
    rw [hcan2.src_same hr2]
    exact synced_unflagged hcan.reconcilable hi h.first_unflagged h.second_unflagged hd1 P h.makes
  rw [hsame] at P2
  have ua : (snap a w2).Unflagged := by
    intro t u m hm
    have old : (snap a w2).find t u = (snap a w).find t u → _ := fun e => h.first_unflagged t u m (e ▸ hm)
    by_cases hsh : Shown b a f2 (snap b w1) (snap a w) (t, u)
    · obtain ⟨s, hb⟩ := Option.ne_none_iff_exists'.1 (has (reach.1 hsh))
      cases h0 : (snap a w).find t u with
      | none =>
        obtain ⟨c, m', g1, g2, _, g4, _⟩ := P2.created (t, u) s hsh hb h0
        rw [hm] at g2
        cases g2
        rw [h.models.same] at g1
        rw [g4]; exact h.makes _ _ g1
      | some m0 =>
        obtain ⟨m', g1, _, g3, _⟩ := P2.updated (t, u) s m0 hsh hb h0
        rw [hm] at g1
        cases g1
        rw [g3]; exact h.first_unflagged _ _ _ h0
    · refine old (P2.others (t, u) hsh ?_)
      rintro ⟨k0, g1, g2, _⟩
      exact has (reach.1 g1) g2
  have reachable : Reachable F D w2 := by
    have e1 := StepOn.sync (F := F) (D := D) (w := w) (n := n) (rl := rl) (hooks := hooks1) (dc := dc1) (flags := f1) (diff := none) h.second h.first (by intro d hd; cases hd)
    rw [hr1] at e1
    have e2 := StepOn.sync (F := F) (D := D) (w := w1) (n := n) (rl := rl) (hooks := hooks2) (dc := dc2) (flags := f2) (diff := none) h.first h.second (by intro d hd; cases hd)
    rw [hr2] at e2
    exact .step (.step h.reachable ⟨_, e1⟩) ⟨_, e2⟩
  have wf : ∀ {x : Adapter V}, Family F x → ∀ t u m, (snap x w2).find t u = some m → Dict.WF m.identifiers := fun hx t u m hm => by
    obtain ⟨_, _, _, hg⟩ := reachable.inv.find hx hm
    exact Model.identifiers_wf hg.complete hg.valid
  have sy : ∀ {S : Snap V}, S.Unflagged → S.SymmetricFlags := fun hS t u m hm => by rw [(hS t u m hm).2.1, (hS t u m hm).2.2]
  have mirror : ∀ {x y : Adapter V} {f f' : Nat}, Comparable x y w2 → x.topLevel.Nodup → (snap x w2).Unflagged → (snap y w2).Unflagged → Family F x → Family F y →
      ComparesAll f → ComparesAll f' → (∃ d w3, diffFrom n y x dc f w2 = (.ok d, w3) ∧ d.hasDiffs = false) →
      ∃ d w3, diffFrom n x y dc f' w2 = (.ok d, w3) ∧ d.hasDiffs = false := by
    intro x y f f' hc ht hx hy fx fy e e' ⟨d, w3, i1, i2⟩
    have sw : FlagsSwapped f f' := ⟨e'.1.trans e.2.symm, e'.2.trans e.1.symm⟩
    obtain ⟨d', hd'⟩ := (C13_returns_both_ways (dc' := dc) hc ht sw (sy hx) (sy hy) (wf fx) (wf fy)).1 ⟨d, by rw [i1]⟩
    have hd2 : diffFrom n x y dc f' w2 = (.ok d', (diffFrom n x y dc f' w2).2) := Prod.ext hd' rfl
    exact ⟨d', _, hd2, (C13_summary_mirrored hc ht sw (sy hx) (sy hy) hR hR i1 hd2).1.trans i2⟩
  have second := mirror (f' := f) hcan3.comparable h.second_top ub ua h.second h.first hf2 hf (conv dc)
  exact ⟨mirror (hcan3.comparable.swap h.second_top) h.first_top ua ub h.first h.second hf hf second, second⟩

end DS
