import Verif.Lemmas.Remains
/-! # What a sync leaves to do -/
set_option linter.unusedSectionVars false

namespace DS
variable {V E : Type} [PyVal V] {n rl sid : Nat} {src dst : Adapter V} {dc : DiffClass V} {flags : Nat} {hooks : Hooks V E} {w w' : World V E}
  {res : Except Err (Diff V)}

/-- **C78** After a sync, however it ends and whatever failed in it: the objects that a comparison with the same flags finds to create are those
that were to be created before and for which no create call returned an object. -/
theorem C78_left_to_create (h : CanConverge n src dst sid w) (hst : Steady dst) (hR : dc.Reorders) (hrl : n ≤ rl)
    (hs : syncFrom n rl hooks dst src dc flags none w = (res, w')) (k : Key) :
    ToCreate src dst flags (snap src w') (snap dst w') k ↔
      ToCreate src dst flags (snap src w) (snap dst w) k ∧ ¬ Did dst (newEvents w w') .create k := by
  have P := h.attempt hrl hs
  have R := h.reconcilable
  have hi := h.ready.instOf
  have h1 := h.again hrl hs
  have R1 := h1.reconcilable
  rw [h.src_same hs] at R1 ⊢
  constructor
  · rintro ⟨g1, g2, g3⟩
    refine ⟨⟨(shown_iff_reached R hi).2 (P.back R hi ((shown_iff_reached R1 h1.ready.instOf).1 g1)), g2, ?_⟩, fun hd => h.did_create hR hrl hs hd g3⟩
    exact Classical.byContradiction (fun h0 => g2 (P.gone k h0 g3))
  · rintro ⟨⟨g1, g2, g3⟩, g4⟩
    refine ⟨(shown_iff_reached R1 h1.ready.instOf).2 (P.forth R hi hst.made ((shown_iff_reached R hi).1 g1) g2), g2, ?_⟩
    refine Classical.byContradiction (fun hn => ?_)
    obtain ⟨ids, attrs, out, i1, i2, i3⟩ := (C28_only_success_changes_contents h.ready.dst h.applicable hs k.1 k.2).1 g3 hn
    exact g4 ⟨_, out, i1, rfl, i3, .inr ⟨by simp [CrudCall.act], i2⟩⟩

/-- **C78** The attributes that a comparison finds to differ are those that differed before, of objects for which no update call passed the new
values on to `super().update()`; whether that call then returned `None` or raised something makes no difference. -/
theorem C78_left_to_update (h : CanConverge n src dst sid w) (hself : SelfEqual (snap src w)) (hkeep : KeepsValuesOf dst (snap src w)) (hst : Steady dst)
    (hR : dc.Reorders) (hrl : n ≤ rl) (hs : syncFrom n rl hooks dst src dc flags none w = (res, w')) (k : Key) (f : String) (a : V) :
    ToUpdate src dst flags (snap src w') (snap dst w') k f a ↔
      ToUpdate src dst flags (snap src w) (snap dst w) k f a ∧ ¬ Did dst (newEvents w w') .update k := by
  have P := h.attempt hrl hs
  have R := h.reconcilable
  have hi := h.ready.instOf
  have h1 := h.again hrl hs
  have R1 := h1.reconcilable
  rw [h.src_same hs] at R1 ⊢
  constructor
  · rintro ⟨g1, s, m, g2, g3, g4⟩
    have hb := (shown_iff_reached R hi).2 (P.back R hi ((shown_iff_reached R1 h1.ready.instOf).1 g1))
    cases h0 : (snap dst w).find k.1 k.2 with
    | none =>
      obtain ⟨_, s', c, i1, i2, i3, _, i5⟩ := P.new k m h0 g3
      cases g2.symm.trans i1
      exact absurd g4 (new_no_differs (R.sound k s (.inl g2)) (hkeep k s c g2 i2) (R1.sound k m (.inr g3)) i3 i5 f a)
    | some m0 =>
      obtain ⟨i1, _, i3⟩ := P.kept k m0 m h0 g3
      have hd0 : Differs s m0 f a := differs_back i1 (by
        rcases i3 f with i3 | ⟨s', a', i4, i5, i6⟩
        · exact .inl i3
        · cases g2.symm.trans i4; exact .inr ⟨a', i5, i6⟩) g4
      refine ⟨⟨hb, s, m0, g2, h0, hd0⟩, fun hd => ?_⟩
      obtain ⟨s', m0', m', j1, j2, j3, j4⟩ := h.did_update hR hrl hs hd
      cases g2.symm.trans j1
      cases h0.symm.trans j2
      cases g3.symm.trans j3
      have hv := j4 f a hd0
      obtain ⟨e1, b, e2, e3⟩ := g4
      have hb := attrs_vals e2
      rw [hv] at hb
      cases hb
      rw [hself k s f a g2 e1] at e3
      cases e3
  · rintro ⟨⟨g1, s, m, g2, g3, g4⟩, g5⟩
    refine ⟨(shown_iff_reached R1 h1.ready.instOf).2 (P.forth R hi hst.made ((shown_iff_reached R hi).1 g1) (by rw [g2]; simp)), s, ?_⟩
    cases h1 : (snap dst w').find k.1 k.2 with
    | none => exact absurd g2 (by rw [P.gone k (by rw [g3]; simp) h1]; simp)
    | some m' =>
      refine ⟨m', g2, rfl, ?_⟩
      have hv : m'.vals = m.vals := by
        refine Classical.byContradiction (fun hne => ?_)
        rcases (C28_only_success_changes_contents h.ready.dst h.applicable hs k.1 k.2).2.2 (by rw [g3]; simp) m m' g3 h1 hne with ⟨ids, attrs, out, i1, _, i3⟩ | ⟨attrs, out, i1, i2⟩
        · have := ((h.call_about hrl hs i1 i3).2.1 rfl).2
          rw [g3] at this; cases this
        · exact g5 ⟨_, out, i1, rfl, rfl, .inl ⟨rfl, i2⟩⟩
      obtain ⟨e1, b, e2, e3⟩ := g4
      exact ⟨e1, b, by rw [attrs_get (P.kept k m m' g3 h1).1 (congrArg (Dict.get? · f) hv)]; exact e2, e3⟩

/-- **C78** The objects that a comparison finds to delete are those that were to be deleted before and for which no delete call returned an object,
except that what is below an object whose delete call returned one is no longer found: it went along, or is left over unlisted. -/
theorem C78_left_to_delete (h : CanConverge n src dst sid w) (hst : Steady dst) (hR : dc.Reorders) (hrl : n ≤ rl)
    (hs : syncFrom n rl hooks dst src dc flags none w = (res, w')) (k : Key) :
    ToDelete src dst flags (snap src w') (snap dst w') k ↔
      ToDelete src dst flags (snap src w) (snap dst w) k ∧ ¬ Did dst (newEvents w w') .delete k ∧
        ∀ a, ListedBelow (snap dst w) a k → ¬ Did dst (newEvents w w') .delete a := by
  have P := h.attempt hrl hs
  have R := h.reconcilable
  have hi := h.ready.instOf
  have h1 := h.again hrl hs
  have R1 := h1.reconcilable
  rw [h.src_same hs] at R1 ⊢
  constructor
  · rintro ⟨g1, g2, g3⟩
    have hr := (shown_iff_reached R1 h1.ready.instOf).1 g1
    refine ⟨⟨(shown_iff_reached R hi).2 (P.back R hi hr), g2, fun hn => ?_⟩, fun hd => g3 (h.did_delete hR hrl hs hd).2, fun a hb hd => ?_⟩
    · obtain ⟨m, hm⟩ := Option.ne_none_iff_exists'.1 g3
      obtain ⟨_, s, _, i1, _⟩ := P.new k m hn hm
      rw [g2] at i1; cases i1
    · obtain ⟨i1, i2⟩ := h.did_delete hR hrl hs hd
      exact P.above R hi hr i1 hb i2
  · rintro ⟨⟨g1, g2, g3⟩, g4, g5⟩
    have still : (snap dst w').find k.1 k.2 ≠ none := by
      intro hn
      obtain ⟨k0, rfl | hb, hd⟩ := h.gone hrl hs g3 hn
      · exact g4 hd
      · exact g5 k0 hb hd
    refine ⟨Classical.byContradiction (fun hns => ?_), g2, still⟩
    obtain ⟨a, i1, i2, i3, i4⟩ := P.orphan R hi hst.made ((shown_iff_reached R hi).1 g1) g2 still (fun hr => hns ((shown_iff_reached R1 h1.ready.instOf).2 hr))
    obtain ⟨k0, rfl | hb, hd⟩ := h.gone hrl hs i3 i4
    · exact g5 a i1 hd
    · exact g5 k0 (hb.trans i1) hd

/-- **C78** What is to be done is what the computed diff says: its elements to create and to delete are the objects to create and to delete, and its
elements to update give the attributes to set. -/
theorem C78_diff_says_what_to_do (h : CanConverge n src dst sid w) {d : Diff V} {w1 : World V E} (hd : diffFrom n dst src dc flags w = (.ok d, w1)) (k : Key) :
    (Plans dst d .create k ↔ ToCreate src dst flags (snap src w) (snap dst w) k) ∧
    (Plans dst d .delete k ↔ ToDelete src dst flags (snap src w) (snap dst w) k) ∧
    ∀ f a, (∃ e, InTree e d.kids ∧ ElemKey dst e k ∧ e.action = some .update ∧ Dict.get? (e.plus.getD []) f = some a) ↔
      ToUpdate src dst flags (snap src w) (snap dst w) k f a := h.plans hd k

/-- The diff has an element to update for exactly those objects that have an attribute to set. -/
theorem CanConverge.plans_update (hx : CanConverge n src dst sid w) {y : Diff V} {z : World V E} (hy : diffFrom n dst src dc flags w = (.ok y, z)) (k : Key) :
    Plans dst y .update k ↔ ∃ f a, ToUpdate src dst flags (snap src w) (snap dst w) k f a := by
  obtain ⟨_, _, c3⟩ := hx.plans hy k
  constructor
  · rintro ⟨e, g1, g2, g3⟩
    obtain ⟨r, hsy⟩ : ∃ r, syncFrom n n (fun e _ => ({}, e) : Hooks V E) dst src dc flags none w = r := ⟨_, rfl⟩
    obtain ⟨d', ⟨w1', i1⟩, i2, _, i4, i5, _⟩ := hx.sync (Nat.le_refl n) hsy
    rw [hy] at i1
    cases i1
    have ha : After src dst n sid flags w r.2 y.kids := ⟨hx, i2, i4, i5⟩
    obtain ⟨f, v, v', e1, e2, e3⟩ := action_update_iff.1 g3
    obtain ⟨s, hS⟩ := Option.ne_none_iff_exists'.1 (i4.update e k g1 g2 g3).1
    obtain ⟨m, hD⟩ := Option.ne_none_iff_exists'.1 (i4.update e k g1 g2 g3).2
    obtain ⟨s1, s2, _⟩ := ha.sides g1 g2
    rw [hS] at s1
    rw [hD] at s2
    unfold Elem.srcVal at e1
    unfold Elem.dstVal at e2
    rw [s1] at e1
    rw [s2] at e2
    exact ⟨f, v, ha.shown_iff.2 ⟨e, g1, g2⟩, s, m, hS, hD, e1, v', e2, e3⟩
  · rintro ⟨f, a, hu⟩
    obtain ⟨e, g1, g2, g3, _⟩ := (c3 f a).2 hu
    exact ⟨e, g1, g2, g3⟩

/-- **C78** So the next diff is the last one without what has been done: after a sync, however it ends, a diff with the same flags has an element to
create, to update or to delete for exactly those objects for which the diff before the sync has one and no call of that kind did its work; of the
elements to delete, also those below a deleted object have gone. -/
theorem C78_next_diff (h : CanConverge n src dst sid w) (hself : SelfEqual (snap src w)) (hkeep : KeepsValuesOf dst (snap src w)) (hst : Steady dst)
    (hR : dc.Reorders) (hrl : n ≤ rl) (hs : syncFrom n rl hooks dst src dc flags none w = (res, w')) {dc1 dc2 : DiffClass V} {d d' : Diff V} {w1 w2 : World V E}
    (hd : diffFrom n dst src dc1 flags w = (.ok d, w1)) (hd' : diffFrom n dst src dc2 flags w' = (.ok d', w2)) (k : Key) :
    (Plans dst d' .create k ↔ Plans dst d .create k ∧ ¬ Did dst (newEvents w w') .create k) ∧
    (Plans dst d' .update k ↔ Plans dst d .update k ∧ ¬ Did dst (newEvents w w') .update k) ∧
    (Plans dst d' .delete k ↔ Plans dst d .delete k ∧ ¬ Did dst (newEvents w w') .delete k ∧
      ∀ a, ListedBelow (snap dst w) a k → ¬ Did dst (newEvents w w') .delete a) := by
  obtain ⟨a1, a2, a3⟩ := h.plans hd k
  have h1 := h.again hrl hs
  obtain ⟨b1, b2, b3⟩ := h1.plans hd' k
  refine ⟨?_, ?_, ?_⟩
  · rw [b1, a1]; exact C78_left_to_create h hst hR hrl hs k
  · rw [h1.plans_update hd' k, h.plans_update hd k]
    constructor
    · rintro ⟨f, a, hu⟩
      obtain ⟨g1, g2⟩ := (C78_left_to_update h hself hkeep hst hR hrl hs k f a).1 hu
      exact ⟨⟨f, a, g1⟩, g2⟩
    · rintro ⟨⟨f, a, hu⟩, g2⟩
      exact ⟨f, a, (C78_left_to_update h hself hkeep hst hR hrl hs k f a).2 ⟨hu, g2⟩⟩
  · rw [b2, a2]; exact C78_left_to_delete h hst hR hrl hs k

/-- **C78** The same of any number of syncs, each ending as it may: what is left to do in the end is what was to be done in the beginning and no call in
any of them has done. -/
theorem C78_left_after_any_tries (h : CanConverge n src dst sid w) (hself : SelfEqual (snap src w)) (hkeep : KeepsValuesOf dst (snap src w))
    (hst : Steady dst) (hrl : n ≤ rl) (hs : Tries n rl src dst flags w w') (k : Key) :
    (ToCreate src dst flags (snap src w') (snap dst w') k ↔ ToCreate src dst flags (snap src w) (snap dst w) k ∧ ¬ Did dst (newEvents w w') .create k) ∧
    (∀ f a, ToUpdate src dst flags (snap src w') (snap dst w') k f a ↔
      ToUpdate src dst flags (snap src w) (snap dst w) k f a ∧ ¬ Did dst (newEvents w w') .update k) ∧
    (ToDelete src dst flags (snap src w') (snap dst w') k ↔ ToDelete src dst flags (snap src w) (snap dst w) k ∧
      ¬ Did dst (newEvents w w') .delete k ∧ ∀ a, ListedBelow (snap dst w) a k → ¬ Did dst (newEvents w w') .delete a) := by
  induction hs with
  | nil =>
    have no : ∀ a k, ¬ Did dst (newEvents w w) a k := by
      rintro a k ⟨c, out, h1, _⟩
      rw [newEvents_self] at h1
      cases h1
    exact ⟨⟨fun g => ⟨g, no _ _⟩, And.left⟩, fun f a => ⟨fun g => ⟨g, no _ _⟩, And.left⟩, ⟨fun g => ⟨g, no _ _, fun a _ => no _ _⟩, And.left⟩⟩
  | @sync w1 w' hooks dc res h1 hR h2 ih =>
    obtain ⟨i1, i2, i3⟩ := ih
    obtain ⟨p1, p2, P⟩ := h1.attempts.partly h hkeep hrl
    obtain ⟨evs, e1⟩ := h1.ext h hkeep hrl
    obtain ⟨evs', e2⟩ := p1.ext hR hrl h2
    have hn := newEvents_trans e1 e2
    have hself1 : SelfEqual (snap src w1) := by rw [p2]; exact hself
    have hkeep1 : KeepsValuesOf dst (snap src w1) := by rw [p2]; exact hkeep
    have R := h.reconcilable
    have hi := h.ready.instOf
    have R1 : Reconcilable src dst n (snap src w) (snap dst w1) := p2 ▸ p1.reconcilable
    refine ⟨?_, fun f a => ?_, ?_⟩
    · rw [C78_left_to_create p1 hst hR hrl h2 k, i1, hn, Did.append, not_or, and_assoc]
    · rw [C78_left_to_update p1 hself1 hkeep1 hst hR hrl h2 k f a, i2, hn, Did.append, not_or, and_assoc]
    · rw [C78_left_to_delete p1 hst hR hrl h2 k, hn, Did.append, not_or]
      constructor
      · rintro ⟨g1, g2, g3⟩
        obtain ⟨j1, j2, j3⟩ := i3.1 g1
        refine ⟨j1, ⟨j2, g2⟩, fun a hb hd => ?_⟩
        rcases Did.append.1 hd with hd | hd
        · exact j3 a hb hd
        · have hsa := (p1.did_delete hR hrl h2 hd).1
          obtain ⟨q1, q2, q3⟩ := g1
          rw [p2] at hsa q1
          exact g3 a (P.listedBelow' R hi ((shown_iff_reached R1 p1.ready.instOf).1 q1) hb hsa q3) hd
      · rintro ⟨g1, ⟨g2, g2'⟩, g3⟩
        have g4 := i3.2 ⟨g1, g2, fun a hb hd => g3 a hb (Did.append.2 (.inl hd))⟩
        exact ⟨g4, g2', fun a hb hd => g3 a (P.listedBelow R hi hb g1.2.2 g4.2.2) (Did.append.2 (.inr hd))⟩

end DS
