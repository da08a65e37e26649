import Verif.Spec.Along
import Verif.Props.CallsLeave
/-! # C70: what goes along with deleted objects, exactly -/
set_option linter.unusedSectionVars false

namespace DS
variable {V E E' : Type} [PyVal V] {n rl sid : Nat} {src dst : Adapter V} {dc : DiffClass V} {flags : Nat} {hooks : Hooks V E} {w w' : World V E}
  {res : Except Err (Diff V)}

theorem sameContents_self (S : Snap V) : SameContents S S := by
  intro t u
  cases S.find t u with
  | none => exact .absent
  | some m =>
    refine .both ⟨rfl, rfl, rfl, rfl, rfl, fun ct f _ => ?_⟩
    cases m.kidList f with
    | none => exact trivial
    | some l => exact List.Perm.refl l

theorem BelowDeleted.same {src' dst' : Adapter V} {S S' D D' : Snap V} (hS : SameContents S S') (hD : SameContents D D') (h1 : SameTops src src') (h2 : SameTops dst dst') {k : Key}
    (h : BelowDeleted src dst flags S D k) : BelowDeleted src' dst' flags S' D' k := by
  obtain ⟨k0, ⟨g1, g2, g3⟩, ⟨m, g4, g5⟩, g6⟩ := h
  have eD := hD k0.1 k0.2
  refine ⟨k0, ⟨shown_same hS hD h1 h2 g1, (hS _ _).isNone.2 g2, fun h' => g3 (eD.isNone.1 h')⟩, ?_, listedBelow_same hD.symm g6⟩
  rw [g4] at eD
  generalize hx : D'.find k0.1 k0.2 = x at eD
  cases eD with
  | both em => exact ⟨_, hx, by rw [em.flags]; exact g5⟩

/-- **C70** Exactly what happens, in a sync in which all calls succeed, to objects of the destination that take no part in the comparison: those below an object that is
deleted and flagged SKIP_CHILDREN_ON_DELETE are gone; all others are there, with their class, flags, values and children. -/
theorem C70_others_exact (h : CanConverge n src dst sid w) (hR : dc.Reorders) (hrl : n ≤ rl) (hs : syncFrom n rl hooks dst src dc flags none w = (res, w'))
    (hall : AllSucceed (newEvents w w')) {k : Key} {m0 : Model V} (hk : ¬ Shown src dst flags (snap src w) (snap dst w) k) (hD : (snap dst w).find k.1 k.2 = some m0) :
    ((snap dst w').find k.1 k.2 = none ↔ BelowDeleted src dst flags (snap src w) (snap dst w) k) ∧
      ∀ m, (snap dst w').find k.1 k.2 = some m → m.cls = m0.cls ∧ m.flags = m0.flags ∧ m.vals = m0.vals ∧ ∀ ct u, m.lists ct u = m0.lists ct u := by
  have hl := C98_left h hR hrl hs
  have hy := C70_outcome h hR hrl hs hall
  have hdel : ∀ {k0}, Did dst (newEvents w w') .delete k0 → ToDelete src dst flags (snap src w) (snap dst w) k0 := fun hd => C98_deletes h hrl hs hd
  obtain ⟨d, ⟨w1, hd⟩, h2, hcls, h4, h5, _⟩ := h.sync hrl hs
  have ha : After src dst n sid flags w w' d.kids := ⟨h, h2, h4, h5⟩
  have up : ∀ {c : Key}, Linked (snap src w) (snap dst w) k c → ¬ Shown src dst flags (snap src w) (snap dst w) c := by
    intro c hkc hc
    obtain ⟨e, e', he, he', h1, _⟩ := ha.edge_of hkc (ha.shown_iff.1 hc)
    exact hk (ha.shown_iff.2 ⟨e, he, h1⟩)
  have hgone : ∀ {c : Key}, ¬ Shown src dst flags (snap src w) (snap dst w) c → (snap dst w).find c.1 c.2 ≠ none →
      ((snap dst w').find c.1 c.2 = none ↔ BelowDeleted src dst flags (snap src w) (snap dst w) c) := by
    intro c hc hDc
    constructor
    · intro hn
      rcases (hl.gone c hDc).1 hn with g | ⟨k0, g1, g2, g3⟩
      · exact absurd (hdel g).1 hc
      · exact ⟨k0, hdel g1, g2, g3⟩
    · rintro ⟨k0, ⟨g1, g2, _⟩, g4, g5⟩
      have g6 := hy.deleted k0 g1 g2
      rcases C98_subtree h hrl hs g2 g4 with g | g
      · exact absurd g6 (g k0 (.inl rfl))
      · exact g c (.inr g5)
  refine ⟨hgone hk (by rw [hD]; simp), fun m hm => ?_⟩
  obtain ⟨c1, c2, c3⟩ := hl.same k m0 m hD hm
  refine ⟨c1, c2, c3 (fun ⟨c, out, i1, i2, i3, _⟩ => hk (h.call_about hrl hs i1 i3).1), fun ct u => ?_⟩
  have e := hl.lists k (ct, u)
  rw [hm] at e
  have e : m.lists ct u = true ↔ some m ≠ none ∧ (snap dst w').find ct u ≠ none ∧ Linked (snap src w) (snap dst w) k (ct, u) := e
  refine Bool.eq_iff_iff.2 (e.trans ⟨?_, ?_⟩)
  · rintro ⟨_, i1, i2⟩
    have hc := up i2
    have hx : listsO ((snap dst w).find k.1 k.2) ct u = true := by
      rcases i2 with i2 | i2
      · refine h.reconcilable.src_place k (ct, u) i2 (fun hn => ?_)
        obtain ⟨c, out, j1, _, j3, _⟩ := (hl.created (ct, u) hn).1 i1
        exact hc (h.call_about hrl hs j1 j3).1
      · exact i2
    rw [hD] at hx
    exact hx
  · intro hx
    have hx : listsO ((snap dst w).find k.1 k.2) ct u = true := by rw [hD]; exact hx
    refine ⟨by simp, fun hn => ?_, .inr hx⟩
    obtain ⟨k0, g1, g2, g3⟩ := (hgone (up (.inr hx)) (h.reconcilable.dst_stored k (ct, u) hx)).1 hn
    have habs : BelowDeleted src dst flags (snap src w) (snap dst w) k → False := by
      intro hb
      rw [(hgone hk (by rw [hD]; simp)).2 hb] at hm; cases hm
    cases g3 with
    | child hl' =>
      cases h.reconcilable.one_parent _ _ _ (.inr hl') (.inr hx)
      exact hk g1.1
    | step hb hl' =>
      cases h.reconcilable.one_parent _ _ _ (.inr hl') (.inr hx)
      exact habs ⟨k0, g1, g2, hb⟩

/-- **C70** So two syncs in which all calls succeed, from sources with the same contents into destinations with the same contents and classes, leave the same contents
(C70_same_outcome), also when objects go along that take no part. -/
theorem C70_same_outcome_always (h : CanConverge n src dst sid w) (hR : dc.Reorders) (hrl : n ≤ rl)
    (hs : syncFrom n rl hooks dst src dc flags none w = (res, w')) (hall : AllSucceed (newEvents w w'))
    {n2 rl2 sid2 : Nat} {src2 dst2 : Adapter V} {dc2 : DiffClass V} {hooks2 : Hooks V E'} {x x' : World V E'} {res2 : Except Err (Diff V)}
    (h2 : CanConverge n2 src2 dst2 sid2 x) (hR2 : dc2.Reorders) (hrl2 : n2 ≤ rl2)
    (hs2 : syncFrom n2 rl2 hooks2 dst2 src2 dc2 flags none x = (res2, x')) (hall2 : AllSucceed (newEvents x x'))
    (hS : SameContents (snap src w) (snap src2 x)) (hD : SameContents (snap dst w) (snap dst2 x))
    (ht : SameTops src src2) (ht' : SameTops dst dst2) (hcl : dst2.classes = dst.classes) : SameContents (snap dst w') (snap dst2 x') := by
  refine synced_same_of hS hD ht ht' hcl h.reconcilable h.ready.instOf h2.reconcilable h2.ready.instOf (fun k hk => ?_) (C70_outcome h hR hrl hs hall) (C70_outcome h2 hR2 hrl2 hs2 hall2)
  have tS : SameTops src2 src := fun t => (ht t).symm
  have tD : SameTops dst2 dst := fun t => (ht' t).symm
  have hk' : ¬ Shown src2 dst2 flags (snap src2 x) (snap dst2 x) k := fun g => hk (shown_same hS.symm hD.symm tS tD g)
  have eD := hD k.1 k.2
  cases hm0 : (snap dst w).find k.1 k.2 with
  | none =>
    have hm0' : (snap dst2 x).find k.1 k.2 = none := eD.isNone.2 hm0
    have one : ∀ {E' : Type} {n rl sid : Nat} {src dst : Adapter V} {dc : DiffClass V} {hooks : Hooks V E'} {w w' : World V E'} {res}, CanConverge n src dst sid w → dc.Reorders → n ≤ rl →
        syncFrom n rl hooks dst src dc flags none w = (res, w') → ¬ Shown src dst flags (snap src w) (snap dst w) k → (snap dst w).find k.1 k.2 = none → (snap dst w').find k.1 k.2 = none := by
      intro E' n rl sid src dst dc hooks w w' res h hR hrl hs hk hn
      refine Classical.byContradiction (fun hne => ?_)
      obtain ⟨c, out, j1, _, j3, _⟩ := ((C98_left h hR hrl hs).created k hn).1 hne
      exact hk (h.call_about hrl hs j1 j3).1
    exact .inl ⟨one h hR hrl hs hk hm0, one h2 hR2 hrl2 hs2 hk' hm0'⟩
  | some m0 =>
    rw [hm0] at eD
    generalize hm0' : (snap dst2 x).find k.1 k.2 = y at eD
    cases eD with
    | @both _ m0' em =>
      obtain ⟨a1, a2⟩ := C70_others_exact h hR hrl hs hall hk hm0
      obtain ⟨b1, b2⟩ := C70_others_exact h2 hR2 hrl2 hs2 hall2 hk' hm0'
      by_cases hb : BelowDeleted src dst flags (snap src w) (snap dst w) k
      · exact .inl ⟨a1.2 hb, b1.2 (hb.same hS hD ht ht')⟩
      · obtain ⟨m, hm⟩ := Option.ne_none_iff_exists'.1 (fun hn => hb (a1.1 hn))
        obtain ⟨m', hm'⟩ := Option.ne_none_iff_exists'.1 (fun hn => hb ((b1.1 hn).same hS.symm hD.symm tS tD))
        obtain ⟨c1, c2, c3, _⟩ := a2 m hm
        obtain ⟨d1, d2, d3, _⟩ := b2 m' hm'
        have ids : ∀ {a b : Model V}, a.cls = b.cls → a.vals = b.vals → a.identifiers = b.identifiers ∧ a.shortname = b.shortname ∧ a.attrs = b.attrs := by
          rintro ⟨_, _, _, _⟩ ⟨_, _, _, _⟩ h1 h2
          cases h1; cases h2
          exact ⟨rfl, rfl, rfl⟩
        obtain ⟨p1, p2, p3⟩ := ids c1 c3
        obtain ⟨q1, q2, q3⟩ := ids d1 d3
        exact .inr (.inr ⟨m, m', hm, hm', by rw [c1, d1, em.cls], by rw [c2, d2, em.flags], by rw [p1, q1, em.ids], by rw [p2, q2, em.short], by rw [p3, q3, em.attrs]⟩)

end DS
