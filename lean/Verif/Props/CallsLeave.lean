import Verif.Spec.CallsLeave
import Verif.Props.Remains
import Verif.Props.Outcome
import Verif.Props.SyncRuns
import Verif.Lemmas.OutcomeSame
import Verif.Lemmas.Whole
/-! # C98: what a sync leaves when some calls fail -/
set_option linter.unusedSectionVars false

namespace DS
variable {V E : Type} [PyVal V]

section
variable {n rl sid : Nat} {hooks : Hooks V E} {src dst : Adapter V} {dc : DiffClass V} {flags : Nat} {w w' : World V E} {res : Except Err (Diff V)}

theorem Bel.listed {D : Snap V} {a k : Key} (h : Bel D.at a k) : ListedBelow D a k := by
  induction h with
  | child hl => exact .child hl
  | step _ hl ih => exact .step ih hl
theorem ListedBelow.bel {D : Snap V} {a k : Key} (h : ListedBelow D a k) : Bel D.at a k := by
  induction h with
  | child hl => exact .child hl
  | step _ hl ih => exact .step ih hl

/-- **C98** What a sync into a local store leaves, between adapters that can be reconciled, whatever its calls return or raise and whether it returns or raises:
it is given by the contents of the two adapters and by which calls did their work. -/
theorem C98_left (h : CanConverge n src dst sid w) (hR : dc.Reorders) (hrl : n ≤ rl) (hs : syncFrom n rl hooks dst src dc flags none w = (res, w')) :
    CallsLeave dst (snap src w) (snap dst w) (snap dst w') (Did dst (newEvents w w')) := by
  obtain ⟨d, ⟨w1, hd⟩, h2, hcls, h4, h5, _⟩ := h.sync hrl hs
  have ha : After src dst n sid flags w w' d.kids := ⟨h, h2, h4, h5⟩
  have h28 := fun k : Key => C28_only_success_changes_contents h.ready.dst h.applicable hs k.1 k.2
  refine ⟨?_, ?_, ?_, ?_, ?_, fun k c => ha.lists_iff, fun k m hm => ha.sound hm⟩
  · intro k hD
    constructor
    · intro hD'
      obtain ⟨ids, attrs, out, g1, g2, g3⟩ := (h28 k).1 hD hD'
      exact ⟨_, out, g1, rfl, g3, .inr ⟨by simp [CrudCall.act], g2⟩⟩
    · exact fun hd => h.did_create hR hrl hs hd
  · intro k m hD hm
    obtain ⟨s, c, m1, g1, g2, _, g4, g5, _⟩ := ha.made hm hD
    obtain ⟨i1, _, _, i4, _⟩ := instantiate_ok (construct_ok g4)
    refine ⟨s, c, g1, g2, by rw [g5.cls_eq, i1], by rw [g5.flags_eq, i4]; rfl, fun f d hf => ?_⟩
    rw [g5.vals_eq, construct_get? (h.ready.valid.valid _ _ g2) g4 hf]
  · intro k hD
    have hW := h.whole hrl hs
    have hn : ∀ k : Key, (snap dst w').find k.1 k.2 = none ↔ fr sid w' k = none := by
      intro k
      rw [show (snap dst w').find k.1 k.2 = (snap dst w').at k from rfl, snap_at h.ready.store]; simp
    constructor
    · intro hD'
      obtain ⟨k0, g1, out, g2, g3⟩ := hW.gone k hD ((hn k).1 hD')
      have hdid : Did dst (newEvents w w') .delete k0 := ⟨_, out, g2, rfl, rfl, .inr ⟨by simp [CrudCall.act], g3⟩⟩
      rcases g1 with rfl | ⟨g1, g4⟩
      · exact .inl hdid
      · exact .inr ⟨k0, hdid, g1, g4.listed⟩
    · rintro (hd | ⟨k0, hd, hf, hb⟩)
      · exact (h.did_delete hR hrl hs hd).2
      · obtain ⟨g1, g2⟩ := h.did_delete hR hrl hs hd
        rcases hW.sub k0 hf g1 with g | g
        · exact absurd ((hn k0).1 g2) g.1
        · exact (hn k).2 (g.2 k hb.bel)
  · intro k m0 m hD hm
    have ev := ha.evolved (k := k) hm hD
    refine ⟨ev.cls_eq, ev.flags_eq, fun hno => ?_⟩
    refine Classical.byContradiction (fun hne => ?_)
    rcases (h28 k).2.2 (by rw [hD]; simp) m0 m hD hm hne with ⟨ids, attrs, out, i1, _, i3⟩ | ⟨attrs, out, i1, i2⟩
    · have := ((h.call_about hrl hs i1 i3).2.1 rfl).2
      rw [hD] at this; cases this
    · exact hno ⟨_, out, i1, rfl, rfl, .inl ⟨rfl, i2⟩⟩
  · intro k m0 m hD hm hdid
    obtain ⟨s, m0', m', g1, g2, g3, g4⟩ := h.did_update hR hrl hs hdid
    cases hD.symm.trans g2
    cases hm.symm.trans g3
    refine ⟨s, g1, g4, fun f hno => ?_⟩
    have ev := ha.evolved (k := k) hm hD
    rcases ev.vals f with hv | ⟨e, v, he, hk', _, hp, hv⟩
    · exact hv
    · exfalso
      obtain ⟨t1, t2, _, _⟩ := ha.sides he hk'
      rw [show (snap src w).at k = some s from g1] at t1
      rw [show (snap dst w).at k = some m0 from hD] at t2
      exact hno v (plus_differs t1 t2 hp)

/-- **C98** The same of `sync_to`. -/
theorem C98_left_to (h : CanConverge n src dst sid w) (hR : dc.Reorders) (hrl : n ≤ rl) (hs : syncTo n rl hooks src dst dc flags none w = (res, w')) :
    CallsLeave dst (snap src w) (snap dst w) (snap dst w') (Did dst (newEvents w w')) := C98_left h hR hrl hs

/-- **C98** What is below an object that only the destination has, and that takes along what is below it, goes with it as a whole or stays with it as a whole: no failure
of a call leaves a part of it. -/
theorem C98_subtree (h : CanConverge n src dst sid w) (hrl : n ≤ rl) (hs : syncFrom n rl hooks dst src dc flags none w = (res, w')) {k0 : Key}
    (hS : (snap src w).find k0.1 k0.2 = none) (hf : TakesAlong (snap dst w) k0) :
    (∀ k, k = k0 ∨ ListedBelow (snap dst w) k0 k → (snap dst w').find k.1 k.2 ≠ none) ∨ (∀ k, k = k0 ∨ ListedBelow (snap dst w) k0 k → (snap dst w').find k.1 k.2 = none) := by
  have hn : ∀ k : Key, (snap dst w').find k.1 k.2 = none ↔ fr sid w' k = none := by
    intro k
    rw [show (snap dst w').find k.1 k.2 = (snap dst w').at k from rfl, snap_at h.ready.store]; simp
  rcases (h.whole hrl hs).sub k0 hf hS with g | g
  · refine .inl ?_
    rintro k (rfl | hb) h'
    · exact g.1 ((hn k).1 h')
    · exact g.2 k hb.bel ((hn k).1 h')
  · refine .inr ?_
    rintro k (rfl | hb)
    · exact (hn k).2 g.1
    · exact (hn k).2 (g.2 k hb.bel)

/-- **C98** A delete call is made only for an object that takes part and that the source does not have. -/
theorem C98_deletes (h : CanConverge n src dst sid w) (hrl : n ≤ rl) (hs : syncFrom n rl hooks dst src dc flags none w = (res, w')) {k : Key}
    (hd : Did dst (newEvents w w') .delete k) : ToDelete src dst flags (snap src w) (snap dst w) k := by
  obtain ⟨c, out, h1, h2, h3, _⟩ := hd
  obtain ⟨g1, _, _, g2⟩ := h.call_about hrl hs h1 h3
  exact ⟨g1, g2 h2⟩
end

section
variable {dst : Adapter V} {S D D1 D2 : Snap V} {did did' : Action → Key → Prop}

theorem CallsLeave.vals_eq {m m' : Model V} (hs : Sound m) (hs' : Sound m') (hc : m'.cls = m.cls) (h : ∀ f ∈ m.cls.fieldNames, Dict.get? m'.vals f = Dict.get? m.vals f) :
    m'.vals = m.vals := by
  apply Dict.ext_of_keys
  · unfold Dict.WF; rw [hs'.vals, hc]; exact hs.valid.fields_nodup
  · rw [hs'.vals, hs.vals, hc]
  · intro f
    by_cases hf : f ∈ m.cls.fieldNames
    · exact h f hf
    · rw [Dict.get?_eq_none_iff.2 (by rw [hs'.vals, hc]; exact hf), Dict.get?_eq_none_iff.2 (by rw [hs.vals]; exact hf)]

/-- **C98** So the contents that are left are determined by the contents before and by which calls did their work. -/
theorem C98_determined (h1 : CallsLeave dst S D D1 did) (h2 : CallsLeave dst S D D2 did') (hdid : ∀ a k, did' a k ↔ did a k) :
    SameObjects D1 D2 := by
  have pres : ∀ k : Key, D2.find k.1 k.2 = none ↔ D1.find k.1 k.2 = none := by
    intro k
    cases hD : D.find k.1 k.2 with
    | none =>
      have a := h1.created k hD
      have b := h2.created k hD
      rw [hdid] at b
      have := b.trans a.symm
      constructor
      · intro h; exact Classical.byContradiction (fun h' => this.2 h' h)
      · intro h; exact Classical.byContradiction (fun h' => this.1 h' h)
    | some m0 =>
      rw [h1.gone k (by rw [hD]; simp), h2.gone k (by rw [hD]; simp)]
      simp only [hdid]
  intro k
  refine ⟨pres k, fun m m' hm hm' => ?_⟩
  have hl : ∀ ct u, m'.lists ct u = m.lists ct u := by
    intro ct u
    have a := h1.lists k (ct, u)
    have b := h2.lists k (ct, u)
    rw [Ne, Ne, pres k, pres (ct, u)] at b
    have := b.trans a.symm
    rw [hm, hm'] at this
    exact Bool.eq_iff_iff.2 this
  cases hD : D.find k.1 k.2 with
  | none =>
    obtain ⟨s, c, g1, g2, g3, g4, g5⟩ := h1.fresh k m hD hm
    obtain ⟨s', c', g1', g2', g3', g4', g5'⟩ := h2.fresh k m' hD hm'
    cases g1.symm.trans g1'
    cases g2.symm.trans g2'
    have hc : m'.cls = m.cls := by rw [g3, g3']
    refine ⟨hc, by rw [g4, g4'], CallsLeave.vals_eq (h1.sound k m hm) (h2.sound k m' hm') hc (fun f hf => ?_), hl⟩
    rw [g3] at hf
    obtain ⟨⟨f', d⟩, hfd, rfl⟩ := List.mem_map.1 hf
    rw [g5 f' d hfd, g5' f' d hfd]
  | some m0 =>
    obtain ⟨g1, g2, g3⟩ := h1.same k m0 m hD hm
    obtain ⟨g1', g2', g3'⟩ := h2.same k m0 m' hD hm'
    have hc : m'.cls = m.cls := by rw [g1, g1']
    refine ⟨hc, by rw [g2, g2'], ?_, hl⟩
    by_cases hu : did .update k
    · obtain ⟨s, i1, i2, i3⟩ := h1.updated k m0 m hD hm hu
      obtain ⟨s', i1', i2', i3'⟩ := h2.updated k m0 m' hD hm' ((hdid _ _).2 hu)
      cases i1.symm.trans i1'
      refine CallsLeave.vals_eq (h1.sound k m hm) (h2.sound k m' hm') hc (fun f _ => ?_)
      by_cases hx : ∃ a, Differs s m0 f a
      · obtain ⟨a, ha⟩ := hx
        rw [i2 f a ha, i2' f a ha]
      · rw [i3 f (fun a ha => hx ⟨a, ha⟩), i3' f (fun a ha => hx ⟨a, ha⟩)]
    · rw [g3 hu, g3' (fun hd => hu ((hdid _ _).1 hd))]
end

/-- **C98** Two syncs from the same contents, whose calls have the same outcomes one after the other, make the same calls and leave the same objects: whatever the user's
code, the environment, the recursion limits and what happened before. -/
theorem C98_same_outcomes {E' : Type} {n rl n' rl' sid sid' : Nat} {hooks : Hooks V E} {hooks' : Hooks V E'} {src dst : Adapter V} {dc dc' : DiffClass V} {flags : Nat} {w w' : World V E}
    {v v' : World V E'} {res res' : Except Err (Diff V)} (h : CanConverge n src dst sid w) (h' : CanConverge n' src dst sid' v) (hrl : n ≤ rl) (hrl' : n' ≤ rl')
    (hdc : ∀ g l, dc.order g l = l) (hdc' : ∀ g l, dc'.order g l = l) (hS : snap src w = snap src v) (hD : snap dst w = snap dst v)
    (hs : syncFrom n rl hooks dst src dc flags none w = (res, w')) (hs' : syncFrom n' rl' hooks' dst src dc' flags none v = (res', v'))
    (hout : (callsOf (newEvents w w')).map Prod.snd = (callsOf (newEvents v v')).map Prod.snd) :
    callsOf (newEvents w w') = callsOf (newEvents v v') ∧ SameObjects (snap dst w') (snap dst v') := by
  have hp := C95_same_calls h h' hrl hrl' hdc hdc' hS hD hs hs' (by rw [hout]; exact List.prefix_refl _)
  have hc : callsOf (newEvents w w') = callsOf (newEvents v v') := hp.eq_of_length (by simpa using congrArg List.length hout)
  have hev : ∀ c out, Event.call c out ∈ newEvents v v' ↔ Event.call c out ∈ newEvents w w' := fun c out => by rw [← mem_callsOf, ← mem_callsOf, hc]
  have h1 := C98_left h (fun g l => by rw [hdc]) hrl hs
  have h2 := C98_left h' (fun g l => by rw [hdc']) hrl' hs'
  rw [← hS, ← hD] at h2
  refine ⟨hc, C98_determined h1 h2 (fun a k => ?_)⟩
  unfold Did
  simp only [hev]

end DS
