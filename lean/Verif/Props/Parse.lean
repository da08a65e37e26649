import Verif.Props.Retry
import Verif.Props.Converge
/-! # Classes that alter the values they are given

A new instance holds what the class makes of the values given to it, an updated one the values as given.  So a sync that creates objects need
not converge; a second one does. -/
set_option linter.unusedSectionVars false

namespace DS
variable {V E : Type} [PyVal V] {n rl sid : Nat} {src dst : Adapter V} {dc : DiffClass V} {flags : Nat} {hooks : Hooks V E} {w w' : World V E}
  {res : Except Err (Diff V)}

/-- What takes part after a sync took part before. -/
theorem After.shown_back {es : List (Elem V)} (h : After src dst n sid flags w w' es) {k : Key}
    (hk : Shown src dst flags (snap src w) (snap dst w') k) : Shown src dst flags (snap src w) (snap dst w) k := by
  obtain ⟨h1, h2, h3⟩ := hk.placed h.reconcilable h.ready.instOf
  exact ⟨_, h.compared h1, h.visible h3 h2, rfl⟩

theorem CanConverge.shown_back (h : CanConverge n src dst sid w) (hrl : n ≤ rl)
    (hs : syncFrom n rl hooks dst src dc flags none w = (res, w')) {k : Key}
    (hk : Shown src dst flags (snap src w) (snap dst w') k) : Shown src dst flags (snap src w) (snap dst w) k := by
  obtain ⟨d, _, h2, _, h4, h5, _⟩ := h.sync hrl hs
  exact After.shown_back (es := d.kids) ⟨h, h2, h4, h5⟩ hk

/-- After a sync in which all calls succeed, what takes part is on both sides. -/
theorem CanConverge.settled (h : CanConverge n src dst sid w) (hR : dc.Reorders) (hrl : n ≤ rl)
    (hs : syncFrom n rl hooks dst src dc flags none w = (res, w')) (hall : AllSucceed (newEvents w w')) {k : Key}
    (hk : Shown src dst flags (snap src w) (snap dst w') k) :
    (snap src w).find k.1 k.2 ≠ none ∧ (snap dst w').find k.1 k.2 ≠ none := by
  have Y := C70_outcome h hR hrl hs hall
  have hb := h.shown_back hrl hs hk
  have h1 := h.again hrl hs
  have R1 := h1.reconcilable
  rw [h.src_same hs] at R1
  obtain ⟨_, _, h3⟩ := hk.placed R1 h1.ready.instOf
  cases e : (snap src w).find k.1 k.2 with
  | none =>
    rw [e, Y.deleted k hb e] at h3
    rcases h3 with h3 | h3 <;> exact absurd rfl h3
  | some s =>
    refine ⟨by simp, ?_⟩
    cases e' : (snap dst w).find k.1 k.2 with
    | none => obtain ⟨c, m, _, hm, _⟩ := Y.created k s hb e e'; rw [hm]; simp
    | some m0 => obtain ⟨m, hm, _⟩ := Y.updated k s m0 hb e e'; rw [hm]; simp

/-- What is left to do for an object that a sync has created: the attributes that its class has altered. -/
theorem new_differs_iff {s m : Model V} {c : ModelClass V} (hs : Sound s) (hm : Sound m) (hc : m.cls = c)
    (hv : ∀ f d, (f, d) ∈ c.fields → Dict.get? m.vals f = c.newValue s.identifiers s.attrs f d) (f : String) (a : V) :
    Differs s m f a ↔ Dict.get? s.attrs f = some a ∧ f ∈ c.attributes ∧ ∃ b, c.reads f a = some b ∧ PyVal.eq a b = false := by
  subst hc
  have key : Dict.get? s.attrs f = some a → f ∈ m.cls.attributes → Dict.get? m.attrs f = m.cls.reads f a := by
    intro h1 hf
    have ha : f ∈ s.cls.attributes := by
      rw [Model.get?_attrs] at h1
      split at h1
      · assumption
      · cases h1
    have hi : Dict.get? s.identifiers f = none := by
      rw [Model.get?_identifiers, if_neg (fun h => hs.valid.ids_attrs f h ha)]
    obtain ⟨⟨f', d⟩, hfd, rfl⟩ := List.mem_map.1 (hm.valid.attrs_fields f hf)
    rw [Model.get?_attrs, if_pos hf, hv f' d hfd]
    unfold ModelClass.newValue
    dsimp only at h1 hi ⊢
    rw [hi, h1]
    rfl
  constructor
  · rintro ⟨h1, b, h2, h3⟩
    have hf : f ∈ m.cls.attributes := by
      rw [Model.get?_attrs] at h2
      split at h2
      · assumption
      · cases h2
    rw [key h1 hf] at h2
    exact ⟨h1, hf, b, h2, h3⟩
  · rintro ⟨h1, hf, b, h2, h3⟩
    exact ⟨h1, b, by rw [key h1 hf]; exact h2, h3⟩

/-- **C72** What a sync in which all calls succeed leaves to do.  An object that takes part is then on both sides; it differs in an
attribute exactly if the sync has created it and its class has made another value of the source's. -/
theorem C72_what_remains (h : CanConverge n src dst sid w) (hself : SelfEqual (snap src w)) (hR : dc.Reorders) (hrl : n ≤ rl)
    (hs : syncFrom n rl hooks dst src dc flags none w = (res, w')) (hall : AllSucceed (newEvents w w')) {k : Key}
    (hk : Shown src dst flags (snap src w') (snap dst w') k) :
    ∃ s m c, (snap src w').find k.1 k.2 = some s ∧ (snap dst w').find k.1 k.2 = some m ∧ Dict.get? dst.classes k.1 = some c ∧
      ∀ f a, Differs s m f a ↔ (snap dst w).find k.1 k.2 = none ∧ Dict.get? s.attrs f = some a ∧ f ∈ c.attributes ∧
        ∃ b, c.reads f a = some b ∧ PyVal.eq a b = false := by
  have e0 := h.src_same hs
  have h1 := h.again hrl hs
  rw [e0] at hk ⊢
  have Y := C70_outcome h hR hrl hs hall
  have hb := h.shown_back hrl hs hk
  obtain ⟨g1, g2⟩ := h.settled hR hrl hs hall hk
  obtain ⟨s, es⟩ := Option.ne_none_iff_exists'.1 g1
  obtain ⟨m, em⟩ := Option.ne_none_iff_exists'.1 g2
  have R1 := h1.reconcilable
  rw [e0] at R1
  cases e' : (snap dst w).find k.1 k.2 with
  | none =>
    obtain ⟨c, m', ec, em', hc, _, hv⟩ := Y.created k s hb es e'
    cases em.symm.trans em'
    refine ⟨s, m, c, es, em, ec, fun f a => ?_⟩
    rw [new_differs_iff (R1.sound k s (.inl es)) (R1.sound k m (.inr em)) hc hv f a]
    simp
  | some m0 =>
    obtain ⟨m', em', hc, _, hset, hrest⟩ := Y.updated k s m0 hb es e'
    cases em.symm.trans em'
    obtain ⟨c, ec⟩ : ∃ c, Dict.get? dst.classes k.1 = some c := by
      obtain ⟨p, hp, _, rfl⟩ := hb
      obtain ⟨j, pl⟩ := hp.placed h.reconcilable h.ready.instOf
      exact pl.cls
    refine ⟨s, m, c, es, em, ec, fun f a => ⟨fun hd => ?_, fun hd => by cases hd.1⟩⟩
    exfalso
    have hdb := differs_back (m1 := m) hc (Classical.byContradiction fun hn => by
      have hn1 : ∀ a, ¬ Differs s m0 f a := fun a hd => hn (.inr ⟨a, hd, hset f a hd⟩)
      exact hn (.inl (hrest f hn1))) hd
    obtain ⟨d1, b, d2, d3⟩ := hd
    have := hset f a hdb
    rw [attrs_vals d2] at this
    cases this
    rw [hself k s f a es d1] at d3
    cases d3

/-- **C72** Two syncs in succession with the same flags, in both of which all calls succeed, converge: `diff_from` then reports no diffs.
Nothing is assumed about what the classes of the destination make of attribute values. -/
theorem C72_second_sync_converges (h : CanConverge n src dst sid w) (hself : SelfEqual (snap src w)) (hR : dc.Reorders) (hrl : n ≤ rl)
    (hs : syncFrom n rl hooks dst src dc flags none w = (res, w')) (hall : AllSucceed (newEvents w w'))
    {rl2 : Nat} (hrl2 : n ≤ rl2) {hooks2 : Hooks V E} {dc2 : DiffClass V} (hR2 : dc2.Reorders) {res2 : Except Err (Diff V)} {w2 : World V E}
    (hs2 : syncFrom n rl2 hooks2 dst src dc2 flags none w' = (res2, w2)) (hall2 : AllSucceed (newEvents w' w2)) :
    (∃ d, res2 = .ok d) ∧ snap src w2 = snap src w ∧
      ∀ dc', ∃ d' w'', diffFrom n dst src dc' flags w2 = (.ok d', w'') ∧ d'.hasDiffs = false := by
  have e0 := h.src_same hs
  have h1 := h.again hrl hs
  have hk : KeepsNew src dst flags (snap src w') (snap dst w') := by
    intro k s c hk _ hd _
    rw [e0] at hk
    exact absurd hd (h.settled hR hrl hs hall hk).2
  obtain ⟨c1, c2, _, c4⟩ := C21_sync_converges h1 (by rw [e0]; exact hself) hk hR2 hrl2 hs2 hall2
  exact ⟨c1, c2.trans e0, c4⟩

/-- **C72** All that the second sync does is to update objects that the first one created: it sets the attributes that their classes
altered, to the source's values. -/
theorem C72_second_calls (h : CanConverge n src dst sid w) (hself : SelfEqual (snap src w)) (hR : dc.Reorders) (hrl : n ≤ rl)
    (hs : syncFrom n rl hooks dst src dc flags none w = (res, w')) (hall : AllSucceed (newEvents w w'))
    {rl2 : Nat} {hooks2 : Hooks V E} {dc2 : DiffClass V} {res2 : Except Err (Diff V)} {w2 : World V E}
    (hs2 : syncFrom n rl2 hooks2 dst src dc2 flags none w' = (res2, w2)) {call : CrudCall V} {out : Outcome}
    (hc : Event.call call out ∈ newEvents w' w2) :
    ∃ t u attrs s c, call = .update t u attrs ∧ (snap src w).find t u = some s ∧ (snap dst w).find t u = none ∧
      Dict.get? dst.classes t = some c ∧
      ∀ f a, Dict.get? attrs f = some a ↔ Dict.get? s.attrs f = some a ∧ f ∈ c.attributes ∧ ∃ b, c.reads f a = some b ∧ PyVal.eq a b = false := by
  have e0 := h.src_same hs
  have h1 := h.again hrl hs
  have R1 := h1.reconcilable
  have hi : SameIds dst (snap src w') := fun t u m c hm hc => (R1.source (t, u) m c hm hc).identifiers
  obtain ⟨d, w1, e, q, _, _, ⟨u, hk, hp⟩, hq, hv, hg⟩ := computed_call h1.comparable h1.ready.dst h1.keepsIds hs2 hc
  have hh := hg.header
  have hsh : Shown src dst flags (snap src w') (snap dst w') (q.type, q.uid) := ⟨q, hq, hv, rfl⟩
  obtain ⟨s, m, c, es, em, ec, hdf⟩ := C72_what_remains h hself hR hrl hs hall hsh
  obtain ⟨j, pl⟩ := hq.placed R1 h1.ready.instOf
  have q1 : q.src = some s := pl.src_eq.trans es
  have q2 : q.dst = some m := pl.dst_eq.trans em
  split at hp
  · cases hp
  · rename_i ha
    obtain ⟨_, g2⟩ := (action_create_iff e).1 ha
    rw [hh.dst_eq, q2] at g2; cases g2
  · rename_i ha
    cases hp
    have hkq := hg.key h1.ready.dst h1.comparable (.inl hi) hk
    obtain ⟨k1, k2⟩ := Prod.mk.inj hkq
    obtain ⟨s', m', es', em', hat⟩ := C25_update_arguments h1.comparable h1.ready.dst h1.keepsIds hi hs2 hc
    rw [k1, k2] at es' em'
    cases es.symm.trans es'
    cases em.symm.trans em'
    have hne : ∃ f a, Differs s m f a := by
      have := (header_action hh hg.good.some_side)
      refine Classical.byContradiction fun hno => ?_
      have : e.action = none := this.2 ⟨s, m, q1, q2, fun f a b g1 g2 => ?_⟩
      · rw [this] at ha; cases ha
      · cases he : PyVal.eq a b with
        | true => rfl
        | false => exact absurd ⟨f, a, g1, b, g2, he⟩ hno
    obtain ⟨f0, a0, hd0⟩ := hne
    have hD := ((hdf f0 a0).1 hd0).1
    refine ⟨e.type, u, _, s, c, rfl, ?_, ?_, ?_, fun f a => ?_⟩
    · rw [k1, k2, ← e0]; exact es
    · rw [k1, k2]; exact hD
    · rw [k1]; exact ec
    · rw [hat f a]
      have := hdf f a
      unfold Differs at this
      rw [this]
      simp [hD]
  · rename_i ha
    obtain ⟨g1, _⟩ := (action_delete_iff e).1 ha
    rw [hh.src_eq, q1] at g1; cases g1

/-- **C72** A third sync makes no call and changes nothing. -/
theorem C72_third_sync_idle (h : CanConverge n src dst sid w) (hself : SelfEqual (snap src w)) (hR : dc.Reorders) (hrl : n ≤ rl)
    (hs : syncFrom n rl hooks dst src dc flags none w = (res, w')) (hall : AllSucceed (newEvents w w'))
    {hooks2 : Hooks V E} {dc2 : DiffClass V} (hR2 : dc2.Reorders) {res2 : Except Err (Diff V)} {w2 : World V E}
    (hs2 : syncFrom n rl hooks2 dst src dc2 flags none w' = (res2, w2)) (hall2 : AllSucceed (newEvents w' w2))
    {hooks3 : Hooks V E} {dc3 : DiffClass V} (hR3 : dc3.Reorders) {res3 : Except Err (Diff V)} {w3 : World V E}
    (hs3 : syncFrom n rl hooks3 dst src dc3 flags none w2 = (res3, w3)) :
    (∃ d, res3 = .ok d) ∧ callsOf (newEvents w2 w3) = [] ∧ (∀ a b, Event.syncComplete a b ∉ newEvents w2 w3) ∧
      ∀ A : Adapter V, snap A w3 = snap A w2 := by
  have e0 := h.src_same hs
  have h1 := h.again hrl hs
  have hk : KeepsNew src dst flags (snap src w') (snap dst w') := by
    intro k s c hk _ hd _
    rw [e0] at hk
    exact absurd hd (h.settled hR hrl hs hall hk).2
  exact C22_second_sync_idle h1 (by rw [e0]; exact hself) hk hR2 hrl hs2 hall2 hrl hR3 hs3

end DS
