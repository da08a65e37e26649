import Verif.Lemmas.Retried
/-! # Syncs that are tried again -/
set_option linter.unusedSectionVars false

namespace DS
variable {V E : Type} [PyVal V] {n rl rl0 sid : Nat} {src dst : Adapter V} {dc dc0 : DiffClass V} {flags : Nat} {hooks hooks0 : Hooks V E} {w w0 w1 w' : World V E}
  {res res0 : Except Err (Diff V)}

/-- **C71** A sync that was tried any number of times, in which calls failed, raised or ended it half-way, and that succeeds in the end, leaves
what it would have left had it succeeded at once; but for objects of the destination that the source does not have and that are still there,
below an object that an earlier attempt has deleted. Those take part in no further sync. -/
theorem C71_retries (h : CanConverge n src dst sid w) (hkeep : KeepsValuesOf dst (snap src w)) (hrl : n ≤ rl) (hc : Steady dst)
    (ha : Attempts n rl src dst flags w w1)
    (hR : dc.Reorders) (hs : syncFrom n rl hooks dst src dc flags none w1 = (res, w')) (hall : AllSucceed (newEvents w1 w'))
    (hR0 : dc0.Reorders) (hrl0 : n ≤ rl0) (hs0 : syncFrom n rl0 hooks0 dst src dc0 flags none w = (res0, w0)) (hall0 : AllSucceed (newEvents w w0)) (t u : String) :
    SameO ((snap dst w0).find t u) ((snap dst w').find t u) ∨
      (Stranded src dst flags (snap src w) (snap dst w) (snap dst w') (t, u) ∧ (snap dst w0).find t u = none) := by
  obtain ⟨h1, e1, P⟩ := ha.partly h hkeep hrl
  obtain ⟨_, _, P2⟩ := (Attempts.sync ha hs).partly h hkeep hrl
  have h2 := h1.again hrl hs
  have e2 := h1.src_same hs
  have P1 := h1.attempt hrl hs
  have Y := C70_outcome h hR0 hrl0 hs0 hall0
  have Y1 := C70_outcome h1 hR hrl hs hall
  have R1 := h1.reconcilable
  have R2 := h2.reconcilable
  rw [e2] at R2
  rw [e1] at P1 Y1 R1 R2
  refine retried h.reconcilable h.ready.instOf P R1 h1.ready.instOf hc hkeep Y Y1 (h.attempt hrl0 hs0) P1 P2 (h.bystand hrl0 hs0) ((Attempts.sync ha hs).bystand h hkeep hrl)
    (fun k hk => ?_) (fun k0 k g1 g2 g3 g4 => ?_) R2 h2.ready.instOf (t, u)
  · obtain ⟨k0, ⟨g1, g2, _⟩, g4, g5⟩ := hk
    rcases C98_subtree h hrl0 hs0 g2 g4 with g | g
    · exact absurd (Y.deleted k0 g1 g2) (g k0 (.inl rfl))
    · exact g k (.inr g5)
  · rcases (Attempts.sync ha hs).whole h hkeep hrl g1 g2 with g | g
    · exact g k0 (.inl rfl)
    · exact absurd (g k (.inr g3)) g4

/-- **C71** When objects missing in the source are not to be deleted, or only objects without children are missing in the source, nothing is
left over: the two destinations have the same contents. -/
theorem C71_retries_same (h : CanConverge n src dst sid w) (hkeep : KeepsValuesOf dst (snap src w)) (hrl : n ≤ rl) (hc : Steady dst)
    (hl : flagOn flags GF.SKIP_UNMATCHED_DST = true ∨ ∀ k c : Key, listsO ((snap dst w).find k.1 k.2) c.1 c.2 = true → (snap src w).find k.1 k.2 ≠ none)
    (ha : Attempts n rl src dst flags w w1)
    (hR : dc.Reorders) (hs : syncFrom n rl hooks dst src dc flags none w1 = (res, w')) (hall : AllSucceed (newEvents w1 w'))
    (hR0 : dc0.Reorders) (hrl0 : n ≤ rl0) (hs0 : syncFrom n rl0 hooks0 dst src dc0 flags none w = (res0, w0)) (hall0 : AllSucceed (newEvents w w0)) :
    SameContents (snap dst w0) (snap dst w') := by
  intro t u
  rcases C71_retries h hkeep hrl hc ha hR hs hall hR0 hrl0 hs0 hall0 t u with g | ⟨g, _⟩
  · exact g
  · exfalso
    rcases hl with hl | hl
    · have key : ∀ {k : Key} {m0}, Shown src dst flags (snap src w) (snap dst w) k → (snap src w).find k.1 k.2 = none → (snap dst w).find k.1 k.2 = some m0 → False := by
        intro k m0 hsh hn h0
        obtain ⟨_, hv, _⟩ := hsh.placed h.reconcilable h.ready.instOf
        apply hv
        show Hidden flags ((snap src w).find k.1 k.2) ((snap dst w).find k.1 k.2)
        rw [hn, h0]
        exact .globalDst _ hl
      rcases g.shown with hsh | ⟨k0, hsh, hn, ⟨m0, h0, _⟩, _⟩
      · obtain ⟨m0, m, h0, _⟩ := g.still
        exact key hsh g.not_src h0
      · exact key hsh hn h0
    · obtain ⟨a, h1, h2, _⟩ := g.orphan
      have : ∀ {a k : Key}, ListedBelow (snap dst w) a k → ∃ c : Key, listsO ((snap dst w).find a.1 a.2) c.1 c.2 = true := by
        intro a k hb
        induction hb with
        | child h => exact ⟨_, h⟩
        | step _ _ ih => exact ih
      obtain ⟨c, hc'⟩ := this h1
      exact hl a c hc' h2

/-- **C71** Whatever failed in earlier attempts, an object of the source that takes part is in the destination after the one that succeeds, and the
diff finds no differences among the objects of the source. -/
theorem C71_source_arrives (h : CanConverge n src dst sid w) (hself : SelfEqual (snap src w)) (hkeep : KeepsValuesOf dst (snap src w)) (hrl : n ≤ rl) (hc : Steady dst)
    (ha : Attempts n rl src dst flags w w1)
    (hR : dc.Reorders) (hs : syncFrom n rl hooks dst src dc flags none w1 = (res, w')) (hall : AllSucceed (newEvents w1 w')) {t u : String} {s : Model V}
    (hk : Shown src dst flags (snap src w) (snap dst w) (t, u)) (hS : (snap src w).find t u = some s) :
    ∃ m, (snap dst w').find t u = some m ∧ ∀ f a, ¬ Differs s m f a := by
  obtain ⟨h1, e1, P⟩ := ha.partly h hkeep hrl
  have Y1 := C70_outcome h1 hR hrl hs hall
  have R1 := h1.reconcilable
  rw [e1] at Y1 R1
  have hk1 : Shown src dst flags (snap src w) (snap dst w1) (t, u) :=
    (shown_iff_reached R1 h1.ready.instOf).2 (P.forth h.reconcilable h.ready.instOf hc.made ((shown_iff_reached h.reconcilable h.ready.instOf).1 hk) (by rw [hS]; simp))
  have hss := R1.sound (t, u) s (.inl hS)
  have hse : ∀ f v, Dict.get? s.attrs f = some v → PyVal.eq v v = true := fun f v => hself (t, u) s f v hS
  cases h0 : (snap dst w1).find t u with
  | none =>
    obtain ⟨c, m, g1, g2, g3, _, g5⟩ := Y1.created (t, u) s hk1 hS h0
    exact ⟨m, g2, new_no_differs hss (hkeep (t, u) s c hS g1) (Y1.sound _ m g2) g3 g5⟩
  | some m1 =>
    obtain ⟨m, g1, g2, _, g4, g5⟩ := Y1.updated (t, u) s m1 hk1 hS h0
    refine ⟨m, g1, fun f a hd => ?_⟩
    by_cases hx : ∃ a', Differs s m1 f a'
    · obtain ⟨a', ha'⟩ := hx
      obtain ⟨q1, b, q2, q3⟩ := hd
      have q := g4 f a' ha'
      rw [attrs_vals q2] at q
      cases q
      cases q1.symm.trans ha'.1
      rw [hse _ _ q1] at q3; cases q3
    · obtain ⟨q1, b, q2, q3⟩ := hd
      exact hx ⟨a, q1, b, by rw [← attrs_get g2 (g5 f (fun a' h' => hx ⟨a', h'⟩))]; exact q2, q3⟩

end DS
