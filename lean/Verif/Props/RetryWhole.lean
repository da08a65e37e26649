import Verif.Props.Retry
import Verif.Props.CallsLeave
/-! # C71: retries and objects that take along what is below them -/
set_option linter.unusedSectionVars false

namespace DS
variable {V E : Type} [PyVal V] {n rl rl0 sid : Nat} {src dst : Adapter V} {dc dc0 : DiffClass V} {flags : Nat} {hooks hooks0 : Hooks V E} {w w0 w1 w' : World V E}
  {res res0 : Except Err (Diff V)}

/-- **C71** However often a sync is tried and whatever fails, what is below an object that only the destination has, and that takes along what is below it, is there as a
whole with it, or gone as a whole with it. -/
theorem C71_whole (h : CanConverge n src dst sid w) (hkeep : KeepsValuesOf dst (snap src w)) (hrl : n ≤ rl)
    (ha : Attempts n rl src dst flags w w1) {k0 : Key} (hS : (snap src w).find k0.1 k0.2 = none) (hf : TakesAlong (snap dst w) k0) :
    (∀ k, k = k0 ∨ ListedBelow (snap dst w) k0 k → (snap dst w1).find k.1 k.2 ≠ none) ∨ (∀ k, k = k0 ∨ ListedBelow (snap dst w) k0 k → (snap dst w1).find k.1 k.2 = none) :=
  ha.whole h hkeep hrl hS hf

/-- **C71** So nothing is left over if all objects with children that only the destination has take along what is below them: a sync that was tried any number of times
and succeeds in the end leaves what it would have left had it succeeded at once. -/
theorem C71_retries_whole (h : CanConverge n src dst sid w) (hkeep : KeepsValuesOf dst (snap src w)) (hrl : n ≤ rl) (hc : Steady dst)
    (hl : ∀ k c : Key, listsO ((snap dst w).find k.1 k.2) c.1 c.2 = true → (snap src w).find k.1 k.2 = none → TakesAlong (snap dst w) k)
    (ha : Attempts n rl src dst flags w w1)
    (hR : dc.Reorders) (hs : syncFrom n rl hooks dst src dc flags none w1 = (res, w')) (hall : AllSucceed (newEvents w1 w'))
    (hR0 : dc0.Reorders) (hrl0 : n ≤ rl0) (hs0 : syncFrom n rl0 hooks0 dst src dc0 flags none w = (res0, w0)) (hall0 : AllSucceed (newEvents w w0)) :
    SameContents (snap dst w0) (snap dst w') := by
  intro t u
  rcases C71_retries h hkeep hrl hc ha hR hs hall hR0 hrl0 hs0 hall0 t u with g | ⟨g, _⟩
  · exact g
  · exfalso
    obtain ⟨m0, m, _, g2, _⟩ := g.still
    obtain ⟨a, h1, h2, h3⟩ := g.orphan
    have hch : ∀ {a k : Key}, ListedBelow (snap dst w) a k → ∃ c : Key, listsO ((snap dst w).find a.1 a.2) c.1 c.2 = true := by
      intro a k hb
      induction hb with
      | child h => exact ⟨_, h⟩
      | step _ _ ih => exact ih
    obtain ⟨c, hc'⟩ := hch h1
    rcases C71_whole h hkeep hrl (.sync ha hs) h2 (hl a c hc' h2) with q | q
    · exact q a (.inl rfl) h3
    · have := q _ (.inr h1)
      rw [g2] at this; cases this

end DS
