import Verif.Lemmas.ConvErr
/-! # What a sync raises -/
set_option linter.unusedSectionVars false

namespace DS
variable {V E : Type} [PyVal V] {n rl sid : Nat} {src dst : Adapter V} {dc : DiffClass V} {flags : Nat} {hooks : Hooks V E} {w w' : World V E}
  {res : Except Err (Diff V)}

/-- **C77** Between adapters that can be reconciled, a sync that raises passes on what the user's own method raised, and that method's call was the
last one; under CONTINUE_ON_FAILURE the exception is none of those announced for failed actions.  Whatever the methods do before that, neither the
comparison, the recursion, the construction of objects nor the updates of child lists and of the store raise anything. -/
theorem C77_raises_only_user_exceptions (h : CanConverge n src dst sid w) (hR : dc.Reorders) (hrl : n ≤ rl)
    (hs : syncFrom n rl hooks dst src dc flags none w = (res, w')) {x : Err} (hx : res = .error x) :
    ∃ L c out R, newEvents w w' = L ++ .call c out :: R ∧ callsOf R = [] ∧ out.result = .raises x ∧
      (flagOn flags GF.CONTINUE_ON_FAILURE = true → x.isCrud = false) := by
  obtain ⟨d, _, _, _, ⟨y, h1, h2⟩ | h1⟩ := h.clean hrl hR hs
  · rw [h1] at hx; cases hx; exact h2
  · rw [h1] at hx; cases hx

/-- **C77** The same of `sync_to`. -/
theorem C77_raises_only_user_exceptions_to (h : CanConverge n src dst sid w) (hR : dc.Reorders) (hrl : n ≤ rl)
    (hs : syncTo n rl hooks src dst dc flags none w = (res, w')) {x : Err} (hx : res = .error x) :
    ∃ L c out R, newEvents w w' = L ++ .call c out :: R ∧ callsOf R = [] ∧ out.result = .raises x ∧
      (flagOn flags GF.CONTINUE_ON_FAILURE = true → x.isCrud = false) :=
  C77_raises_only_user_exceptions h hR hrl hs hx

/-- **C77** So the sync returns the diff whenever no method raises, or, under CONTINUE_ON_FAILURE, when they raise nothing but the exceptions
announced for failed actions, however many of them fail. -/
theorem C77_returns (h : CanConverge n src dst sid w) (hR : dc.Reorders) (hrl : n ≤ rl)
    (hs : syncFrom n rl hooks dst src dc flags none w = (res, w'))
    (hq : ∀ c out x, Event.call c out ∈ newEvents w w' → out.result = .raises x → flagOn flags GF.CONTINUE_ON_FAILURE = true ∧ x.isCrud = true) :
    ∃ d w1, res = .ok d ∧ diffFrom n dst src dc flags w = (.ok d, w1) := by
  obtain ⟨d, ⟨w1, hd⟩, _, _, ⟨y, h1, L, c, out, R, h2, _, h3, h4⟩ | h1⟩ := h.clean hrl hR hs
  · obtain ⟨g1, g2⟩ := hq c out y (by rw [h2]; simp) h3
    rw [h4 g1] at g2; cases g2
  · exact ⟨d, w1, h1, hd⟩

/-- **C77** And no action is refused: every record of an attempt follows at once the call it is about. -/
theorem C77_nothing_refused (h : CanConverge n src dst sid w) (hR : dc.Reorders) (hrl : n ≤ rl)
    (hs : syncFrom n rl hooks dst src dc flags none w = (res, w')) {L R : List (Event V)} {lv : Level} {ctx : LogCtx} {st : Status}
    (hl : newEvents w w' = L ++ .log lv ctx st :: R) (hlv : lv ≠ .debug) : ∃ L' c out, L = L' ++ [.call c out] := by
  obtain ⟨_, _, h1, _⟩ := h.clean hrl hR hs
  exact h1 _ _ _ _ _ hl hlv

end DS
