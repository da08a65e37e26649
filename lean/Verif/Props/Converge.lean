import Verif.Lemmas.Quiet
import Verif.Props.SyncArgs
/-! # Convergence -/
set_option linter.unusedSectionVars false

namespace DS
variable {V E : Type} [PyVal V] {n rl sid : Nat} {src dst : Adapter V} {dc : DiffClass V} {flags : Nat} {hooks : Hooks V E} {w w' : World V E}
  {res : Except Err (Diff V)}

theorem KeepsValuesOf.new {S D : Snap V} (h : KeepsValuesOf dst S) : KeepsNew src dst flags S D := fun k s c _ hs _ hc => h k s c hs hc

/-- **C21** A sync in which all calls succeed returns, and afterwards source and destination agree at every place that is compared: `diff_from`
with the same flags returns and reports no diffs. -/
theorem C21_sync_converges (h : CanConverge n src dst sid w) (hself : SelfEqual (snap src w))
    (hkeep : KeepsNew src dst flags (snap src w) (snap dst w)) (hR : dc.Reorders) (hrl : n ≤ rl)
    (hs : syncFrom n rl hooks dst src dc flags none w = (res, w')) (hall : AllSucceed (newEvents w w')) :
    (∃ d, res = .ok d) ∧ snap src w' = snap src w ∧
      (∀ p, Compared src dst flags (snap src w') (snap dst w') p → p.Visible flags → p.Agrees) ∧
      ∀ dc', ∃ d' w'', diffFrom n dst src dc' flags w' = (.ok d', w'') ∧ d'.hasDiffs = false := by
  obtain ⟨d, _, h2, _, h4, h5, h6⟩ := h.sync hrl hs
  obtain ⟨h7, h8⟩ := h6 hR hall
  have ha : After src dst n sid flags w w' d.kids := ⟨h, h2, h4, h5⟩
  have hsrc := h.src_same hs
  have hag : ∀ p, Compared src dst flags (snap src w') (snap dst w') p → p.Visible flags → p.Agrees := by
    intro p hp hv
    rw [hsrc] at hp
    exact ha.agree h8 hself hkeep hp hv
  refine ⟨⟨d, h7⟩, hsrc, hag, fun dc' => ?_⟩
  have hc := h.again hrl hs
  obtain ⟨d', w'', hd'⟩ := hc.diff dc' flags
  exact ⟨d', w'', hd', (C12_no_diffs_iff_agree hc.comparable hd').2 hag⟩

/-- **C21** The same of `sync_to`: the target ends up like the adapter that is synced, which stays as it was, and `diff_to` reports nothing. -/
theorem C21_sync_to_converges (h : CanConverge n src dst sid w) (hself : SelfEqual (snap src w))
    (hkeep : KeepsNew src dst flags (snap src w) (snap dst w)) (hR : dc.Reorders) (hrl : n ≤ rl)
    (hs : syncTo n rl hooks src dst dc flags none w = (res, w')) (hall : AllSucceed (newEvents w w')) :
    (∃ d, res = .ok d) ∧ snap src w' = snap src w ∧
      (∀ p, Compared src dst flags (snap src w') (snap dst w') p → p.Visible flags → p.Agrees) ∧
      ∀ dc', ∃ d' w'', diffTo n src dst dc' flags w' = (.ok d', w'') ∧ d'.hasDiffs = false :=
  C21_sync_converges h hself hkeep hR hrl hs hall

/-- **C22** After a converged sync, repeating it (with whatever hooks) returns, makes no call, does not invoke `sync_complete`, and leaves the
contents of every adapter as they are. -/
theorem C22_second_sync_idle (h : CanConverge n src dst sid w) (hself : SelfEqual (snap src w))
    (hkeep : KeepsNew src dst flags (snap src w) (snap dst w)) (hR : dc.Reorders) (hrl : n ≤ rl)
    (hs : syncFrom n rl hooks dst src dc flags none w = (res, w')) (hall : AllSucceed (newEvents w w'))
    {rl2 : Nat} (hrl2 : n ≤ rl2) {hooks2 : Hooks V E} {dc2 : DiffClass V} (hR2 : dc2.Reorders) {res2 : Except Err (Diff V)} {w2 : World V E}
    (hs2 : syncFrom n rl2 hooks2 dst src dc2 flags none w' = (res2, w2)) :
    (∃ d, res2 = .ok d) ∧ callsOf (newEvents w' w2) = [] ∧ (∀ a b, Event.syncComplete a b ∉ newEvents w' w2) ∧
      ∀ A : Adapter V, snap A w2 = snap A w' := by
  obtain ⟨_, _, _, h4⟩ := C21_sync_converges h hself hkeep hR hrl hs hall
  obtain ⟨d', w'', hd', hn⟩ := h4 dc2
  have hc := h.again hrl hs
  have hrun := SyncRun.of_computed hc.comparable hc.ready.dst hc.keepsIds hd' hs2
  obtain ⟨c1, c2⟩ := C32_nothing_to_do hrun hn
  have hall2 : AllSucceed (newEvents w' w2) := by
    intro c out hm
    have := mem_callsOf.2 hm
    rw [c1] at this; cases this
  obtain ⟨d2, _, _, _, _, _, h6⟩ := hc.sync hrl2 hs2
  exact ⟨⟨d2, (h6 hR2 hall2).1⟩, c1, c2, (syncFrom_quiet hrun hn).snap_eq hc.ready.ok⟩

/-- After any number of syncs from the same source, source and destination can still be reconciled, and the source is as it was. -/
theorem Syncs.can (h : CanConverge n src dst sid w) (hrl : n ≤ rl) {w1 : World V E} (hs : Syncs n rl src dst w w1) :
    CanConverge n src dst sid w1 ∧ snap src w1 = snap src w := by
  induction hs with
  | nil => exact ⟨h, rfl⟩
  | sync _ h1 ih =>
    obtain ⟨i1, i2⟩ := ih
    exact ⟨i1.again hrl h1, (i1.src_same h1).trans i2⟩

/-- **C31** After any number of syncs from the same source, with any outcomes of the user's code (refused calls, exceptions, aborted syncs), any
flags and diff classes, a sync in which all calls succeed converges. -/
theorem C31_failures_do_not_matter (h : CanConverge n src dst sid w) (hself : SelfEqual (snap src w))
    (hkeep : KeepsValuesOf dst (snap src w)) (hrl : n ≤ rl) {w1 : World V E}
    (hp : Syncs n rl src dst w w1) (hR : dc.Reorders)
    (hs : syncFrom n rl hooks dst src dc flags none w1 = (res, w')) (hall : AllSucceed (newEvents w1 w')) :
    (∃ d, res = .ok d) ∧ snap src w' = snap src w ∧
      (∀ p, Compared src dst flags (snap src w) (snap dst w') p → p.Visible flags → p.Agrees) ∧
      ∀ dc', ∃ d' w'', diffFrom n dst src dc' flags w' = (.ok d', w'') ∧ d'.hasDiffs = false := by
  obtain ⟨h1, h2⟩ := hp.can h hrl
  rw [← h2] at hself hkeep
  obtain ⟨c1, c2, c3, c4⟩ := C21_sync_converges h1 hself hkeep.new hR hrl hs hall
  refine ⟨c1, c2.trans h2, ?_, c4⟩
  rw [← h2, ← c2]
  exact c3

end DS
