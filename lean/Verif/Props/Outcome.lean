import Verif.Lemmas.OutcomeSame
/-! # What a successful sync leaves -/
set_option linter.unusedSectionVars false

namespace DS
variable {V E E' : Type} [PyVal V] {n rl sid : Nat} {src dst : Adapter V} {dc : DiffClass V} {flags : Nat} {hooks : Hooks V E} {w w' : World V E}
  {res : Except Err (Diff V)}

/-- **C70** After a sync in which all calls succeed the contents of the destination are determined by what source and destination held before:
objects that take part and are missing in the source are gone, those missing in the destination are there with the source's identifiers and
attributes, those of both have the source's values where they differed and are otherwise as they were; objects that take no part are as they
were, unless one above them was deleted under SKIP_CHILDREN_ON_DELETE; and every child list has the children of both sides that are there. -/
theorem C70_outcome (h : CanConverge n src dst sid w) (hR : dc.Reorders) (hrl : n ≤ rl)
    (hs : syncFrom n rl hooks dst src dc flags none w = (res, w')) (hall : AllSucceed (newEvents w w')) :
    Synced src dst flags (snap src w) (snap dst w) (snap dst w') := by
  obtain ⟨d, ⟨w1, h1⟩, h2, _, h4, h5, h6⟩ := h.sync hrl hs
  obtain ⟨_, h8⟩ := h6 hR hall
  have ha : After src dst n sid flags w w' d.kids := ⟨h, h2, h4, h5⟩
  refine ha.outcome (applicable_computed h.comparable h.ready.dst h.keepsIds) hs h8 (fun d' hu => ?_)
  rcases hu with ⟨hu, _⟩ | ⟨_, hu⟩
  · cases hu
  · rw [h1] at hu
    cases hu
    rfl

/-- **C70** The same of `sync_to`. -/
theorem C70_outcome_to (h : CanConverge n src dst sid w) (hR : dc.Reorders) (hrl : n ≤ rl)
    (hs : syncTo n rl hooks src dst dc flags none w = (res, w')) (hall : AllSucceed (newEvents w w')) :
    Synced src dst flags (snap src w) (snap dst w) (snap dst w') :=
  C70_outcome h hR hrl hs hall

/-- **C70** When no object below one flagged SKIP_CHILDREN_ON_DELETE is excluded from diffs by its own flags, all objects that take no part are
as they were. -/
theorem C70_rest_untouched (h : CanConverge n src dst sid w) (hR : dc.Reorders) (hrl : n ≤ rl)
    (hs : syncFrom n rl hooks dst src dc flags none w = (res, w')) (hall : AllSucceed (newEvents w w'))
    (hn : (snap dst w).NoneGoesAlong dst) {t u : String} (hk : ¬ Shown src dst flags (snap src w) (snap dst w) (t, u)) :
    (snap dst w').find t u = (snap dst w).find t u :=
  (C70_outcome h hR hrl hs hall).others (t, u) hk (fun hg => hk (goesAlong_shown h.reconcilable h.ready.instOf hn hg).1)

/-- **C70** Two syncs in which all calls succeed, from sources with the same contents into destinations with the same contents and classes,
leave the same contents, whatever the diff classes, the adapters' names, the user's code, the order in which objects were loaded or are listed,
the identities of the objects, the recursion limits and the stores of the sources. -/
theorem C70_same_outcome (h : CanConverge n src dst sid w) (hR : dc.Reorders) (hrl : n ≤ rl)
    (hs : syncFrom n rl hooks dst src dc flags none w = (res, w')) (hall : AllSucceed (newEvents w w'))
    {n2 rl2 sid2 : Nat} {src2 dst2 : Adapter V} {dc2 : DiffClass V} {hooks2 : Hooks V E'} {x x' : World V E'} {res2 : Except Err (Diff V)}
    (h2 : CanConverge n2 src2 dst2 sid2 x) (hR2 : dc2.Reorders) (hrl2 : n2 ≤ rl2)
    (hs2 : syncFrom n2 rl2 hooks2 dst2 src2 dc2 flags none x = (res2, x')) (hall2 : AllSucceed (newEvents x x'))
    (hS : SameContents (snap src w) (snap src2 x)) (hD : SameContents (snap dst w) (snap dst2 x))
    (ht : SameTops src src2) (ht' : SameTops dst dst2) (hcl : dst2.classes = dst.classes) (hn : (snap dst w).NoneGoesAlong dst) :
    SameContents (snap dst w') (snap dst2 x') :=
  synced_same hS hD ht ht' hcl h.reconcilable h.ready.instOf h2.reconcilable h2.ready.instOf hn (C70_outcome h hR hrl hs hall)
    (C70_outcome h2 hR2 hrl2 hs2 hall2)

end DS
