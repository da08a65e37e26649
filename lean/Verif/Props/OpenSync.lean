import Verif.Lemmas.OpenClosed
/-! # C66: what a sync does whatever user code does -/

namespace DS
variable {V E : Type} [PyVal V]

/-- C66.  Whatever `create`, `update`, `delete`, the progress callback and `sync_complete` do to the adapters: every call that a sync
makes is asked for by an element of the diff, each element gets at most one; if both an object and one below it get a call, either the
first came first and returned an object, or it is to be deleted and came second. -/
theorem C66_calls {n rl : Nat} {hooks : OpenHooks V E} {dst src : Adapter V} {dc : DiffClass V} {flags : Nat} {diff : Option (Diff V)} {w w' : World V E}
    {res : Except Err (Diff V)} {d : Diff V} (h : OpenRun n rl hooks dst src dc flags diff w d res w') (hR : d.cls.Reorders)
    (hN : ∀ t c, Dict.get? dst.classes t = some c → c.name = t) :
    ∃ ps : List (Served V), SubPerm (ps.map Served.elem) (nodesL d.kids) ∧ callsOf (newEvents w w') = ps.map (fun q => (q.call, q.out)) ∧
      (∀ q ∈ ps, Asks q.elem q.call) ∧
      ((nodesL d.kids).Nodup → ps.Pairwise (fun q q' => (InTree q'.elem q.elem.kids → q.out.result = .object) ∧
        (InTree q.elem q'.elem.kids → q'.elem.action = some .delete))) := by
  rcases h.cases with ⟨_, rfl⟩ | ⟨evs0, evs, p, y, hr, _⟩
  · exact ⟨[], .nil _, by unfold newEvents; simp, (fun _ h => by cases h), fun _ => .nil⟩
  · obtain ⟨ps, hp⟩ := hr.tr.calls hR hN
    have hperm : (nodesL (getChildren d.cls d.kids)).Perm (nodesL d.kids) := by
      rw [nodesL_eq, nodesL_eq]; exact (getChildren_perm hR _).flatMap_right _
    refine ⟨ps, hp.each.permR hperm, ?_, hp.asks, fun hd => hp.nested (hperm.nodup_iff.2 hd)⟩
    have h0 : callsOf evs0 = [] := by
      unfold callsOf
      rw [List.filterMap_eq_nil_iff]
      intro ev hm
      obtain ⟨a, b, rfl⟩ := hr.only ev hm
      rfl
    rw [hr.new, callsOf_append, callsOf_append, h0, hp.calls]
    split <;> simp [callsOf, Served.pair]

/-- C66.  Whatever user code does, progress is reported as 1, 2, 3, … out of the number of elements of the diff, and never beyond it. -/
theorem C66_progress {n rl : Nat} {hooks : OpenHooks V E} {dst src : Adapter V} {dc : DiffClass V} {flags : Nat} {diff : Option (Diff V)} {w w' : World V E}
    {res : Except Err (Diff V)} {d : Diff V} (h : OpenRun n rl hooks dst src dc flags diff w d res w') :
    ∃ k, k ≤ d.len ∧ progressOf (newEvents w w') = countUp d.len 0 k := by
  rcases h.cases with ⟨_, rfl⟩ | ⟨evs0, evs, p, y, hr, _⟩
  · exact ⟨0, Nat.zero_le _, by unfold newEvents; simp; rfl⟩
  · obtain ⟨k, _, h2, h3⟩ := hr.tr.progress
    refine ⟨k, h3, ?_⟩
    have h0 : progressOf evs0 = [] := by
      unfold progressOf
      rw [List.filterMap_eq_nil_iff]
      intro ev hm
      obtain ⟨a, b, rfl⟩ := hr.only ev hm
      rfl
    rw [hr.new, progressOf_append, progressOf_append, h0, h2]
    split <;> simp [progressOf, OpenCtx.tr]

/-- C66.  An exception that user code raises in a call ends the sync at once, unless it is one of the library's object exceptions and
CONTINUE_ON_FAILURE is set: it is what `sync_from` raises, nothing else is called and `sync_complete` is not. -/
theorem C66_exception {n rl : Nat} {hooks : OpenHooks V E} {dst src : Adapter V} {dc : DiffClass V} {flags : Nat} {diff : Option (Diff V)} {w w' : World V E}
    {res : Except Err (Diff V)} {d : Diff V} (h : OpenRun n rl hooks dst src dc flags diff w d res w') {A B : List (Event V)} {c : CrudCall V} {out : Outcome} {x : Err}
    (hs : newEvents w w' = A ++ .call c out :: B) (ho : out.result = .raises x) (hx : x.isCrud = true → flagOn flags GF.CONTINUE_ON_FAILURE = false) :
    res = .error x ∧ callsOf B = [] ∧ ∀ i j, Event.syncComplete i j ∉ newEvents w w' := by
  rcases h.cases with ⟨_, rfl⟩ | ⟨evs0, evs, p, y, hr, _⟩
  · unfold newEvents at hs; simp at hs
  · have hc : callsOf evs0 = [] := by
      unfold callsOf
      rw [List.filterMap_eq_nil_iff]
      intro ev hm
      obtain ⟨a, b, rfl⟩ := hr.only ev hm
      rfl
    have h1 : StopsAt flags (evs0 ++ evs) y := StopsAt.seq (b := true) (.quiet hc) hr.tr.stopsAt (fun _ h => h)
    have hy : ∃ B', callsOf B = callsOf B' ∧ evs0 ++ evs = A ++ .call c out :: B' := by
      rw [hr.new] at hs
      rcases split_append hs with ⟨A', _, hs'⟩ | ⟨B', h1, hs'⟩
      · split at hs'
        · cases A' with
          | nil => cases hs'
          | cons => simp at hs'
        · simp at hs'
      · refine ⟨B', ?_, hs'⟩
        rw [h1, callsOf_append]
        split <;> simp [callsOf]
    obtain ⟨B', hB, hs'⟩ := hy
    obtain ⟨k1, rfl⟩ := h1 _ _ _ _ _ hs' ho hx
    refine ⟨hr.err x rfl, hB.trans k1, fun i j hm => ?_⟩
    rw [hr.new] at hm
    simp only [List.mem_append] at hm
    rcases hm with (hm | hm) | hm
    · obtain ⟨a, b, hm⟩ := hr.only _ hm; cases hm
    · exact (hr.tr.no_complete _ hm i j).1 rfl
    · cases hm

/-- C66.  A callback that does not return ends the sync at once: the report of progress is the last thing the sync does, and what
`sync_from` raises is what the callback raised. -/
theorem C66_callback {n rl : Nat} {hooks : OpenHooks V E} {dst src : Adapter V} {dc : DiffClass V} {flags : Nat} {diff : Option (Diff V)} {w w' : World V E}
    {res : Except Err (Diff V)} {d : Diff V} (h : OpenRun n rl hooks dst src dc flags diff w d res w') {A B : List (Event V)} {k t : Nat}
    (hs : newEvents w w' = A ++ .syncProgress k t :: B) (hn : ∀ w0, (hooks.callback k t w0).1 ≠ .ok ()) :
    B = [] ∧ ∃ x w0, res = .error x ∧ (hooks.callback k t w0).1 = .error x := by
  rcases h.cases with ⟨_, rfl⟩ | ⟨evs0, evs, p, y, hr, _⟩
  · unfold newEvents at hs; simp at hs
  · have hc : progressOf evs0 = [] := by
      unfold progressOf
      rw [List.filterMap_eq_nil_iff]
      intro ev hm
      obtain ⟨a, b, rfl⟩ := hr.only ev hm
      rfl
    have h1 : CbAt (OpenCtx.tr (E := E) ⟨src, dst, flags, d.cls, hooks, rl⟩ d.len) (evs0 ++ evs) y := CbAt.seq (b := true) (.quiet hc) hr.tr.cbAt (fun _ h => h)
    rw [hr.new] at hs
    rcases split_append hs with ⟨A', _, hs'⟩ | ⟨B', h2, hs'⟩
    · split at hs'
      · cases A' with
        | nil => cases hs'
        | cons => simp at hs'
      · simp at hs'
    · obtain ⟨k1, x, rfl, w0, k2⟩ := h1 _ _ _ _ hs' (fun ⟨w0, h0⟩ => hn w0 h0)
      refine ⟨by rw [h2, k1]; rfl, x, w0, hr.err x rfl, k2⟩

/-- C66.  `sync_complete` is called at most once, at the very end and only when something was attempted; and if the sync returns and
something was attempted, it was called. -/
theorem C66_complete {n rl : Nat} {hooks : OpenHooks V E} {dst src : Adapter V} {dc : DiffClass V} {flags : Nat} {diff : Option (Diff V)} {w w' : World V E}
    {res : Except Err (Diff V)} {d : Diff V} (h : OpenRun n rl hooks dst src dc flags diff w d res w') :
    (∀ A B i j, newEvents w w' = A ++ .syncComplete i j :: B → B = [] ∧ i = dst.ref.id ∧ j = src.ref.id ∧ ∃ ev ∈ A, Attempt ev) ∧
    ∀ d', res = .ok d' → (∃ ev ∈ newEvents w w', Attempt ev) → Event.syncComplete dst.ref.id src.ref.id ∈ newEvents w w' := by
  rcases h.cases with ⟨rfl, rfl⟩ | ⟨evs0, evs, p, y, hr, _⟩
  · refine ⟨fun A B i j hs => ?_, fun d' h => by cases h⟩
    unfold newEvents at hs; simp at hs
  · have hnc : ∀ ev ∈ evs0 ++ evs, ∀ a b, ev ≠ .syncComplete a b := by
      intro ev hm a b
      rcases List.mem_append.1 hm with hm | hm
      · obtain ⟨a, b, rfl⟩ := hr.only _ hm; exact nofun
      · exact (hr.tr.no_complete _ hm a b).1
    constructor
    · intro A B i j hs
      rw [hr.new] at hs
      rcases split_append hs with ⟨A', hA, hs'⟩ | ⟨B', h2, hs'⟩
      · split at hs'
        · rename_i hy
          have hyt : y = .ok true := by
            cases y with
            | error => cases hy
            | ok b => simp [Except.toOption] at hy; rw [hy]
          cases A' with
          | nil =>
            cases hs'
            obtain ⟨ev, h1, h2⟩ := (hr.tr.changed true hyt).1 rfl
            exact ⟨rfl, rfl, rfl, ev, by rw [hA]; simp [h1], h2⟩
          | cons => simp at hs'
        · simp at hs'
      · exact absurd rfl (hnc (.syncComplete i j) (by rw [hs']; simp) i j)
    · rintro d' hd ⟨ev, hm, hev⟩
      obtain ⟨_, b, rfl⟩ := hr.ret d' hd
      rw [hr.new] at hm
      have hm' : ev ∈ evs := by
        simp only [List.mem_append] at hm
        rcases hm with (hm | hm) | hm
        · obtain ⟨a, b, rfl⟩ := hr.only _ hm; simp [Attempt] at hev
        · exact hm
        · split at hm
          · simp at hm; subst hm; simp [Attempt] at hev
          · cases hm
      have : b = true := (hr.tr.changed b rfl).2 ⟨ev, hm', hev⟩
      subst this
      rw [hr.new]
      simp [Except.toOption]

/-- C66.  A sync that returns, returns the diff it was made for, unchanged.  With a diff supplied, nothing is compared. -/
theorem C66_returns {n rl : Nat} {hooks : OpenHooks V E} {dst src : Adapter V} {dc : DiffClass V} {flags : Nat} {diff : Option (Diff V)} {w w' : World V E}
    {res : Except Err (Diff V)} {d : Diff V} (h : OpenRun n rl hooks dst src dc flags diff w d res w') :
    (∀ d', res = .ok d' → d' = d) ∧ (diff = some d → d.len ≠ 0 → ∀ a b, Event.diffProgress a b ∉ newEvents w w') := by
  rcases h.cases with ⟨rfl, rfl⟩ | ⟨evs0, evs, p, y, hr, h0⟩
  · refine ⟨(fun d' h => by cases h), fun _ _ a b hm => ?_⟩
    unfold newEvents at hm; simp at hm
  · refine ⟨fun d' hd => (hr.ret d' hd).1, fun h1 h2 a b hm => ?_⟩
    rw [hr.new, h0 h1 h2] at hm
    simp only [List.nil_append, List.mem_append] at hm
    rcases hm with hm | hm
    · exact (hr.tr.no_complete _ hm a b).2 rfl
    · split at hm
      · simp at hm
      · cases hm

/-- C66.  With user code as the other theorems about syncs suppose it (it decides how each call ends and does not touch the adapters),
this is the sync of the other theorems: same result, same stores and objects, same events (but for the recorded ends of calls). -/
theorem C66_same_sync (n rl : Nat) (hooks : Hooks V E) (dst src : Adapter V) (dc : DiffClass V) (flags : Nat) (diff : Option (Diff V)) (w : World V E) :
    (oSyncFrom n rl (OpenHooks.ofHooks hooks dst) dst src dc flags diff w).1 = (syncFrom n rl hooks dst src dc flags diff w).1 ∧
    Twin (oSyncFrom n rl (OpenHooks.ofHooks hooks dst) dst src dc flags diff w).2 (syncFrom n rl hooks dst src dc flags diff w).2 :=
  oSyncFrom_twin n rl hooks dst src dc flags diff w

end DS
