import Verif.Props.OpenSync
import Verif.Props.SyncArgs
import Verif.Lemmas.OpenClosed
/-! # What the calls of a sync are about, whatever user code does

The comparison at the start decides which calls a sync makes and with which values; user code can prevent calls, but not cause or alter them. -/
set_option linter.unusedSectionVars false

namespace DS
variable {V E : Type} [PyVal V]

/-- Every call of a run was asked for by an element. -/
theorem OTr.asked {T : OCtx V} (hN : ∀ t c, Dict.get? T.A.classes t = some c → c.name = t) {l : List (Elem V)} {p p' : Nat} {evs : List (Event V)}
    {res : Except Err Bool} (h : OTr T l p evs p' res) : ∀ q ∈ callsOf evs, ∃ e, InTree e l ∧ Asks e q.1 := by
  have body : ∀ {e : Elem V} {evs : List (Event V)} {r : Except Err Bool}, BodyO T e evs r → ∀ q ∈ callsOf evs, ∃ x, InTree x [e] ∧ Asks x q.1 := by
    intro e evs r hb q hq
    rcases hb.calls hN with h | ⟨c, o, h1, h2, _⟩
    · rw [h] at hq; cases hq
    · rw [h1] at hq
      cases List.mem_singleton.1 hq
      exact ⟨e, inTree_self e, h2⟩
  have kids : ∀ {e x : Elem V}, InTree x (getChildren T.dc e.kids) → InTree x [e] := fun hx => inTree_trans (inTree_self _) (hx.mono (fun _ h => mem_getChildren h))
  have rep : ∀ (a b : Nat), callsOf [(Event.syncProgress a b : Event V)] = [] := fun _ _ => rfl
  induction h with
  | nil => intro q hq; cases hq
  | seqErr _ ih =>
    intro q hq
    obtain ⟨x, h1, h2⟩ := ih q hq
    exact ⟨x, h1.mono (fun y hy => by rw [List.mem_singleton.1 hy]; simp), h2⟩
  | seq _ _ ih ih' =>
    intro q hq
    rw [callsOf_append] at hq
    rcases List.mem_append.1 hq with hq | hq
    · obtain ⟨x, h1, h2⟩ := ih q hq
      exact ⟨x, h1.mono (fun y hy => by rw [List.mem_singleton.1 hy]; simp), h2⟩
    · obtain ⟨x, h1, h2⟩ := ih' q hq
      exact ⟨x, h1.mono (fun y hy => List.mem_cons_of_mem _ hy), h2⟩
  | bad => intro q hq; cases hq
  | natFail _ _ ih =>
    intro q hq
    obtain ⟨x, h1, h2⟩ := ih q hq
    exact ⟨x, kids h1, h2⟩
  | nat _ _ hb _ ih =>
    intro q hq
    rw [callsOf_append] at hq
    rcases List.mem_append.1 hq with hq | hq
    · obtain ⟨x, h1, h2⟩ := ih q hq
      exact ⟨x, kids h1, h2⟩
    · exact body hb q hq
  | natObj _ _ hb _ ih =>
    intro q hq
    rw [callsOf_append, callsOf_append, rep, List.append_nil] at hq
    rcases List.mem_append.1 hq with hq | hq
    · obtain ⟨x, h1, h2⟩ := ih q hq
      exact ⟨x, kids h1, h2⟩
    · exact body hb q hq
  | leaf hb _ => exact body hb
  | preStop hb _ =>
    intro q hq
    rw [callsOf_append, rep, List.append_nil] at hq
    exact body hb q hq
  | pre hb _ _ ih =>
    intro q hq
    rw [← List.singleton_append, callsOf_append, callsOf_append, rep, List.nil_append] at hq
    rcases List.mem_append.1 hq with hq | hq
    · exact body hb q hq
    · obtain ⟨x, h1, h2⟩ := ih q hq
      exact ⟨x, kids h1, h2⟩

section
variable {n rl : Nat} {hooks : OpenHooks V E} {dst src : Adapter V} {dc : DiffClass V} {flags : Nat} {w w' : World V E} {d : Diff V}
  {res : Except Err (Diff V)}

/-- In a computed diff only deletions are below deletions. -/
theorem computed_del {w1 : World V E} (h : Comparable src dst w) (hd : diffFrom n dst src dc flags w = (.ok d, w1)) : DelClosed d.kids := by
  intro e he ha x hx
  obtain ⟨q, _, _, hg⟩ := computed_place h hd he
  obtain ⟨h1, _⟩ := (action_delete_iff e).1 ha
  rw [hg.header.src_eq] at h1
  exact hg.delClosed (by simpa using h1) x hx

/-- The element and place behind a call. -/
theorem open_call (h : Comparable src dst w) (hN : ∀ t c, Dict.get? dst.classes t = some c → c.name = t)
    (hs : oSyncFrom n rl hooks dst src dc flags none w = (res, w')) {c : CrudCall V} {out : Outcome} (hc : Event.call c out ∈ newEvents w w') :
    ∃ e q, Asks e c ∧ Compared src dst flags (snap src w) (snap dst w) q ∧ q.Visible flags ∧ DescribesG src dst flags (snap src w) (snap dst w) e q := by
  cases hd : diffFrom n dst src dc flags w with
  | mk r w1 =>
    cases r with
    | error x =>
      exfalso
      have hw : w' = w1 := by
        unfold oSyncFrom at hs
        rw [M.bind_ok (show checkDiffClass dc none w = ((.ok () : Except Err Unit), w) from rfl),
          M.bind_err (show chooseDiff n dst src dc flags none w = (.error x, w1) from hd)] at hs
        cases hs; rfl
      obtain ⟨evs, h1, h2⟩ := cmp_diffFrom (E := E) n dst src dc flags w
      rw [hd] at h1
      rw [hw, newEvents_eq h1] at hc
      obtain ⟨a, b, h⟩ := h2 _ hc
      cases h
    | ok d =>
      have hrun : OpenRun n rl hooks dst src dc flags none w d res w' := ⟨.inr ⟨(fun _ h => by cases h), by rw [hd]⟩, computed_del h hd, hs⟩
      rcases hrun.cases with ⟨_, rfl⟩ | ⟨evs0, evs, p, y, hr, _⟩
      · unfold newEvents at hc; simp at hc
      · rw [hr.new] at hc
        have hm : Event.call c out ∈ evs := by
          rcases List.mem_append.1 hc with hc | hc
          · rcases List.mem_append.1 hc with hc | hc
            · obtain ⟨_, _, h⟩ := hr.only _ hc; cases h
            · exact hc
          · split at hc
            · rcases List.mem_singleton.1 hc with h; cases h
            · cases hc
        obtain ⟨e, he, ha⟩ := hr.tr.asked hN (c, out) (mem_callsOf.2 hm)
        obtain ⟨q, q1, q2, q3⟩ := computed_place h hd (he.mono (fun _ h => mem_getChildren h))
        exact ⟨e, q, ha, q1, q2, q3⟩

/-- **C73** A create call gets the identifiers and attributes that an object of the source had when the sync started; this object took part in the
comparison, and there was none in the destination at its place.  With SKIP_UNMATCHED_SRC there is no create call. -/
theorem C73_create (h : Comparable src dst w) (hN : ∀ t c, Dict.get? dst.classes t = some c → c.name = t)
    (hs : oSyncFrom n rl hooks dst src dc flags none w = (res, w')) {t : String} {ids attrs : Dict V} {out : Outcome}
    (hc : Event.call (.create t ids attrs) out ∈ newEvents w w') :
    flagOn flags GF.SKIP_UNMATCHED_SRC = false ∧ ∃ p m, Compared src dst flags (snap src w) (snap dst w) p ∧ p.Visible flags ∧ p.type = t ∧
      p.src = some m ∧ p.dst = none ∧ (snap src w).find t p.uid = some m ∧ ids = m.identifiers ∧ ∀ k, Dict.get? attrs k = Dict.get? m.attrs k := by
  obtain ⟨e, q, ⟨ha, rfl, rfl, rfl⟩, q1, q2, hg⟩ := open_call h hN hs hc
  have hh := hg.header
  obtain ⟨h1, h2⟩ := (action_create_iff e).1 ha
  have h2' := h2
  rw [hh.src_eq] at h1
  rw [hh.dst_eq] at h2'
  have hd : q.dst = none := by simpa using h2'
  cases hm : q.src with
  | none => rw [hm] at h1; exact absurd rfl h1
  | some m =>
    refine ⟨?_, q, m, q1, q2, hh.type_eq.symm, hm, hd, by rw [hh.type_eq]; exact hg.good.stored.src m hm, (hh.name_eq m (by rw [hm]; rfl)).2, fun k => ?_⟩
    · cases hf : flagOn flags GF.SKIP_UNMATCHED_SRC with
      | false => rfl
      | true =>
        refine absurd ?_ q2
        rw [hm, hd]
        exact .globalSrc _ hf
    · have hse : e.src = some m.attrs := by rw [hh.src_eq, hm]; rfl
      have hpl : e.plus = some (Elem.pick m.attrs e.attrsKeys) := by unfold Elem.plus; rw [hse, h2]
      rw [hpl, Option.getD_some, get?_pick]
      split
      · rfl
      · rename_i hnk
        unfold Elem.attrsKeys at hnk
        rw [hse, h2] at hnk
        exact (Dict.get?_eq_none_iff.2 hnk).symm

/-- **C73** An update call gets exactly the attributes that an object of the source and the one of the destination at its place had with different
values when the sync started, with the source's values; there is at least one. -/
theorem C73_update (h : Comparable src dst w) (hN : ∀ t c, Dict.get? dst.classes t = some c → c.name = t)
    (hs : oSyncFrom n rl hooks dst src dc flags none w = (res, w')) {t u : String} {attrs : Dict V} {out : Outcome}
    (hc : Event.call (.update t u attrs) out ∈ newEvents w w') :
    attrs ≠ [] ∧ ∃ p s m, Compared src dst flags (snap src w) (snap dst w) p ∧ p.Visible flags ∧ p.src = some s ∧ p.dst = some m ∧
      (snap src w).find p.type p.uid = some s ∧ (snap dst w).find p.type p.uid = some m ∧
      ∀ k v, Dict.get? attrs k = some v ↔ Dict.get? s.attrs k = some v ∧ ∃ v', Dict.get? m.attrs k = some v' ∧ PyVal.eq v v' = false := by
  obtain ⟨e, q, ⟨ha, rfl⟩, q1, q2, hg⟩ := open_call h hN hs hc
  have hh := hg.header
  obtain ⟨h1, h2⟩ := action_update_sides ha
  rw [hh.src_eq] at h1
  rw [hh.dst_eq] at h2
  cases hm : q.src with
  | none => rw [hm] at h1; exact absurd rfl h1
  | some s =>
    cases hm' : q.dst with
    | none => rw [hm'] at h2; exact absurd rfl h2
    | some m =>
      have key := plus_iff (e := e) (s := s.attrs) (m := m.attrs) (by rw [hh.src_eq, hm]; rfl) (by rw [hh.dst_eq, hm']; rfl)
      refine ⟨fun hn => ?_, q, s, m, q1, q2, hm, hm', hg.good.stored.src s hm, hg.good.stored.dst m hm', key⟩
      have : e.action = none := (header_action hh hg.good.some_side).2 ⟨s, m, hm, hm', fun f a b g1 g2 => by
        cases he : PyVal.eq a b with
        | true => rfl
        | false =>
          have := (key f a).2 ⟨g1, b, g2, he⟩
          rw [hn] at this; cases this⟩
      rw [this] at ha; cases ha

/-- **C73** For each delete call there was an object of the destination that took part in the comparison, and none in the source at its place.
With SKIP_UNMATCHED_DST there is no delete call. -/
theorem C73_delete (h : Comparable src dst w) (hN : ∀ t c, Dict.get? dst.classes t = some c → c.name = t)
    (hs : oSyncFrom n rl hooks dst src dc flags none w = (res, w')) {t u : String} {out : Outcome}
    (hc : Event.call (.delete t u) out ∈ newEvents w w') :
    flagOn flags GF.SKIP_UNMATCHED_DST = false ∧ ∃ p m, Compared src dst flags (snap src w) (snap dst w) p ∧ p.Visible flags ∧
      p.src = none ∧ p.dst = some m ∧ (snap dst w).find p.type p.uid = some m := by
  obtain ⟨e, q, ha, q1, q2, hg⟩ := open_call h hN hs hc
  have hh := hg.header
  obtain ⟨h1, h2⟩ := (action_delete_iff e).1 ha
  rw [hh.src_eq] at h1
  rw [hh.dst_eq] at h2
  have hsrc : q.src = none := by simpa using h1
  cases hm' : q.dst with
  | none => rw [hm'] at h2; exact absurd rfl h2
  | some m =>
    refine ⟨?_, q, m, q1, q2, hsrc, hm', hg.good.stored.dst m hm'⟩
    cases hf : flagOn flags GF.SKIP_UNMATCHED_DST with
    | false => rfl
    | true =>
      refine absurd ?_ q2
      rw [hsrc, hm']
      exact .globalDst _ hf
end

/-- **C73** All this applies to the sync of `Model.Syncer`, with any adapters and any class of model: where it makes a call, the sync with the same user
code in the sense of C66 makes the same call. -/
theorem C73_plain (n rl : Nat) (hooks : Hooks V E) (dst src : Adapter V) (dc : DiffClass V) (flags : Nat) (diff : Option (Diff V)) (w : World V E)
    (c : CrudCall V) : (∃ out, Event.call c out ∈ newEvents w (syncFrom n rl hooks dst src dc flags diff w).2) ↔
      ∃ out, Event.call c out ∈ newEvents w (oSyncFrom n rl (OpenHooks.ofHooks hooks dst) dst src dc flags diff w).2 := by
  obtain ⟨t, h1, h2⟩ := Twin.iff.1 (oSyncFrom_twin n rl hooks dst src dc flags diff w).2
  rw [h1]
  unfold newEvents
  dsimp only
  have key : ∀ (l l' : List (Event V)), l.map Event.bare = l'.map Event.bare → (∃ out, Event.call c out ∈ l) → ∃ out, Event.call c out ∈ l' := by
    rintro l l' hl ⟨out, hm⟩
    have := List.mem_map_of_mem (f := Event.bare) hm
    rw [hl] at this
    obtain ⟨ev, h1, h2⟩ := List.mem_map.1 this
    cases ev with
    | call c' o => unfold Event.bare at h2; cases h2; exact ⟨o, h1⟩
    | _ => cases h2
  have hd : (t.drop w.trace.length).map Event.bare = ((oSyncFrom n rl (OpenHooks.ofHooks hooks dst) dst src dc flags diff w).2.trace.drop w.trace.length).map Event.bare := by
    rw [List.map_drop, List.map_drop, h2]
  exact ⟨key _ _ hd, key _ _ hd.symm⟩
end DS
