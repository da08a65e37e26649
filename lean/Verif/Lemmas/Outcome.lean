import Verif.Spec.Outcome
import Verif.Spec.SameContents
import Verif.Lemmas.ConvEnd
import Verif.Props.Sync
import Verif.Props.SyncArgs
/-! # Contents after a successful sync -/

namespace DS
variable {V E : Type} [PyVal V]
variable {src dst : Adapter V} {n sid flags : Nat} {w w' : World V E} {es : List (Elem V)}

/-- The new values of an element are those of attributes that differ. -/
theorem plus_differs {e : Elem V} {s m : Model V} (hs : e.src = some s.attrs) (hd : e.dst = some m.attrs) {f : String} {v : V}
    (h : Dict.get? (e.plus.getD []) f = some v) : Differs s m f v := by
  have hp : e.plus = some (Elem.pick s.attrs (e.attrsKeys.filter (Elem.differs s.attrs m.attrs))) := by unfold Elem.plus; rw [hs, hd]
  rw [hp, Option.getD_some, get?_pick] at h
  split at h
  · rename_i hmem
    have hdf := (List.mem_filter.1 hmem).2
    unfold Elem.differs at hdf
    rw [h] at hdf
    cases hg' : Dict.get? m.attrs f with
    | none => rw [hg'] at hdf; cases hdf
    | some v' => rw [hg'] at hdf; exact ⟨h, v', hg', by simpa using hdf⟩
  · cases h

namespace After
variable (h : After src dst n sid flags w w' es)
include h

theorem shown_iff {k : Key} : Shown src dst flags (snap src w) (snap dst w) k ↔ EK dst es k := by
  constructor
  · rintro ⟨p, hp, hv, rfl⟩
    obtain ⟨x, hx, hd⟩ := h.des.complete hp hv
    obtain ⟨j, pl⟩ := hp.placed h.can.reconcilable h.can.ready.instOf
    exact ⟨x, hx, pl.elemKey h.can.reconcilable h.can.ready.instOf h.can.comparable.src_ok h.can.comparable.dst_ok hd.header⟩
  · rintro ⟨e, he, hk⟩
    obtain ⟨q, j, hc, hv, pl, _, hk'⟩ := h.des.place h.can.reconcilable h.can.ready.instOf h.can.comparable.src_ok h.can.comparable.dst_ok he
    exact ⟨q, hc, hv, elemKey_unique hk' hk⟩

/-- A linked child in the diff is below its parent there. -/
theorem edge_of {k c : Key} (hl : Linked (snap src w) (snap dst w) k c) (hc : EK dst es c) : KE dst es k c := by
  obtain ⟨x, hx, hxk⟩ := hc
  rcases inTree_parent hx with hx | ⟨p, hp, hxp⟩
  · exact absurd hl (h.env.root x c hx hxk k)
  · obtain ⟨kp, hkp⟩ := h.env.keyed p hp
    have ke : KE dst es kp c := ⟨p, x, hp, hxp, hkp, hxk⟩
    cases h.env.parent kp k c (h.env.edge _ _ ke) hl
    exact ke

theorem lists_iff {k c : Key} : listsO ((snap dst w').at k) c.1 c.2 = true ↔
    (snap dst w').at k ≠ none ∧ (snap dst w').at c ≠ none ∧ Linked (snap src w) (snap dst w) k c := by
  rw [h.lists, Ne, Ne, Ne, Ne, h.find_none, h.find_none]
  constructor
  · rintro ⟨h1, h2⟩
    refine ⟨h1, ?_⟩
    rcases h2 with ⟨h2, h3⟩ | ⟨h2, h3⟩
    · exact ⟨h3, h.env.edge _ _ h2⟩
    · obtain ⟨r, hr⟩ := Option.ne_none_iff_exists'.1 h1
      exact ⟨h.inv.nodang k c r hr h2 h3, .inr h3⟩
  · rintro ⟨h1, h2, h3⟩
    refine ⟨h1, ?_⟩
    by_cases ke : KE dst es k c
    · exact .inl ⟨ke, h2⟩
    · refine .inr ⟨ke, ?_⟩
      rcases h3 with h3 | h3
      · by_cases hd : (snap dst w).at c = none
        · obtain ⟨r, hr⟩ := Option.ne_none_iff_exists'.1 h2
          obtain ⟨e, _, _, he, hk, _⟩ := h.inv.made c r hr hd
          exact absurd (h.edge_of (.inl h3) ⟨e, he, hk⟩) ke
        · exact h.can.reconcilable.src_place k c h3 hd
      · exact h3

/-- Objects below a deleted one. -/
theorem below {k0 k : Key} (hb : ListedBelow (snap dst w) k0 k) (hs : (snap src w).at k0 = none) : (snap src w).at k = none := by
  induction hb with
  | @child c hl =>
    cases hc : (snap src w).at c with
    | none => rfl
    | some m =>
      have := h.can.reconcilable.dst_place k0 c hl (fun hh => by cases hc.symm.trans hh)
      exact absurd hs (listsO_some this)
  | @step c c' _ hl ih =>
    cases hc : (snap src w).at c' with
    | none => rfl
    | some m =>
      have := h.can.reconcilable.dst_place c c' hl (fun hh => by cases hc.symm.trans hh)
      exact absurd ih (listsO_some this)

/-- What goes along is below a deleted object. -/
theorem taken {evs : List (Event V)} {k : Key} (ht : TakenAlong dst (snap dst w) es evs k) :
    ∃ k0, EK dst es k0 ∧ (snap src w).at k0 = none ∧ SkipsChildren dst (snap dst w) k0 ∧ (k = k0 ∨ ListedBelow (snap dst w) k0 k) := by
  induction ht with
  | root he ha hk hs _ => exact ⟨_, ⟨_, he, hk⟩, (h.env.delete _ _ he hk ha).1, hs, .inl rfl⟩
  | @down k k' _ hedge ih =>
    obtain ⟨k0, h1, h2, h3, h4⟩ := ih
    have hsk : (snap src w).at k = none := by
      rcases h4 with rfl | h4
      · exact h2
      · exact h.below h4 h2
    have hl : listsO ((snap dst w).at k) k'.1 k'.2 = true := by
      rcases hedge with ⟨m, hm, hl⟩ | ⟨e, e', he, he', hk, hk'⟩
      · have hm : (snap dst w).at k = some m := hm
        rw [hm]; exact hl
      · rcases h.env.edge k k' ⟨e, e', he, he', hk, hk'⟩ with hl | hl
        · exact absurd hsk (listsO_some hl)
        · exact hl
    refine ⟨k0, h1, h2, h3, .inr ?_⟩
    rcases h4 with rfl | h4
    · exact .child hl
    · exact .step h4 hl

/-- An object of both sides afterwards. -/
theorem updated (hdone : ∀ e ∈ es, Done dst sid e w') {k : Key} {s m0 : Model V} (hk : EK dst es k) (hS : (snap src w).at k = some s)
    (hD : (snap dst w).at k = some m0) : ∃ m, (snap dst w').at k = some m ∧ m.cls = m0.cls ∧ m.flags = m0.flags ∧
      (∀ f a, Differs s m0 f a → Dict.get? m.vals f = some a) ∧
      ∀ f, (∀ a, ¬ Differs s m0 f a) → Dict.get? m.vals f = Dict.get? m0.vals f := by
  obtain ⟨x, hx, hxk⟩ := hk
  obtain ⟨m, hm⟩ := Option.ne_none_iff_exists'.1 ((h.before (k := k) (.inl (by rw [hS]; simp))).2 (by rw [hD]; simp))
  have ev := h.evolved hm hD
  obtain ⟨s1, s2, _, _⟩ := h.sides hx hxk
  rw [hS] at s1
  rw [hD] at s2
  refine ⟨m, hm, ev.cls_eq, ev.flags_eq, ?_, ?_⟩
  · rintro f a ⟨ha, b, hb, hne⟩
    have hp := plus_has (e := x) s1 s2 ha hb hne
    obtain ⟨e, he, hxe⟩ := inTree_root hx
    have hdn := hdone e he x k hxe hxk
    unfold DoneAt at hdn
    cases hact : x.action with
    | none =>
      obtain ⟨q, _, _, _, pl, hg, hk'⟩ := h.des.place h.can.reconcilable h.can.ready.instOf h.can.comparable.src_ok h.can.comparable.dst_ok hx
      obtain ⟨s', d', g1, g2, g3⟩ := (header_action hg.header hg.good.some_side).1 hact
      cases elemKey_unique hxk hk'
      rw [pl.src_eq] at g1
      rw [pl.dst_eq] at g2
      cases hS.symm.trans g1
      cases hD.symm.trans g2
      rw [g3 f a b ha hb] at hne
      cases hne
    | some a' =>
      cases a' with
      | delete => exact absurd (h.env.delete x k hx hxk hact).1 (by rw [hS]; simp)
      | create => exact absurd (h.env.create x k hx hxk hact).2 (by rw [hD]; simp)
      | update =>
        rw [hact] at hdn
        obtain ⟨r, r1, r2⟩ := hdn
        obtain ⟨r', r3, r4⟩ := h.find.1 hm
        rw [r1] at r3
        cases r3
        rw [← r4]
        exact r2 f a hp
  · intro f hno
    rcases ev.vals f with hv | ⟨e, v, he, hk', _, hp, hv⟩
    · exact hv
    · exfalso
      obtain ⟨t1, t2, _, _⟩ := h.sides he hk'
      rw [hS] at t1
      rw [hD] at t2
      exact hno v (plus_differs t1 t2 hp)

theorem outcome {hooks : Hooks V E} {dc : DiffClass V} {rl fl : Nat} {diff : Option (Diff V)} {res : Except Err (Diff V)} (happ : Applicable n dst src dc fl diff w)
    (hs : syncFrom n rl hooks dst src dc fl diff w = (res, w')) (hdone : ∀ e ∈ es, Done dst sid e w')
    (hused : ∀ d, UsedDiff n dst src dc fl diff w d → d.kids = es) :
    Synced src dst flags (snap src w) (snap dst w) (snap dst w') where
  deleted k hk hS := by
    obtain ⟨x, hx, hxk⟩ := h.shown_iff.1 hk
    obtain ⟨e, he, hxe⟩ := inTree_root hx
    have hdn := hdone e he x k hxe hxk
    have hact : x.action = some .delete := by
      cases ha : x.action with
      | none => exact absurd hS (h.env.quiet x k hx hxk ha).1
      | some a =>
        cases a with
        | delete => rfl
        | create => exact absurd hS (h.env.create x k hx hxk ha).1
        | update => exact absurd hS (h.env.update x k hx hxk ha).1
    unfold DoneAt at hdn
    rw [hact] at hdn
    exact h.find_none.2 hdn
  created k s hk hS hD := by
    obtain ⟨x, hx, hxk⟩ := h.shown_iff.1 hk
    obtain ⟨e, he, hxe⟩ := inTree_root hx
    have hdn := hdone e he x k hxe hxk
    have hact : x.action = some .create := by
      cases ha : x.action with
      | none => exact absurd hD (h.env.quiet x k hx hxk ha).2
      | some a =>
        cases a with
        | delete => exact absurd hD (h.env.delete x k hx hxk ha).2
        | create => rfl
        | update => exact absurd hD (h.env.update x k hx hxk ha).2
    unfold DoneAt at hdn
    rw [hact] at hdn
    obtain ⟨m, hm⟩ := Option.ne_none_iff_exists'.1 (fun hn => hdn (h.find_none.1 hn))
    obtain ⟨s', c, m1, g1, g2, _, g4, g5, _⟩ := h.made hm hD
    cases hS.symm.trans g1
    have hcon := construct_ok g4
    obtain ⟨i1, _, _, i4, _⟩ := instantiate_ok hcon
    refine ⟨c, m, g2, hm, by rw [g5.cls_eq, i1], by rw [g5.flags_eq, i4]; rfl, fun f d hf => ?_⟩
    rw [g5.vals_eq, construct_get? (h.can.ready.valid.valid _ _ g2) g4 hf]
  updated k s m0 hk hS hD := h.updated hdone (h.shown_iff.1 hk) hS hD
  others k hk hg := by
    refine Classical.byContradiction (fun he => ?_)
    obtain ⟨d, hu, hd⟩ := C23_only_diffed_objects_change h.can.ready.dst happ hs he
    rw [hused d hu] at hd
    rcases hd with ⟨e, h1, h2⟩ | ht
    · exact hk (h.shown_iff.2 ⟨e, h1, h2⟩)
    · obtain ⟨k0, h1, h2, h3, h4⟩ := h.taken ht
      rcases h4 with h4 | h4
      · cases h4; exact hk (h.shown_iff.2 h1)
      · exact hg ⟨k0, h.shown_iff.2 h1, h2, h3, h4⟩
  lists k c := h.lists_iff
  sound k m hm := h.sound hm
end After

end DS
