import Verif.Props.SyncRuns
/-! # C95 for diff classes with order methods -/
set_option linter.unusedSectionVars false

namespace DS
variable {V E : Type} [PyVal V]

theorem Arranged.refl (l : List (Pos V)) : Arranged l l := ⟨.refl _, rfl⟩

theorem map_type_same {g : String} : ∀ {l l' : List (Elem V)}, l'.Perm l → (∀ e ∈ l, e.type = g) → l'.map Elem.type = l.map Elem.type := by
  have key : ∀ {l : List (Elem V)}, (∀ e ∈ l, e.type = g) → l.map Elem.type = List.replicate l.length g := by
    intro l h
    induction l with
    | nil => rfl
    | cons e l ih => rw [List.map_cons, ih (fun x hx => h x (List.mem_cons_of_mem _ hx)), h e List.mem_cons_self]; rfl
  intro l l' hp h
  rw [key h, key (fun e he => h e (hp.subset he)), hp.length_eq]

/-- Order methods keep the order of the types. -/
theorem getChildren_types {dc : DiffClass V} (hdc : dc.Reorders) {ks : List (Elem V)} (hg : (groups ks).flatMap (group ks) = ks) :
    (getChildren dc ks).map Elem.type = ks.map Elem.type := by
  have h1 : (getChildren dc ks).map Elem.type = ((groups ks).flatMap (group ks)).map Elem.type := by
    unfold getChildren
    rw [List.map_flatMap, List.map_flatMap]
    congr 1
    funext g
    refine map_type_same (g := g) (hdc g _) ?_
    intro e he
    have := (List.mem_filter.1 he).2
    simpa using this
  rw [h1, hg]

theorem matchAll_perm {R : Elem V → Pos V → Prop} {as as' : List (Elem V)} (hp : as.Perm as') : ∀ {bs : List (Pos V)}, MatchAll R as bs → ∃ bs', bs'.Perm bs ∧ MatchAll R as' bs' := by
  induction hp with
  | nil => intro bs h; exact ⟨bs, .refl _, h⟩
  | @cons a as as' _ ih =>
    intro bs h
    cases bs with
    | nil => cases h.1
    | cons b bs =>
      obtain ⟨bs', h1, h2⟩ := ih (bs := bs) ⟨by simpa using h.1, fun x hx => h.2 x (by simp [hx])⟩
      refine ⟨b :: bs', h1.cons _, by simpa using h2.1, ?_⟩
      intro x hx
      rw [List.zip_cons_cons] at hx
      rcases List.mem_cons.1 hx with rfl | hx
      · exact h.2 (a, b) (by simp)
      · exact h2.2 x hx
  | swap a a' as =>
    intro bs h
    cases bs with
    | nil => cases h.1
    | cons b bs =>
      cases bs with
      | nil => have := h.1; simp at this
      | cons b' bs =>
        refine ⟨b' :: b :: bs, .swap _ _ _, by simpa using h.1, ?_⟩
        intro x hx
        simp only [List.zip_cons_cons, List.mem_cons] at hx
        rcases hx with rfl | rfl | hx
        · exact h.2 _ (by simp)
        · exact h.2 _ (by simp)
        · exact h.2 _ (by simp [hx])
  | trans _ _ ih1 ih2 =>
    intro bs h
    obtain ⟨b1, h1, h2⟩ := ih1 h
    obtain ⟨b2, h3, h4⟩ := ih2 h2
    exact ⟨b2, h3.trans h1, h4⟩

section
variable {src dst : Adapter V} {S D : Snap V} {n flags : Nat} {dc : DiffClass V}

theorem arranged_children (hdc : dc.Reorders) {ks : List (Elem V)} {ps : List (Pos V)} (hg : (groups ks).flatMap (group ks) = ks)
    (hm : MatchAll (InOrder src dst flags S D) ks ps) : ∃ q, Arranged ps q ∧ MatchAll (InOrder src dst flags S D) (getChildren dc ks) q := by
  obtain ⟨q, h1, h2⟩ := matchAll_perm (getChildren_perm hdc ks).symm hm
  have t : ∀ e p, InOrder src dst flags S D e p → e.type = p.type := fun e p h => h.type
  refine ⟨q, ⟨h1, ?_⟩, h2⟩
  rw [← map_type_of_match t h2, ← map_type_of_match t hm]
  exact getChildren_types hdc hg

/-- The calls for elements are those for their places, whatever the order methods do. -/
theorem RunPlan.any_places (h : Reconcilable src dst n S D) (hi : InstOf dst D) (hS : S.Consistent) (hD : D.Consistent) (hdc : dc.Reorders)
    {es : List (Elem V)} {cs : List (CrudCall V × Outcome)} (hp : RunPlan dst dc D.flagsAt es cs) : ∀ {ps : List (Pos V)}, MatchAll (InOrder src dst flags S D) es ps →
    (∀ p ∈ ps, ∃ j, Placed src dst S D j p) → RunAny flags S D ps cs := by
  have hst : ∀ {j p}, Placed src dst S D j p → Stored S D p := fun hp => ⟨fun m hm => by rw [← hp.src_eq, hm], fun m hm => by rw [← hp.dst_eq, hm]⟩
  have split : ∀ {e : Elem V} {l : List (Elem V)} {ps : List (Pos V)}, MatchAll (InOrder src dst flags S D) (e :: l) ps → (∀ p ∈ ps, ∃ j, Placed src dst S D j p) →
      ∃ p qs, ps = p :: qs ∧ ((e.action = none → callAt p = none) ∧ (∀ c, Prescribes dst e c → callAt p = some c) ∧
          ∀ k b, ElemKey dst e k → ((e.action = some .delete ∧ Flagged D.flagsAt k b) ↔ DeletesWith b p)) ∧
        (∃ q, Arranged (visible flags (childPlaces S D p)) q ∧ MatchAll (InOrder src dst flags S D) (getChildren dc e.kids) q ∧ ∀ c ∈ q, ∃ j, Placed src dst S D j c) ∧
        MatchAll (InOrder src dst flags S D) l qs ∧ (∀ p ∈ qs, ∃ j, Placed src dst S D j p) := by
    intro e l ps hm hpl
    cases ps with
    | nil => cases hm.1
    | cons p qs =>
      have ho : InOrder src dst flags S D e p := hm.2 (e, p) (by simp)
      obtain ⟨j, pl⟩ := hpl p (by simp)
      refine ⟨p, qs, rfl, call_at h hi hS hD ho pl, ?_, ⟨by simpa using hm.1, fun x hx => hm.2 x (by simp [hx])⟩, fun q hq => hpl q (by simp [hq])⟩
      have hg := ho.grouped hS hD (hst pl)
      obtain ⟨_, h2, h3⟩ := ho
      obtain ⟨q, q1, q2⟩ := arranged_children hdc hg ⟨h2, h3⟩
      exact ⟨q, q1, q2, fun c hc => ⟨j + 1, pl.of_child h hi (isChild_of_childPlaces (List.mem_filter.1 (q1.1.subset hc)).1)⟩⟩
  induction hp with
  | nil =>
    intro ps hm _
    cases ps with
    | nil => exact .nil
    | cons p qs => cases hm.1
  | nothing ha _ _ ih1 ih2 =>
    intro ps hm hpl
    obtain ⟨p, qs, rfl, ⟨c1, c2, c3⟩, ⟨q, k0, k1, k2⟩, m1, m2⟩ := split hm hpl
    exact .same (c1 ha) k0 (ih1 k1 k2) (ih2 m1 m2)
  | call hpr hk hns hnn hob _ _ ih1 ih2 =>
    intro ps hm hpl
    obtain ⟨p, qs, rfl, ⟨c1, c2, c3⟩, ⟨q, k0, k1, k2⟩, m1, m2⟩ := split hm hpl
    exact .call (c2 _ hpr) (fun h => hns ((c3 _ _ hk).2 h)) (fun h => hnn ((c3 _ _ hk).2 h)) hob k0 (ih1 k1 k2) (ih2 m1 m2)
  | failed hpr hk hns hnn hob _ ih2 =>
    intro ps hm hpl
    obtain ⟨p, qs, rfl, ⟨c1, c2, c3⟩, _, m1, m2⟩ := split hm hpl
    exact .failed (c2 _ hpr) (fun h => hns ((c3 _ _ hk).2 h)) (fun h => hnn ((c3 _ _ hk).2 h)) hob (ih2 m1 m2)
  | last hpr hk hns hnn _ _ ih1 ih2 =>
    intro ps hm hpl
    obtain ⟨p, qs, rfl, ⟨c1, c2, c3⟩, ⟨q, k0, k1, k2⟩, m1, m2⟩ := split hm hpl
    exact .last (c2 _ hpr) (fun h => hns ((c3 _ _ hk).2 h)) ((c3 _ _ hk).1 hnn) k0 (ih1 k1 k2) (ih2 m1 m2)
  | alone hpr hk hsk _ ih2 =>
    intro ps hm hpl
    obtain ⟨p, qs, rfl, ⟨c1, c2, c3⟩, _, m1, m2⟩ := split hm hpl
    exact .alone (c2 _ hpr) ((c3 _ _ hk).1 hsk) (ih2 m1 m2)
end

section
variable {n rl : Nat} {hooks : Hooks V E} {dst src : Adapter V} {dc : DiffClass V} {flags : Nat} {w w' : World V E} {res : Except Err (Diff V)} {d : Diff V}

theorem grouped_top (h : Comparable src dst w) {w1 : World V E} (hd : diffFrom n dst src dc flags w = (.ok d, w1)) : (groups d.kids).flatMap (group d.kids) = d.kids := by
  obtain ⟨h1, h2⟩ := C93_diff_in_order h hd
  apply grouped_of_blocks
  rw [map_type_of_match (fun e p (h : InOrder src dst flags (snap src w) (snap dst w) e p) => h.type) ⟨h1, h2⟩, topPlaces, visible_flatMap]
  refine blocks_flatMap ?_ (h.top_nodup.filter _)
  intro t x hx
  obtain ⟨u, _, rfl⟩ := List.mem_map.1 (List.mem_filter.1 hx).1
  rfl

theorem runs_in_some_order (h : Comparable src dst w) (hr : DstReady dst w) (hrec : Reconcilable src dst n (snap src w) (snap dst w)) (hi : InstOf dst (snap dst w))
    (hk : KeepsIdsOf dst (snap src w)) (hdc : dc.Reorders) (hs : syncFrom n rl hooks dst src dc flags none w = (res, w'))
    {w1 : World V E} (hd : diffFrom n dst src dc flags w = (.ok d, w1)) (hn : NoRef (newEvents w w')) (hm : NoLost (newEvents w w')) :
    ∃ q rest, Arranged (visible flags (topPlaces src dst (snap src w) (snap dst w))) q ∧ RunAny flags (snap src w) (snap dst w) q (callsOf (newEvents w w') ++ rest) ∧
      ((∃ d', res = .ok d') → rest = []) := by
  have hrun := SyncRun.of_computed h hr hk hd hs
  obtain ⟨hdes, hcls⟩ := diffFrom_describes h.ok h.src_ok h.dst_ok h.fields h.src_types h.dst_types h.top_nodup hd
  have hc := hdes.cenv hrec hi h.src_ok h.dst_ok hr.valid (computed_good h hr hk hd)
  obtain ⟨rest, h1, h2⟩ := hrun.runs ⟨by rw [hcls]; exact hdc, hc.dist⟩ hc.keyed hn hm
  rw [hcls] at h1
  obtain ⟨q, q1, q2⟩ := arranged_children hdc (grouped_top h hd) (C93_diff_in_order h hd)
  refine ⟨q, rest, q1, ?_, h2⟩
  exact h1.any_places hrec hi h.src_ok h.dst_ok hdc q2
    (fun p hp => ⟨0, Placed.of_top hrec (isTop_of_topPlaces h.src_ok h.dst_ok (List.mem_filter.1 (q1.1.subset hp)).1)⟩)

/-- **C95** With a diff class whose order methods reorder, the same holds with the places of one type rearranged, at the top and below each place. -/
theorem C95_any_order {sid : Nat} (h : CanConverge n src dst sid w) (hrl : n ≤ rl) (hdc : dc.Reorders)
    (hs : syncFrom n rl hooks dst src dc flags none w = (res, w')) :
    ∃ q rest, Arranged (visible flags (topPlaces src dst (snap src w) (snap dst w))) q ∧ RunAny flags (snap src w) (snap dst w) q (callsOf (newEvents w w') ++ rest) ∧
      ((∃ d', res = .ok d') → rest = []) := by
  obtain ⟨d, ⟨w1, hd⟩, hn, hm, _⟩ := h.clean hrl hdc hs
  exact runs_in_some_order h.comparable h.ready.dst h.reconcilable h.ready.instOf h.keepsIds hdc hs hd hn hm.acts

/-- **C95** The same of a sync into a Redis store. -/
theorem C95_redis_any_order {sid : String} (h : RedisPair n src dst sid w) (hrl : n ≤ rl) (hdc : dc.Reorders)
    (hs : syncFrom n rl hooks dst src dc flags none w = (res, w')) :
    ∃ q rest, Arranged (visible flags (topPlaces src dst (snap src w) (snap dst w))) q ∧ RunAny flags (snap src w) (snap dst w) q (callsOf (newEvents w w') ++ rest) ∧
      ((∃ d', res = .ok d') → rest = []) := by
  obtain ⟨d, ⟨w1, hd⟩, hn, hm, _⟩ := h.clean hrl hdc hs
  exact runs_in_some_order h.comparable h.ready h.reconcilable h.instOf h.keepsIds hdc hs hd hn hm.acts
end

end DS
