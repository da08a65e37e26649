import Verif.Props.SyncFail
/-! # Deletions, records and supplied diffs of a sync -/
set_option linter.unusedSectionVars false

namespace DS
variable {V E : Type} [PyVal V]

section
variable {n rl : Nat} {hooks : Hooks V E} {dst src : Adapter V} {dc : DiffClass V} {flags : Nat} {diff : Option (Diff V)}
  {w w' : World V E} {d : Diff V} {res : Except Err (Diff V)}

theorem ElemKey.eq {A : Adapter V} {x : Elem V} {k : Key} (h : ElemKey A x k) : k = (x.type, k.2) := by
  obtain ⟨c, u, _, _, rfl⟩ := h; rfl

theorem prescribes_delete {A : Adapter V} {x : Elem V} {k : Key} (h : ElemKey A x k) (ha : x.action = some .delete) : Prescribes A x (.delete k.1 k.2) := by
  obtain ⟨c, u, h1, h2, rfl⟩ := h
  exact ⟨u, ⟨c, u, h1, h2, rfl⟩, by rw [ha]⟩

/-- Where the call on a deleted object is: what comes before and after it. -/
theorem SyncRun.deletion (h : SyncRun n rl hooks dst src dc flags diff w d res w') (ht : Tidy dst d) {x : Elem V} (hx : InTree x d.kids)
    (ha : x.action = some .delete) {k : Key} (hk : ElemKey dst x k) {L R : List (Event V)} {out : Outcome}
    (hs : newEvents w w' = L ++ .call (.delete k.1 k.2) out :: R) :
    (Flagged (snap dst w).flagsAt k MF.NATURAL_DELETION_ORDER → ¬ Flagged (snap dst w).flagsAt k MF.SKIP_CHILDREN_ON_DELETE →
      ∀ z c' out', InTree z x.kids → Prescribes dst z c' → Event.call c' out' ∉ R) ∧
    (¬ (Flagged (snap dst w).flagsAt k MF.NATURAL_DELETION_ORDER ∧ ¬ Flagged (snap dst w).flagsAt k MF.SKIP_CHILDREN_ON_DELETE) →
      ∀ z c' out', InTree z x.kids → Prescribes dst z c' → Event.call c' out' ∉ L) ∧
    (Flagged (snap dst w).flagsAt k MF.SKIP_CHILDREN_ON_DELETE → ∀ z c' out', InTree z x.kids → Prescribes dst z c' → Event.call c' out' ∉ R) ∧
    ∀ out', Event.call (.delete k.1 k.2) out' ∉ L ++ R := by
  have hp := prescribes_delete hk ha
  rcases h.cases with ⟨_, rfl, _⟩ | ⟨evs0, evs, p, y, hran⟩
  · rw [show newEvents w' w' = [] by simp [newEvents]] at hs; exact (not_split_nil hs).elim
  · obtain ⟨L', R', hs1, hL, hR⟩ := hran.split hs
    have hc : Event.call (.delete k.1 k.2) out ∈ evs := by rw [hs1]; simp
    obtain ⟨L0, B, R0, o, ctx, rb, h1, h2, h3, h4, h5, h6, _, h7, h8⟩ := hran.tr.own_call ht.1 (hran.ord ht) (hran.toOrd ht hx) hp hc
    -- the object is found
    obtain ⟨fl, rfl, hfl⟩ : ∃ fl, o = some fl ∧ (snap dst w).flagsAt k = some fl := by
      rcases h3.calls with ⟨e1, _⟩ | ⟨a, call, out', g1, g2, _⟩
      · rw [e1] at h4; cases h4
      · rw [ha] at g1; cases g1
        cases o with
        | none => cases g2
        | some fl => exact ⟨fl, rfl, ((h2.2 k hk).2 ht).1 fl rfl⟩
    have flag : ∀ b, Flagged (snap dst w).flagsAt k b ↔ flagOn fl b = true := by
      intro b
      constructor
      · rintro ⟨fl', e1, e2⟩; rw [hfl] at e1; cases e1; exact e2
      · exact fun h => ⟨fl, hfl, h⟩
    have nat : NatFirst x (some fl) ↔ flagOn fl MF.NATURAL_DELETION_ORDER = true ∧ ¬ flagOn fl MF.SKIP_CHILDREN_ON_DELETE = true := by
      constructor
      · rintro ⟨_, e1, e2⟩; exact ⟨e1, by rw [show flagOn fl MF.SKIP_CHILDREN_ON_DELETE = false from e2]; simp⟩
      · rintro ⟨e1, e2⟩; exact ⟨ha, e1, Bool.eq_false_iff.2 e2⟩
    -- the call is inside B
    rw [hs1] at h1
    obtain ⟨B1, B2, rfl, rfl, hB⟩ : ∃ B1 B2, L' = L0 ++ B1 ∧ R' = B2 ++ R0 ∧ B = B1 ++ .call (.delete k.1 k.2) out :: B2 := by
      rcases split_append h1.symm with ⟨A', e1, e2⟩ | ⟨B', _, e2⟩
      · rcases split_append e2 with ⟨A2, _, e4⟩ | ⟨B', e3, e4⟩
        · exact absurd (show Event.call (.delete k.1 k.2) out ∈ R0 by rw [e4]; simp) (h6 _ _ hp)
        · exact ⟨A', B', e1, e3, e4⟩
      · exact absurd (show Event.call (.delete k.1 k.2) out ∈ L0 by rw [e2]; simp) (h5 _ _ hp)
    have inB : ∀ z c' out', InTree z x.kids → Prescribes dst z c' → Event.call c' out' ∉ B := by
      intro z c' out' hz hp' hm
      obtain ⟨hpx, _⟩ := h3.mem_call hm
      obtain ⟨k', k1, k2⟩ := hpx.same hp'
      exact ht.2.below hx hz k1 k2
    have inL : (∀ z, InTree z x.kids → Silent dst z L0) → ∀ z c' out', InTree z x.kids → Prescribes dst z c' → Event.call c' out' ∉ L := by
      intro hsil z c' out' hz hp' hm
      rw [hL] at hm
      rcases List.mem_append.1 hm with hm | hm
      · obtain ⟨_, _, e⟩ := hran.only _ hm; cases e
      · rcases List.mem_append.1 hm with hm | hm
        · exact hsil z hz c' out' hp' hm
        · exact inB z c' out' hz hp' (by rw [hB]; simp [hm])
    have inR : (∀ z, InTree z x.kids → Silent dst z R0) → ∀ z c' out', InTree z x.kids → Prescribes dst z c' → Event.call c' out' ∉ R := by
      intro hsil z c' out' hz hp' hm
      rw [hR] at hm
      rcases List.mem_append.1 hm with hm | hm
      · rcases List.mem_append.1 hm with hm | hm
        · exact inB z c' out' hz hp' (by rw [hB]; simp [hm])
        · exact hsil z hz c' out' hp' hm
      · split at hm
        · rw [List.mem_singleton] at hm; cases hm
        · cases hm
    rw [flag, flag]
    refine ⟨fun f1 f2 => inR (h8 (nat.2 ⟨f1, f2⟩)), fun f => inL (h7 (fun hn => f (nat.1 hn))).2.1, fun f => ?_, fun out' hm => ?_⟩
    · have hnn : ¬ NatFirst x (some fl) := fun hn => (nat.1 hn).2 f
      exact inR ((h7 hnn).2.2 (.inr ⟨ha, f⟩))
    · have hB' : callsOf B1 = [] ∧ callsOf B2 = [] := by
        have e1 : (callsOf B1).length + ((callsOf B2).length + 1) = 1 := by
          have := congrArg List.length h4
          rw [hB, callsOf_append, show callsOf (Event.call (.delete k.1 k.2) out :: B2) = (.delete k.1 k.2, out) :: callsOf B2 from rfl] at this
          simpa using this
        exact ⟨List.length_eq_zero_iff.1 (by omega), List.length_eq_zero_iff.1 (by omega)⟩
      rw [hL, hR] at hm
      simp only [List.mem_append] at hm
      rcases hm with (hm | hm | hm) | ((hm | hm) | hm)
      · obtain ⟨_, _, e⟩ := hran.only _ hm; cases e
      · exact h5 _ _ hp hm
      · rw [← mem_callsOf, hB'.1] at hm; cases hm
      · rw [← mem_callsOf, hB'.2] at hm; cases hm
      · exact h6 _ _ hp hm
      · split at hm
        · rw [List.mem_singleton] at hm; cases hm
        · cases hm

/-! ## C50 -/

/-- **C50** When a deleted object carries NATURAL_DELETION_ORDER (and not SKIP_CHILDREN_ON_DELETE), no call about anything below it
in the diff comes after its own delete call; without the flag none comes before. -/
theorem C50_natural_deletion_order (h : SyncRun n rl hooks dst src dc flags diff w d res w') (ht : Tidy dst d) {x : Elem V} (hx : InTree x d.kids)
    (ha : x.action = some .delete) {t u : String} (hk : ElemKey dst x (t, u)) {L R : List (Event V)} {out : Outcome}
    (hs : newEvents w w' = L ++ .call (.delete t u) out :: R) :
    (Flagged (snap dst w).flagsAt (t, u) MF.NATURAL_DELETION_ORDER → ¬ Flagged (snap dst w).flagsAt (t, u) MF.SKIP_CHILDREN_ON_DELETE →
      ∀ z c' out', InTree z x.kids → Prescribes dst z c' → Event.call c' out' ∉ R) ∧
    (¬ Flagged (snap dst w).flagsAt (t, u) MF.NATURAL_DELETION_ORDER →
      ∀ z c' out', InTree z x.kids → Prescribes dst z c' → Event.call c' out' ∉ L) := by
  obtain ⟨h1, h2, _⟩ := h.deletion ht hx ha hk hs
  exact ⟨h1, fun hn => h2 (fun h => hn h.1)⟩

/-! ## C51 -/

/-- **C51** Deleting an object flagged SKIP_CHILDREN_ON_DELETE makes one delete call, and none about anything below it in the
diff. -/
theorem C51_no_calls_for_descendants (h : SyncRun n rl hooks dst src dc flags diff w d res w') (ht : Tidy dst d) {x : Elem V} (hx : InTree x d.kids)
    (ha : x.action = some .delete) {t u : String} (hk : ElemKey dst x (t, u)) {L R : List (Event V)} {out : Outcome}
    (hs : newEvents w w' = L ++ .call (.delete t u) out :: R) (hf : Flagged (snap dst w).flagsAt (t, u) MF.SKIP_CHILDREN_ON_DELETE) :
    (∀ z c' out', InTree z x.kids → Prescribes dst z c' → Event.call c' out' ∉ newEvents w w') ∧ ∀ out', Event.call (.delete t u) out' ∉ L ++ R := by
  obtain ⟨_, h2, h3, h4⟩ := h.deletion ht hx ha hk hs
  have hp := prescribes_delete hk ha
  constructor
  · intro z c' out' hz hp' hm
    rw [hs] at hm
    rcases List.mem_append.1 hm with hm | hm
    · exact h2 (fun h => h.2 hf) z c' out' hz hp' hm
    · rcases List.mem_cons.1 hm with e | hm
      · cases e
        obtain ⟨k', k1, k2⟩ := hp.same hp'
        exact ht.2.below hx hz k1 k2
      · exact h3 hf z c' out' hz hp' hm
  · exact h4
end

section
variable {n : Nat} {S : SyncCtx V E} {sid : Nat} {w w' : World V E}

theorem removeChild_lists {m m' : Model V} {t u : String} (hn : m.cls.childFields.Nodup) (h : m.removeChild t u = .ok m') (ct v : String) (hv : (ct, v) ≠ (t, u)) :
    m'.lists ct v = m.lists ct v := by
  unfold Model.removeChild at h
  split at h
  · cases h
  · rename_i f hf
    split at h
    · cases h
    · rename_i l hl
      split at h
      · cases h
        unfold Model.lists
        dsimp only
        cases hc : Dict.get? m.cls.children ct with
        | none => rfl
        | some f' =>
          dsimp only
          unfold Model.kidList
          rw [Dict.get?_set]
          by_cases hff : f = f'
          · subst hff
            have hct : ct = t := by
              have h1 := Dict.mem_of_get? hc
              have h2 := Dict.mem_of_get? hf
              have := nodup_map_inj (f := Prod.snd) (l := m.cls.children) hn h1 h2 rfl
              cases this; rfl
            subst hct
            have hvu : v ≠ u := fun h => hv (by rw [h])
            rw [if_pos rfl, show Dict.get? m.kids f = some l from hl]
            simp only [List.contains_eq_mem, decide_eq_decide]
            exact List.mem_erase_of_ne hvu
          · rw [if_neg hff]
      · cases h

/-- Removing `k` from a list of children does not change what can be reached from `k`. -/
theorem reach_cut {D D' : Snap V} {t u : String}
    (h : ∀ t' u', ((D.find t' u' = none ↔ D'.find t' u' = none)) ∧ ∀ m m', D.find t' u' = some m → D'.find t' u' = some m' →
      ∀ ct v, (ct, v) ≠ (t, u) → m'.lists ct v = m.lists ct v) {k : Nat} {y : Key} (hy : ListsChain D k (t, u) y) : ∃ k', ListsChain D' k' (t, u) y := by
  generalize ha : (t, u) = a at hy
  induction hy with
  | refl a => exact ⟨0, .refl _⟩
  | @step k a t1 u1 ct v m h1 h2 h3 ih =>
    subst ha
    by_cases hk : (ct, v) = (t, u)
    · exact ⟨0, by rw [hk]; exact .refl _⟩
    · obtain ⟨k', hk'⟩ := ih rfl
      obtain ⟨g1, g2⟩ := h t1 u1
      cases hD : D'.find t1 u1 with
      | none => rw [g1.2 hD] at h2; cases h2
      | some m' => exact ⟨k' + 1, .step hk' hD (by rw [g2 m m' h2 hD ct v hk]; exact h3)⟩

theorem sum_erase (d : Dict (Dict Ref)) (hd : Dict.WF d) {t : String} {x : Dict Ref} (h : Dict.get? d t = some x) :
    (d.map (fun p => p.2.length)).sum = x.length + ((Dict.erase d t).map (fun p => p.2.length)).sum := by
  induction d with
  | nil => cases h
  | cons p d ih =>
    obtain ⟨k, v⟩ := p
    rw [Dict.get?_cons] at h
    have hk : k ∉ Dict.keys d := (List.nodup_cons.1 hd).1
    by_cases hkt : k = t
    · subst hkt
      rw [if_pos rfl] at h; cases h
      have : Dict.erase ((k, x) :: d) k = d := by
        rw [show Dict.erase ((k, x) :: d) k = Dict.erase d k by simp [Dict.erase]]
        exact Dict.erase_of_not_mem hk
      rw [this]; simp
    · rw [if_neg hkt] at h
      have : Dict.erase ((k, v) :: d) t = (k, v) :: Dict.erase d t := by simp [Dict.erase, hkt]
      rw [this]
      simp only [List.map_cons, List.sum_cons]
      rw [ih (List.nodup_cons.1 hd).2 h]; omega

theorem sum_same (d d' : Dict (Dict Ref)) (hd : Dict.WF d) (hd' : Dict.WF d') (h : ∀ t, (Dict.get? d t).getD [] = (Dict.get? d' t).getD []) :
    (d.map (fun p => p.2.length)).sum = (d'.map (fun p => p.2.length)).sum := by
  induction d generalizing d' with
  | nil =>
    have : ∀ x ∈ d'.map (fun p => p.2.length), x = 0 := by
      intro x hx
      obtain ⟨p, hp, rfl⟩ := List.mem_map.1 hx
      have h1 := h p.1
      rw [Dict.get?_of_mem hd' (v := p.2) hp] at h1
      simp at h1
      simp [← h1]
    have sum0 : ∀ l : List Nat, (∀ x ∈ l, x = 0) → l.sum = 0 := by
      intro l; induction l with
      | nil => intro _; rfl
      | cons a l ih => intro h; rw [List.sum_cons, h a (by simp), ih (fun x hx => h x (by simp [hx]))]
    rw [sum0 _ this]; rfl
  | cons p d ih =>
    obtain ⟨t, x⟩ := p
    have ht : t ∉ Dict.keys d := (List.nodup_cons.1 hd).1
    have hx := h t
    rw [Dict.get?_cons, if_pos rfl] at hx
    simp only [Option.getD_some] at hx
    simp only [List.map_cons, List.sum_cons]
    cases hg : Dict.get? d' t with
    | none =>
      rw [hg] at hx
      simp only [Option.getD_none] at hx
      subst hx
      rw [ih d' (List.nodup_cons.1 hd).2 hd' (by
        intro t'
        by_cases htt : t = t'
        · subst htt; rw [hg, Dict.get?_eq_none_iff.2 ht]
        · rw [← h t', Dict.get?_cons, if_neg htt])]
      simp
    | some x' =>
      rw [hg] at hx
      simp only [Option.getD_some] at hx
      subst hx
      rw [sum_erase d' hd' hg, ih (Dict.erase d' t) (List.nodup_cons.1 hd).2 (Dict.wf_erase hd' t) (by
        intro t'
        rw [Dict.get?_erase]
        by_cases htt : t = t'
        · subst htt; simp [Dict.get?_eq_none_iff.2 ht]
        · rw [if_neg htt, ← h t', Dict.get?_cons, if_neg htt])]

theorem countStore_same (sid : Nat) {w w' : World V E} (hw : w.OK) (hw' : w'.OK) (h : ∀ t, tbl w sid t = tbl w' sid t) :
    countStore (.local sid) w = countStore (.local sid) w' :=
  sum_same _ _ (hw.loc_wf sid) (hw'.loc_wf sid) h

/-- **C51** The sync of a deleted element whose object is flagged SKIP_CHILDREN_ON_DELETE, in any state, when the delete call
returns the object: that object and the objects reachable from it through child lists are removed, and nothing else;
no other object changes, except that it is taken out of the child list of the parent. -/
theorem C51_removes_exactly (hr : SyncReady S.dst sid w) {x : Elem V} {t u : String} (hk : ElemKey S.dst x (t, u)) (ha : x.action = some .delete)
    {r : Ref} (hf : findRef w sid t u = some r) (hfl : flagOn (w.heap r).m.flags MF.SKIP_CHILDREN_ON_DELETE = true)
    (hout : (S.hooks w.env (.delete t u)).1.result = .object) (hlim : countStore S.dst.ref.store w ≤ S.rlimit)
    {parent : Option Ref} (hpar : ∀ p, parent = some p → p < w.next ∧ (w.heap p).m.cls.childFields.Nodup ∧ ∃ m, (w.heap p).m.removeChild t u = .ok m) :
    ∃ w', syncElem S (n + 1) x parent w = (.ok true, w') ∧
      (∀ t' u', (∃ k, ListsChain (snap S.dst w) k (t, u) (t', u')) → findRef w' sid t' u' = none) ∧
      (∀ t' u', (¬ ∃ k, ListsChain (snap S.dst w) k (t, u) (t', u')) → findRef w' sid t' u' = findRef w sid t' u') ∧
      (∀ s t' u', s ≠ sid → findRef w' s t' u' = findRef w s t' u') ∧
      (∀ r', r' < w.next → parent ≠ some r' → (w'.heap r').m = (w.heap r').m) ∧
      (∀ p, parent = some p → (w.heap p).m.removeChild t u = .ok (w'.heap p).m) := by
  obtain ⟨c, u', hc, hu, e⟩ := hk
  cases e
  obtain ⟨key1, key2⟩ := hr.ok.key_ok _ _ _ _ hf
  have hst := syncElem_step hr.store n x parent w hr.ok.refs_lt
  generalize hw' : (syncElem S (n + 1) x parent w).2 = w' at hst
  generalize hres : (syncElem S (n + 1) x parent w).1 = res at hst
  have hrun : syncElem S (n + 1) x parent w = (res, w') := by rw [← hw', ← hres]
  have entry : ∀ {c' u' dst w1}, Entered S sid x c' u' dst w w1 → c' = c ∧ u' = u ∧ dst = some r := by
    intro c' u' dst w1 ent
    cases hc.symm.trans ent.cls
    cases hu.symm.trans ent.uid
    refine ⟨rfl, rfl, ?_⟩
    rw [ent.dst, hr.valid.names _ _ hc]; exact hf
  have hskip : skipOf (some r) w = true := hfl
  cases hst with
  | noClass h => rw [hc] at h; cases h
  | noKey h h' => rw [hc] at h; cases h; rw [hu] at h'; cases h'
  | natFail ent _ h => obtain ⟨rfl, rfl, rfl⟩ := entry ent; rw [hskip] at h; cases h
  | natural ent _ h => obtain ⟨rfl, rfl, rfl⟩ := entry ent; rw [hskip] at h; cases h
  | @plain c' u' dst w1 _ ent _ hb =>
    obtain ⟨rfl, rfl, rfl⟩ := entry ent
    have hlt := hr.ok.refs_lt _ _ _ _ hf
    have hm1 : (w1.heap r).m = (w.heap r).m := ent.still.heap_m r hlt
    have hact : w1.sact = some .delete := by rw [ent.sact, ha]
    -- the call
    have own : ∀ {w2 evs res}, Own S (w1.scls.getD c') x.keys (x.plus.getD []) w1 w2 w1.sact (some r) evs res → res = .ok (true, some r) ∧ Still w1 w2 := by
      intro w2 evs res o
      rw [hact] at o
      have hcall : callFor (w1.scls.getD c') .delete ((some r).map (fun r => (w1.heap r).m)) x.keys (x.plus.getD []) = some (.delete x.type u') := by
        simp only [Option.map_some, callFor, hm1, key1, key2]
      have houtc : ∀ {call out env}, callFor (w1.scls.getD c') .delete ((some r).map (fun r => (w1.heap r).m)) x.keys (x.plus.getD []) = some call →
          S.hooks w1.env call = (out, env) → out.result = .object := by
        intro call out env h1 h2
        rw [hcall] at h1; cases h1
        rw [ent.env_eq] at h2
        rw [h2] at hout; exact hout
      cases o with
      | stale h => rw [hcall] at h; cases h
      | crud h1 h2 h3 => rw [houtc h1 h2] at h3; cases h3
      | fatal h1 h2 _ h3 =>
        rcases h3 with h3 | ⟨h3, _⟩ | ⟨_, h3, _⟩
        · rw [houtc h1 h2] at h3; cases h3
        · cases h3
        · cases h3
      | failed h1 h2 h3 => rw [houtc h1 h2] at h3; cases h3
      | kept h1 h2 h3 h4 h5 h6 => exact ⟨rfl, h5⟩
    -- the bookkeeping
    have store : ∀ {w2 : World V E}, Still w1 w2 → ∃ w3, applyStore S w1.sact parent r true w2 = (.ok (), w3) ∧
        (∀ t' v', (∃ k, ListsChain (snap S.dst w) k (x.type, u') (t', v')) → findRef w3 sid t' v' = none) ∧
        (∀ t' v', (¬ ∃ k, ListsChain (snap S.dst w) k (x.type, u') (t', v')) → findRef w3 sid t' v' = findRef w sid t' v') ∧
        (∀ s t' v', s ≠ sid → findRef w3 s t' v' = findRef w s t' v') ∧
        (∀ r', r' < w.next → parent ≠ some r' → (w3.heap r').m = (w.heap r').m) ∧
        (∀ p, parent = some p → (w.heap p).m.removeChild x.type u' = .ok (w3.heap p).m) := by
      intro w2 s2
      have s02 := ent.still.trans s2
      have ok2 : w2.OK := s02.ok hr.ok
      -- once the parent's list is updated
      have fin : ∀ w2' : World V E, (∀ s t, tbl w2' s t = tbl w2 s t) → w2'.OK → w2'.loc = w2.loc → 
          (∀ r', r' < w.next → parent ≠ some r' → (w2'.heap r').m = (w.heap r').m) →
          (∀ p, parent = some p → (w.heap p).m.removeChild x.type u' = .ok (w2'.heap p).m) →
          (∃ w3, remove S.dst S.rlimit r true w2' = (.ok (), w3) ∧
        (∀ t' v', (∃ k, ListsChain (snap S.dst w) k (x.type, u') (t', v')) → findRef w3 sid t' v' = none) ∧
        (∀ t' v', (¬ ∃ k, ListsChain (snap S.dst w) k (x.type, u') (t', v')) → findRef w3 sid t' v' = findRef w sid t' v') ∧
        (∀ s t' v', s ≠ sid → findRef w3 s t' v' = findRef w s t' v') ∧
        (∀ r', r' < w.next → parent ≠ some r' → (w3.heap r').m = (w.heap r').m) ∧
        (∀ p, parent = some p → (w.heap p).m.removeChild x.type u' = .ok (w3.heap p).m)) := by
        intro w2' ht ok' hloc ho hp
        have hfr : ∀ s t v, findRef w2' s t v = findRef w s t v := by
          intro s t v; rw [← s02.tbl_eq.findRef]; unfold findRef; rw [ht s t]
        have hD : ∀ t v, (snap S.dst w).find t v = (findRef w sid t v).map (fun r => (w.heap r).m) := fun t v => by simp only [snap, hr.store]
        have hD' : ∀ t v, (snap S.dst w2').find t v = (findRef w sid t v).map (fun r => (w2'.heap r).m) := fun t v => by
          simp only [snap, hr.store, hfr]
        have hrel : ∀ t' v', ((snap S.dst w).find t' v' = none ↔ (snap S.dst w2').find t' v' = none) ∧
            ∀ m m', (snap S.dst w).find t' v' = some m → (snap S.dst w2').find t' v' = some m' →
              m'.cls = m.cls ∧ ∀ ct v, (ct, v) ≠ (x.type, u') → m'.lists ct v = m.lists ct v := by
          intro t' v'
          rw [hD, hD']
          cases hfe : findRef w sid t' v' with
          | none => exact ⟨by simp, by intro m m' h; cases h⟩
          | some r1 =>
            refine ⟨by simp, ?_⟩
            intro m m' h h'
            cases h; cases h'
            have hlt1 := hr.ok.refs_lt _ _ _ _ hfe
            by_cases hpr : parent = some r1
            · have h1 := hp r1 hpr
              exact ⟨(removeChild_kidsOnly h1).cls_eq, fun ct v hv => removeChild_lists (hpar r1 hpr).2.1 h1 ct v hv⟩
            · dsimp only; rw [ho r1 hlt1 hpr]; exact ⟨rfl, fun _ _ _ => rfl⟩
        have hcount : countStore S.dst.ref.store w2' ≤ S.rlimit := by
          refine Nat.le_trans (Nat.le_of_eq ?_) hlim
          rw [hr.store]
          exact countStore_same sid ok' hr.ok (fun t => (ht sid t).trans (s02.tbl_eq sid t))
        obtain ⟨w3, e3, _, g1, g2, g3, _, g5⟩ := C40_remove_children_local S.dst hr.store w2' ok' (by
            intro t' v' m' h'
            cases h : (snap S.dst w).find t' v' with
            | none => rw [(hrel t' v').1.1 h] at h'; cases h'
            | some m => rw [((hrel t' v').2 m m' h h').1]; exact hr.children _ _ _ h) (t := x.type) (u := u') (r := r)
            (by rw [hfr]; exact hf) S.rlimit hcount
        refine ⟨w3, e3, ?_, ?_, ?_, ?_, ?_⟩
        · intro t' v' ⟨k, hk⟩
          exact g1 t' v' (reach_cut (fun t v => ⟨(hrel t v).1, fun m m' h h' => ((hrel t v).2 m m' h h').2⟩) hk)
        · intro t' v' hn
          rw [g2 t' v' (fun ⟨k, hk⟩ => hn (reach_cut (fun t v => ⟨(hrel t v).1.symm, fun m m' h h' ct cv hne => (((hrel t v).2 m' m h' h).2 ct cv hne).symm⟩) hk)), hfr]
        · intro s t' v' hs; rw [g3 s t' v' hs, hfr]
        · intro r' h1 h2; rw [g5]; exact ho r' h1 h2
        · intro p h1; rw [g5]; exact hp p h1
      rw [hact]
      unfold applyStore
      simp only
      cases parent with
      | none =>
        obtain ⟨w3, e3, g⟩ := fin w2 (fun _ _ => rfl) ok2 rfl (fun r' h _ => s02.heap_m r' h) (fun _ h => (by cases h))
        exact ⟨w3, e3, g⟩
      | some p =>
        obtain ⟨hp1, hp2, m, hp3⟩ := hpar p rfl
        have hpm : (w2.heap p).m = (w.heap p).m := s02.heap_m p hp1
        have hrm : (w2.heap r).m = (w.heap r).m := s02.heap_m r hlt
        have hcr := removeChildRef_eq p r w2
        rw [hpm, hrm, key1, key2, hp3] at hcr
        obtain ⟨w3, e3, g⟩ := fin (w2.setObj p { w2.heap p with m := m }) (fun _ _ => rfl)
          ⟨ok2.loc_wf, ok2.tbl_wf, ok2.refs_lt, by
            intro s t' v' r1 h1
            have := ok2.key_ok s t' v' r1 h1
            simp only [World.setObj]
            split
            · rename_i h; subst h
              rw [(removeChild_kidsOnly hp3).type_eq, (removeChild_kidsOnly hp3).uid_eq, ← hpm]; exact this
            · exact this⟩ rfl
          (by
            intro r' h1 h2
            simp only [World.setObj]
            rw [if_neg (fun h => h2 (by rw [h]))]; exact s02.heap_m r' h1)
          (by
            intro p' h; cases h
            simp only [World.setObj, if_true]; exact hp3)
        refine ⟨w3, ?_, g⟩
        unfold withParent
        simp only
        rw [M.bind_ok hcr]; exact e3
    rw [hskip] at hb
    cases hb with
    | raised o => cases (own o).1
    | noObject o => cases (own o).1
    | storeFail o _ _ h =>
      obtain ⟨e, s⟩ := own o
      cases e
      obtain ⟨w3, e3, _⟩ := store s
      rw [e3] at h; cases h
    | shortcut o _ _ h =>
      obtain ⟨e, s⟩ := own o
      cases e
      obtain ⟨w3, e3, g⟩ := store s
      rw [e3] at h; cases h
      exact ⟨_, hrun, g⟩
    | leaf _ _ _ _ _ h => cases h
    | kids _ _ _ _ h => cases (h hact).2
end

end DS
