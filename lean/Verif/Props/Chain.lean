import Verif.Props.Converge
import Verif.Props.SkipCount
import Verif.Spec.Chain
/-!
# C68: having no diffs carries over along a chain of adapters
-/
set_option linter.unusedSectionVars false

namespace DS
variable {V E : Type} [PyVal V]

theorem Compared.storedAt {src dst : Adapter V} {flags : Nat} {S D : Snap V} {p : Pos V} (h : Compared src dst flags S D p) : Stored S D p := by
  cases h with
  | top h => exact ⟨fun m hm => by rw [← hm, h.src_eq], fun m hm => by rw [← hm, h.dst_eq]⟩
  | child _ _ h => exact h.stored

theorem visible_unflagged {flags : Nat} {S D : Snap V} (hf : ComparesAll flags) (hS : S.Unflagged) (hD : D.Unflagged) {p : Pos V} (hp : Stored S D p) :
    p.Visible flags := by
  obtain ⟨t, u, s, d⟩ := p
  intro hh
  simp only at hh
  cases hh with
  | globalSrc s h => rw [hf.1] at h; cases h
  | globalDst s h => rw [hf.2] at h; cases h
  | modelSrc s h => rw [(hS _ _ _ (hp.src s rfl)).2.1] at h; cases h
  | modelDst d h => rw [(hD _ _ _ (hp.dst d rfl)).2.2] at h; cases h
  | ignoreSrc s d h => rw [(hS _ _ _ (hp.src s rfl)).1] at h; cases h
  | ignoreDst s d h => rw [(hD _ _ _ (hp.dst d rfl)).1] at h; cases h

/-- **C68** If `a` and `b` agree at every place and `b` and `c` do, then `a` and `c` do (for values on which `==` is transitive). -/
theorem C68_agreement_transitive [PyVal.Equiv V] {a b c : Adapter V} {flags : Nat} {A B C : Snap V} (hbt : Between a b c A B C)
    (hf : ComparesAll flags) (hA : A.Unflagged) (hB : B.Unflagged) (hC : C.Unflagged)
    (hab : ∀ p, Compared a b flags A B p → p.Agrees) (hbc : ∀ p, Compared b c flags B C p → p.Agrees) :
    ∀ p, Compared a c flags A C p → p.Agrees := by
  have step : ∀ t u (x : Model V) z, (∃ y, Compared a b flags A B ⟨t, u, some x, some y⟩ ∧ Compared b c flags B C ⟨t, u, some y, some z⟩) →
      (⟨t, u, some x, some z⟩ : Pos V).Agrees := by
    rintro t u x z ⟨y, h1, h2⟩
    refine ⟨x, z, rfl, rfl, fun k v v' hv hv' => ?_⟩
    obtain ⟨v'', hv''⟩ := Dict.mem_keys_iff.1 (hbt.attrs t u x y z k (h1.storedAt.src x rfl) (h1.storedAt.dst y rfl) (h2.storedAt.dst z rfl)
      (Dict.mem_keys_iff.2 ⟨v, hv⟩) (Dict.mem_keys_iff.2 ⟨v', hv'⟩))
    obtain ⟨_, _, e1, e2, g1⟩ := hab _ h1
    cases e1; cases e2
    obtain ⟨_, _, e1, e2, g2⟩ := hbc _ h2
    cases e1; cases e2
    exact PyVal.Equiv.eq_trans _ _ _ (g1 k v v'' hv hv'') (g2 k v'' v' hv'' hv')
  have key : ∀ p, Compared a c flags A C p → ∃ x y z, p.src = some x ∧ p.dst = some z ∧
      Compared a b flags A B ⟨p.type, p.uid, some x, some y⟩ ∧ Compared b c flags B C ⟨p.type, p.uid, some y, some z⟩ := by
    intro p hp
    induction hp with
    | @top q ht =>
      have tb := hbt.top _ ht.src_top ht.dst_top
      have h1 : ∀ p : Pos V, IsTop a b A B p → ∃ x y, p.src = some x ∧ p.dst = some y := fun p hp => by
        obtain ⟨x, y, e1, e2, _⟩ := hab _ (.top hp); exact ⟨x, y, e1, e2⟩
      have h2 : ∀ p : Pos V, IsTop b c B C p → ∃ x y, p.src = some x ∧ p.dst = some y := fun p hp => by
        obtain ⟨x, y, e1, e2, _⟩ := hbc _ (.top hp); exact ⟨x, y, e1, e2⟩
      have fin : ∀ x y z, A.find q.type q.uid = some x → B.find q.type q.uid = some y → C.find q.type q.uid = some z →
          ∃ x y z, q.src = some x ∧ q.dst = some z ∧
            Compared a b flags A B ⟨q.type, q.uid, some x, some y⟩ ∧ Compared b c flags B C ⟨q.type, q.uid, some y, some z⟩ :=
        fun x y z e1 e2 e3 => ⟨x, y, z, by rw [ht.src_eq, e1], by rw [ht.dst_eq, e3],
          .top ⟨ht.src_top, tb, e1.symm, e2.symm, .inl nofun⟩, .top ⟨tb, ht.dst_top, e2.symm, e3.symm, .inl nofun⟩⟩
      rcases ht.some_side with hs | hs
      · rw [ht.src_eq] at hs
        obtain ⟨x, y, e1, e2⟩ := h1 ⟨q.type, q.uid, A.find q.type q.uid, B.find q.type q.uid⟩ ⟨ht.src_top, tb, rfl, rfl, .inl hs⟩
        simp only at e1 e2
        obtain ⟨_, z, _, e3⟩ := h2 ⟨q.type, q.uid, B.find q.type q.uid, C.find q.type q.uid⟩ ⟨tb, ht.dst_top, rfl, rfl, .inl (by rw [e2]; nofun)⟩
        exact fin x y z e1 e2 e3
      · rw [ht.dst_eq] at hs
        obtain ⟨y, z, e2, e3⟩ := h2 ⟨q.type, q.uid, B.find q.type q.uid, C.find q.type q.uid⟩ ⟨tb, ht.dst_top, rfl, rfl, .inr hs⟩
        simp only at e2 e3
        obtain ⟨x, _, e1, _⟩ := h1 ⟨q.type, q.uid, A.find q.type q.uid, B.find q.type q.uid⟩ ⟨ht.src_top, tb, rfl, rfl, .inr (by rw [e2]; nofun)⟩
        exact fin x y z e1 e2 e3
    | @child p q hp hv hc ih =>
      obtain ⟨x, y, z, e1, e2, g1, g2⟩ := ih
      have hct := hc.compared
      rw [e1, e2] at hct
      have hcx := hct.1 x rfl
      have hcz := hct.2 z rfl
      have hcy := hbt.kids p.type p.uid x y z q.type (g1.storedAt.src x rfl) (g1.storedAt.dst y rfl) (g2.storedAt.dst z rfl) hcx hcz
      have t1 : comparesType (some x) (some y) q.type := ⟨fun m hm => by cases hm; exact hcx, fun m hm => by cases hm; exact hcy⟩
      have t2 : comparesType (some y) (some z) q.type := ⟨fun m hm => by cases hm; exact hcy, fun m hm => by cases hm; exact hcz⟩
      have v1 := visible_unflagged hf hA hB g1.storedAt
      have v2 := visible_unflagged hf hB hC g2.storedAt
      have k1 : listsO (some x) q.type q.uid = true ∨ listsO (some y) q.type q.uid = true →
          listsO (some x) q.type q.uid = true ∧ listsO (some y) q.type q.uid = true ∧ ∃ m m', A.find q.type q.uid = some m ∧ B.find q.type q.uid = some m' ∧
            Compared a b flags A B ⟨q.type, q.uid, some m, some m'⟩ := by
        intro hl
        have hcc : Compared a b flags A B _ := .child g1 v1 (c := ⟨q.type, q.uid, if listsO (some x) q.type q.uid then A.find q.type q.uid else none,
          if listsO (some y) q.type q.uid then B.find q.type q.uid else none⟩) ⟨t1, hl, rfl, rfl⟩
        obtain ⟨m, m', d1, d2, _⟩ := hab _ hcc
        simp only at d1 d2
        rw [d1, d2] at hcc
        split at d1
        · split at d2
          · rename_i l1 l2; exact ⟨l1, l2, m, m', d1, d2, hcc⟩
          · cases d2
        · cases d1
      have k2 : listsO (some y) q.type q.uid = true ∨ listsO (some z) q.type q.uid = true →
          listsO (some y) q.type q.uid = true ∧ listsO (some z) q.type q.uid = true ∧ ∃ m m', B.find q.type q.uid = some m ∧ C.find q.type q.uid = some m' ∧
            Compared b c flags B C ⟨q.type, q.uid, some m, some m'⟩ := by
        intro hl
        have hcc : Compared b c flags B C _ := .child g2 v2 (c := ⟨q.type, q.uid, if listsO (some y) q.type q.uid then B.find q.type q.uid else none,
          if listsO (some z) q.type q.uid then C.find q.type q.uid else none⟩) ⟨t2, hl, rfl, rfl⟩
        obtain ⟨m, m', d1, d2, _⟩ := hbc _ hcc
        simp only at d1 d2
        rw [d1, d2] at hcc
        split at d1
        · split at d2
          · rename_i l1 l2; exact ⟨l1, l2, m, m', d1, d2, hcc⟩
          · cases d2
        · cases d1
      have hl := hc.listed
      rw [e1, e2] at hl
      have hy : listsO (some y) q.type q.uid = true := by
        rcases hl with hl | hl
        · exact (k1 (.inl hl)).2.1
        · exact (k2 (.inr hl)).1
      obtain ⟨l1, _, m, m', f1, f2, c1⟩ := k1 (.inr hy)
      obtain ⟨_, l3, m2, m3, f3, f4, c2⟩ := k2 (.inl hy)
      rw [f2] at f3; cases f3
      refine ⟨m, m', m3, ?_, ?_, c1, c2⟩
      · rw [hc.src_eq, e1, if_pos l1, f1]
      · rw [hc.dst_eq, e2, if_pos l3, f4]
  intro p hp
  obtain ⟨x, y, z, e1, e2, g1, g2⟩ := key p hp
  have := step p.type p.uid x z ⟨y, g1, g2⟩
  obtain ⟨t, u, s, d⟩ := p
  simp only at e1 e2
  subst e1; subst e2
  exact this

/-- **C68** No diffs between `a` and `b` and none between `b` and `c`: then there are none between `a` and `c`. -/
theorem C68_no_diffs_transitive [PyVal.Equiv V] {a b c : Adapter V} {flags n1 n2 n3 : Nat} {dc1 dc2 dc3 : DiffClass V} {w w1 w2 w3 : World V E}
    {d1 d2 d3 : Diff V} (h1 : Comparable a b w) (h2 : Comparable b c w) (h3 : Comparable a c w)
    (hbt : Between a b c (snap a w) (snap b w) (snap c w)) (hf : ComparesAll flags)
    (hA : (snap a w).Unflagged) (hB : (snap b w).Unflagged) (hC : (snap c w).Unflagged)
    (hr1 : diffFrom n1 b a dc1 flags w = (.ok d1, w1)) (hr2 : diffFrom n2 c b dc2 flags w = (.ok d2, w2))
    (hr3 : diffFrom n3 c a dc3 flags w = (.ok d3, w3)) (hn1 : d1.hasDiffs = false) (hn2 : d2.hasDiffs = false) : d3.hasDiffs = false := by
  rw [C12_no_diffs_iff_agree h3 hr3]
  intro p hp _
  refine C68_agreement_transitive hbt hf hA hB hC (fun p hp => ?_) (fun p hp => ?_) p hp
  · exact (C12_no_diffs_iff_agree h1 hr1).1 hn1 p hp (visible_unflagged hf hA hB hp.storedAt)
  · exact (C12_no_diffs_iff_agree h2 hr2).1 hn2 p hp (visible_unflagged hf hB hC hp.storedAt)

/-- **C68** Syncs can be chained: after `b` is synced from `a` and then `c` from `b`, with all calls successful, `a` and `c` agree at every
place, and a diff between them that returns reports nothing. -/
theorem C68_syncs_chain [PyVal.Equiv V] {a b c : Adapter V} {flags n rl sb sc : Nat} {dc1 dc2 : DiffClass V} {hooks1 hooks2 : Hooks V E} {w w1 w2 : World V E}
    {res1 res2 : Except Err (Diff V)} (h1 : CanConverge n a b sb w) (h2 : CanConverge n b c sc w1) (hac : Separate a c w1)
    (hs1 : SelfEqual (snap a w)) (hs2 : SelfEqual (snap b w1))
    (hk1 : KeepsNew a b flags (snap a w) (snap b w)) (hk2 : KeepsNew b c flags (snap b w1) (snap c w1)) (hR1 : dc1.Reorders) (hR2 : dc2.Reorders) (hrl : n ≤ rl)
    (hr1 : syncFrom n rl hooks1 b a dc1 flags none w = (res1, w1)) (ha1 : AllSucceed (newEvents w w1))
    (hr2 : syncFrom n rl hooks2 c b dc2 flags none w1 = (res2, w2)) (ha2 : AllSucceed (newEvents w1 w2))
    (hbt : Between a b c (snap a w) (snap b w1) (snap c w2)) (hf : ComparesAll flags)
    (hA : (snap a w).Unflagged) (hB : (snap b w1).Unflagged) (hC : (snap c w2).Unflagged) :
    snap a w2 = snap a w ∧ snap b w2 = snap b w1 ∧ (∀ p, Compared a c flags (snap a w2) (snap c w2) p → p.Agrees) ∧
      (Comparable a c w2 → ∀ dc d w3, diffFrom n c a dc flags w2 = (.ok d, w3) → d.hasDiffs = false) := by
  obtain ⟨_, c2, c3, _⟩ := C21_sync_converges h1 hs1 hk1 hR1 hrl hr1 ha1
  obtain ⟨_, e2, e3, _⟩ := C21_sync_converges h2 hs2 hk2 hR2 hrl hr2 ha2
  have e1 : snap a w2 = snap a w :=
    (C23_other_adapters_untouched h2.ready.dst (applicable_computed h2.comparable h2.ready.dst h2.keepsIds) hr2 hac).trans c2
  have hag : ∀ p, Compared a c flags (snap a w2) (snap c w2) p → p.Agrees := by
    rw [c2] at c3
    rw [e2] at e3
    rw [e1]
    exact C68_agreement_transitive hbt hf hA hB hC (fun p hp => c3 p hp (visible_unflagged hf hA hB hp.storedAt))
      (fun p hp => e3 p hp (visible_unflagged hf hB hC hp.storedAt))
  exact ⟨e1, e2, hag, fun hc dc d w3 hd => (C12_no_diffs_iff_agree hc hd).2 (fun p hp _ => hag p hp)⟩

end DS
