import Verif.Lemmas.SyncDone
import Verif.Props.Sync
/-! Calls in effect after `sync_from` as a whole. -/
set_option linter.unusedSectionVars false

namespace DS
variable {V E : Type} [PyVal V]

section
variable {S : SyncCtx V E} {X : Key → Prop} {Gr : Key → Key → Prop} {SkipK : Key → Prop} {Fin : Event V → Prop} {D0 : Snap V}

theorem syncList_done (hreo : S.dc.Reorders) {n : Nat} {l : List (Elem V)} {acc : Bool} {w w' : World V E} {res : Except Err Bool}
    (h : KidsRun (fun k w w' res => syncElem S n k none w = (res, w')) l acc w w' res) (env : FrameEnv S.dst Gr SkipK X Fin l)
    (hi : GInv S.dst Gr SkipK w) (hd : DistinctKeys S.dst l) (hf1 : AsBefore S.dst D0 w l) (hfin : NewIn Fin w w') :
    KeptTo S.dst X D0 w w' res := by
  have hrun := h
  replace h := kidsRun_fin (S := S) n h hi.refs hfin
  clear hfin hrun
  suffices hs : ∀ b, b ≤ w.next → KeptTo S.dst X D0 w w' res ∧ GFr S.dst b (keysOf S.dst l) (fun _ => False) X Gr SkipK w w' from (hs _ (Nat.le_refl _)).1
  intro b hb
  induction h with
  | nil => exact ⟨.of_all (evs := []) (by simp) (fun _ _ h => by cases h), GFr.refl hb hi⟩
  | @err k l acc w1 w2 x h1 =>
    have ek := env.sub (es' := [k]) (fun x hx => inTree_single (by simp) hx)
    refine ⟨syncElem_done (b := b) hreo n k none w1 w2 _ h1.1 ek hi hb (fun k _ => GPar.none k w1) hd.cons.1 (hf1.mono (fun x hx => inTree_single (by simp) hx)) h1.2, ?_⟩
    exact (syncElem_fr (S := S) n k none w1 w2 _ h1.1 ek hi hb (fun k _ => GPar.none k w1) h1.2).mono
      (fun a k ⟨x, h1, h2, h3⟩ => ⟨x, inTree_single (by simp) h1, h2, h3⟩) (fun _ h => by cases h)
  | @cons k l acc w1 w3 w4 bb res h1 h2 ih =>
    have ek := env.sub (es' := [k]) (fun x hx => inTree_single (by simp) hx)
    have hsub2 : ∀ x, InTree x l → InTree x (k :: l) := fun x hx => hx.mono (fun _ h => by simp [h])
    have f := syncElem_fr (S := S) (b := b) n k none w1 w3 _ h1.1 ek hi hb (fun k _ => GPar.none k w1) h1.2
    have d1 := syncElem_done (b := b) hreo n k none w1 w3 _ h1.1 ek hi hb (fun k _ => GPar.none k w1) hd.cons.1 (hf1.mono (fun x hx => inTree_single (by simp) hx)) h1.2
    have c1 := syncElem_calls (b := b) n h1.1 ek hi hb (fun k _ => GPar.none k w1) h1.2
    obtain ⟨d2, f2⟩ := ih (env.sub hsub2) f.inv hd.cons.2.1
      ((hf1.mono hsub2).move hi f (fun x hx kx hkx a ⟨z, hz, _, hzk⟩ => hd.cons.2.2 z kx hz hzk x hx hkx)) (Nat.le_trans hb f.next_le)
    obtain ⟨evs1, t1⟩ := syncElem_ext (S := S) n k none w1 _ _ hi.refs h1.1
    refine ⟨KeptTo.prepend t1 ((d1.all (fun x h => by cases h) t1).move f.inv f2 ?_) d2,
      (f.mono (fun a x ⟨z, g1, g2⟩ => ⟨z, inTree_single (by simp) g1, g2⟩) (fun _ h => by cases h)).trans
        (f2.mono (fun a x ⟨z, g1, g2⟩ => ⟨z, hsub2 z g1, g2⟩) (fun _ h => h)) hb⟩
    intro c out hc
    obtain ⟨x, kx, g1, g2, g3⟩ := c1 evs1 t1 c out hc
    obtain ⟨cl, hcl⟩ := g2.cls
    exact ⟨kx, cl, g3, hcl, fun a ⟨z, hz, _, hzk⟩ => hd.cons.2.2 x kx g1 g2 z hz hzk⟩
end

theorem Kept.mono {A : Adapter V} {X X' : Key → Prop} {D0 D : Snap V} {evs : List (Event V)} (h : Kept A X D0 D evs) (hX : ∀ k, X k → X' k) :
    Kept A X' D0 D evs := by
  intro c out hc hs hu
  rcases h c out hc hs hu with h1 | ⟨h1, k, h2, h3⟩
  · exact .inl h1
  · exact .inr ⟨h1, k, h2, hX k h3⟩

theorem syncFrom_done {n rl : Nat} {hooks : Hooks V E} {dst src : Adapter V} {dc : DiffClass V} {flags : Nat} {diff : Option (Diff V)} {w w' : World V E}
    {res : Except Err (Diff V)} {d : Diff V} (hr : DstReady dst w) (hu : UsedDiff n dst src dc flags diff w d) (hg : GoodDiff dst d.kids)
    (ht : Tidy dst d) (h : syncFrom n rl hooks dst src dc flags diff w = (res, w')) :
    ∃ evs evs1 evs2, w'.trace = w.trace ++ evs ∧ evs = evs1 ++ evs2 ∧ Kept dst (TakenAlong dst (snap dst w) d.kids evs) (snap dst w) (snap dst w') evs1 ∧
      (callsOf evs2).length ≤ 1 ∧ ((∀ x, res = .error x → x.isCrud = true) → callsOf evs2 = []) ∧ ∀ c out, Event.call c out ∈ evs2 → out.result = .object ∧ c.act ≠ .update := by
  rcases syncFrom_cases n rl hooks dst src dc flags diff w hr.ok.refs_lt hr.ok.tbl_wf with ⟨x, w1, h1, h2, h3, h4⟩ | ⟨d', w0, evs0, y, w1, h1, h2, h3, h4, h5, h6, hcl, h7, h8⟩
  · rw [h] at h1
    cases h1
    obtain ⟨evs, h5, h6⟩ := h3
    refine ⟨evs, evs, [], h5, by simp, ?_, by simp, fun _ => rfl, fun _ _ h => by cases h⟩
    intro c out hc
    obtain ⟨_, _, h7⟩ := h6 _ hc
    cases h7
  · cases hu.unique h1
    have hs : Still w (startSync d w0) := h2.trans (startSync_still d w0)
    have hsub : ∀ x, InTree x (getChildren d.cls d.kids) → InTree x d.kids := fun x hx => hx.mono (fun k hk => mem_of_getChildren hk)
    have inv := GInv.start hr d.kids
    have hrun := syncElem_list (S := ⟨src, dst, flags, d.cls, hooks, rl⟩) n (getChildren d.cls d.kids) false (startSync d w0) (hs.grows.refs hr.ok.refs_lt)
    rw [h7] at hrun
    dsimp only at hrun
    obtain ⟨evs, hevs⟩ := kidsRun_ext (S := ⟨src, dst, flags, d.cls, hooks, rl⟩) n (syncElem_ext n) hrun (hs.grows.refs hr.ok.refs_lt)
    have hfin : NewIn (· ∈ evs) (startSync d w0) w1 := fun evs' he ev hev => by rw [List.append_cancel_left (hevs.symm.trans he)]; exact hev
    have env := FrameEnv.start hr.valid (snap dst w) hg.plain hg.del hg.ids evs
    have fr : AsBefore dst (snap dst w) w d.kids := fun x _ _ k _ m hm => ⟨m, hm, rfl, rfl⟩
    obtain ⟨evs1, evs2, t1, t2, t3, t4, t5⟩ := syncList_done (S := ⟨src, dst, flags, d.cls, hooks, rl⟩) (D0 := snap dst w) ht.1 hrun (env.sub hsub) (hs.ginv inv)
      (ht.2.perm (getChildren_perm ht.1 d.kids).symm) ((fr.still inv hs (evs := evs0) h4).mono hsub) hfin
    have he : evs = evs1 ++ evs2 := List.append_cancel_left (hevs.symm.trans t1)
    have t1' : w1.trace = w.trace ++ (evs0 ++ evs) := by rw [hevs]; show w0.trace ++ evs = _; rw [h4, List.append_assoc]
    have d0 : ∀ D : Snap V, ∀ X, Kept dst X (snap dst w) D evs0 := fun D X c out hc => by
      obtain ⟨_, _, h7⟩ := h5 _ hc
      cases h7
    rw [h] at h8
    cases y with
    | error x =>
      cases h8
      exact ⟨evs0 ++ evs, evs0 ++ evs1, evs2, t1', by rw [he]; simp,
        (d0 _ _).append (t2.mono (fun k hk => TakenAlong.mono (fun ev h => by simp [h]) hk)), t3, fun hx => t4 (fun z hz => by cases hz; exact hx _ rfl), t5⟩
    | ok ch =>
      cases h8
      have hc := World.complete_still w1 ch dst src
      have hsn : snap dst (w1.complete ch dst src) = snap dst w1 := by
        unfold World.complete; split <;> rfl
      have tc : ∃ evs3, (w1.complete ch dst src).trace = w1.trace ++ evs3 ∧ callsOf evs3 = [] := by
        unfold World.complete
        split
        · exact ⟨[.syncComplete dst.ref.id src.ref.id], rfl, rfl⟩
        · exact ⟨[], by simp, rfl⟩
      obtain ⟨evs3, t7, t6⟩ := tc
      refine ⟨evs0 ++ evs ++ evs3, evs0 ++ evs1, evs2 ++ evs3, by rw [t7, t1']; simp, by rw [he]; simp, ?_, ?_, fun hx => ?_, fun c out hc => ?_⟩
      · rw [hsn]
        exact (d0 _ _).append (t2.mono (fun k hk => TakenAlong.mono (fun ev h => by simp [h]) hk))
      · rw [callsOf_append, t6, List.append_nil]; exact t3
      · rw [callsOf_append, t6, List.append_nil]; exact t4 (fun z hz => by cases hz)
      · rcases List.mem_append.1 hc with hc | hc
        · exact t5 c out hc
        · rw [← mem_callsOf, t6] at hc; cases hc

end DS
