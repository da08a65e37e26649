import Verif.Lemmas.StatusSync
import Verif.Lemmas.SyncDoneTop
/-! Statuses after `sync_from` as a whole. -/
set_option linter.unusedSectionVars false

namespace DS
variable {V E : Type} [PyVal V]

section
variable {S : SyncCtx V E} {X : Key → Prop} {Gr : Key → Key → Prop} {SkipK : Key → Prop} {Fin : Event V → Prop} {sid : Nat}

theorem syncList_stat (hreo : S.dc.Reorders) (hA : S.dst.ref.store = .local sid) {n : Nat} {l : List (Elem V)} {acc : Bool} {w w' : World V E} {res : Except Err Bool}
    (h : KidsRun (fun k w w' res => syncElem S n k none w = (res, w')) l acc w w' res) (env : FrameEnv S.dst Gr SkipK X Fin l)
    (hi : GInv S.dst Gr SkipK w) (hd : DistinctKeys S.dst l) (hfin : NewIn Fin w w') : StatBy S.dst sid (KeyIn S.dst l) w w' := by
  have hrun := h
  replace h := kidsRun_fin (S := S) n h hi.refs hfin
  clear hfin hrun
  induction h with
  | nil => exact .refl _
  | @err k l acc w1 w2 x h1 =>
    have ek := env.sub (es' := [k]) (fun x hx => inTree_single (by simp) hx)
    exact (syncElem_stat (b := 0) hreo hA n k none w1 w2 _ h1.1 ek hi (Nat.zero_le _) (fun k _ => GPar.none k w1) hd.cons.1 h1.2).mono
      (fun k ⟨x, h1, h2⟩ => ⟨x, inTree_single (by simp) h1, h2⟩)
  | @cons k l acc w1 w3 w4 bb res h1 h2 ih =>
    have ek := env.sub (es' := [k]) (fun x hx => inTree_single (by simp) hx)
    have hsub2 : ∀ x, InTree x l → InTree x (k :: l) := fun x hx => hx.mono (fun _ h => by simp [h])
    have f := syncElem_fr (S := S) (b := 0) n k none w1 w3 _ h1.1 ek hi (Nat.zero_le _) (fun k _ => GPar.none k w1) h1.2
    have d1 := syncElem_stat (b := 0) hreo hA n k none w1 w3 _ h1.1 ek hi (Nat.zero_le _) (fun k _ => GPar.none k w1) hd.cons.1 h1.2
    refine d1.trans (ih (env.sub hsub2) f.inv hd.cons.2.1) ?_ ?_
    · rintro kx ⟨z, g1, g2⟩ ⟨z', g1', g2'⟩
      exact hd.cons.2.2 z kx g1 g2 z' g1' g2'
    · rintro kx (⟨z, g1, g2⟩ | ⟨z, g1, g2⟩)
      · exact ⟨z, inTree_single (by simp) g1, g2⟩
      · exact ⟨z, hsub2 z g1, g2⟩
end

theorem syncFrom_stat {n rl : Nat} {hooks : Hooks V E} {dst src : Adapter V} {dc : DiffClass V} {flags : Nat} {diff : Option (Diff V)} {w w' : World V E}
    {res : Except Err (Diff V)} {d : Diff V} {sid : Nat} (hA : dst.ref.store = .local sid) (hr : DstReady dst w) (hu : UsedDiff n dst src dc flags diff w d) (hg : GoodDiff dst d.kids)
    (ht : Tidy dst d) (h : syncFrom n rl hooks dst src dc flags diff w = (res, w')) : StatBy dst sid (KeyIn dst d.kids) w w' := by
  have calm : ∀ {w0 : World V E} {evs}, Still w w0 → (∀ r, r < w.next → w0.heap r = w.heap r) → w0.trace = w.trace ++ evs → OnlyDiffProgress evs → StatBy dst sid (KeyIn dst d.kids) w w0 := by
    intro w0 evs h1 h2 h3 h4
    refine ⟨evs, h3, StatTo.calm ?_ ?_ ⟨h1.next_le, fun r hr => ?_⟩ hr.ok.refs_lt⟩
    · intro c out hc
      obtain ⟨_, _, h7⟩ := h4 _ hc
      cases h7
    · intro t u r hr; unfold findRef at hr ⊢; rw [← h1.tbl_eq]; exact hr
    · unfold World.stat; rw [h2 r hr]
  have quiet : ∀ {w0 w1 : World V E} {evs K}, SameStat w0 w1 → TblSame w0 w1 → w1.trace = w0.trace ++ evs → callsOf evs = [] → RefsLt w0 → StatBy dst sid K w0 w1 := by
    intro w0 w1 evs K h1 h2 h3 h4 h5
    refine ⟨evs, h3, StatTo.calm ?_ ?_ h1 h5⟩
    · intro c out hc
      have : (c, out) ∈ callsOf evs := mem_callsOf.2 hc
      rw [h4] at this; cases this
    · intro t u r hr; unfold findRef at hr ⊢; rw [← h2]; exact hr
  rcases syncFrom_cases n rl hooks dst src dc flags diff w hr.ok.refs_lt hr.ok.tbl_wf with ⟨x, w1, h1, h2, ⟨evs, h3, h3'⟩, h4⟩ | ⟨d', w0, evs0, y, w1, h1, h2, h3, h4, h5, h6, hcl, h7, h8⟩
  · rw [h] at h1
    cases h1
    refine calm h2 ?_ h3 h3'
    rcases h4 with ⟨_, _, _, _, _, rfl⟩ | ⟨_, h4⟩
    · exact fun _ _ => rfl
    · have hh : ∀ r, r < w.next → (diffFrom n dst src dc flags w).2.heap r = w.heap r := (diffFrom_drel n dst src dc flags w hr.ok.refs_lt hr.ok.tbl_wf).1.heap_eq
      rw [h4] at hh; exact hh
  · cases hu.unique h1
    have hs : Still w (startSync d w0) := h2.trans (startSync_still d w0)
    have hsub : ∀ x, InTree x (getChildren d.cls d.kids) → InTree x d.kids := fun x hx => hx.mono (fun k hk => mem_of_getChildren hk)
    have inv := GInv.start hr d.kids
    have hrun := syncElem_list (S := ⟨src, dst, flags, d.cls, hooks, rl⟩) n (getChildren d.cls d.kids) false (startSync d w0) (hs.grows.refs hr.ok.refs_lt)
    rw [h7] at hrun
    dsimp only at hrun
    obtain ⟨evs, hevs⟩ := kidsRun_ext (S := ⟨src, dst, flags, d.cls, hooks, rl⟩) n (syncElem_ext n) hrun (hs.grows.refs hr.ok.refs_lt)
    have hfin : NewIn (· ∈ evs) (startSync d w0) w1 := fun evs' he ev hev => by rw [List.append_cancel_left (hevs.symm.trans he)]; exact hev
    have env := FrameEnv.start hr.valid (snap dst w) hg.plain hg.del hg.ids evs
    have st : StatBy dst sid (KeyIn dst (getChildren d.cls d.kids)) (startSync d w0) w1 :=
      syncList_stat (S := ⟨src, dst, flags, d.cls, hooks, rl⟩) ht.1 hA hrun (env.sub hsub) (hs.ginv inv) (ht.2.perm (getChildren_perm ht.1 d.kids).symm) hfin
    have st := st.mono (K2 := KeyIn dst d.kids) (fun k ⟨x, a, b⟩ => ⟨x, hsub x a, b⟩)
    have s0 : StatBy dst sid (fun _ => False) w (startSync d w0) := by
      obtain ⟨evs', t, s⟩ := calm (evs := evs0) hs h6.2 h4 h5
      have hno : ∀ c out, Event.call c out ∉ evs' := by
        intro c out hc
        have : evs' = evs0 := List.append_cancel_left (t.symm.trans h4)
        subst this
        obtain ⟨_, _, h7⟩ := h5 _ hc
        cases h7
      refine ⟨evs', t, StatTo.calm hno ?_ ⟨hs.next_le, fun r hr => ?_⟩ hr.ok.refs_lt⟩
      · intro t u r hr; unfold findRef at hr ⊢; rw [← hs.tbl_eq]; exact hr
      · unfold World.stat; exact congrArg Obj.getStatus (h6.2 r hr)
    have s1 : StatBy dst sid (KeyIn dst d.kids) w w1 := s0.trans st (fun _ h => absurd h id) (fun k hk => hk.elim False.elim id)
    have hrefs : RefsLt w1 := (kidsRun_grows (S := ⟨src, dst, flags, d.cls, hooks, rl⟩) n hrun (hs.grows.refs hr.ok.refs_lt)).refs (hs.grows.refs hr.ok.refs_lt)
    rw [h] at h8
    cases y with
    | error x => cases h8; exact s1
    | ok ch =>
      cases h8
      have hc := World.complete_still w1 ch dst src
      have tc : ∃ evs3, (w1.complete ch dst src).trace = w1.trace ++ evs3 ∧ callsOf evs3 = [] ∧ SameStat w1 (w1.complete ch dst src) := by
        unfold World.complete
        split
        · exact ⟨[.syncComplete dst.ref.id src.ref.id], rfl, rfl, SameStat.of_eq rfl rfl⟩
        · exact ⟨[], by simp, rfl, SameStat.refl _⟩
      obtain ⟨evs3, t5, t6, t7⟩ := tc
      exact s1.trans (quiet (K := fun _ => False) t7 hc.tbl_eq t5 t6 hrefs) (fun _ _ h => h) (fun k hk => hk.elim id False.elim)

end DS
