import Verif.Lemmas.ConvEnd
/-! A sync of elements without actions leaves everything as it is. -/
set_option linter.unusedSectionVars false

namespace DS
variable {V E : Type} [PyVal V] {S : SyncCtx V E}

theorem own_quiet {c : ModelClass V} {ids attrs : Dict V} {w w' : World V E} {a : Option Action} {dst evs res}
    (h : Own S c ids attrs w w' a dst evs res) (ha : a = none) : Still w w' := by
  cases h <;> first | assumption | cases ha

theorem kidsRun_quiet (n : Nat)
    (hn : ∀ (e : Elem V) (p : Option Ref) (w w' : World V E) res, RefsLt w → (∀ x, InTree x [e] → x.action = none) → syncElem S n e p w = (res, w') → Still w w')
    {q : Option Ref} {l : List (Elem V)} {acc : Bool} {w1 w2 : World V E} {res : Except Err Bool}
    (hk : KidsRun (fun k w w' res => syncElem S n k q w = (res, w')) l acc w1 w2 res) :
    RefsLt w1 → (∀ x, InTree x l → x.action = none) → Still w1 w2 := by
  have sub : ∀ {k : Elem V} {l}, (∀ x, InTree x (k :: l) → x.action = none) → ∀ x, InTree x [k] → x.action = none := by
    intro k l h x hx
    refine h x ?_
    cases hx with
    | here hm => rw [List.mem_singleton] at hm; exact .here (by simp [hm])
    | under hm hu => rw [List.mem_singleton] at hm; subst hm; exact .under List.mem_cons_self hu
  induction hk with
  | nil => exact fun _ _ => .refl _
  | err h1 => exact fun hw ht => hn _ _ _ _ _ hw (sub ht) h1
  | @cons k l acc w1 w3 w4 bb res h1 h2 ih2 =>
    intro hw ht
    have g := hn _ _ _ _ _ hw (sub ht) h1
    refine g.trans (ih2 (g.grows.refs hw) fun x hx => ht x ?_)
    cases hx with
    | here hm => exact .here (List.mem_cons_of_mem _ hm)
    | under hm hu => exact .under (List.mem_cons_of_mem _ hm) hu

/-- A sync of an element that has no action, and none below it, changes nothing. -/
theorem syncElem_quiet (n : Nat) : ∀ (e : Elem V) (p : Option Ref) (w w' : World V E) res, RefsLt w → (∀ x, InTree x [e] → x.action = none) →
    syncElem S n e p w = (res, w') → Still w w' := by
  induction n with
  | zero => intro e p w w' res _ _ h; cases h; exact .refl _
  | succ n ih =>
    intro e p w w' res hw ht h
    have hs := syncElem_gstep (S := S) n e p w hw
    rw [h] at hs
    dsimp only at hs
    have hact : e.action = none := ht e (.here List.mem_cons_self)
    have hkids : ∀ x, InTree x (getChildren S.dc e.kids) → x.action = none := by
      intro x hx
      refine ht x (.under List.mem_cons_self ?_)
      cases hx with
      | here hm => exact .here (mem_getChildren hm)
      | under hm hu => exact .under (mem_getChildren hm) hu
    cases hs with
    | noClass _ hw' => subst hw'; exact .refl _
    | noKey _ _ hw' => subst hw'; exact .refl _
    | natFail ent _ _ ha _ => rw [hact] at ha; cases ha
    | natural ent _ _ ha _ => rw [hact] at ha; cases ha
    | @plain c u dst w1 _ ent _ hb =>
      have hsa : w1.sact = none := ent.sact.trans hact
      refine ent.still.trans ?_
      have store : ∀ {r : Ref} {sk : Bool} {w2 w3 : World V E} {y}, applyStore S w1.sact p r sk w2 = (y, w3) → w3 = w2 := by
        intro r sk w2 w3 y hap
        rw [hsa] at hap
        cases hap; rfl
      cases hb with
      | raised o _ _ => exact own_quiet o hsa
      | noObject o _ _ hw' => subst hw'; exact (own_quiet o hsa).trans (Still.of_eq rfl rfl rfl rfl)
      | storeFail o _ _ hap => cases store hap; exact own_quiet o hsa
      | shortcut o _ _ hap _ _ => cases store hap; exact own_quiet o hsa
      | leaf o _ _ hap _ _ _ hw' => cases store hap; subst hw'; exact (own_quiet o hsa).trans (tick_still _)
      | kids o _ _ hap _ hk =>
        cases store hap
        have s1 := (own_quiet o hsa).trans (tick_still _)
        exact s1.trans (kidsRun_quiet n ih hk (s1.grows.refs (ent.still.grows.refs hw)) hkids)

/-- A sync whose diff has nothing to do changes nothing. -/
theorem syncFrom_quiet {n rl : Nat} {hooks : Hooks V E} {dst src : Adapter V} {dc : DiffClass V} {flags : Nat} {diff : Option (Diff V)}
    {w w' : World V E} {d : Diff V} {res : Except Err (Diff V)} (h : SyncRun n rl hooks dst src dc flags diff w d res w')
    (hn : d.hasDiffs = false) : Still w w' := by
  have hno : ∀ e, InTree e (getChildren d.cls d.kids) → e.action = none := by
    intro e he
    refine Classical.byContradiction fun ha => ?_
    have hi : InTree e d.kids := by
      cases he with
      | here hm => exact .here (mem_getChildren hm)
      | under hm hu => exact .under (mem_getChildren hm) hu
    have : d.hasDiffs = true := (hasDiffsL_iff d.kids).2 ⟨e, hi, ha⟩
    rw [hn] at this; cases this
  rcases syncFrom_cases n rl hooks dst src dc flags diff w h.ready.ok.refs_lt h.ready.ok.tbl_wf with ⟨x, w1, h1, h2, h3, h4⟩ | ⟨d', w0, evs0, y, w1, h1, h2, h3, h4, h5, h6, hcl, h7, h8⟩
  · rw [h.run] at h1; cases h1; exact h2
  · have hdd := h1.unique h.used
    subst hdd
    have s0 := h2.trans (startSync_still d' w0)
    have hw0 := s0.grows.refs h.ready.ok.refs_lt
    have hk := (orEach_kidsRun (f := fun e => syncElem ⟨src, dst, flags, d'.cls, hooks, rl⟩ n e none) (I := RefsLt)
      (K := fun k w w' res => syncElem ⟨src, dst, flags, d'.cls, hooks, rl⟩ n k none w = (res, w'))
      (fun e w hw => ⟨rfl, (syncElem_grows (S := ⟨src, dst, flags, d'.cls, hooks, rl⟩) n e none w hw).refs hw⟩)
      (getChildren d'.cls d'.kids) false (startSync d' w0) hw0).1
    rw [h7] at hk
    have s1 := s0.trans (kidsRun_quiet (S := ⟨src, dst, flags, d'.cls, hooks, rl⟩) n (syncElem_quiet n) hk hw0 hno)
    rw [h.run] at h8
    cases y with
    | error x => cases h8; exact s1
    | ok ch =>
      cases h8
      refine s1.trans ?_
      unfold World.complete
      split
      · exact Still.of_eq rfl rfl rfl rfl
      · exact .refl _

end DS
