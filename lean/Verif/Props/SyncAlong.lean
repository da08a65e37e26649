import Verif.Props.Missing
import Verif.Props.Removal
/-! # When a sync reports children that are not found (C101) -/
set_option linter.unusedSectionVars false

namespace DS
variable {V E : Type} [PyVal V]

/-- Every warning about a child comes after the call that deletes an object whose children go along. -/
def WarnOwned (T : TrCtx V) (l : List (Elem V)) (evs : List (Event V)) : Prop :=
  ∀ L ct cu pt pu R, evs = L ++ .childNotFound ct cu pt pu :: R →
    ∃ e o, InTree e l ∧ T.F e o ∧ Shortcut e o ∧ ∃ c out, Prescribes T.A e c ∧ .call c out ∈ L ∧ out.result = .object

theorem BodyTr.warnOwned {T : TrCtx V} {e : Elem V} {o : Option Nat} {ctx : LogCtx} {evs : List (Event V)} {r : Except Err Bool} (h : BodyTr T e o ctx evs r)
    (hF : T.F e o) : WarnOwned T [e] evs := by
  have noW : ∀ {evs r ct cu pt pu}, OwnTr T e o ctx evs r → Event.childNotFound ct cu pt pu ∉ evs := by
    intro evs r ct cu pt pu ho hm
    rcases ho.inv with ⟨ha, h3, rfl⟩ | ⟨a, ha, ⟨h3, rfl, h4⟩ | ⟨h3, call, out, h4, h5, h6⟩⟩
    · split at hm <;> simp at hm
    · simp at hm
    · rcases h6 with ⟨x, _, _, rfl, _⟩ | ⟨x, _, _, rfl, _⟩ | ⟨_, rfl, _⟩ | ⟨st, _, rfl, _⟩ <;> simp at hm
  have store : ∀ {evs ws}, OwnTr T e o ctx evs (.ok true) → StoreWarn e o ws → WarnOwned T [e] (evs ++ ws) := by
    intro evs ws ho hw L ct cu pt pu R hs
    rcases split_append hs with ⟨A', rfl, hs'⟩ | ⟨B', _, hs'⟩
    · have hsc : Shortcut e o := hw.2 (by rw [hs']; simp)
      refine ⟨e, o, inTree_self e, hF, hsc, ?_⟩
      rcases ho.inv with ⟨ha, _⟩ | ⟨a, ha, ⟨_, _, h4⟩ | ⟨h3, call, out, h4, h5, h6⟩⟩
      · rw [hsc.1] at ha; cases ha
      · exfalso; unfold failRes at h4; split at h4 <;> cases h4
      · rcases h6 with ⟨x, _, _, _, h7⟩ | ⟨x, _, _, _, h7⟩ | ⟨_, _, h7⟩ | ⟨st, hx, rfl, _⟩
        · exfalso; unfold failRes at h7; split at h7 <;> cases h7
        · cases h7
        · cases h7
        · exact ⟨call, out, h4, by simp, hx⟩
    · exact absurd (by rw [hs']; simp) (noW (ct := ct) (cu := cu) (pt := pt) (pu := pu) ho)
  cases h with
  | raised ho => exact fun L ct cu pt pu R hs => absurd (by rw [hs]; simp) (noW (ct := ct) (cu := cu) (pt := pt) (pu := pu) ho)
  | @noObject evs ho =>
    intro L ct cu pt pu R hs
    have : Event.childNotFound ct cu pt pu ∈ evs ++ [Event.noObject ctx] := by rw [hs]; simp
    rcases List.mem_append.1 this with h | h
    · exact absurd h (noW ho)
    · simp at h
  | storeFail ho hw _ => exact store ho hw
  | obj ho hw => exact store ho hw

theorem Tr.warnOwned {T : TrCtx V} {l : List (Elem V)} {p p' : Nat} {evs : List (Event V)} {res : Except Err Bool} (h : Tr T l p evs p' res) :
    WarnOwned T l evs := by
  have sub : ∀ {e x : Elem V}, InTree x (getChildren T.dc e.kids) → InTree x [e] :=
    fun h => .under List.mem_cons_self (h.mono (fun _ hk => mem_of_getChildren hk))
  have mono : ∀ {l l' : List (Elem V)} {evs}, (∀ x, InTree x l → InTree x l') → WarnOwned T l evs → WarnOwned T l' evs := by
    intro l l' evs hs h L ct cu pt pu R he
    obtain ⟨e, o, h1, h2⟩ := h L ct cu pt pu R he
    exact ⟨e, o, hs e h1, h2⟩
  have app : ∀ {l : List (Elem V)} {evs evs'}, WarnOwned T l evs → WarnOwned T l evs' → WarnOwned T l (evs ++ evs') := by
    intro l evs evs' h h' L ct cu pt pu R he
    rcases split_append he with ⟨A', rfl, hs⟩ | ⟨B', _, hs⟩
    · obtain ⟨e, o, h1, h2, h3, c, out, h4, h5, h6⟩ := h' _ _ _ _ _ _ hs
      exact ⟨e, o, h1, h2, h3, c, out, h4, List.mem_append_right _ h5, h6⟩
    · exact h _ _ _ _ _ _ hs
  have prog : ∀ {l : List (Elem V)} {p}, WarnOwned T l [.syncProgress p T.total] := by
    intro l p L ct cu pt pu R he
    rcases split_single he with ⟨_, h, _⟩ | ⟨_, _, h⟩
    · cases h
    · exact (not_split_nil h).elim
  have nil : ∀ {l : List (Elem V)}, WarnOwned T l [] := fun L ct cu pt pu R h => (not_split_nil h).elim
  refine Tr.ind (motive := fun l _ evs _ _ => WarnOwned T l evs) ?_ ?_ ?_ ?_ ?_ ?_ ?_ ?_ h
  · exact fun _ => nil
  · exact fun _ h => mono (fun a h => h.mono (by simp)) h
  · exact fun _ _ h h' => app (mono (fun a h => h.mono (by simp)) h) (mono (fun a h => h.mono (fun _ h => List.mem_cons_of_mem _ h)) h')
  · exact fun _ => nil
  · exact fun _ _ _ h => mono (fun _ h => sub h) h
  · rintro e o ctx p evs p' b evs' rb hF hn _ ⟨_, hb⟩ h1
    have h1' := hb.warnOwned hF
    refine app (mono (fun _ h => sub h) h1) ?_
    cases rb with
    | error x => simpa [progIf] using h1'
    | ok bb =>
      cases bb with
      | false => simpa [progIf] using h1'
      | true => simpa [progIf] using app h1' prog
  · exact fun hF _ _ _ hb => hb.warnOwned hF
  · rintro e o ctx p evs evs' p' r hF _ _ hr hb _ h1'
    have a1 := app (hb.warnOwned hF) (app (prog (p := p + 1)) (mono (fun _ h => sub h) h1'))
    simpa using a1

section
variable {n rl : Nat} {hooks : Hooks V E} {dst src : Adapter V} {dc : DiffClass V} {flags : Nat} {diff : Option (Diff V)}
  {w w' : World V E} {d : Diff V} {res : Except Err (Diff V)}

/-- **C101** A sync warns that a child was not found only after it made a delete call, which succeeded, for an object that was flagged
SKIP_CHILDREN_ON_DELETE in the destination when the sync began. -/
theorem C101_in_a_sync (h : SyncRun n rl hooks dst src dc flags diff w d res w') (ht : Tidy dst d) {L R : List (Event V)} {ct cu pt pu : String}
    (hs : newEvents w w' = L ++ .childNotFound ct cu pt pu :: R) :
    ∃ e t u out, InTree e d.kids ∧ e.action = some .delete ∧ ElemKey dst e (t, u) ∧ Flagged (snap dst w).flagsAt (t, u) MF.SKIP_CHILDREN_ON_DELETE ∧
      .call (.delete t u) out ∈ L ∧ out.result = .object := by
  rcases h.cases with ⟨_, rfl, _⟩ | ⟨evs0, evs, p, y, hran⟩
  · rw [show newEvents w' w' = [] by simp [newEvents]] at hs; exact (not_split_nil hs).elim
  · rw [hran.new] at hs
    rcases split_append hs with ⟨L1, hL1, hs1⟩ | ⟨B', _, hs1⟩
    · rcases split_append hs1 with ⟨L2, _, hs2⟩ | ⟨B', _, hs2⟩
      · split at hs2
        · rcases split_single hs2 with ⟨_, h, _⟩ | ⟨_, _, h⟩
          · cases h
          · exact (not_split_nil h).elim
        · exact (not_split_nil hs2).elim
      · obtain ⟨e, o, h1, h2, h3, c, out, h4, h5, h6⟩ := hran.tr.warnOwned _ _ _ _ _ _ hs2
        obtain ⟨u, hk, hc⟩ := h4
        rw [h3.1] at hc
        subst hc
        refine ⟨e, e.type, u, out, hran.inTree h1, h3.1, hk, ?_, by rw [hL1]; exact List.mem_append_right _ h5, h6⟩
        cases o with
        | none => cases h3.2
        | some fl => exact ⟨fl, ((h2.2 _ hk).2 ht).1 fl rfl, h3.2⟩
    · obtain ⟨a, b, h⟩ := hran.only (.childNotFound ct cu pt pu) (by rw [hs1]; simp)
      cases h
end
end DS
