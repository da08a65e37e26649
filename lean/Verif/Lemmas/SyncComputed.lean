import Verif.Lemmas.SyncTop
import Verif.Lemmas.Compared
import Verif.Props.Diff
/-! Diffs that `diff_from` computes are fit to be applied. -/
set_option linter.unusedSectionVars false

namespace DS
variable {V E : Type} [PyVal V]

theorem action_delete_iff (e : Elem V) : e.action = some .delete ↔ e.src = none ∧ e.dst ≠ none := by
  unfold Elem.action
  cases e.src <;> cases e.dst <;> simp

theorem action_create_iff (e : Elem V) : e.action = some .create ↔ e.src ≠ none ∧ e.dst = none := by
  unfold Elem.action
  cases e.src <;> cases e.dst <;> simp

theorem action_update_sides {e : Elem V} (h : e.action = some .update) : e.src ≠ none ∧ e.dst ≠ none := by
  revert h
  unfold Elem.action
  cases e.src <;> cases e.dst <;> simp

/-- The values set by an update are values of attributes the destination object has. -/
theorem plus_keys {e : Elem V} {d : Dict V} (hs : e.src ≠ none) (hd : e.dst = some d) : ∀ k ∈ Dict.keys (e.plus.getD []), k ∈ Dict.keys d := by
  intro k hk
  cases h : e.src with
  | none => exact absurd h hs
  | some s =>
    have hp : e.plus = some (Elem.pick s (e.attrsKeys.filter (Elem.differs s d))) := by unfold Elem.plus; rw [h, hd]
    rw [hp, Option.getD_some] at hk
    obtain ⟨v, hv⟩ := Dict.mem_keys_iff.1 hk
    rw [get?_pick] at hv
    split at hv
    · rename_i hm
      have h1 := (List.mem_filter.1 hm).1
      unfold Elem.attrsKeys at h1
      rw [h, hd] at h1
      exact (mem_intersection.1 h1).1
    · cases hv

section
variable {src dst : Adapter V} {flags : Nat} {S D : Snap V}

/-- Below a place that only the destination has there are only such places. -/
theorem DescribesG.delClosed {e : Elem V} {p : Pos V} (h : DescribesG src dst flags S D e p) (hp : p.src = none) :
    ∀ x, InTree x e.kids → x.action = some .delete := by
  induction h with
  | @mk e p ps hg hh hdp hi hval hun hl hz ih =>
    intro x hx
    have step : ∀ y ∈ e.kids, ∃ q, DescribesG src dst flags S D y q ∧ q.src = none ∧ y.action = some .delete ∧ (y, q) ∈ e.kids.zip ps := by
      intro y hy
      obtain ⟨q, hq, hyq⟩ := zip_mem_left hl hy
      have hc := ((hi q).1 hq).1
      have hq1 : q.src = none := by rw [hc.src_eq, hp]; rfl
      refine ⟨q, hz _ hyq, hq1, ?_, hyq⟩
      have hgy := hz _ hyq
      rw [action_delete_iff, hgy.header.src_eq, hgy.header.dst_eq, hq1]
      cases hgy with
      | mk _ hg' _ _ _ _ _ _ _ =>
        rcases hg'.some_side with h | h
        · exact absurd hq1 h
        · exact ⟨rfl, by simpa using h⟩
    cases hx with
    | here hx => exact (step x hx).choose_spec.2.2.1
    | under hk hx =>
      obtain ⟨q, h1, h2, h3, h4⟩ := step _ hk
      exact ih _ h4 h2 x hx
end

/-- Computed diffs are fit to be applied. -/
theorem computed_good {n : Nat} {src dst : Adapter V} {dc : DiffClass V} {flags : Nat} {w w' : World V E} {d : Diff V}
    (h : Comparable src dst w) (hr : DstReady dst w) (hk : KeepsIdsOf dst (snap src w)) (hd : diffFrom n dst src dc flags w = (.ok d, w')) : GoodDiff dst d.kids := by
  obtain ⟨hdes, _⟩ := diffFrom_describes h.ok h.src_ok h.dst_ok h.fields h.src_types h.dst_types h.top_nodup hd
  refine ⟨?_, ?_, ?_⟩
  · intro e he ha c hc k hk
    obtain ⟨q, _, _, hq⟩ := hdes.inTree he
    obtain ⟨h1, h2⟩ := action_update_sides ha
    have hst : Stored (snap src w) (snap dst w) q := by
      cases hq with
      | mk _ hg _ _ _ _ _ _ _ => exact hg.stored
    rw [hq.header.dst_eq] at h2
    cases hm : q.dst with
    | none => rw [hm] at h2; exact absurd rfl h2
    | some m =>
      have hk' := plus_keys h1 (by rw [hq.header.dst_eq, hm]; rfl) k hk
      obtain ⟨v, hv⟩ := Dict.mem_keys_iff.1 hk'
      rw [Model.get?_attrs] at hv
      split at hv
      · rename_i hka
        have hf := hst.dst m hm
        have hcls := hr.inst _ _ _ c hf (by rw [← hq.header.type_eq]; exact hc)
        rw [hcls] at hka
        exact hka
      · cases hv
  · intro e he ha e' he'
    obtain ⟨q, _, _, hq⟩ := hdes.inTree he
    rw [action_delete_iff, hq.header.src_eq] at ha
    exact hq.delClosed (by simpa using ha.1) e' he'
  · intro e he ha c hc
    obtain ⟨q, _, _, hq⟩ := hdes.inTree he
    rw [action_create_iff, hq.header.src_eq, hq.header.dst_eq] at ha
    have hst : Stored (snap src w) (snap dst w) q := by
      cases hq with
      | mk _ hg _ _ _ _ _ _ _ => exact hg.stored
    cases hm : q.src with
    | none => rw [hm] at ha; exact absurd rfl ha.1
    | some m =>
      rw [(hq.header.name_eq m (by rw [hm]; rfl)).2]
      exact hk _ _ m c (hst.src m hm) (by rw [← hq.header.type_eq]; exact hc)

end DS
