import Verif.Lemmas.LedgerRun
import Verif.Props.Differ
/-! # C18, last clause: `current` stays within `total` -/
set_option linter.unusedSectionVars false

namespace DS
variable {V E : Type} [PyVal V]

theorem flatMap_if {α β : Type} (p : α → Bool) (f : α → List β) (l : List α) :
    l.flatMap (fun a => if p a then f a else []) = (l.filter p).flatMap f := by
  induction l with
  | nil => rfl
  | cons a l ih =>
    rw [List.flatMap_cons, ih]
    by_cases h : p a = true
    · rw [List.filter_cons_of_pos h, List.flatMap_cons, if_pos h]
    · rw [List.filter_cons_of_neg h, if_neg h, List.nil_append]

/-- What a diff has counted when it ends, returning or raising. -/
theorem diffFrom_bound (n : Nat) {src dst : Adapter V} (dc : DiffClass V) (flags : Nat) {w : World V E} (h : Comparable src dst w)
    (hps : ∀ sid, src.ref.store = .redis sid → Plain sid) (hpd : ∀ sid, dst.ref.store = .redis sid → Plain sid)
    (hs : ListedOnce src (snap src w)) (hd : ListedOnce dst (snap dst w)) :
    (diffFrom n dst src dc flags w).2.dproc ≤ countStore src.ref.store w + countStore dst.ref.store w := by
  have hAt : AtS ⟨src, dst, flags⟩ (snap src w) (snap dst w) (startDiff dst src w) := ⟨h.ok.refs_lt, h.ok.tbl_wf, rfl, rfl⟩
  have hb := Bd.bind (Bd.forEach (symmetricDifference dst.topLevel src.topLevel) (fun t _ => skipped_bd (E := E) (C := ⟨src, dst, flags⟩)
    (S := snap src w) (D := snap dst w) h.src_types h.dst_types t)) (fun _ _ => types_bd (E := E) h.src_ok h.dst_ok h.fields hs.nodup hd.nodup h.src_types h.dst_types n
      (intersection dst.topLevel src.topLevel) (fun t ht => ⟨h.src_types.top t (mem_intersection.1 ht).2, h.dst_types.top t (mem_intersection.1 ht).1⟩) [])
  have hdef : diffFrom n dst src dc flags w =
      ((M.forEach (countSkippedType ⟨src, dst, flags⟩) (symmetricDifference dst.topLevel src.topLevel) >>= fun _ =>
        (diffTypes ⟨src, dst, flags⟩ n (intersection dst.topLevel src.topLevel) [] : M V E _)) >>= fun kids => do
        let w ← M.read
        pure { cls := dc, kids := kids, processed := w.dproc }) (startDiff dst src w) := by
    unfold diffFrom
    rw [M.bind_assoc']
    rfl
  obtain ⟨_, _, ls, ld, l1, l2, l3⟩ := hb _ hAt
  have hle : (diffFrom n dst src dc flags w).2.dproc ≤ ls.length + ld.length := by
    rw [hdef]
    have h0 : (startDiff dst src w).dproc = 0 := rfl
    rw [h0, Nat.zero_add] at l3
    cases hm : (M.forEach (countSkippedType ⟨src, dst, flags⟩) (symmetricDifference dst.topLevel src.topLevel) >>= fun _ =>
        (diffTypes ⟨src, dst, flags⟩ n (intersection dst.topLevel src.topLevel) [] : M V E _)) (startDiff dst src w) with
    | mk r w1 =>
      rw [hm] at l3
      cases r with
      | error e => rw [M.bind_err hm]; exact l3
      | ok a => rw [M.bind_ok hm]; exact l3
  refine Nat.le_trans hle (Nat.add_le_add ?_ ?_)
  · have e : (symmetricDifference dst.topLevel src.topLevel).flatMap (fun t =>
        if dst.topLevel.contains t then [] else if src.topLevel.contains t then allKeys (snap src w) t else []) ++
        (intersection dst.topLevel src.topLevel).flatMap (allKeys (snap src w)) =
        ((symmetricDifference dst.topLevel src.topLevel).filter (fun t => !dst.topLevel.contains t && src.topLevel.contains t) ++
          intersection dst.topLevel src.topLevel).flatMap (allKeys (snap src w)) := by
      rw [List.flatMap_append, ← flatMap_if]
      congr 2
      funext t
      cases dst.topLevel.contains t <;> simp
    rw [e] at l1
    have hmem : ∀ x ∈ ((symmetricDifference dst.topLevel src.topLevel).filter (fun t => !dst.topLevel.contains t && src.topLevel.contains t) ++
          intersection dst.topLevel src.topLevel).flatMap (allKeys (snap src w)), x.1 ∈ src.topLevel ∧ (snap src w).find x.1 x.2 ≠ none := by
      intro x hx
      obtain ⟨t, ht, hx⟩ := List.mem_flatMap.1 hx
      obtain ⟨e1, e2⟩ := mem_allKeys h.src_ok hx
      refine ⟨?_, e2⟩
      rw [e1]
      rcases List.mem_append.1 ht with ht | ht
      · have := (List.mem_filter.1 ht).2
        simp at this; exact this.2
      · have := (List.mem_filter.1 ht).2
        simpa using this
    refine stored_le_count hps h.src_ok (l1.nodup hs (allKeys_nodup h.src_ok _ ?_) (fun x hx => (hmem x hx).1)) (l1.stored hs (fun x hx => (hmem x hx).2))
    rw [List.nodup_append]
    refine ⟨List.filter_sublist.nodup (symmDiff_nodup _ _), List.filter_sublist.nodup h.top_nodup, ?_⟩
    rintro a ha b hb rfl
    have h1 := (List.mem_filter.1 ha).2
    have h2 := (List.mem_filter.1 hb).1
    simp [h2] at h1
  · have e : (symmetricDifference dst.topLevel src.topLevel).flatMap (fun t =>
        if dst.topLevel.contains t then allKeys (snap dst w) t else []) ++
        (intersection dst.topLevel src.topLevel).flatMap (allKeys (snap dst w)) =
        ((symmetricDifference dst.topLevel src.topLevel).filter (fun t => dst.topLevel.contains t) ++
          intersection dst.topLevel src.topLevel).flatMap (allKeys (snap dst w)) := by
      rw [List.flatMap_append, ← flatMap_if]
    rw [e] at l2
    have hmem : ∀ x ∈ ((symmetricDifference dst.topLevel src.topLevel).filter (fun t => dst.topLevel.contains t) ++
          intersection dst.topLevel src.topLevel).flatMap (allKeys (snap dst w)), x.1 ∈ dst.topLevel ∧ (snap dst w).find x.1 x.2 ≠ none := by
      intro x hx
      obtain ⟨t, ht, hx⟩ := List.mem_flatMap.1 hx
      obtain ⟨e1, e2⟩ := mem_allKeys h.dst_ok hx
      refine ⟨?_, e2⟩
      rw [e1]
      rcases List.mem_append.1 ht with ht | ht
      · have := (List.mem_filter.1 ht).2
        simpa using this
      · exact (List.mem_filter.1 ht).1
    refine stored_le_count hpd h.dst_ok (l2.nodup hd (allKeys_nodup h.dst_ok _ ?_) (fun x hx => (hmem x hx).1)) (l2.stored hd (fun x hx => (hmem x hx).2))
    rw [List.nodup_append]
    refine ⟨List.filter_sublist.nodup (symmDiff_nodup _ _), List.filter_sublist.nodup h.top_nodup, ?_⟩
    rintro a ha b hb rfl
    have h1 := mem_symmDiff.1 (List.mem_filter.1 ha).1
    obtain ⟨h2, h3⟩ := List.mem_filter.1 hb
    simp at h3
    rcases h1 with h1 | h1
    · exact h1.2 h3
    · exact h1.2 h2

theorem le_getLast_of_sorted {a : Nat} {cs : List Nat} (h : (a :: cs).Pairwise (· < ·)) : ∀ c ∈ cs, c ≤ (a :: cs).getLast (by simp) := by
  induction cs generalizing a with
  | nil => intro c hc; cases hc
  | cons b cs ih =>
    intro c hc
    rw [List.getLast_cons (by simp)]
    have h' := (List.pairwise_cons.1 h).2
    rcases List.mem_cons.1 hc with rfl | hc
    · cases cs with
      | nil => simp
      | cons d cs =>
        have := (List.pairwise_cons.1 h').1 d (by simp)
        exact Nat.le_trans (Nat.le_of_lt this) (ih (a := c) h' d (by simp))
    · exact ih h' c hc

/-- **C18**, last clause.  When every object of both adapters is listed exactly once, `current` never exceeds `total`, whether the diff
returns or raises.  (The id of a Redis store is a plain name: other ids are read as patterns.) -/
theorem C18_current_within_total (n : Nat) {src dst : Adapter V} (dc : DiffClass V) (flags : Nat) {w : World V E} (h : Comparable src dst w)
    (hps : ∀ sid, src.ref.store = .redis sid → Plain sid) (hpd : ∀ sid, dst.ref.store = .redis sid → Plain sid)
    (hs : ListedOnce src (snap src w)) (hd : ListedOnce dst (snap dst w)) :
    ∃ evs, (diffFrom n dst src dc flags w).2.trace = w.trace ++ evs ∧
      ∀ ev ∈ evs, ∃ current total, ev = Event.diffProgress current total ∧ total = countStore src.ref.store w + countStore dst.ref.store w ∧
        current ≤ total := by
  have hb := diffFrom_bound n dc flags h hps hpd hs hd
  obtain ⟨h1, _⟩ := diffFrom_drel n dst src dc flags w h.ok.refs_lt h.ok.tbl_wf
  obtain ⟨evs, he, hc⟩ := h1.trace
  obtain ⟨cs, rfl, c1, c2⟩ := chain_list hc
  refine ⟨_, he, ?_⟩
  intro ev hev
  obtain ⟨c, hcm, rfl⟩ := List.mem_map.1 hev
  refine ⟨c, _, rfl, rfl, Nat.le_trans (le_getLast_of_sorted c1 c hcm) ?_⟩
  rw [c2]
  exact hb

end DS
