import Verif.Props.Store
import Verif.Lemmas.RemoveReport
/-! # What a removal with children reports (C101) -/
set_option linter.unusedSectionVars false

namespace DS
variable {V E : Type} [PyVal V]

theorem newEvents_append {w w' : World V E} {evs : List (Event V)} (h : w'.trace = w.trace ++ evs) : newEvents w w' = evs := by
  unfold newEvents; rw [h]; simp

/-- **C101** `remove(obj, remove_children=True)` of an object in a local store: of the listings of the objects it removes, each led to the removal of one
object or is reported, and nothing else is reported. -/
theorem C101_removal_report_local (A : Adapter V) {sid : Nat} (hA : A.ref.store = .local sid) (w : World V E) (hw : w.OK)
    {t u : String} {r : Ref} (hr : findRef w sid t u = some r) (n : Nat) (hn : countStore A.ref.store w ≤ n) :
    ∃ w' gone, remove A n r true w = (.ok (), w') ∧ RemovalReport (snap A w).find (snap A w').find (t, u) (newEvents w w') gone := by
  obtain ⟨hk1, hk2⟩ := hw.key_ok _ _ _ _ hr
  have hsn : ∀ (w' : World V E) t u, (snap A w').find t u = (findRef w' sid t u).map (fun r => (w'.heap r).m) := by
    intro w' t u; simp only [snap, hA]
  rw [hA] at hn
  obtain ⟨w', gl, wa, vi, e, p, q, v⟩ := remove_report (delSpec_local hA w) n r w (.refl hw) hn (hw.refs_lt _ _ _ _ hr) trivial
    (by simp only [Model.key, hk1, hk2, hr, Option.map_some])
  refine ⟨w', (w.heap r).m :: gl, e, p.nodup, ?_, ?_, wa, vi, newEvents_append p.trace, q, ?_, ?_⟩
  · intro m hm; rw [hsn]; exact p.was m hm
  · intro t' u'; rw [hsn, hsn]; exact p.now (t', u')
  · rw [List.map_cons, show (w.heap r).m.key = (t, u) by unfold Model.key; rw [hk1, hk2]]; exact v.cons _
  · intro l hl; rw [hsn]; exact p.absent l hl

open Classical in
/-- **C101** The same on a Redis store, for model names that Redis keys can hold. -/
theorem C101_removal_report_redis (A : Adapter V) {sid : String} (hA : A.ref.store = .redis sid) (w : World V E) (hw : RedisStoreOK sid w)
    {r : Ref} (hr : r < w.next) (ht : Plain (w.heap r).m.type)
    (hs : (snap A w).find (w.heap r).m.type (w.heap r).m.uid = some (w.heap r).m) (n : Nat) (hn : countStore A.ref.store w ≤ n) :
    ∃ w' gone, remove A n r true w = (.ok (), w') ∧
      RemovalReport (fun t u => if Plain t then (snap A w).find t u else none) (fun t u => if Plain t then (snap A w').find t u else none)
        (w.heap r).m.key (newEvents w w') gone := by
  rw [hA] at hn
  have hsn : ∀ (w' : World V E) t u, redisAt sid w' (t, u) = if Plain t then (snap A w').find t u else none := by
    intro w' t u
    by_cases h : Plain t
    · simp only [redisAt, if_pos h, snap, hA]
    · simp only [redisAt, if_neg h]
  obtain ⟨w', gl, wa, vi, e, p, q, v⟩ := remove_report (delSpec_redis hA w) n r w (.refl hw) hn hr ht
    (by unfold Model.key; rw [hsn, if_pos ht]; exact hs)
  refine ⟨w', (w.heap r).m :: gl, e, p.nodup, ?_, ?_, wa, vi, newEvents_append p.trace, q, ?_, ?_⟩
  · intro m hm; dsimp only; rw [← hsn]; exact p.was m hm
  · intro t' u'; dsimp only; rw [← hsn, ← hsn]; exact p.now (t', u')
  · rw [List.map_cons]; exact v.cons _
  · intro l hl; dsimp only; rw [← hsn]; exact p.absent l hl

section
variable {D D' : String → String → Option (Model V)} {root : Key} {evs : List (Event V)} {gone : List (Model V)}

/-- The child that a warning names. -/
def Event.missingChild? : Event V → Option Key
  | .childNotFound t u _ _ => some (t, u)
  | _ => none

theorem missing_map (l : List (Key × Key)) : ((l.map listingWarning : List (Event V)).filterMap Event.missingChild?) = l.map Prod.fst := by
  induction l with
  | nil => rfl
  | cons a l ih => simp [listingWarning, Event.missingChild?, ih]

/-- **C101** How many warnings there are about a child: as many as there are listings of it by the objects that are gone, less the one through which it was
removed if it was. -/
theorem C101_how_many (h : RemovalReport D D' root evs gone) (c : Key) :
    (evs.filterMap Event.missingChild?).count c + (if c ∈ gone.map Model.key ∧ c ≠ root then 1 else 0) =
      ((gone.flatMap Model.listings).map Prod.fst).count c := by
  obtain ⟨hnd, _, _, wa, vi, rfl, hp, hv, _⟩ := h
  rw [missing_map]
  have h1 := (List.perm_iff_count.1 (hp.map Prod.fst)) c
  have h2 := (List.perm_iff_count.1 hv) c
  rw [List.map_append, List.count_append] at h1
  rw [List.count_cons] at h2
  have h3 : (gone.map Model.key).count c = if c ∈ gone.map Model.key then 1 else 0 := hnd.count
  have hroot : root ∈ gone.map Model.key := hv.mem_iff.1 (by simp)
  rw [h3] at h2
  by_cases hcr : c = root
  · subst hcr
    simp only [hroot, beq_self_eq_true, if_true] at h2
    simp
    omega
  · have : (root == c) = false := by rw [beq_eq_false_iff_ne]; exact fun h => hcr h.symm
    simp only [this] at h2
    by_cases hc : c ∈ gone.map Model.key
    · rw [if_pos ⟨hc, hcr⟩]; rw [if_pos hc] at h2; simp at h2; omega
    · rw [if_neg (fun h => hc h.1)]; rw [if_neg hc] at h2; simp at h2; omega

/-- **C101** In all, the warnings and the objects that are gone are one more than the listings. -/
theorem C101_in_all (h : RemovalReport D D' root evs gone) : evs.length + gone.length = (gone.flatMap Model.listings).length + 1 := by
  obtain ⟨_, _, _, wa, vi, rfl, hp, hv, _⟩ := h
  have h1 := hp.length_eq
  have h2 := hv.length_eq
  simp only [List.length_append, List.length_cons, List.length_map] at h1 h2 ⊢
  omega

/-- **C101** Why there is a warning: an object that is gone lists the child, and the child was not there to begin with, or it is the object that was to be
removed, or it is listed more than once. -/
theorem C101_why (h : RemovalReport D D' root evs gone) {ev : Event V} (hev : ev ∈ evs) :
    ∃ t u p, ev = .childNotFound t u p.1 p.2 ∧ p ∈ gone.map Model.key ∧ ((t, u), p) ∈ gone.flatMap Model.listings ∧ D' t u = none ∧
      (D t u = none ∨ (t, u) = root ∨ 2 ≤ ((gone.flatMap Model.listings).map Prod.fst).count (t, u)) := by
  have hm := C101_how_many h
  obtain ⟨_, _, hnow, wa, vi, rfl, hp, _, hab⟩ := h
  obtain ⟨⟨⟨t, u⟩, p⟩, hl, rfl⟩ := List.mem_map.1 hev
  have hmem := hp.mem_iff.1 (List.mem_append_left vi hl)
  refine ⟨t, u, p, rfl, ?_, hmem, hab _ hl, ?_⟩
  · obtain ⟨m, hm1, hm2⟩ := List.mem_flatMap.1 hmem
    rw [listings_eq] at hm2
    obtain ⟨c, _, hc⟩ := List.mem_map.1 hm2
    cases hc
    exact List.mem_map_of_mem hm1
  · by_cases hD : D t u = none
    · exact .inl hD
    · by_cases hr : (t, u) = root
      · exact .inr (.inl hr)
      · right; right
        have hg : (t, u) ∈ gone.map Model.key := by
          by_cases hg : (t, u) ∈ gone.map Model.key
          · exact hg
          · have := hnow t u
            rw [if_neg hg, hab _ hl] at this
            exact absurd this.symm hD
        have h1 := hm (t, u)
        rw [missing_map, if_pos ⟨hg, hr⟩] at h1
        have h2 : 0 < (wa.map Prod.fst).count (t, u) := List.count_pos_iff.2 (List.mem_map.2 ⟨_, hl, rfl⟩)
        omega
end
end DS
