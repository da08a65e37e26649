import Verif.Py.Dict
/-! Lemmas about the dictionary model. -/

namespace DS.Dict
variable {α β : Type}

@[simp] theorem get?_nil (x : String) : get? ([] : Dict α) x = none := rfl
@[simp] theorem keys_nil : keys ([] : Dict α) = [] := rfl
@[simp] theorem keys_cons (p : String × α) (d : Dict α) : keys (p :: d) = p.1 :: keys d := rfl
@[simp] theorem values_nil : values ([] : Dict α) = [] := rfl
@[simp] theorem values_cons (p : String × α) (d : Dict α) : values (p :: d) = p.2 :: values d := rfl

theorem get?_cons (k : String) (v : α) (d : Dict α) (x : String) :
    get? ((k, v) :: d) x = if k = x then some v else get? d x := rfl

theorem get?_set (d : Dict α) (x y : String) (v : α) :
    get? (set d x v) y = if x = y then some v else get? d y := by
  induction d with
  | nil => simp [set, get?]
  | cons p d ih =>
    obtain ⟨k, w⟩ := p
    by_cases h : k = x
    · subst h; by_cases h2 : k = y <;> simp [set, get?, h2]
    · by_cases h2 : k = y
      · subst h2; simp [set, get?, h, Ne.symm h]
      · simp [set, get?, h, h2, ih]

@[simp] theorem get?_set_self (d : Dict α) (x : String) (v : α) : get? (set d x v) x = some v := by
  simp [get?_set]

theorem get?_set_ne (d : Dict α) {x y : String} (h : x ≠ y) (v : α) :
    get? (set d x v) y = get? d y := by simp [get?_set, h]

theorem get?_erase (d : Dict α) (x y : String) :
    get? (erase d x) y = if x = y then none else get? d y := by
  unfold erase
  induction d with
  | nil => simp
  | cons p d ih =>
    obtain ⟨k, w⟩ := p
    by_cases h : k = x
    · subst h
      rw [List.filter_cons_of_neg (by simp), ih]
      by_cases h2 : k = y <;> simp [get?_cons, h2]
    · rw [List.filter_cons_of_pos (by simpa using h)]
      by_cases h2 : k = y
      · subst h2; simp [get?_cons, Ne.symm h]
      · simp [get?_cons, h2, ih]

theorem mem_keys_iff {d : Dict α} {x : String} : x ∈ keys d ↔ ∃ v, get? d x = some v := by
  induction d with
  | nil => simp
  | cons p d ih =>
    obtain ⟨k, w⟩ := p
    by_cases h : k = x
    · simp [get?_cons, h]
    · simp [get?_cons, h, ih, Ne.symm h]

theorem get?_eq_none_iff {d : Dict α} {x : String} : get? d x = none ↔ x ∉ keys d := by
  rw [mem_keys_iff]; cases get? d x <;> simp

theorem has_iff {d : Dict α} {x : String} : has d x = true ↔ x ∈ keys d := by
  rw [mem_keys_iff, has]; cases get? d x <;> simp

theorem mem_of_get? {d : Dict α} {x : String} {v : α} (h : get? d x = some v) : (x, v) ∈ d := by
  induction d with
  | nil => simp at h
  | cons p d ih =>
    obtain ⟨k, w⟩ := p
    rw [get?_cons] at h
    split at h
    · rename_i hk; cases h; subst hk; exact List.mem_cons_self
    · exact List.mem_cons_of_mem _ (ih h)

theorem mem_keys_of_mem {d : Dict α} {x : String} {v : α} (h : (x, v) ∈ d) : x ∈ keys d :=
  List.mem_map.2 ⟨(x, v), h, rfl⟩

theorem get?_of_mem {d : Dict α} (hd : WF d) {x : String} {v : α} (h : (x, v) ∈ d) :
    get? d x = some v := by
  induction d with
  | nil => simp at h
  | cons p d ih =>
    obtain ⟨k, w⟩ := p
    have hd' := List.nodup_cons.1 hd
    rcases List.mem_cons.1 h with h | h
    · cases h; simp [get?_cons]
    · have hk : k ≠ x := fun e => hd'.1 (by rw [e]; exact mem_keys_of_mem h)
      rw [get?_cons, if_neg hk]; exact ih hd'.2 h

theorem mem_iff_get? {d : Dict α} (hd : WF d) {x : String} {v : α} :
    (x, v) ∈ d ↔ get? d x = some v := ⟨get?_of_mem hd, mem_of_get?⟩

theorem keys_set (d : Dict α) (x : String) (v : α) :
    keys (set d x v) = if x ∈ keys d then keys d else keys d ++ [x] := by
  induction d with
  | nil => simp [set]
  | cons p d ih =>
    obtain ⟨k, w⟩ := p
    by_cases h : k = x
    · simp [set, h]
    · simp only [set, h, if_false, keys_cons, ih, List.mem_cons, Ne.symm h, false_or]
      split <;> simp

theorem set_of_not_mem {d : Dict α} {x : String} (h : x ∉ keys d) (v : α) :
    set d x v = d ++ [(x, v)] := by
  induction d with
  | nil => simp [set]
  | cons p d ih =>
    obtain ⟨k, w⟩ := p
    simp only [keys_cons, List.mem_cons, not_or] at h
    simp [set, Ne.symm h.1, ih h.2]

theorem wf_nil : WF ([] : Dict α) := List.nodup_nil

theorem wf_set {d : Dict α} (hd : WF d) (x : String) (v : α) : WF (set d x v) := by
  unfold WF; rw [keys_set]
  split
  · exact hd
  · rename_i h
    rw [List.nodup_append]
    refine ⟨hd, by simp, ?_⟩
    intro a ha b hb
    simp only [List.mem_singleton] at hb
    subst hb; intro e; exact h (e ▸ ha)

theorem keys_erase (d : Dict α) (x : String) : keys (erase d x) = (keys d).filter (fun k => !decide (k = x)) := by
  unfold erase keys
  induction d with
  | nil => rfl
  | cons p d ih =>
    by_cases h : p.1 = x <;> simp [h] <;> simpa using ih

theorem wf_erase {d : Dict α} (hd : WF d) (x : String) : WF (erase d x) := by
  unfold WF; rw [keys_erase]; exact hd.filter _

theorem erase_of_not_mem {d : Dict α} {x : String} (h : x ∉ keys d) : erase d x = d := by
  unfold erase
  rw [List.filter_eq_self]
  intro p hp
  simp only [ne_eq, decide_not, Bool.not_eq_eq_eq_not, Bool.not_true, decide_eq_false_iff_not]
  intro e; exact h (e ▸ List.mem_map.2 ⟨p, hp, rfl⟩)

theorem length_set (d : Dict α) (x : String) (v : α) :
    (set d x v).length = if x ∈ keys d then d.length else d.length + 1 := by
  have := congrArg List.length (keys_set d x v)
  simp only [keys, List.length_map] at this
  rw [this]; simp only [keys]
  by_cases h : x ∈ List.map Prod.fst d <;> simp [h]

theorem length_erase {d : Dict α} (hd : WF d) {x : String} (h : x ∈ keys d) :
    (erase d x).length + 1 = d.length := by
  induction d with
  | nil => simp at h
  | cons p d ih =>
    have hd' := List.nodup_cons.1 hd
    unfold erase at *
    by_cases hk : p.1 = x
    · rw [List.filter_cons_of_neg (by simpa using hk)]
      have : List.filter (fun p => !decide (p.1 = x)) d = d := by
        apply erase_of_not_mem (d := d); rw [← hk]; exact hd'.1
      rw [this]; simp
    · rw [List.filter_cons_of_pos (by simpa using hk)]
      have hx : x ∈ keys d := by
        rcases List.mem_cons.1 h with h | h
        · exact absurd h.symm hk
        · exact h
      have := ih hd'.2 hx
      simp only [List.length_cons]; omega

theorem mem_values_iff {d : Dict α} (hd : WF d) {v : α} :
    v ∈ values d ↔ ∃ x, get? d x = some v := by
  unfold values
  constructor
  · intro h
    obtain ⟨p, hp, rfl⟩ := List.mem_map.1 h
    exact ⟨p.1, get?_of_mem hd (by simpa using hp)⟩
  · rintro ⟨x, hx⟩
    exact List.mem_map.2 ⟨(x, v), mem_of_get? hx, rfl⟩

theorem get?_append (d e : Dict α) (x : String) :
    get? (d ++ e) x = (get? d x).or (get? e x) := by
  induction d with
  | nil => simp
  | cons p d ih =>
    obtain ⟨k, w⟩ := p
    simp only [List.cons_append, get?_cons]
    split
    · rfl
    · exact ih

theorem get?_map_snd (f : α → β) (d : Dict α) (x : String) :
    get? (d.map (fun p => (p.1, f p.2))) x = (get? d x).map f := by
  induction d with
  | nil => rfl
  | cons p d ih =>
    obtain ⟨k, w⟩ := p
    simp only [List.map_cons, get?_cons]
    split
    · rfl
    · exact ih

theorem get?_filter (q : String → Bool) (d : Dict α) (x : String) :
    get? (d.filter (fun p => q p.1)) x = if q x then get? d x else none := by
  induction d with
  | nil => simp
  | cons p d ih =>
    obtain ⟨k, w⟩ := p
    rw [List.filter_cons]
    by_cases hk : q k
    · rw [if_pos hk]
      simp only [get?_cons, ih]
      by_cases h : k = x
      · subst h; simp [hk]
      · simp [h]
    · rw [if_neg hk, ih]
      simp only [get?_cons]
      by_cases h : k = x
      · subst h; simp [hk]
      · simp [h]

theorem keys_filter (q : String → Bool) (d : Dict α) :
    keys (d.filter (fun p => q p.1)) = (keys d).filter q := by
  unfold keys
  induction d with
  | nil => rfl
  | cons p d ih =>
    by_cases h : q p.1 <;> simp [h] <;> exact ih

theorem wf_filter {d : Dict α} (hd : WF d) (q : String → Bool) : WF (d.filter (fun p => q p.1)) := by
  unfold WF; rw [keys_filter]; exact hd.filter _

/-- Two well-formed dictionaries with the same key list and lookups are equal. -/
theorem ext_of_keys {d e : Dict α} (hd : WF d) (hk : keys d = keys e)
    (h : ∀ x, get? d x = get? e x) : d = e := by
  induction d generalizing e with
  | nil => cases e with
    | nil => rfl
    | cons p e => simp at hk
  | cons p d ih =>
    obtain ⟨k, v⟩ := p
    cases e with
    | nil => simp at hk
    | cons q e =>
      obtain ⟨k', v'⟩ := q
      simp only [keys_cons, List.cons.injEq] at hk
      obtain ⟨rfl, hk⟩ := hk
      have h0 := h k
      simp only [get?_cons, if_true, Option.some.injEq] at h0
      subst h0
      have hd' := List.nodup_cons.1 hd
      congr 1
      refine ih hd'.2 hk (fun x => ?_)
      by_cases hx : k = x
      · subst hx
        rw [get?_eq_none_iff.2 hd'.1, get?_eq_none_iff.2 (hk ▸ hd'.1)]
      · have := h x
        simpa [get?_cons, hx] using this

/-! `ofList` -/

theorem foldl_set_wf (l : List (String × α)) (d : Dict α) (hd : WF d) :
    WF (l.foldl (fun d p => set d p.1 p.2) d) := by
  induction l generalizing d with
  | nil => exact hd
  | cons p l ih => exact ih _ (wf_set hd _ _)

theorem wf_ofList (l : List (String × α)) : WF (ofList l) := foldl_set_wf l [] wf_nil

theorem foldl_set_keys (l : List (String × α)) (d : Dict α) (x : String) :
    x ∈ keys (l.foldl (fun d p => set d p.1 p.2) d) ↔ x ∈ keys d ∨ x ∈ l.map Prod.fst := by
  induction l generalizing d with
  | nil => simp
  | cons p l ih =>
    simp only [List.foldl_cons, ih, keys_set, List.map_cons, List.mem_cons]
    by_cases h : p.1 ∈ keys d
    · rw [if_pos h]
      constructor
      · rintro (h1 | h1)
        · exact .inl h1
        · exact .inr (.inr h1)
      · rintro (h1 | rfl | h1)
        · exact .inl h1
        · exact .inl h
        · exact .inr h1
    · rw [if_neg h]; simp only [List.mem_append, List.mem_singleton]; grind

theorem mem_keys_ofList {l : List (String × α)} {x : String} :
    x ∈ keys (ofList l) ↔ x ∈ l.map Prod.fst := by
  unfold ofList; rw [foldl_set_keys]; simp

theorem foldl_set_nodup (l : List (String × α)) (d : Dict α)
    (h : (keys d ++ l.map Prod.fst).Nodup) : l.foldl (fun d p => set d p.1 p.2) d = d ++ l := by
  induction l generalizing d with
  | nil => simp
  | cons p l ih =>
    simp only [List.foldl_cons]
    have hp : p.1 ∉ keys d := by
      intro hm
      rw [List.nodup_append] at h
      exact h.2.2 _ hm _ (by simp) rfl
    rw [set_of_not_mem hp, ih]
    · simp
    · simpa [keys] using h

theorem ofList_of_nodup {l : List (String × α)} (h : (l.map Prod.fst).Nodup) : ofList l = l := by
  unfold ofList; rw [foldl_set_nodup]; rfl
  simpa using h

end DS.Dict
