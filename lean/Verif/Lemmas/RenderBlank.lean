import Verif.Lemmas.Render
/-! What is equal on both sides does not show in the text of a diff. -/

namespace DS
set_option linter.unusedSectionVars false
variable {V : Type} [PyVal V]

theorem filterMap_congr_mem {α β : Type} {f g : α → Option β} {l : List α} (h : ∀ a ∈ l, f a = g a) :
    l.filterMap f = l.filterMap g := by
  induction l with
  | nil => rfl
  | cons a l ih => rw [List.filterMap_cons, List.filterMap_cons, h a (by simp), ih (fun b hb => h b (by simp [hb]))]

theorem onlyDiffering_eq (s d x : Dict V) :
    onlyDiffering s d x = Elem.pick x ((intersection (Dict.keys d) (Dict.keys s)).filter (Elem.differs s d)) := by
  unfold onlyDiffering Elem.pick intersection
  generalize Dict.keys d = ks
  induction ks with
  | nil => rfl
  | cons k ks ih =>
    rw [List.filterMap_cons, ih]
    by_cases hd : Elem.differs s d k = true
    · have hs : (Dict.keys s).contains k = true := by
        unfold Elem.differs at hd
        cases h : Dict.get? s k with
        | none => simp [h] at hd
        | some v => simpa using Dict.mem_keys_iff.2 ⟨v, h⟩
      rw [List.filter_cons_of_pos hs, List.filter_cons_of_pos hd, List.filterMap_cons]
      unfold Elem.differs at hd
      cases h : Dict.get? s k with
      | none => simp [h] at hd
      | some v =>
        cases h' : Dict.get? d k with
        | none => simp [h, h'] at hd
        | some w => simp [h, h'] at hd; simp [hd]
    · have hskip : ((k :: ks).filter (fun v => (Dict.keys s).contains v)).filter (Elem.differs s d) =
          (ks.filter (fun v => (Dict.keys s).contains v)).filter (Elem.differs s d) := by
        by_cases hs : (Dict.keys s).contains k = true
        · rw [List.filter_cons_of_pos hs, List.filter_cons_of_neg hd]
        · rw [List.filter_cons_of_neg hs]
      rw [hskip]
      unfold Elem.differs at hd
      cases h : Dict.get? s k with
      | none => simp
      | some v =>
        cases h' : Dict.get? d k with
        | none => simp
        | some w => simp [h, h'] at hd; simp [hd]

/-- Picking the shared keys `K` from both sides gives an element with the same differences. -/
theorem picked {s d : Dict V} {K : List String} (hK : ∀ k ∈ K, Elem.differs s d k = true) :
    intersection (Dict.keys (Elem.pick d K)) (Dict.keys (Elem.pick s K)) = K ∧
      K.filter (Elem.differs (Elem.pick s K) (Elem.pick d K)) = K ∧
      Elem.pick (Elem.pick s K) K = Elem.pick s K ∧ Elem.pick (Elem.pick d K) K = Elem.pick d K := by
  have hs : ∀ k ∈ K, k ∈ Dict.keys s := by
    intro k hk; have := hK k hk; unfold Elem.differs at this
    cases h : Dict.get? s k with
    | none => simp [h] at this
    | some v => exact Dict.mem_keys_iff.2 ⟨v, h⟩
  have hd : ∀ k ∈ K, k ∈ Dict.keys d := by
    intro k hk; have := hK k hk; unfold Elem.differs at this
    cases h : Dict.get? d k with
    | none => simp [h] at this
    | some v => exact Dict.mem_keys_iff.2 ⟨v, h⟩
  have hp : ∀ x : Dict V, Elem.pick (Elem.pick x K) K = Elem.pick x K := by
    intro x
    show K.filterMap _ = K.filterMap _
    apply filterMap_congr_mem
    intro k hk
    rw [get?_pick, if_pos hk]
  refine ⟨?_, ?_, hp s, hp d⟩
  · rw [keys_pick _ _ hd, keys_pick _ _ hs]
    unfold intersection
    rw [List.filter_eq_self]
    intro k hk; simpa using hk
  · rw [List.filter_eq_self]
    intro k hk
    have := hK k hk
    unfold Elem.differs at this ⊢
    rw [get?_pick, get?_pick, if_pos hk, if_pos hk]
    exact this

theorem blankL_eq (ks : List (Elem V)) : blankL ks = ks.map Elem.blank := by
  induction ks with
  | nil => rfl
  | cons k ks ih => simp [blankL, ih]

theorem Elem.blank_same (e : Elem V) (h : e.hasDiffs = false) : e.blank = ⟨e.type, "", [], "", "", none, none, []⟩ := by
  cases e; simp only [Elem.blank, h]; rfl

/-- The own part of a blanked element. -/
theorem Elem.blank_own (e : Elem V) (h : e.hasDiffs = true) :
    e.blank.kids = e.kids.map Elem.blank ∧ e.blank.hasDiffsOwn = e.hasDiffsOwn ∧
      (e.blank.src.isNone = e.src.isNone ∧ e.blank.dst.isNone = e.dst.isNone) ∧ ∀ i, ownText e.blank i = ownText e i := by
  obtain ⟨t, n, k, sn, dn, s, d, ks⟩ := e
  rcases s with _ | s <;> rcases d with _ | d
  all_goals
    first
    | refine ⟨by simp [Elem.blank, h, blankL_eq], by simp [Elem.blank, h, Elem.hasDiffsOwn], by simp [Elem.blank, h], ?_⟩
      intro i; simp [Elem.blank, h, ownText]; done
    | skip
  have hb : Elem.blank ⟨t, n, k, sn, dn, some s, some d, ks⟩ =
      ⟨t, n, [], sn, dn, some (onlyDiffering s d s), some (onlyDiffering s d d), ks.map Elem.blank⟩ := by
    simp [Elem.blank, h, blankL_eq]
  rw [hb, onlyDiffering_eq, onlyDiffering_eq]
  generalize hK : (intersection (Dict.keys d) (Dict.keys s)).filter (Elem.differs s d) = K
  have hKd : ∀ k ∈ K, Elem.differs s d k = true := by
    intro k hk; rw [← hK] at hk; exact (List.mem_filter.1 hk).2
  obtain ⟨p1, p2, p3, p4⟩ := picked hKd
  refine ⟨rfl, ?_, ⟨rfl, rfl⟩, ?_⟩
  · simp only [Elem.hasDiffsOwn, Elem.attrsKeys, p1]
    rw [Bool.eq_iff_iff, List.any_eq_true, List.any_eq_true]
    constructor
    · rintro ⟨k, hk, _⟩
      rw [← hK] at hk
      exact ⟨k, List.mem_filter.1 hk⟩
    · rintro ⟨k, hk, hk'⟩
      have : k ∈ K := by rw [← hK]; exact List.mem_filter.2 ⟨hk, hk'⟩
      rw [← p2] at this
      exact ⟨k, List.mem_filter.1 this⟩
  · intro i
    have hplus : (⟨t, n, [], sn, dn, some (Elem.pick s K), some (Elem.pick d K), ks.map Elem.blank⟩ : Elem V).plus =
        (⟨t, n, k, sn, dn, some s, some d, ks⟩ : Elem V).plus := by
      simp only [Elem.plus, Elem.attrsKeys, p1, p2, p3, hK]
    have hminus : (⟨t, n, [], sn, dn, some (Elem.pick s K), some (Elem.pick d K), ks.map Elem.blank⟩ : Elem V).minus =
        (⟨t, n, k, sn, dn, some s, some d, ks⟩ : Elem V).minus := by
      simp only [Elem.minus, Elem.attrsKeys, p1, p2, p4, hK]
    simp only [ownText, hplus]
    congr 2
    apply List.map_congr_left
    intro p _
    simp only [attrLine, hminus]

theorem Elem.hasDiffs_blank (e : Elem V) : e.blank.hasDiffs = e.hasDiffs := by
  induction e using Elem.ind with
  | _ e ih =>
    by_cases h : e.hasDiffs = true
    · obtain ⟨h1, h2, _, _⟩ := Elem.blank_own e h
      rw [Elem.hasDiffs_eq e.blank, Elem.hasDiffs_eq e, h1, h2, Elem.hasDiffsL_eq, Elem.hasDiffsL_eq, List.any_map]
      congr 1
      rw [Bool.eq_iff_iff, List.any_eq_true, List.any_eq_true]
      constructor
      · rintro ⟨x, hx, hx'⟩; exact ⟨x, hx, by rw [← ih x hx]; exact hx'⟩
      · rintro ⟨x, hx, hx'⟩; exact ⟨x, hx, by simp only [Function.comp]; rw [ih x hx]; exact hx'⟩
    · rw [Bool.not_eq_true] at h
      rw [Elem.blank_same e h, h]; rfl

theorem Elem.type_blank (e : Elem V) : e.blank.type = e.type := by
  obtain ⟨t, n, k, sn, dn, s, d, ks⟩ := e
  by_cases h : Elem.hasDiffs ⟨t, n, k, sn, dn, s, d, ks⟩ = true
  · rcases s with _ | s <;> rcases d with _ | d <;> simp [Elem.blank, h]
  · rw [Bool.not_eq_true] at h
    rw [Elem.blank_same _ h]

theorem groups_map_blank (ks : List (Elem V)) : groups (ks.map Elem.blank) = groups ks := by
  induction ks with
  | nil => rfl
  | cons k ks ih => simp only [List.map_cons, groups, Elem.type_blank, ih]

theorem hasDiffsL_blank (ks : List (Elem V)) : Elem.hasDiffsL (ks.map Elem.blank) = Elem.hasDiffsL ks := by
  rw [Elem.hasDiffsL_eq, Elem.hasDiffsL_eq, List.any_map]
  congr 1
  funext x; exact Elem.hasDiffs_blank x

theorem diffLines_blank {f : Elem V → String} {i : Nat} {ks : List (Elem V)}
    (h : ∀ c ∈ ks, c.hasDiffs = true → f c.blank = f c) : diffLines f i (ks.map Elem.blank) = diffLines f i ks := by
  unfold diffLines
  rw [groups_map_blank]
  congr 1
  funext g
  have hg : (group (ks.map Elem.blank) g).filter Elem.hasDiffs = ((group ks g).filter Elem.hasDiffs).map Elem.blank := by
    unfold group
    rw [List.filter_map, List.filter_map]
    have h1 : ((fun e : Elem V => e.type == g) ∘ Elem.blank) = (fun e => e.type == g) := by
      funext e; simp [Elem.type_blank]
    have h2 : (Elem.hasDiffs ∘ Elem.blank) = (Elem.hasDiffs : Elem V → Bool) := by
      funext e; simp [Elem.hasDiffs_blank]
    rw [h1, h2]
  rw [hg]
  have hm : ∀ c ∈ (group ks g).filter Elem.hasDiffs, f c.blank = f c := fun c hc =>
    h c (List.mem_filter.1 (List.mem_filter.1 hc).1).1 (List.mem_filter.1 hc).2
  generalize (group ks g).filter Elem.hasDiffs = l at hm
  cases l with
  | nil => rfl
  | cons c cs =>
    simp only [List.map_cons, List.map_map, List.cons.injEq, true_and]
    exact ⟨hm c (by simp), List.map_congr_left (fun x hx => hm x (by simp [hx]))⟩

theorem Elem.str_blank (e : Elem V) : e.hasDiffs = true → ∀ i, e.blank.str i = e.str i := by
  induction e using Elem.ind with
  | _ e ih =>
    intro h i
    obtain ⟨h1, _, ⟨h3, h4⟩, h5⟩ := Elem.blank_own e h
    rw [Elem.str_eq e.blank, Elem.str_eq e, h1, hasDiffsL_blank, h3, h4, h5]
    have : diffText (fun c => c.str (i + 4)) (i + 2) (e.kids.map Elem.blank) = diffText (fun c => c.str (i + 4)) (i + 2) e.kids := by
      simp only [diffText]
      rw [diffLines_blank (f := fun c => c.str (i + 4)) (fun c hc hd => ih c hc hd (i + 4))]
    rw [this]

end DS
