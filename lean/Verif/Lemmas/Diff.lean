import Verif.Spec.Diff
import Verif.Lemmas.Dict
/-! Lemmas about elements and diffs. -/
set_option linter.unusedSectionVars false

namespace DS
variable {V : Type} [PyVal V]

theorem Elem.ind {P : Elem V → Prop} (h : ∀ e : Elem V, (∀ k ∈ e.kids, P k) → P e) (e : Elem V) : P e :=
  Elem.rec (motive_1 := P) (motive_2 := fun ks => ∀ k ∈ ks, P k)
    (fun t n k sn dn s d ks ih => h ⟨t, n, k, sn, dn, s, d, ks⟩ ih) (by simp) (by
      intro hd tl h1 h2 k hk
      cases hk with
      | head => exact h1
      | tail _ hk => exact h2 k hk) e

theorem Elem.hasDiffs_eq (e : Elem V) : e.hasDiffs = (e.hasDiffsOwn || Elem.hasDiffsL e.kids) := by
  cases e; rfl

theorem Elem.hasDiffsL_eq (ks : List (Elem V)) : Elem.hasDiffsL ks = ks.any Elem.hasDiffs := by
  induction ks with
  | nil => rfl
  | cons k ks ih => simp only [Elem.hasDiffsL, List.any_cons, ih]

theorem Elem.hasDiffsOwn_eq (e : Elem V) : e.hasDiffsOwn = e.action.isSome := by
  unfold Elem.hasDiffsOwn Elem.action
  split <;> simp_all
  split <;> simp_all

theorem Elem.nodes_eq (e : Elem V) : e.nodes = e :: nodesL e.kids := by cases e; rfl

theorem nodesL_eq (ks : List (Elem V)) : nodesL ks = ks.flatMap Elem.nodes := by
  induction ks with
  | nil => rfl
  | cons k ks ih => simp [nodesL, ih]

theorem InTree.mono {e : Elem V} {ks ks' : List (Elem V)} (h : InTree e ks) (hs : ∀ k ∈ ks, k ∈ ks') :
    InTree e ks' := by
  cases h with
  | here h => exact .here (hs _ h)
  | under hk h => exact .under (hs _ hk) h

theorem mem_nodes_iff (e x : Elem V) : x ∈ e.nodes ↔ x = e ∨ InTree x e.kids := by
  induction e using Elem.ind with
  | h e ih =>
    rw [Elem.nodes_eq, List.mem_cons, nodesL_eq, List.mem_flatMap]
    constructor
    · rintro (h | ⟨k, hk, hx⟩)
      · exact .inl h
      · rcases (ih k hk).1 hx with rfl | h
        · exact .inr (.here hk)
        · exact .inr (.under hk h)
    · rintro (h | h)
      · exact .inl h
      · cases h with
        | here h => exact .inr ⟨x, h, (ih x h).2 (.inl rfl)⟩
        | under hk h => exact .inr ⟨_, hk, (ih _ hk).2 (.inr h)⟩

theorem mem_nodesL_iff (ks : List (Elem V)) (x : Elem V) : x ∈ nodesL ks ↔ InTree x ks := by
  rw [nodesL_eq, List.mem_flatMap]
  constructor
  · rintro ⟨k, hk, hx⟩
    rcases (mem_nodes_iff k x).1 hx with rfl | h
    · exact .here hk
    · exact .under hk h
  · intro h
    cases h with
    | here h => exact ⟨x, h, (mem_nodes_iff x x).2 (.inl rfl)⟩
    | under hk h => exact ⟨_, hk, (mem_nodes_iff _ x).2 (.inr h)⟩

theorem hasDiffs_iff (e : Elem V) : e.hasDiffs = true ↔ e.action ≠ none ∨ ∃ x, InTree x e.kids ∧ x.action ≠ none := by
  induction e using Elem.ind with
  | h e ih =>
    rw [Elem.hasDiffs_eq, Bool.or_eq_true, Elem.hasDiffsOwn_eq, Elem.hasDiffsL_eq, List.any_eq_true]
    refine or_congr (by cases e.action <;> simp) ?_
    constructor
    · rintro ⟨k, hk, h⟩
      rcases (ih k hk).1 h with h | ⟨x, hx, h⟩
      · exact ⟨k, .here hk, h⟩
      · exact ⟨x, .under hk hx, h⟩
    · rintro ⟨x, hx, h⟩
      cases hx with
      | here hx => exact ⟨x, hx, (ih x hx).2 (.inl h)⟩
      | under hk hx => exact ⟨_, hk, (ih _ hk).2 (.inr ⟨x, hx, h⟩)⟩

theorem hasDiffsL_iff (ks : List (Elem V)) : Elem.hasDiffsL ks = true ↔ ∃ x, InTree x ks ∧ x.action ≠ none := by
  rw [Elem.hasDiffsL_eq, List.any_eq_true]
  constructor
  · rintro ⟨k, hk, h⟩
    rcases (hasDiffs_iff k).1 h with h | ⟨x, hx, h⟩
    · exact ⟨k, .here hk, h⟩
    · exact ⟨x, .under hk hx, h⟩
  · rintro ⟨x, hx, h⟩
    cases hx with
    | here hx => exact ⟨x, hx, (hasDiffs_iff x).2 (.inl h)⟩
    | under hk hx => exact ⟨_, hk, (hasDiffs_iff _).2 (.inr ⟨x, hx, h⟩)⟩

/-! ## groups and getChildren -/

theorem mem_groups {ks : List (Elem V)} {g : String} : g ∈ groups ks ↔ ∃ e ∈ ks, e.type = g := by
  induction ks with
  | nil => simp [groups]
  | cons e es ih =>
    simp only [groups, List.mem_cons, List.mem_filter, ih, Bool.not_eq_true', beq_eq_false_iff_ne]
    constructor
    · rintro (rfl | ⟨⟨x, hx, rfl⟩, _⟩)
      · exact ⟨e, .inl rfl, rfl⟩
      · exact ⟨x, .inr hx, rfl⟩
    · rintro ⟨x, rfl | hx, rfl⟩
      · exact .inl rfl
      · by_cases h : x.type = e.type
        · exact .inl h
        · exact .inr ⟨⟨x, hx, rfl⟩, h⟩

theorem groups_nodup (ks : List (Elem V)) : (groups ks).Nodup := by
  induction ks with
  | nil => simp [groups]
  | cons e es ih =>
    simp only [groups, List.nodup_cons, List.mem_filter]
    exact ⟨by simp, ih.filter _⟩

theorem mem_getChildren {dc : DiffClass V} {ks : List (Elem V)} {x : Elem V} (h : x ∈ getChildren dc ks) : x ∈ ks := by
  simp only [getChildren, List.mem_flatMap] at h
  obtain ⟨g, _, hx⟩ := h
  have := dc.sub _ _ _ hx
  exact (List.mem_filter.1 this).1

theorem flatMap_group_cons_not_mem (gs : List String) (e : Elem V) (es : List (Elem V)) (h : e.type ∉ gs) :
    gs.flatMap (group (e :: es)) = gs.flatMap (group es) := by
  induction gs with
  | nil => rfl
  | cons g gs ih =>
    simp only [List.mem_cons, not_or] at h
    simp only [List.flatMap_cons, ih h.2]
    congr 1
    simp [group, List.filter_cons, h.1]

theorem flatMap_group_cons_mem (gs : List String) (hn : gs.Nodup) (e : Elem V) (es : List (Elem V)) (h : e.type ∈ gs) :
    (gs.flatMap (group (e :: es))).Perm (e :: gs.flatMap (group es)) := by
  induction gs with
  | nil => simp at h
  | cons g gs ih =>
    have hn' := List.nodup_cons.1 hn
    simp only [List.flatMap_cons]
    by_cases hg : e.type = g
    · rw [flatMap_group_cons_not_mem gs e es (by rw [hg]; exact hn'.1)]
      have : group (e :: es) g = e :: group es g := by simp [group, List.filter_cons, hg]
      rw [this]; simp
    · have h2 : e.type ∈ gs := by
        rcases List.mem_cons.1 h with h | h
        · exact absurd h hg
        · exact h
      have : group (e :: es) g = group es g := by simp [group, List.filter_cons, hg]
      rw [this]
      exact ((ih hn'.2 h2).append_left _).trans List.perm_middle

theorem flatMap_group_perm (gs : List String) (hn : gs.Nodup) (ks : List (Elem V)) (h : ∀ e ∈ ks, e.type ∈ gs) :
    (gs.flatMap (group ks)).Perm ks := by
  induction ks with
  | nil => simp [group]
  | cons e es ih =>
    exact (flatMap_group_cons_mem gs hn e es (h e (by simp))).trans
      (List.Perm.cons _ (ih (fun x hx => h x (List.mem_cons_of_mem _ hx))))

theorem flatMap_perm_of_forall {α β : Type} {f g : α → List β} (l : List α) (h : ∀ a, (f a).Perm (g a)) :
    (l.flatMap f).Perm (l.flatMap g) := by
  induction l with
  | nil => simp
  | cons a l ih => simpa [List.flatMap_cons] using (h a).append ih

theorem getChildren_perm {dc : DiffClass V} (hdc : dc.Reorders) (ks : List (Elem V)) :
    (getChildren dc ks).Perm ks :=
  (flatMap_perm_of_forall _ (fun g => hdc g _)).trans
    (flatMap_group_perm _ (groups_nodup ks) ks (fun e he => mem_groups.2 ⟨e, he, rfl⟩))

theorem getChildren_nil (dc : DiffClass V) : getChildren dc ([] : List (Elem V)) = [] := rfl

/-! ## depth, len, summary -/

theorem Elem.depth_eq (e : Elem V) : e.depth = 1 + Elem.depthL e.kids := by cases e; rfl

theorem Elem.depth_le_depthL {ks : List (Elem V)} {k : Elem V} (h : k ∈ ks) : k.depth ≤ Elem.depthL ks := by
  induction ks with
  | nil => simp at h
  | cons x ks ih =>
    simp only [Elem.depthL]
    rcases List.mem_cons.1 h with rfl | h
    · omega
    · have := ih h; omega

theorem Elem.lenF_stable (dc : DiffClass V) (n : Nat) (e : Elem V) (h : e.depth ≤ n) :
    Elem.lenF dc n e = Elem.lenF dc e.depth e := by
  induction n using Nat.strongRecOn generalizing e with
  | ind n ih =>
    rw [Elem.depth_eq] at h ⊢
    cases n with
    | zero => omega
    | succ n =>
      rw [Nat.add_comm 1]
      simp only [Elem.lenF]
      congr 2
      apply List.map_congr_left
      intro k hk
      have hk' := Elem.depth_le_depthL (mem_getChildren hk)
      rw [ih n (by omega) k (by omega)]
      by_cases hlt : Elem.depthL e.kids < n + 1
      · rw [ih (Elem.depthL e.kids) hlt k hk']
      · omega

theorem Elem.len_eq (dc : DiffClass V) (e : Elem V) :
    e.len dc = 1 + ((getChildren dc e.kids).map (Elem.len dc)).sum := by
  unfold Elem.len
  rw [Elem.depth_eq, Nat.add_comm 1]
  simp only [Elem.lenF]
  congr 2
  apply List.map_congr_left
  intro k hk
  exact Elem.lenF_stable dc _ k (Elem.depth_le_depthL (mem_getChildren hk))

theorem Elem.summaryF_stable (dc : DiffClass V) (n : Nat) (e : Elem V) (h : e.depth ≤ n) :
    Elem.summaryF dc n e = Elem.summaryF dc e.depth e := by
  induction n using Nat.strongRecOn generalizing e with
  | ind n ih =>
    rw [Elem.depth_eq] at h ⊢
    cases n with
    | zero => omega
    | succ n =>
      rw [Nat.add_comm 1]
      simp only [Elem.summaryF]
      congr 2
      apply List.map_congr_left
      intro k hk
      have hk' := Elem.depth_le_depthL (mem_getChildren hk)
      rw [ih n (by omega) k (by omega)]
      by_cases hlt : Elem.depthL e.kids < n + 1
      · rw [ih (Elem.depthL e.kids) hlt k hk']
      · omega

theorem Elem.summary_eq (dc : DiffClass V) (e : Elem V) :
    e.summary dc = (Summary.single e.action).add (Summary.sum ((getChildren dc e.kids).map (Elem.summary dc))) := by
  unfold Elem.summary
  rw [Elem.depth_eq, Nat.add_comm 1]
  simp only [Elem.summaryF]
  congr 2
  apply List.map_congr_left
  intro k hk
  exact Elem.summaryF_stable dc _ k (Elem.depth_le_depthL (mem_getChildren hk))

/-- Total of a summary. -/
def Summary.total (s : Summary) : Nat := s.create + s.update + s.delete + s.noChange

theorem Summary.total_add (a b : Summary) : (a.add b).total = a.total + b.total := by
  simp only [Summary.total, Summary.add]; omega

theorem Summary.total_single (a : Option Action) : (Summary.single a).total = 1 := by
  cases a with
  | none => rfl
  | some a => cases a <;> rfl

theorem Summary.total_sum (l : List Summary) : (Summary.sum l).total = (l.map Summary.total).sum := by
  induction l with
  | nil => rfl
  | cons a l ih =>
    have : Summary.sum (a :: l) = a.add (Summary.sum l) := rfl
    rw [this, Summary.total_add, ih]; simp

theorem Elem.total_eq_len (dc : DiffClass V) (e : Elem V) : (e.summary dc).total = e.len dc := by
  induction e using Elem.ind with
  | h e ih =>
    rw [Elem.summary_eq, Elem.len_eq, Summary.total_add, Summary.total_single, Summary.total_sum, List.map_map]
    congr 2
    apply List.map_congr_left
    intro k hk
    exact ih k (mem_getChildren hk)

theorem Diff.total_eq_len (d : Diff V) : d.summary.total = d.len := by
  unfold Diff.summary Diff.len
  rw [Summary.total_sum, List.map_map]
  congr 1
  apply List.map_congr_left
  intro k _
  exact Elem.total_eq_len _ k

theorem sum_perm {l1 l2 : List Nat} (h : l1.Perm l2) : l1.sum = l2.sum := by
  induction h with
  | nil => rfl
  | cons _ _ ih => simp [ih]
  | swap a b l => simp; omega
  | trans _ _ ih1 ih2 => exact ih1.trans ih2

theorem Summary.ext' {a b : Summary} (h1 : a.create = b.create) (h2 : a.update = b.update) (h3 : a.delete = b.delete)
    (h4 : a.noChange = b.noChange) : a = b := by
  cases a; cases b; simp_all

theorem Summary.sum_fields (l : List Summary) :
    Summary.sum l = ⟨(l.map Summary.create).sum, (l.map Summary.update).sum, (l.map Summary.delete).sum, (l.map Summary.noChange).sum⟩ := by
  induction l with
  | nil => rfl
  | cons a l ih =>
    have : Summary.sum (a :: l) = a.add (Summary.sum l) := rfl
    rw [this, ih]; simp [Summary.add]

theorem Summary.sum_perm {l1 l2 : List Summary} (h : l1.Perm l2) : Summary.sum l1 = Summary.sum l2 := by
  simp only [Summary.sum_fields]
  rw [DS.sum_perm (h.map _), DS.sum_perm (h.map _), DS.sum_perm (h.map _), DS.sum_perm (h.map _)]

theorem Elem.len_eq_nodes {dc : DiffClass V} (hdc : dc.Reorders) (e : Elem V) : e.len dc = e.nodes.length := by
  induction e using Elem.ind with
  | h e ih =>
    rw [Elem.len_eq, Elem.nodes_eq, List.length_cons, nodesL_eq, List.length_flatMap,
      sum_perm ((getChildren_perm hdc e.kids).map _), Nat.add_comm]
    congr 2
    exact List.map_congr_left (fun k hk => ih k hk)

theorem Diff.len_eq_nodes (d : Diff V) (hdc : d.cls.Reorders) : d.len = (nodesL d.kids).length := by
  unfold Diff.len
  rw [nodesL_eq, List.length_flatMap, sum_perm ((getChildren_perm hdc d.kids).map _)]
  congr 1
  exact List.map_congr_left (fun k hk => Elem.len_eq_nodes hdc k)

/-- The summary of a list of elements by counting actions. -/
def Summary.ofNodes (l : List (Elem V)) : Summary :=
  ⟨l.countP (fun e => decide (e.action = some .create)), l.countP (fun e => decide (e.action = some .update)),
   l.countP (fun e => decide (e.action = some .delete)), l.countP (fun e => decide (e.action = none))⟩

theorem Summary.ofNodes_append (a b : List (Elem V)) :
    Summary.ofNodes (a ++ b) = (Summary.ofNodes a).add (Summary.ofNodes b) := by
  simp [Summary.ofNodes, Summary.add, List.countP_append]

theorem Summary.ofNodes_cons (e : Elem V) (l : List (Elem V)) :
    Summary.ofNodes (e :: l) = (Summary.single e.action).add (Summary.ofNodes l) := by
  unfold Summary.ofNodes Summary.add
  simp only [List.countP_cons]
  cases h : e.action with
  | none => simp [Summary.single, Nat.add_comm]
  | some a => cases a <;> simp [Summary.single, Nat.add_comm]

theorem Summary.sum_ofNodes (ks : List (Elem V)) :
    Summary.sum (ks.map (fun k => Summary.ofNodes k.nodes)) = Summary.ofNodes (nodesL ks) := by
  induction ks with
  | nil => rfl
  | cons k ks ih =>
    have : Summary.sum ((k :: ks).map (fun k => Summary.ofNodes k.nodes)) =
      (Summary.ofNodes k.nodes).add (Summary.sum (ks.map (fun k => Summary.ofNodes k.nodes))) := rfl
    rw [this, ih, nodesL, Summary.ofNodes_append]

theorem Elem.summary_eq_nodes {dc : DiffClass V} (hdc : dc.Reorders) (e : Elem V) :
    e.summary dc = Summary.ofNodes e.nodes := by
  induction e using Elem.ind with
  | h e ih =>
    rw [Elem.summary_eq, Elem.nodes_eq, Summary.ofNodes_cons, Summary.sum_perm ((getChildren_perm hdc e.kids).map _),
      ← Summary.sum_ofNodes]
    congr 2
    exact List.map_congr_left (fun k hk => ih k hk)

theorem Diff.summary_eq_nodes (d : Diff V) (hdc : d.cls.Reorders) : d.summary = Summary.ofNodes (nodesL d.kids) := by
  unfold Diff.summary
  rw [← Summary.sum_ofNodes, Summary.sum_perm ((getChildren_perm hdc d.kids).map _)]
  congr 1
  exact List.map_congr_left (fun k _ => Elem.summary_eq_nodes hdc k)

/-! ## attributes -/

theorem mem_intersection {l1 l2 : List String} {x : String} : x ∈ intersection l1 l2 ↔ x ∈ l1 ∧ x ∈ l2 := by
  simp [intersection]

theorem differs_iff {s d : Dict V} {k : String} :
    Elem.differs s d k = true ↔ ∃ v w, Dict.get? s k = some v ∧ Dict.get? d k = some w ∧ PyVal.eq v w = false := by
  unfold Elem.differs
  split
  · rename_i v w h1 h2; simp [h1, h2]
  · rename_i h
    simp only [Bool.false_eq_true, false_iff]
    rintro ⟨v, w, h1, h2, _⟩
    exact h v w h1 h2

theorem keys_pick (attrs : Dict V) (ks : List String) (h : ∀ k ∈ ks, k ∈ Dict.keys attrs) : Dict.keys (Elem.pick attrs ks) = ks := by
  induction ks with
  | nil => rfl
  | cons k ks ih =>
    obtain ⟨v, hv⟩ := Dict.mem_keys_iff.1 (h k (by simp))
    unfold Elem.pick
    rw [List.filterMap_cons, hv]
    simp only [Option.map_some, Dict.keys_cons, List.cons.injEq, true_and]
    exact ih (fun k hk => h k (List.mem_cons_of_mem _ hk))

theorem get?_pick (attrs : Dict V) (ks : List String) (x : String) :
    Dict.get? (Elem.pick attrs ks) x = if x ∈ ks then Dict.get? attrs x else none := by
  induction ks with
  | nil => simp [Elem.pick]
  | cons k ks ih =>
    unfold Elem.pick at ih ⊢
    rw [List.filterMap_cons]
    cases hk : Dict.get? attrs k with
    | none =>
      simp only [Option.map_none, ih, List.mem_cons]
      by_cases hx : x = k
      · subst hx; simp [hk]
      · simp [hx]
    | some v =>
      simp only [Option.map_some, Dict.get?_cons, ih, List.mem_cons]
      by_cases hx : k = x
      · subst hx; simp [hk]
      · simp [hx, Ne.symm hx]

theorem action_update_iff {e : Elem V} : e.action = some .update ↔ ∃ k, e.DiffersAt k := by
  obtain ⟨t, n, ks, sn, dn, s, d, kids⟩ := e
  unfold Elem.action Elem.DiffersAt Elem.srcVal Elem.dstVal Elem.attrsKeys
  cases s with
  | none => cases d <;> simp
  | some s =>
    cases d with
    | none => simp
    | some d =>
      simp only [List.any_eq_true, ite_eq_left_iff, Option.bind_some, reduceCtorEq, imp_false, Decidable.not_not]
      constructor
      · rintro ⟨k, _, h⟩; exact ⟨k, differs_iff.1 h⟩
      · rintro ⟨k, v, w, h1, h2, h3⟩
        exact ⟨k, mem_intersection.2 ⟨Dict.mem_keys_iff.2 ⟨w, h2⟩, Dict.mem_keys_iff.2 ⟨v, h1⟩⟩, differs_iff.2 ⟨v, w, h1, h2, h3⟩⟩

/-! ## addElem -/

theorem addElem_ok {ks ks' : List (Elem V)} {e : Elem V} (h : addElem ks e = .ok ks') :
    ks' = ks ++ [e] ∧ ∀ k ∈ ks, ¬ (k.type = e.type ∧ k.name = e.name) := by
  unfold addElem at h
  split at h
  · cases h
  · rename_i hn
    cases h
    refine ⟨rfl, fun k hk ⟨h1, h2⟩ => hn ?_⟩
    rw [List.any_eq_true]
    exact ⟨k, hk, by simp [h1, h2]⟩

theorem addElem_error {ks : List (Elem V)} {e : Elem V} {err : Err} (h : addElem ks e = .error err) :
    err = .objectAlreadyExists ∧ ∃ k ∈ ks, k.type = e.type ∧ k.name = e.name := by
  unfold addElem at h
  split at h
  · rename_i hn
    cases h
    rw [List.any_eq_true] at hn
    obtain ⟨k, hk, h⟩ := hn
    simp only [Bool.and_eq_true, beq_iff_eq] at h
    exact ⟨rfl, k, hk, h⟩
  · cases h

theorem addElems_ok {ks es ks' : List (Elem V)} (h : addElems ks es = .ok ks') : ks' = ks ++ es := by
  induction es generalizing ks with
  | nil => simp only [addElems, Except.ok.injEq] at h; simp [h]
  | cons e es ih =>
    unfold addElems at h
    split at h
    · rename_i k1 h1
      rw [ih h, (addElem_ok h1).1]; simp
    · cases h

theorem UniqueNames.eq {ks : List (Elem V)} (h : UniqueNames ks) {a b : Elem V} (ha : a ∈ ks) (hb : b ∈ ks)
    (h1 : a.type = b.type) (h2 : a.name = b.name) : a = b := by
  induction ks with
  | nil => simp at ha
  | cons k ks ih =>
    have hp := List.pairwise_cons.1 h
    rcases List.mem_cons.1 ha with rfl | ha'
    · rcases List.mem_cons.1 hb with rfl | hb'
      · rfl
      · exact absurd ⟨h1, h2⟩ (hp.1 b hb')
    · rcases List.mem_cons.1 hb with rfl | hb'
      · exact absurd ⟨h1.symm, h2.symm⟩ (hp.1 a ha')
      · exact ih hp.2 ha' hb'

theorem UniqueNames.snoc {ks : List (Elem V)} (h : UniqueNames ks) {e : Elem V}
    (he : ∀ k ∈ ks, ¬ (k.type = e.type ∧ k.name = e.name)) : UniqueNames (ks ++ [e]) := by
  unfold UniqueNames
  rw [List.pairwise_append]
  exact ⟨h, by simp, fun a ha b hb => by simp only [List.mem_singleton] at hb; subst hb; exact he a ha⟩

theorem addElems_unique {ks es ks' : List (Elem V)} (h : addElems ks es = .ok ks') (hu : UniqueNames ks) :
    UniqueNames ks' := by
  induction es generalizing ks with
  | nil => simp only [addElems, Except.ok.injEq] at h; exact h ▸ hu
  | cons e es ih =>
    unfold addElems at h
    split at h
    · rename_i k1 h1
      obtain ⟨rfl, h2⟩ := addElem_ok h1
      exact ih h (hu.snoc h2)
    · cases h

theorem UniqueNames.perm {ks ks' : List (Elem V)} (h : UniqueNames ks) (hp : ks.Perm ks') : UniqueNames ks' :=
  hp.pairwise h (fun hab ⟨h1, h2⟩ => hab ⟨h1.symm, h2.symm⟩)

end DS
