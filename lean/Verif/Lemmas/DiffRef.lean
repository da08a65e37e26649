import Verif.Spec.DiffRef
import Verif.Lemmas.Dict
import Verif.Lemmas.Diff
import Verif.Lemmas.Render
/-! # Diffs as objects: invariants of histories -/
set_option linter.unusedSectionVars false

namespace DS
variable {V : Type} [PyVal V] {α β : Type}

@[simp] theorem assign_self (f : Nat → α) (i : Nat) (x : α) : assign f i x i = x := by simp [assign]
theorem assign_ne (f : Nat → α) {i j : Nat} (x : α) (h : j ≠ i) : assign f i x j = f j := by simp [assign, h]
theorem assign_same (f : Nat → α) (i : Nat) : assign f i (f i) = f := by
  funext j
  unfold assign
  split
  · rename_i h; rw [h]
  · rfl

theorem Dict.set_get_self {d : Dict α} {x : String} {v : α} (h : Dict.get? d x = some v) : Dict.set d x v = d := by
  induction d with
  | nil => cases h
  | cons p d ih =>
    obtain ⟨k, w⟩ := p
    rw [Dict.get?_cons] at h
    unfold Dict.set
    split
    · rename_i hk; rw [if_pos hk] at h; cases h; rfl
    · rename_i hk; rw [if_neg hk] at h; rw [ih h]

theorem mem_typesOf {h : DiffHeap V} {L : List Nat} {t : String} : t ∈ typesOf h L ↔ ∃ e ∈ L, (h.elem e).type = t := by
  induction L with
  | nil => simp [typesOf]
  | cons e es ih =>
    simp only [typesOf, List.mem_cons, List.mem_filter, ih, Bool.not_eq_true', beq_eq_false_iff_ne]
    constructor
    · rintro (rfl | ⟨⟨x, hx, rfl⟩, _⟩)
      · exact ⟨e, .inl rfl, rfl⟩
      · exact ⟨x, .inr hx, rfl⟩
    · rintro ⟨x, rfl | hx, rfl⟩
      · exact .inl rfl
      · by_cases h' : (h.elem x).type = (h.elem e).type
        · exact .inl h'
        · exact .inr ⟨⟨x, hx, rfl⟩, h'⟩

theorem typesOf_nodup (h : DiffHeap V) (L : List Nat) : (typesOf h L).Nodup := by
  induction L with
  | nil => simp [typesOf]
  | cons e es ih =>
    simp only [typesOf, List.nodup_cons, List.mem_filter]
    exact ⟨by simp, ih.filter _⟩

theorem typesOf_append_mem {h : DiffHeap V} {L : List Nat} {e : Nat} (H : (h.elem e).type ∈ typesOf h L) : typesOf h (L ++ [e]) = typesOf h L := by
  induction L with
  | nil => cases H
  | cons x xs ih =>
    have e1 : ∀ L, typesOf h (x :: L) = (h.elem x).type :: (typesOf h L).filter fun t => !(t == (h.elem x).type) := fun _ => rfl
    rw [List.cons_append, e1, e1]
    by_cases h1 : (h.elem e).type ∈ typesOf h xs
    · rw [ih h1]
    · rw [e1, List.mem_cons] at H
      have hx : (h.elem e).type = (h.elem x).type := H.resolve_right fun hc => h1 (List.mem_filter.1 hc).1
      congr 1
      clear ih H h1
      induction xs with
      | nil => simp [typesOf, hx]
      | cons y ys ih =>
        have e2 : ∀ L, typesOf h (y :: L) = (h.elem y).type :: (typesOf h L).filter fun t => !(t == (h.elem y).type) := fun _ => rfl
        rw [List.cons_append, e2, e2, List.filter_cons, List.filter_cons, List.filter_filter, List.filter_filter]
        have : ∀ L, (List.filter (fun a => (!a == (h.elem x).type) && !a == (h.elem y).type) L) = (L.filter fun a => !a == (h.elem x).type).filter fun a => !a == (h.elem y).type := by
          intro L
          rw [List.filter_filter]
          exact List.filter_congr fun a _ => Bool.and_comm _ _
        rw [this, this, ih]

theorem typesOf_append_new {h : DiffHeap V} {L : List Nat} {e : Nat} (H : (h.elem e).type ∉ typesOf h L) : typesOf h (L ++ [e]) = typesOf h L ++ [(h.elem e).type] := by
  induction L with
  | nil => rfl
  | cons x xs ih =>
    have e1 : ∀ L, typesOf h (x :: L) = (h.elem x).type :: (typesOf h L).filter fun t => !(t == (h.elem x).type) := fun _ => rfl
    rw [e1, List.mem_cons, List.mem_filter] at H
    have hx : (h.elem e).type ≠ (h.elem x).type := fun hc => H (.inl hc)
    rw [List.cons_append, e1, e1, ih fun hc => H (.inr ⟨hc, by simpa using hx⟩), List.filter_append]
    simp [hx]

theorem typesOf_congr {h h' : DiffHeap V} {L : List Nat} (H : ∀ e ∈ L, (h'.elem e).type = (h.elem e).type) : typesOf h' L = typesOf h L := by
  induction L with
  | nil => rfl
  | cons e es ih =>
    unfold typesOf
    rw [H e (by simp), ih fun x hx => H x (by simp [hx])]

/-- The entries of a group. -/
def entries (h : DiffHeap V) (L : List Nat) (t : String) : Dict Nat := (L.filter fun e => (h.elem e).type == t).map fun e => ((h.elem e).name, e)

theorem entries_congr {h h' : DiffHeap V} {L : List Nat} (H : ∀ e ∈ L, (h'.elem e).type = (h.elem e).type ∧ (h'.elem e).name = (h.elem e).name) (t : String) :
    entries h' L t = entries h L t := by
  unfold entries
  rw [List.filter_congr (q := fun e => (h.elem e).type == t) fun e he => by rw [(H e he).1]]
  exact List.map_congr_left fun e he => by rw [(H e (List.mem_filter.1 he).1).2]

theorem mem_keys_entries {h : DiffHeap V} {L : List Nat} {t n : String} : n ∈ Dict.keys (entries h L t) ↔ ∃ e ∈ L, (h.elem e).type = t ∧ (h.elem e).name = n := by
  unfold entries Dict.keys
  rw [List.map_map]
  simp only [List.mem_map, List.mem_filter, Function.comp_apply, beq_iff_eq]
  constructor
  · rintro ⟨e, ⟨h1, h2⟩, h3⟩; exact ⟨e, h1, h2, h3⟩
  · rintro ⟨e, h1, h2, h3⟩; exact ⟨e, ⟨h1, h2⟩, h3⟩

theorem entries_append (h : DiffHeap V) (L : List Nat) (e : Nat) (t : String) :
    entries h (L ++ [e]) t = entries h L t ++ (if (h.elem e).type = t then [((h.elem e).name, e)] else []) := by
  unfold entries
  rw [List.filter_append, List.map_append]
  congr 1
  by_cases ht : (h.elem e).type = t <;> simp [ht]

/-- What histories keep. -/
structure HeapInv (h : DiffHeap V) (log : Nat → List Nat) : Prop where
  keys : ∀ d, Dict.keys (h.diff d) = typesOf h (log d)
  group : ∀ d t g, Dict.get? (h.diff d) t = some g → g = entries h (log d) t
  refs : ∀ d, ∀ e ∈ log d, e < h.nElem
  distinct : ∀ d, (log d).Pairwise fun a b => ¬ ((h.elem a).type = (h.elem b).type ∧ (h.elem a).name = (h.elem b).name)
  fresh : ∀ d, h.nDiff ≤ d → log d = []
  diffs : ∀ e, e < h.nElem → (h.elem e).diff < h.nDiff

theorem HeapInv.wf {h : DiffHeap V} {log : Nat → List Nat} (H : HeapInv h log) (d : Nat) : Dict.WF (h.diff d) := by
  unfold Dict.WF
  rw [H.keys]
  exact typesOf_nodup _ _

/-- The group of an element's type. -/
theorem HeapInv.getD {h : DiffHeap V} {log : Nat → List Nat} (H : HeapInv h log) (d : Nat) (t : String) :
    (Dict.get? (h.diff d) t).getD [] = entries h (log d) t := by
  cases hg : Dict.get? (h.diff d) t with
  | some g => exact H.group d t g hg
  | none =>
    rw [Dict.get?_eq_none_iff, H.keys, mem_typesOf] at hg
    unfold entries
    rw [List.filter_eq_nil_iff.2]
    · rfl
    · intro e he ht
      exact hg ⟨e, he, by simpa using ht⟩

theorem HeapInv.twin_iff {h : DiffHeap V} {log : Nat → List Nat} (H : HeapInv h log) (d e : Nat) :
    Dict.has ((Dict.get? (h.diff d) (h.elem e).type).getD []) (h.elem e).name = true ↔ ∃ x ∈ log d, (h.elem x).type = (h.elem e).type ∧ (h.elem x).name = (h.elem e).name := by
  rw [Dict.has_iff, H.getD, mem_keys_entries]

/-- A refused `add` changes nothing. -/
theorem HeapInv.refused {h : DiffHeap V} {log : Nat → List Nat} (H : HeapInv h log) {d e : Nat}
    (ht : ∃ x ∈ log d, (h.elem x).type = (h.elem e).type ∧ (h.elem x).name = (h.elem e).name) : h.add d e = (.error .objectAlreadyExists, h) := by
  unfold DiffHeap.add
  simp only [(H.twin_iff d e).2 ht, if_true]
  have hk : (h.elem e).type ∈ Dict.keys (h.diff d) := by
    rw [H.keys, mem_typesOf]
    obtain ⟨x, h1, h2, _⟩ := ht
    exact ⟨x, h1, h2⟩
  obtain ⟨g, hg⟩ := Dict.mem_keys_iff.1 hk
  rw [hg, Option.getD_some, Dict.set_get_self hg, assign_same]

theorem HeapInv.accepted {h : DiffHeap V} {log : Nat → List Nat} (H : HeapInv h log) {d e : Nat}
    (ht : ¬ ∃ x ∈ log d, (h.elem x).type = (h.elem e).type ∧ (h.elem x).name = (h.elem e).name) :
    h.add d e = (.ok (), { h with diff := assign h.diff d (Dict.set (h.diff d) (h.elem e).type (entries h (log d) (h.elem e).type ++ [((h.elem e).name, e)])) }) := by
  unfold DiffHeap.add
  rw [← H.twin_iff] at ht
  simp only [ht]
  rw [H.getD] at ht ⊢
  rw [Dict.has_iff] at ht
  rw [Dict.set_of_not_mem ht]
  simp

theorem HeapInv.add {h : DiffHeap V} {log : Nat → List Nat} (H : HeapInv h log) {d e : Nat} (hd : d < h.nDiff) (he : e < h.nElem)
    (ht : ¬ ∃ x ∈ log d, (h.elem x).type = (h.elem e).type ∧ (h.elem x).name = (h.elem e).name) :
    HeapInv (h.add d e).2 (assign log d (log d ++ [e])) := by
  rw [H.accepted ht]
  have hel : ∀ L, typesOf { h with diff := assign h.diff d (Dict.set (h.diff d) (h.elem e).type (entries h (log d) (h.elem e).type ++ [((h.elem e).name, e)])) } L = typesOf h L :=
    fun L => typesOf_congr (h := h) fun _ _ => rfl
  have hen : ∀ L t, entries { h with diff := assign h.diff d (Dict.set (h.diff d) (h.elem e).type (entries h (log d) (h.elem e).type ++ [((h.elem e).name, e)])) } L t = entries h L t :=
    fun L t => entries_congr (fun _ _ => ⟨rfl, rfl⟩) t
  refine ⟨fun d' => ?_, fun d' t g hg => ?_, fun d' x hx => ?_, fun d' => ?_, fun d' hd' => ?_, H.diffs⟩
  · rw [hel]
    by_cases hdd : d' = d
    · subst hdd
      simp only [assign_self]
      rw [Dict.keys_set, H.keys]
      split
      · rename_i hm; exact (typesOf_append_mem hm).symm
      · rename_i hm; exact (typesOf_append_new hm).symm
    · simp only [assign_ne _ _ hdd]
      exact H.keys d'
  · rw [hen]
    by_cases hdd : d' = d
    · subst hdd
      simp only [assign_self] at hg ⊢
      rw [entries_append]
      rw [Dict.get?_set] at hg
      split at hg
      · rename_i htt
        cases hg
        subst htt
        rw [if_pos rfl]
      · rename_i htt
        rw [if_neg htt, List.append_nil]
        exact H.group _ _ _ hg
    · simp only [assign_ne _ _ hdd] at hg ⊢
      exact H.group _ _ _ hg
  · by_cases hdd : d' = d
    · subst hdd
      simp only [assign_self, List.mem_append, List.mem_singleton] at hx
      rcases hx with hx | rfl
      · exact H.refs _ _ hx
      · exact he
    · simp only [assign_ne _ _ hdd] at hx
      exact H.refs _ _ hx
  · by_cases hdd : d' = d
    · subst hdd
      simp only [assign_self]
      refine List.pairwise_append.2 ⟨H.distinct _, List.pairwise_singleton _ _, fun a ha b hb hab => ?_⟩
      rw [List.mem_singleton] at hb
      subst hb
      exact ht ⟨a, ha, hab⟩
    · simp only [assign_ne _ _ hdd]
      exact H.distinct _
  · have : d' ≠ d := by
      intro hc
      subst hc
      exact absurd hd (Nat.not_lt.2 hd')
    rw [assign_ne _ _ this]
    exact H.fresh _ hd'

theorem ByHand.inv {h : DiffHeap V} {log : Nat → List Nat} (H : ByHand h log) : HeapInv h log := by
  induction H with
  | start =>
    refine ⟨fun _ => rfl, fun d t g hg => ?_, fun d e he => ?_, fun d => .nil, fun _ _ => rfl, fun e he => absurd he (Nat.not_lt_zero _)⟩
    · cases hg
    · cases he
  | @diff h log _ ih =>
    refine ⟨fun d => ?_, fun d t g hg => ?_, ih.refs, ih.distinct, fun d hd => ih.fresh d (Nat.le_of_succ_le hd), fun e he => Nat.lt_succ_of_lt (ih.diffs e he)⟩
    · by_cases hd : d = h.nDiff
      · subst hd
        simp only [DiffHeap.newDiff, assign_self, ih.fresh _ (Nat.le_refl _)]
        rfl
      · simp only [DiffHeap.newDiff, assign_ne _ _ hd]
        rw [ih.keys d]
        refine Eq.symm (typesOf_congr ?_)
        exact fun _ _ => rfl
    · by_cases hd : d = h.nDiff
      · subst hd
        simp only [DiffHeap.newDiff, assign_self] at hg
        cases hg
      · simp only [DiffHeap.newDiff, assign_ne _ _ hd] at hg
        rw [ih.group d t g hg]
        exact (entries_congr (fun _ _ => ⟨rfl, rfl⟩) t).symm
  | @elem h log t n k sn dn _ ih =>
    have hel : ∀ e, e < h.nElem → (h.newElem t n k sn dn).elem e = h.elem e := fun e he => assign_ne _ _ (Nat.ne_of_lt he)
    have hrefs : ∀ d, ∀ e ∈ log d, (h.newElem t n k sn dn).elem e = h.elem e := fun d e he => hel e (ih.refs d e he)
    refine ⟨fun d => ?_, fun d t g hg => ?_, fun d e he => Nat.lt_succ_of_lt (ih.refs d e he), fun d => ?_, fun d hd => ih.fresh d (Nat.le_of_succ_le hd), fun e he => ?_⟩
    · rw [typesOf_congr (h := h) fun e he => by rw [hrefs d e he]]
      by_cases hd : d = h.nDiff
      · subst hd
        simp only [DiffHeap.newElem, assign_self, ih.fresh _ (Nat.le_refl _)]
        rfl
      · simp only [DiffHeap.newElem, assign_ne _ _ hd]
        exact ih.keys d
    · rw [entries_congr (h := h) fun e he => by rw [hrefs d e he]; exact ⟨rfl, rfl⟩]
      by_cases hd : d = h.nDiff
      · subst hd
        simp only [DiffHeap.newElem, assign_self] at hg
        cases hg
      · simp only [DiffHeap.newElem, assign_ne _ _ hd] at hg
        exact ih.group d t g hg
    · refine (ih.distinct d).imp_of_mem fun {a b} ha hb hab => ?_
      rw [hrefs d a ha, hrefs d b hb]
      exact hab
    · by_cases hee : e = h.nElem
      · subst hee
        simp only [DiffHeap.newElem, assign_self]
        exact Nat.lt_succ_self _
      · have : e < h.nElem := Nat.lt_of_le_of_ne (Nat.le_of_lt_succ he) hee
        rw [hel e this]
        exact Nat.lt_succ_of_lt (ih.diffs e this)
  | @attrs h log e0 s d _ _ ih =>
    have hel : ∀ e, ((h.addAttrs e0 s d).elem e).type = (h.elem e).type ∧ ((h.addAttrs e0 s d).elem e).name = (h.elem e).name ∧ ((h.addAttrs e0 s d).elem e).diff = (h.elem e).diff := by
      intro e
      unfold DiffHeap.addAttrs
      by_cases he : e = e0
      · subst he; simp
      · simp only [assign_ne _ _ he]; exact ⟨trivial, trivial, trivial⟩
    refine ⟨fun d => ?_, fun d t g hg => ?_, ih.refs, fun d => ?_, ih.fresh, fun e he => ?_⟩
    · rw [typesOf_congr (h := h) fun e _ => (hel e).1]
      exact ih.keys d
    · rw [entries_congr (h := h) fun e _ => ⟨(hel e).1, (hel e).2.1⟩]
      exact ih.group d t g hg
    · refine (ih.distinct d).imp fun {a b} hab => ?_
      rw [(hel a).1, (hel b).1, (hel a).2.1, (hel b).2.1]
      exact hab
    · rw [(hel e).2.2]
      exact ih.diffs e he
  | @added h log d e _ hd he hok ih =>
    refine ih.add hd he fun ht => ?_
    rw [ih.refused ht] at hok
    cases hok
  | @refused h log d e err _ _ _ herr ih =>
    by_cases ht : ∃ x ∈ log d, (h.elem x).type = (h.elem e).type ∧ (h.elem x).name = (h.elem e).name
    · rw [ih.refused ht]
      exact ih
    · rw [ih.accepted ht] at herr
      cases herr

theorem flatMap_keys {D : Dict (Dict Nat)} {F : String → List Nat} (h : ∀ p ∈ D, Dict.values p.2 = F p.1) : (D.flatMap fun p => Dict.values p.2) = (Dict.keys D).flatMap F := by
  induction D with
  | nil => rfl
  | cons p D ih =>
    rw [List.flatMap_cons, Dict.keys_cons, List.flatMap_cons, h p (by simp), ih fun q hq => h q (by simp [hq])]

theorem values_entries (h : DiffHeap V) (L : List Nat) (t : String) : Dict.values (entries h L t) = L.filter fun e => (h.elem e).type == t := by
  unfold entries Dict.values
  rw [List.map_map]
  exact (List.map_congr_left fun _ _ => rfl).trans (List.map_id _)

theorem HeapInv.children {h : DiffHeap V} {log : Nat → List Nat} (H : HeapInv h log) (d : Nat) :
    h.children d = (typesOf h (log d)).flatMap fun t => (log d).filter fun e => (h.elem e).type == t := by
  unfold DiffHeap.children
  rw [flatMap_keys (F := fun t => (log d).filter fun e => (h.elem e).type == t), H.keys]
  intro p hp
  rw [H.group d p.1 p.2 (Dict.get?_of_mem (H.wf d) hp), values_entries]

theorem HeapInv.mem_children {h : DiffHeap V} {log : Nat → List Nat} (H : HeapInv h log) {d e : Nat} : e ∈ h.children d ↔ e ∈ log d := by
  rw [H.children, List.mem_flatMap]
  constructor
  · rintro ⟨t, _, he⟩; exact (List.mem_filter.1 he).1
  · intro he
    exact ⟨_, mem_typesOf.2 ⟨e, he, rfl⟩, List.mem_filter.2 ⟨he, by simp⟩⟩

/-! ## Trees -/

theorem typesOf_map {h : DiffHeap V} {L : List Nat} {f : Nat → Elem V} (H : ∀ c ∈ L, (f c).type = (h.elem c).type) : groups (L.map f) = typesOf h L := by
  induction L with
  | nil => rfl
  | cons e es ih =>
    simp only [List.map_cons, groups, typesOf, H e (by simp), ih fun x hx => H x (by simp [hx])]

theorem group_map {h : DiffHeap V} {L : List Nat} {f : Nat → Elem V} (H : ∀ c ∈ L, (f c).type = (h.elem c).type) (t : String) :
    group (L.map f) t = (L.filter fun e => (h.elem e).type == t).map f := by
  unfold group
  rw [List.filter_map]
  congr 1
  exact List.filter_congr fun e he => by simp [H e he]

theorem HeapInv.getChildren_map {h : DiffHeap V} {log : Nat → List Nat} (I : HeapInv h log) {d : Nat} {f : Nat → Elem V} (H : ∀ c ∈ log d, (f c).type = (h.elem c).type) :
    getChildren (DiffClass.default V) ((log d).map f) = (h.children d).map f := by
  unfold getChildren
  rw [typesOf_map H, I.children, List.map_flatMap]
  congr 1
  funext t
  exact group_map H t

theorem IsTree.header {h : DiffHeap V} {log : Nat → List Nat} {e : Nat} {T : Elem V} (H : IsTree h log e T) : T.type = (h.elem e).type ∧ T.name = (h.elem e).name := by
  cases H with
  | mk f _ => exact ⟨rfl, rfl⟩

theorem each_ok {f : Nat → Except Err α} {g : Nat → α} {l : List Nat} (H : ∀ x ∈ l, f x = .ok (g x)) : DiffHeap.each f l = .ok (l.map g) := by
  induction l with
  | nil => rfl
  | cons x xs ih => simp only [DiffHeap.each, H x (by simp), ih fun y hy => H y (by simp [hy]), List.map_cons]

theorem each_error {f : Nat → Except Err α} {err : Err} {l : List Nat} (H : ∀ x ∈ l, ∀ e, f x = .error e → e = err) {x : Nat} (hx : x ∈ l) (hf : f x = .error err) :
    DiffHeap.each f l = .error err := by
  induction l with
  | nil => cases hx
  | cons y ys ih =>
    unfold DiffHeap.each
    cases hy : f y with
    | error e => simp only [H y (by simp) e hy]
    | ok v =>
      rcases List.mem_cons.1 hx with rfl | hx
      · rw [hf] at hy; cases hy
      · simp only [ih (fun z hz => H z (by simp [hz])) hx]

theorem each_mem {f : Nat → Except Err α} {l : List Nat} {ys : List α} (H : DiffHeap.each f l = .ok ys) : ∀ x ∈ l, ∃ y, f x = .ok y := by
  induction l generalizing ys with
  | nil => intro x hx; cases hx
  | cons z zs ih =>
    unfold DiffHeap.each at H
    cases hz : f z with
    | error e => rw [hz] at H; cases H
    | ok v =>
      rw [hz] at H
      cases hr : DiffHeap.each f zs with
      | error e => simp only [hr] at H; cases H
      | ok ws =>
        intro x hx
        rcases List.mem_cons.1 hx with rfl | hx
        · exact ⟨v, hz⟩
        · exact ih hr x hx

theorem each_err_mem {f : Nat → Except Err α} {l : List Nat} {e : Err} (H : DiffHeap.each f l = .error e) : ∃ x ∈ l, f x = .error e := by
  induction l with
  | nil => cases H
  | cons z zs ih =>
    unfold DiffHeap.each at H
    cases hz : f z with
    | error e' => rw [hz] at H; cases H; exact ⟨z, by simp, hz⟩
    | ok v =>
      rw [hz] at H
      cases hr : DiffHeap.each f zs with
      | error e' =>
        simp only [hr] at H
        cases H
        obtain ⟨x, h1, h2⟩ := ih hr
        exact ⟨x, by simp [h1], h2⟩
      | ok ws => simp only [hr] at H; cases H

theorem anyOf_ok {f : Nat → Except Err Bool} {g : Nat → Bool} {l : List Nat} (H : ∀ x ∈ l, f x = .ok (g x)) : DiffHeap.anyOf f l = .ok (l.any g) := by
  induction l with
  | nil => rfl
  | cons x xs ih =>
    unfold DiffHeap.anyOf
    rw [H x (by simp), List.any_cons]
    cases g x with
    | true => rfl
    | false => simp only [ih fun y hy => H y (by simp [hy]), Bool.false_or]

theorem those_ok {f : Nat → Except Err Bool} {g : Nat → Bool} {l : List Nat} (H : ∀ x ∈ l, f x = .ok (g x)) : DiffHeap.those f l = .ok (l.filter g) := by
  induction l with
  | nil => rfl
  | cons x xs ih =>
    unfold DiffHeap.those
    simp only [H x (by simp), ih fun y hy => H y (by simp [hy]), List.filter_cons]

theorem hasDiffsL_any (ks : List (Elem V)) : Elem.hasDiffsL ks = ks.any Elem.hasDiffs := by
  induction ks with
  | nil => rfl
  | cons k ks ih => rw [Elem.hasDiffsL, List.any_cons, ih]

theorem any_perm {l l' : List α} (h : l.Perm l') (p : α → Bool) : l.any p = l'.any p := by
  rw [Bool.eq_iff_iff, List.any_eq_true, List.any_eq_true]
  exact ⟨fun ⟨x, a, b⟩ => ⟨x, h.mem_iff.1 a, b⟩, fun ⟨x, a, b⟩ => ⟨x, h.mem_iff.2 a, b⟩⟩

theorem depthL_le {ks : List (Elem V)} {n : Nat} : Elem.depthL ks ≤ n ↔ ∀ k ∈ ks, k.depth ≤ n := by
  induction ks with
  | nil => simp [Elem.depthL]
  | cons k ks ih =>
    simp only [Elem.depthL, List.mem_cons, forall_eq_or_imp, ← ih]
    omega

end DS
