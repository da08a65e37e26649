import Verif.Lemmas.DiffDict
import Verif.Lemmas.Obj
import Verif.Model.Concrete
/-!
# Properties of `Diff` and `DiffElement`: C01-C05, C07-C09, C54

`Elem` is a `DiffElement`, `Diff` a `Diff`; `InTree`, `countAction`, `DiffersAt`, `Reorders`,
`UniqueNames`, `get2`, `addAll` are defined in Verif/Spec/Diff.lean.
-/

set_option linter.unusedSectionVars false

namespace DS
variable {V : Type} [PyVal V]

/-! ## C01 -/

/-- **C01** `action` is create / delete / update / None exactly in the four stated situations. -/
theorem C01_action_classification (e : Elem V) :
    (e.action = some .create ↔ e.src ≠ none ∧ e.dst = none) ∧
    (e.action = some .delete ↔ e.src = none ∧ e.dst ≠ none) ∧
    (e.action = some .update ↔ e.src ≠ none ∧ e.dst ≠ none ∧ ∃ k, e.DiffersAt k) ∧
    (e.action = none ↔ (e.src = none ∧ e.dst = none) ∨
      (e.src ≠ none ∧ e.dst ≠ none ∧ ¬ ∃ k, e.DiffersAt k)) := by
  have hu : e.action = some .update ↔ ∃ k, e.DiffersAt k := action_update_iff
  rw [← hu]
  cases hs : e.src <;> cases hd : e.dst <;> simp only [Elem.action, hs, hd] <;> simp

/-! ## C02 -/

/-- **C02** `has_diffs()` of a diff is true exactly when some element at any depth has an action,
equivalently when `summary()` counts a create, update or delete, equivalently when `dict()` is not
empty. -/
theorem C02_has_diffs (d : Diff V) (hdc : d.cls.Reorders) :
    (d.hasDiffs = true ↔ ∃ e, InTree e d.kids ∧ e.action ≠ none) ∧
    (d.hasDiffs = true ↔ 0 < d.summary.create + d.summary.update + d.summary.delete) ∧
    (d.hasDiffs = true ↔ d.dict ≠ []) := by
  refine ⟨hasDiffsL_iff d.kids, ?_, (dict_ne_nil_iff d hdc).symm⟩
  unfold Diff.hasDiffs
  rw [hasDiffsL_iff, Diff.summary_eq_nodes d hdc]
  simp only [Summary.ofNodes]
  constructor
  · rintro ⟨e, he, ha⟩
    have hm := (mem_nodesL_iff d.kids e).2 he
    cases hae : e.action with
    | none => exact absurd hae ha
    | some a =>
      have : 0 < List.countP (fun e => decide (e.action = some a)) (nodesL d.kids) :=
        List.countP_pos_iff.2 ⟨e, hm, by simp [hae]⟩
      cases a <;> omega
  · intro h
    have : 0 < List.countP (fun e => decide (e.action = some .create)) (nodesL d.kids) ∨
        0 < List.countP (fun e => decide (e.action = some .update)) (nodesL d.kids) ∨
        0 < List.countP (fun e => decide (e.action = some .delete)) (nodesL d.kids) := by omega
    rcases this with h | h | h <;>
    · obtain ⟨e, he, ha⟩ := List.countP_pos_iff.1 h
      exact ⟨e, (mem_nodesL_iff _ _).1 he, by rw [of_decide_eq_true ha]; simp⟩

/-- **C02**, element level: `has_diffs(include_children=False)` is "the own action is not None";
`has_diffs()` is "some action in the subtree is not None". -/
theorem C02_element_has_diffs (e : Elem V) :
    (e.hasDiffsOwn = true ↔ e.action ≠ none) ∧
    (e.hasDiffs = true ↔ e.action ≠ none ∨ ∃ x, InTree x e.kids ∧ x.action ≠ none) := by
  refine ⟨?_, hasDiffs_iff e⟩
  rw [Elem.hasDiffsOwn_eq]
  cases e.action <;> simp

/-! ## C03 -/

/-- **C03** Entries of `get_attrs_diffs()`: for a two-sided element both "+" and "-" are present and
hold exactly the shared attributes that differ, with the source's resp. destination's value; for a
one-sided element the one entry is that side's complete attribute dictionary. -/
theorem C03_attrs_diffs_exact (e : Elem V) (hs : ∀ s, e.src = some s → Dict.WF s) (hd : ∀ d, e.dst = some d → Dict.WF d) :
    (e.src ≠ none → e.dst ≠ none → ∃ p m, e.plus = some p ∧ e.minus = some m ∧ Dict.keys p = Dict.keys m ∧
      (∀ k v, Dict.get? p k = some v ↔ e.DiffersAt k ∧ e.srcVal k = some v) ∧
      (∀ k v, Dict.get? m k = some v ↔ e.DiffersAt k ∧ e.dstVal k = some v)) ∧
    (e.dst = none → e.plus = e.src ∧ e.minus = none) ∧
    (e.src = none → e.minus = e.dst ∧ e.plus = none) := by
  have pickAll : ∀ d : Dict V, Dict.WF d → Elem.pick d (Dict.keys d) = d := by
    intro d hd
    apply Dict.ext_of_keys
    · unfold Dict.WF; rw [keys_pick _ _ (fun _ h => h)]; exact hd
    · exact keys_pick _ _ (fun _ h => h)
    · intro x
      rw [get?_pick]
      split
      · rfl
      · rename_i h; exact (Dict.get?_eq_none_iff.2 h).symm
  obtain ⟨t, n, ks, sn, dn, s, d, kids⟩ := e
  cases s with
  | none =>
    cases d with
    | none => simp [Elem.plus, Elem.minus]
    | some d => simp [Elem.plus, Elem.minus, Elem.attrsKeys, pickAll d (hd d rfl)]
  | some s =>
    cases d with
    | none => simp [Elem.plus, Elem.minus, Elem.attrsKeys, pickAll s (hs s rfl)]
    | some d =>
      refine ⟨fun _ _ => ⟨_, _, rfl, rfl, ?_, ?_, ?_⟩, by simp, by simp⟩
      · rw [keys_pick, keys_pick]
        · intro k hk; exact (mem_intersection.1 (List.mem_filter.1 hk).1).1
        · intro k hk; exact (mem_intersection.1 (List.mem_filter.1 hk).1).2
      all_goals
        intro k v
        rw [get?_pick]
        simp only [Elem.attrsKeys, List.mem_filter, mem_intersection, Elem.DiffersAt, Elem.srcVal, Elem.dstVal,
          Option.bind_some]
        constructor
        · intro h
          split at h
          · rename_i hk; exact ⟨differs_iff.1 hk.2, h⟩
          · cases h
        · rintro ⟨hk, h⟩
          rw [if_pos, h]
          obtain ⟨a, b, h1, h2, h3⟩ := hk
          exact ⟨⟨Dict.mem_keys_iff.2 ⟨b, h2⟩, Dict.mem_keys_iff.2 ⟨a, h1⟩⟩, differs_iff.2 ⟨a, b, h1, h2, h3⟩⟩

/-! ## C04 -/

/-- **C04** Setting the "+" attributes of an update element on the destination object raises nothing,
gives every differing attribute the source's value, leaves every other field, the child lists and the
flags as they were; if `==` is reflexive on the source's values, the element recomputed with the new
object has no action; and leaving out any one entry of "+" still leaves an update. -/
theorem C04_update_sufficient_minimal (e : Elem V) (m : Model V) (s p : Dict V)
    (hc : m.cls.Valid) (hm : m.Complete) (hs : e.src = some s) (hd : e.dst = some m.attrs) (hp : e.plus = some p) :
    (m.setattrs p).2 = none ∧
    (∀ k, e.DiffersAt k → Dict.get? (m.setattrs p).1.vals k = e.srcVal k) ∧
    (∀ k, ¬ e.DiffersAt k → Dict.get? (m.setattrs p).1.vals k = Dict.get? m.vals k) ∧
    (m.setattrs p).1.kids = m.kids ∧ (m.setattrs p).1.flags = m.flags ∧
    ((∀ k v, Dict.get? s k = some v → PyVal.eq v v = true) → { e with dst := some (m.setattrs p).1.attrs }.action = none) ∧
    (∀ k ∈ Dict.keys p, { e with dst := some (m.setattrs (Dict.erase p k)).1.attrs }.action = some .update) := by
  have hmw := Model.attrs_wf hm hc
  obtain ⟨t, n, ks, sn, dn, s', d, kids⟩ := e
  simp only at hs hd; subst hs hd
  simp only [Elem.plus, Option.some.injEq] at hp
  have hkeys : Dict.keys p = List.filter (Elem.differs s m.attrs) (intersection (Dict.keys m.attrs) (Dict.keys s)) := by
    rw [← hp, keys_pick]; rfl
    intro k hk; exact (mem_intersection.1 (List.mem_filter.1 hk).1).2
  have hmemk : ∀ k, k ∈ Dict.keys p ↔ ∃ v w, Dict.get? s k = some v ∧ Dict.get? m.attrs k = some w ∧ PyVal.eq v w = false := by
    intro k
    rw [hkeys, List.mem_filter, mem_intersection, differs_iff]
    constructor
    · exact fun h => h.2
    · rintro ⟨a, b, h1, h2, h3⟩
      exact ⟨⟨Dict.mem_keys_iff.2 ⟨b, h2⟩, Dict.mem_keys_iff.2 ⟨a, h1⟩⟩, a, b, h1, h2, h3⟩
  have hpw : Dict.WF p := by
    unfold Dict.WF; rw [hkeys]
    exact List.Pairwise.filter _ (List.Pairwise.filter _ hmw)
  have hget : ∀ k ∈ Dict.keys p, Dict.get? p k = Dict.get? s k := by
    intro k hk
    rw [← hp, get?_pick, if_pos]
    have := hk
    rw [hkeys] at this; exact this
  have hattr : ∀ k, k ∈ Dict.keys m.attrs → k ∈ m.cls.attributes ∧ k ∈ m.cls.fieldNames := by
    intro k hk
    rw [Model.keys_attrs m hm, List.mem_filter] at hk
    exact ⟨by simpa using hk.2, hk.1⟩
  have hsub : ∀ k ∈ Dict.keys p, k ∈ m.cls.attributes ∧ k ∈ m.cls.fieldNames := by
    intro k hk
    obtain ⟨v, w, _, h2, _⟩ := (hmemk k).1 hk
    exact hattr k (Dict.mem_keys_iff.2 ⟨w, h2⟩)
  obtain ⟨hok, hset⟩ := setattrs_all m p hpw (fun k hk => (hsub k hk).2)
  obtain ⟨hcls, hkids, hflags, hrest⟩ := setattrs_spec m p
  have hD : ∀ k, (⟨t, n, ks, sn, dn, some s, some m.attrs, kids⟩ : Elem V).DiffersAt k ↔ k ∈ Dict.keys p := by
    intro k; rw [hmemk]; rfl
  refine ⟨hok, ?_, ?_, hkids, hflags, ?_, ?_⟩
  · intro k hk
    rw [hD] at hk
    obtain ⟨v, hv⟩ := Dict.mem_keys_iff.1 hk
    rw [hset k v hv]
    show _ = Dict.get? s k
    rw [← hget k hk, hv]
  · intro k hk
    rw [hD] at hk
    exact hrest k hk
  · intro hrefl
    rw [(C01_action_classification _).2.2.2]
    right
    refine ⟨by simp, by simp, ?_⟩
    rintro ⟨k, v, w, h1, h2, h3⟩
    simp only [Elem.srcVal, Elem.dstVal, Option.bind_some, Model.get?_attrs, hcls] at h1 h2
    by_cases hk : k ∈ Dict.keys p
    · have hv : Dict.get? p k = some v := by rw [hget k hk, h1]
      rw [hset k v hv, if_pos (hsub k hk).1] at h2
      cases h2
      rw [hrefl k v h1] at h3; cases h3
    · rw [hrest k hk] at h2
      apply hk
      rw [hmemk]
      exact ⟨v, w, h1, by rw [Model.get?_attrs]; exact h2, h3⟩
  · intro k hk
    rw [action_update_iff]
    obtain ⟨v, w, h1, h2, h3⟩ := (hmemk k).1 hk
    refine ⟨k, v, w, h1, ?_, h3⟩
    show Dict.get? (m.setattrs (Dict.erase p k)).1.attrs k = some w
    obtain ⟨hcls', _, _, hrest'⟩ := setattrs_spec m (Dict.erase p k)
    rw [Model.get?_attrs, hcls', hrest' k (by rw [Dict.keys_erase]; simp), ← Model.get?_attrs]
    exact h2

/-! ## C05 -/

/-- **C05** The four counts of `summary()` add up to `len(diff)` for every Diff subclass, and are the
numbers of elements in the tree with that action when the order methods yield each child once. -/
theorem C05_summary_totals (d : Diff V) :
    d.summary.create + d.summary.update + d.summary.delete + d.summary.noChange = d.len ∧
    (d.cls.Reorders →
      d.summary.create = countAction (some .create) d.kids ∧ d.summary.update = countAction (some .update) d.kids ∧
      d.summary.delete = countAction (some .delete) d.kids ∧ d.summary.noChange = countAction none d.kids) := by
  refine ⟨Diff.total_eq_len d, fun hdc => ?_⟩
  rw [Diff.summary_eq_nodes d hdc]
  exact ⟨rfl, rfl, rfl, rfl⟩

/-! ## C07 -/

/-- **C07** Two Diff subclasses whose order methods only reorder agree on `len()`, `summary()` and
`has_diffs()` of the same children, and `get_children()` yields every child exactly once. -/
theorem C07_order_methods_only_reorder (dc dc' : DiffClass V) (h : dc.Reorders) (h' : dc'.Reorders)
    (kids : List (Elem V)) (p p' : Nat) :
    (getChildren dc kids).Perm kids ∧
    (⟨dc, kids, p⟩ : Diff V).len = (⟨dc', kids, p'⟩ : Diff V).len ∧
    (⟨dc, kids, p⟩ : Diff V).summary = (⟨dc', kids, p'⟩ : Diff V).summary ∧
    (⟨dc, kids, p⟩ : Diff V).hasDiffs = (⟨dc', kids, p'⟩ : Diff V).hasDiffs := by
  refine ⟨getChildren_perm h kids, ?_, ?_, rfl⟩
  · rw [Diff.len_eq_nodes _ h, Diff.len_eq_nodes _ h']
  · rw [Diff.summary_eq_nodes _ h, Diff.summary_eq_nodes _ h']

/-! ## C08 -/

/-- **C08** `Diff.add` succeeds exactly when no element has the same type and name, appending the
element; otherwise it raises ObjectAlreadyExists and the diff is unchanged. -/
theorem C08_add (d : Diff V) (e : Elem V) :
    ((∀ k ∈ d.kids, ¬ (k.type = e.type ∧ k.name = e.name)) →
      d.add e = (.ok (), { d with kids := d.kids ++ [e] })) ∧
    ((∃ k ∈ d.kids, k.type = e.type ∧ k.name = e.name) → d.add e = (.error .objectAlreadyExists, d)) := by
  unfold Diff.add
  constructor
  · intro h
    split
    · rename_i ks hk; rw [(addElem_ok hk).1]
    · rename_i err hk
      obtain ⟨_, k, hk, hc⟩ := addElem_error hk
      exact absurd hc (h k hk)
  · rintro ⟨k, hk, hc⟩
    split
    · rename_i ks hk'; exact absurd hc ((addElem_ok hk').2 k hk)
    · rename_i err hk'; rw [(addElem_error hk').1]

/-- **C08** No sequence of `add` calls on an empty diff (whether or not some of them raised) leads to
two elements with the same type and name. -/
theorem C08_unique_names (dc : DiffClass V) (es : List (Elem V)) :
    UniqueNames (addAll ({ cls := dc, kids := [] } : Diff V) es).kids := by
  have : ∀ d : Diff V, UniqueNames d.kids → UniqueNames (addAll d es).kids := by
    intro d hd
    induction es generalizing d with
    | nil => exact hd
    | cons e es ih =>
      apply ih
      show UniqueNames (d.add e).2.kids
      by_cases h : ∃ k ∈ d.kids, k.type = e.type ∧ k.name = e.name
      · rw [(C08_add d e).2 h]; exact hd
      · have h' : ∀ k ∈ d.kids, ¬ (k.type = e.type ∧ k.name = e.name) := fun k hk hc => h ⟨k, hk, hc⟩
        rw [(C08_add d e).1 h']; exact hd.snoc h'
  exact this _ List.Pairwise.nil

/-! ## C09 -/

/-- `(type, name)` of `a` is lexicographically before that of `b`. -/
def KeyBefore (a b : Elem V) : Prop := a.type < b.type ∨ (a.type = b.type ∧ a.name < b.name)

/-- **C09** `a < b` on elements is the lexicographic order of (type, name); it is a strict order, total on
elements with different (type, name). -/
theorem C09_element_order (a b c : Elem V) :
    (a.lt b = true ↔ KeyBefore a b) ∧
    a.lt a = false ∧
    (a.lt b = true → b.lt a = false) ∧
    (a.lt b = true → b.lt c = true → a.lt c = true) ∧
    (¬ (a.type = b.type ∧ a.name = b.name) → a.lt b = true ∨ b.lt a = true) := by
  have key : ∀ a b : Elem V, a.lt b = true ↔ KeyBefore a b := by
    intro a b; simp [Elem.lt, KeyBefore]
  refine ⟨key a b, ?_, ?_, ?_, ?_⟩
  · rw [← Bool.not_eq_true, key]
    rintro (h | ⟨_, h⟩) <;> exact String.lt_irrefl _ h
  · rw [← Bool.not_eq_true, key, key]
    rintro (h1 | ⟨h0, h1⟩) (h2 | ⟨h3, h2⟩)
    · exact String.lt_asymm h1 h2
    · rw [h3] at h1; exact String.lt_irrefl _ h1
    · rw [h0] at h2; exact String.lt_irrefl _ h2
    · exact String.lt_asymm h1 h2
  · rw [key, key, key]
    rintro (h1 | ⟨h0, h1⟩) (h2 | ⟨h3, h2⟩)
    · exact .inl (String.lt_trans h1 h2)
    · exact .inl (h3 ▸ h1)
    · exact .inl (h0 ▸ h2)
    · exact .inr ⟨h0.trans h3, String.lt_trans h1 h2⟩
  · rw [key, key]
    intro h
    have tri : ∀ x y : String, x < y ∨ x = y ∨ y < x := by
      intro x y
      by_cases h1 : x < y
      · exact .inl h1
      · by_cases h2 : y < x
        · exact .inr (.inr h2)
        · exact .inr (.inl (String.le_antisymm (String.not_lt.1 h2) (String.not_lt.1 h1)))
    rcases tri a.type b.type with h1 | h1 | h1
    · exact .inl (.inl h1)
    · rcases tri a.name b.name with h2 | h2 | h2
      · exact .inl (.inr ⟨h1, h2⟩)
      · exact absurd ⟨h1, h2⟩ h
      · exact .inr (.inr ⟨h1.symm, h2⟩)
    · exact .inr (.inl h1)

/-- **C09** Sorting is deterministic: two orderings of the same elements that are both ascending by `<` are
the same list. -/
theorem C09_sorting_deterministic (l1 l2 : List (Elem V)) (hp : l1.Perm l2)
    (h1 : l1.Pairwise (fun a b => a.lt b = true)) (h2 : l2.Pairwise (fun a b => a.lt b = true)) : l1 = l2 := by
  induction l1 generalizing l2 with
  | nil => exact (List.nil_perm.1 hp).symm
  | cons a l1 ih =>
    cases l2 with
    | nil => exact absurd hp.length_eq (by simp)
    | cons b l2 =>
      have p1 := List.pairwise_cons.1 h1
      have p2 := List.pairwise_cons.1 h2
      have hab : a = b := by
        have ha : a ∈ b :: l2 := hp.mem_iff.1 (by simp)
        have hb : b ∈ a :: l1 := hp.mem_iff.2 (by simp)
        rcases List.mem_cons.1 ha with h | ha'
        · exact h
        rcases List.mem_cons.1 hb with h | hb'
        · exact h.symm
        have x := p1.1 b hb'
        have y := p2.1 a ha'
        rw [(C09_element_order a b a).2.2.1 x] at y; cases y
      subst hab
      rw [ih l2 hp.cons_inv p1.2 p2.2]

/-! ## C54 -/

/-- **C54** `Diff.dict()` is a faithful nested rendering: `dict()[type][name]` exists exactly for the children
with differences, and holds that child's `get_attrs_diffs()` entries and the same rendering of its
children. -/
theorem C54_dict_faithful (d : Diff V) (hdc : d.cls.Reorders) (hu : UniqueNames d.kids) (t n : String) (x : ElemDict V) :
    get2 d.dict t n = some x ↔ ∃ c ∈ d.kids, c.type = t ∧ c.name = n ∧ c.hasDiffs = true ∧
      x.minus = c.minus ∧ x.plus = c.plus ∧ x.kids = ({ cls := d.cls, kids := c.kids } : Diff V).dict := by
  rw [get2_dict d hdc hu]
  constructor
  · rintro ⟨c, h1, h2, h3, h4, rfl⟩; exact ⟨c, h1, h2, h3, h4, rfl, rfl, rfl⟩
  · rintro ⟨c, h1, h2, h3, h4, h5, h6, h7⟩
    exact ⟨c, h1, h2, h3, h4, by cases x; simp_all⟩

/-! ## Concrete cases -/

namespace Ex

/-- An element with the given sides. -/
def el (t n : String) (s d : Option (Dict String)) (kids : List (Elem String) := []) : Elem String :=
  ⟨t, n, [("name", n)], "src", "dst", s, d, kids⟩

def tree1 : List (Elem String) :=
  [el "site" "nyc" (some []) (some []) [
     el "device" "a" (some [("role", "leaf"), ("x", "1")]) (some [("x", "1"), ("role", "spine"), ("y", "2")]),
     el "device" "b" (some [("role", "leaf")]) none [el "interface" "eth0" (some []) none]],
   el "site" "sfo" none (some []),
   el "site" "lax" (some []) (some [])]

/-- An order method that reverses each group. -/
def revOrder : DiffClass String := ⟨1, [1, 0], fun _ l => l.reverse, fun _ _ _ h => List.mem_reverse.1 h⟩

theorem revOrder_reorders : revOrder.Reorders := fun _ l => List.reverse_perm l
theorem default_reorders : (DiffClass.default V).Reorders := fun _ l => List.Perm.refl l

-- C01: each of the four situations occurs
example : (el "d" "a" (some []) none).action = some .create ∧ (el "d" "a" none (some [])).action = some .delete ∧
    (el "d" "a" (some [("r", "1")]) (some [("r", "2")])).action = some .update ∧
    (el "d" "a" (some [("r", "1"), ("s", "2")]) (some [("r", "1"), ("q", "3")])).action = none := by decide +kernel
-- C02, C05, C07: a tree with all four actions
example : (⟨revOrder, tree1, 0⟩ : Diff String).summary = ⟨2, 1, 1, 2⟩ ∧ (⟨revOrder, tree1, 0⟩ : Diff String).len = 6 ∧
    (⟨revOrder, tree1, 0⟩ : Diff String).hasDiffs = true ∧ ((⟨revOrder, tree1, 0⟩ : Diff String).dict).length = 1 := by decide +kernel
example : (⟨revOrder, tree1, 0⟩ : Diff String).cls.Reorders ∧ UniqueNames tree1 :=
  ⟨revOrder_reorders, by unfold UniqueNames tree1; simp [el]⟩
-- C03
example : (el "d" "a" (some [("role", "leaf"), ("x", "1")]) (some [("x", "1"), ("role", "spine"), ("y", "2")])).plus =
    some [("role", "leaf")] := by decide +kernel
-- C04: hypotheses met by a device whose role changes
example : deviceC.Valid ∧ (device "a" "spine" []).Complete := by
  refine ⟨⟨by decide +kernel, by decide +kernel, by decide +kernel, by decide +kernel, by decide +kernel, by decide +kernel⟩,
    by decide +kernel, by unfold Dict.WF; decide +kernel, ?_⟩
  intro f; simp [device, deviceC, ModelClass.childFields, Dict.keys, Dict.values]
example : ({ el "device" "a" (some [("role", "leaf")]) (some (device "a" "spine" []).attrs) with kids := [] }).plus =
    some [("role", "leaf")] := by decide +kernel
-- C08
example : ((addAll ({ cls := DiffClass.default String, kids := [] } : Diff String)
    [el "d" "a" none none, el "d" "a" (some []) none, el "e" "a" none none]).kids.map (fun e => (e.type, e.name))) =
    [("d", "a"), ("e", "a")] := by decide +kernel
-- C09
example : (el "d" "a" none none).lt (el "d" "b" none none) = true ∧ (el "e" "a" none none).lt (el "d" "b" none none) = false := by
  decide +kernel

/-- **C09**, negative part: `<` and `==` are not a total order on elements.  Two elements with the same type
and name and different attributes are neither `<`, `>`-reversed nor `==`, so `a <= b` and `b <= a` are both
false. -/
theorem C09_not_total : ∃ a b : Elem String, a.lt b = false ∧ b.lt a = false ∧ a.eq b = false ∧ a.le b = false ∧ b.le a = false :=
  ⟨el "d" "a" (some []) none, el "d" "a" none (some []), by decide +kernel⟩

end Ex
end DS
