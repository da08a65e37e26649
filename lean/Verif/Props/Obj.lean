import Verif.Lemmas.Obj
import Verif.Lemmas.Join
import Verif.Model.Concrete
/-!
# Properties of model classes, instances and flags: C43, C44, C45, C48, C55
-/
set_option linter.unusedSectionVars false

namespace DS
variable {V E : Type} [PyVal V]

/-! ## C43 -/

/-- **C43 (partial)** For classes with one identifier, and otherwise for identifier values whose strings do
not contain `"__"` nor end in `"_"` (`SafeId`), two objects of one class have the same unique id exactly
when all identifiers have the same string form.  Missing: arbitrary strings with several identifiers,
where it is false (`Ex.C43_not_injective`). -/
theorem C43_unique_ids_partial (m m' : Model V) (hc : m'.cls = m.cls)
    (hs : m.cls.identifiers.length = 1 ∨
      ∀ k ∈ m.cls.identifiers, SafeId (m.strField k) ∧ SafeId (m'.strField k)) :
    m.uid = m'.uid ↔ ∀ k ∈ m.cls.identifiers, m.strField k = m'.strField k := by
  constructor
  · intro h
    have hl : m.cls.identifiers.map m.strField = m.cls.identifiers.map m'.strField := by
      unfold Model.uid at h
      rw [hc] at h
      rcases hs with h1 | hs
      · match hi : m.cls.identifiers, h1 with
        | [k], _ => rw [hi] at h; simpa [joinSep] using h
      · apply joinSep_inj (by simp) _ _ h
        · intro s hx; obtain ⟨k, hk, rfl⟩ := List.mem_map.1 hx; exact (hs k hk).1
        · intro s hx; obtain ⟨k, hk, rfl⟩ := List.mem_map.1 hx; exact (hs k hk).2
    intro k hk
    exact List.map_inj_left.1 hl k hk
  · intro h
    unfold Model.uid
    rw [hc, List.map_congr_left h]

/-- **C43** Looking an object up by its identifier dictionary and by its unique id string is the same
operation, for both stores and whatever is stored. -/
theorem C43_get_by_dict_or_uid (A : Adapter V) (m : Model V) (hc : m.cls.Valid) (hm : m.Complete) (w : World V E) :
    get A (.cls m.cls) (.dict m.identifiers) w = get A (.cls m.cls) (.uid m.uid) w ∧
    (Dict.get? A.classes m.type = some m.cls →
      get A (.name m.type) (.dict m.identifiers) w = get A (.name m.type) (.uid m.uid) w) := by
  have := Model.uid_eq_createUniqueId m hc hm
  unfold get resolve
  simp only [this]
  refine ⟨trivial, fun h => ?_⟩
  simp only [h, this]

/-! ## C44 -/

/-- An `add_child` / `remove_child` call, by the child's type and unique id. -/
inductive ChildOp where
  | add (type uid : String)
  | remove (type uid : String)

/-- The object after a call (unchanged if it raised). -/
def ChildOp.run (m : Model V) : ChildOp → Model V
  | .add t u => match m.addChild t u with | .ok m' => m' | .error _ => m
  | .remove t u => match m.removeChild t u with | .ok m' => m' | .error _ => m

/-- **C44** `add_child`: exactly one of three outcomes, decided by the declared child types and the list. -/
theorem C44_add_child (m : Model V) (hm : m.Complete) (t u : String) :
    (t ∉ Dict.keys m.cls.children → m.addChild t u = .error .objectStoreWrongType) ∧
    (∀ f, Dict.get? m.cls.children t = some f → ∃ l, m.kidList f = some l ∧
      (u ∈ l → m.addChild t u = .error .objectAlreadyExists) ∧
      (u ∉ l → ∃ m', m.addChild t u = .ok m' ∧ m'.kidList f = some (l ++ [u]) ∧
        (∀ g, g ≠ f → m'.kidList g = m.kidList g) ∧ m'.cls = m.cls ∧ m'.vals = m.vals ∧ m'.flags = m.flags)) := by
  constructor
  · intro h
    unfold Model.addChild
    rw [Dict.get?_eq_none_iff.2 h]
  · intro f hf
    have : f ∈ Dict.keys m.kids := (hm.kids_keys f).2 (List.mem_map.2 ⟨(t, f), Dict.mem_of_get? hf, rfl⟩)
    obtain ⟨l, hl⟩ := Dict.mem_keys_iff.1 this
    refine ⟨l, hl, fun hu => ?_, fun hu => ?_⟩
    · unfold Model.addChild Model.kidList; rw [hf]; simp [hl, hu]
    · refine ⟨{ m with kids := Dict.set m.kids f (l ++ [u]) }, by unfold Model.addChild Model.kidList; rw [hf]; simp only [hl]; rw [if_neg (by simpa using hu)], ?_, ?_, rfl, rfl, rfl⟩
      · simp [Model.kidList]
      · intro g hg; simp only [Model.kidList]; rw [Dict.get?_set_ne _ (Ne.symm hg)]

/-- **C44** An object that lacks the field itself (as `model_construct` can make one) raises `AttributeError` in both methods. -/
theorem C44_no_list (m : Model V) (t f u : String) (hf : Dict.get? m.cls.children t = some f) (hl : m.kidList f = none) :
    m.addChild t u = .error .attributeError ∧ m.removeChild t u = .error .attributeError := by
  unfold Model.addChild Model.removeChild
  rw [hf]
  simp only [hl]
  exact ⟨trivial, trivial⟩

/-- **C44** `remove_child`: likewise. -/
theorem C44_remove_child (m : Model V) (hm : m.Complete) (t u : String) :
    (t ∉ Dict.keys m.cls.children → m.removeChild t u = .error .objectStoreWrongType) ∧
    (∀ f, Dict.get? m.cls.children t = some f → ∃ l, m.kidList f = some l ∧
      (u ∉ l → m.removeChild t u = .error .objectNotFound) ∧
      (u ∈ l → ∃ m', m.removeChild t u = .ok m' ∧ m'.kidList f = some (l.erase u) ∧
        (∀ g, g ≠ f → m'.kidList g = m.kidList g) ∧ m'.cls = m.cls ∧ m'.vals = m.vals ∧ m'.flags = m.flags)) := by
  constructor
  · intro h
    unfold Model.removeChild
    rw [Dict.get?_eq_none_iff.2 h]
  · intro f hf
    have : f ∈ Dict.keys m.kids := (hm.kids_keys f).2 (List.mem_map.2 ⟨(t, f), Dict.mem_of_get? hf, rfl⟩)
    obtain ⟨l, hl⟩ := Dict.mem_keys_iff.1 this
    refine ⟨l, hl, fun hu => ?_, fun hu => ?_⟩
    · unfold Model.removeChild Model.kidList; rw [hf]; simp [hl, hu]
    · refine ⟨{ m with kids := Dict.set m.kids f (l.erase u) }, by unfold Model.removeChild Model.kidList; rw [hf]; simp only [hl]; rw [if_pos (by simpa using hu)], ?_, ?_, rfl, rfl, rfl⟩
      · simp [Model.kidList]
      · intro g hg; simp only [Model.kidList]; rw [Dict.get?_set_ne _ (Ne.symm hg)]

theorem Dict.set_set {α : Type} (d : Dict α) (k : String) (v w : α) : Dict.set (Dict.set d k v) k w = Dict.set d k w := by
  induction d with
  | nil => simp [Dict.set]
  | cons p d ih =>
    obtain ⟨x, y⟩ := p
    simp only [Dict.set]
    split <;> simp_all [Dict.set]

theorem Dict.set_self {α : Type} {d : Dict α} {k : String} {v : α} (h : Dict.get? d k = some v) : Dict.set d k v = d := by
  induction d with
  | nil => simp at h
  | cons p d ih =>
    obtain ⟨x, y⟩ := p
    rw [Dict.get?_cons] at h
    simp only [Dict.set]
    split at h
    · cases h; simp_all
    · simp_all

/-- **C44** `remove_child` undoes `add_child` exactly. -/
theorem C44_remove_undoes_add (m m' : Model V) (t u : String) (h : m.addChild t u = .ok m') :
    m'.removeChild t u = .ok m := by
  unfold Model.addChild at h
  split at h
  · cases h
  · rename_i f hf
    split at h
    · cases h
    · rename_i l hl
      split at h
      · cases h
      · rename_i hu
        cases h
        have hu' : u ∉ l := by simpa using hu
        unfold Model.removeChild Model.kidList
        simp only [hf, Dict.get?_set_self]
        simp only [List.contains_eq_mem, List.mem_append, List.mem_singleton, or_true, decide_true, if_true]
        congr 1
        have : (l ++ [u]).erase u = l := by
          rw [List.erase_append_right _ hu']; simp
        rw [this, Dict.set_set, Dict.set_self hl]

/-- **C44** No sequence of `add_child`/`remove_child` calls, failing or not, puts an id twice into a child list. -/
theorem C44_no_duplicates (m : Model V) (ops : List ChildOp)
    (h : ∀ f l, m.kidList f = some l → l.Nodup) (f : String) (l : List String)
    (hl : (ops.foldl ChildOp.run m).kidList f = some l) : l.Nodup := by
  induction ops generalizing m with
  | nil => exact h f l hl
  | cons op ops ih =>
    refine ih _ ?_ hl
    intro g l' hg
    cases op with
    | add t u =>
      unfold ChildOp.run at hg
      simp only at hg
      split at hg
      · rename_i m' hm'
        unfold Model.addChild at hm'
        split at hm'
        · cases hm'
        · split at hm'
          · cases hm'
          · rename_i l0 hl0
            split at hm'
            · cases hm'
            · rename_i hu
              cases hm'
              unfold Model.kidList at hg
              rw [Dict.get?_set] at hg
              split at hg
              · cases hg
                rw [List.nodup_append]
                exact ⟨h _ _ hl0, by simp, fun a ha b hb => by
                  simp only [List.mem_singleton] at hb; subst hb; intro he; subst he; simp at hu; exact hu ha⟩
              · exact h g l' hg
      · exact h g l' hg
    | remove t u =>
      unfold ChildOp.run at hg
      simp only at hg
      split at hg
      · rename_i m' hm'
        unfold Model.removeChild at hm'
        split at hm'
        · cases hm'
        · split at hm'
          · cases hm'
          · rename_i l0 hl0
            split at hm'
            · cases hm'
              unfold Model.kidList at hg
              rw [Dict.get?_set] at hg
              split at hg
              · cases hg; exact (h _ _ hl0).erase _
              · exact h g l' hg
            · cases hm'
      · exact h g l' hg

/-! ## C45 -/

/-- **C45** A subclass declaration is accepted exactly when the class variables refer to fields (identifiers
may be other class attributes) and no field is in two of the three groups; otherwise `AttributeError`. -/
theorem C45_class_validation (fields others ids short attrs : List String) (children : Dict String) :
    (validateClass fields others ids short attrs children = .ok () ∨
      validateClass fields others ids short attrs children = .error .attributeError) ∧
    (validateClass fields others ids short attrs children = .ok () ↔
      (∀ a ∈ ids, a ∈ fields ∨ a ∈ others) ∧ (∀ a ∈ short, a ∈ fields) ∧ (∀ a ∈ attrs, a ∈ fields) ∧
      (∀ t f, (t, f) ∈ children → f ∈ fields) ∧
      (∀ a, ¬ (a ∈ ids ∧ a ∈ attrs)) ∧ (∀ a t, ¬ (a ∈ ids ∧ (t, a) ∈ children)) ∧
      (∀ a t, ¬ (a ∈ attrs ∧ (t, a) ∈ children))) := by
  have hval : ∀ a, a ∈ Dict.values children ↔ ∃ t, (t, a) ∈ children := by
    intro a; simp [Dict.values]
  unfold validateClass
  constructor
  · repeat' split
    all_goals simp
  · repeat' split
    · rename_i h; simp only [reduceCtorEq, false_iff]
      simp only [List.any_eq_true, Bool.and_eq_true, Bool.not_eq_true', List.contains_eq_mem, decide_eq_false_iff_not] at h
      obtain ⟨a, h1, h2, h3⟩ := h
      exact fun ⟨g, _⟩ => (g a h1).elim h2 h3
    · rename_i h; simp only [reduceCtorEq, false_iff]
      simp only [List.any_eq_true, Bool.not_eq_true', List.contains_eq_mem, decide_eq_false_iff_not] at h
      obtain ⟨a, h1, h2⟩ := h
      exact fun ⟨_, g, _⟩ => h2 (g a h1)
    · rename_i h; simp only [reduceCtorEq, false_iff]
      simp only [List.any_eq_true, Bool.not_eq_true', List.contains_eq_mem, decide_eq_false_iff_not] at h
      obtain ⟨a, h1, h2⟩ := h
      exact fun ⟨_, _, g, _⟩ => h2 (g a h1)
    · rename_i h; simp only [reduceCtorEq, false_iff]
      simp only [List.any_eq_true, Bool.not_eq_true', List.contains_eq_mem, decide_eq_false_iff_not] at h
      obtain ⟨a, h1, h2⟩ := h
      obtain ⟨t, ht⟩ := (hval a).1 h1
      exact fun ⟨_, _, _, g, _⟩ => h2 (g t a ht)
    · rename_i h; simp only [reduceCtorEq, false_iff]
      simp only [List.any_eq_true, List.contains_eq_mem, decide_eq_true_eq] at h
      obtain ⟨a, h1, h2⟩ := h
      exact fun ⟨_, _, _, _, g, _⟩ => g a ⟨h1, h2⟩
    · rename_i h; simp only [reduceCtorEq, false_iff]
      simp only [List.any_eq_true, List.contains_eq_mem, decide_eq_true_eq] at h
      obtain ⟨a, h1, h2⟩ := h
      obtain ⟨t, ht⟩ := (hval a).1 h2
      exact fun ⟨_, _, _, _, _, g, _⟩ => g a t ⟨h1, ht⟩
    · rename_i h; simp only [reduceCtorEq, false_iff]
      simp only [List.any_eq_true, List.contains_eq_mem, decide_eq_true_eq] at h
      obtain ⟨a, h1, h2⟩ := h
      obtain ⟨t, ht⟩ := (hval a).1 h2
      exact fun ⟨_, _, _, _, _, _, g⟩ => g a t ⟨h1, ht⟩
    · rename_i h1 h2 h3 h4 h5 h6 h7
      simp only [List.any_eq_true, Bool.and_eq_true, Bool.not_eq_true', List.contains_eq_mem, decide_eq_false_iff_not,
        decide_eq_true_eq, not_exists, not_and, Decidable.not_not] at h1 h2 h3 h4 h5 h6 h7
      simp only [true_iff]
      refine ⟨fun a ha => ?_, h2, h3, fun t f h => h4 f ((hval f).2 ⟨t, h⟩), fun a h => h5 a h.1 h.2,
        fun a t h => h6 a h.1 ((hval a).2 ⟨t, h.2⟩), fun a t h => h7 a h.1 ((hval a).2 ⟨t, h.2⟩)⟩
      by_cases hf : a ∈ fields
      · exact .inl hf
      · exact .inr (h1 a ha hf)

/-- **C45** Consequence for instances of an accepted class: `get_identifiers()` and `get_attrs()` never share a
key. -/
theorem C45_ids_attrs_disjoint (m : Model V) (fields others : List String)
    (h : validateClass fields others m.cls.identifiers m.cls.shortname m.cls.attributes m.cls.children = .ok ()) (k : String) :
    ¬ (k ∈ Dict.keys m.identifiers ∧ k ∈ Dict.keys m.attrs) := by
  rintro ⟨h1, h2⟩
  obtain ⟨v, hv⟩ := Dict.mem_keys_iff.1 h1
  obtain ⟨w, hw⟩ := Dict.mem_keys_iff.1 h2
  rw [Model.get?_identifiers] at hv
  rw [Model.get?_attrs] at hw
  split at hv
  · split at hw
    · rename_i a b
      exact ((C45_class_validation _ _ _ _ _ _).2.1 h).2.2.2.2.1 k ⟨a, b⟩
    · cases hw
  · cases hv

/-! ## C55 -/

/-- **C55** An adapter class is accepted exactly when every model class is stored under its own type name and
every `top_level` entry names a model class. -/
theorem C55_adapter_validation (A : Adapter V) :
    A.validate = .ok () ↔ (∀ n c, (n, c) ∈ A.classes → c.name = n) ∧ (∀ t ∈ A.topLevel, ∃ c, (t, c) ∈ A.classes) := by
  unfold Adapter.validate
  have hk : ∀ t, Dict.has A.classes t = true ↔ ∃ c, (t, c) ∈ A.classes := by
    intro t; rw [Dict.has_iff]; simp [Dict.keys]
  repeat' split
  · rename_i h; simp only [reduceCtorEq, false_iff]
    simp only [List.any_eq_true, Bool.not_eq_true', beq_eq_false_iff_ne] at h
    obtain ⟨p, h1, h2⟩ := h
    exact fun ⟨g, _⟩ => h2 (g p.1 p.2 h1)
  · rename_i h; simp only [reduceCtorEq, false_iff]
    simp only [List.any_eq_true, Bool.not_eq_true'] at h
    obtain ⟨t, h1, h2⟩ := h
    intro ⟨_, g⟩
    rw [(hk t).2 (g t h1)] at h2; cases h2
  · rename_i h1 h2
    simp only [List.any_eq_true, Bool.not_eq_true', beq_eq_false_iff_ne, not_exists, not_and, Decidable.not_not,
      Bool.not_eq_false] at h1 h2
    simp only [true_iff]
    exact ⟨fun n c h => h1 (n, c) h, fun t ht => (hk t).1 (h2 t ht)⟩

/-- **C55** And a class that is not accepted is refused with `AttributeError`. -/
theorem C55_adapter_refused (A : Adapter V) :
    A.validate = .error .attributeError ↔ (∃ n c, (n, c) ∈ A.classes ∧ c.name ≠ n) ∨ ∃ t ∈ A.topLevel, ∀ c, (t, c) ∉ A.classes := by
  have h : A.validate = .ok () ∨ A.validate = .error .attributeError := by
    unfold Adapter.validate
    repeat' split
    all_goals simp
  have h2 := C55_adapter_validation A
  constructor
  · intro he
    rw [he] at h2
    simp only [reduceCtorEq, false_iff] at h2
    refine Classical.byContradiction fun hn => h2 ⟨fun n c hm => ?_, fun t ht => ?_⟩
    · exact Classical.byContradiction fun hc => hn (.inl ⟨n, c, hm, hc⟩)
    · exact Classical.byContradiction fun hc => hn (.inr ⟨t, ht, fun c hm => hc ⟨c, hm⟩⟩)
  · intro hr
    rcases h with h | h
    · obtain ⟨h3, h4⟩ := h2.1 h
      rcases hr with ⟨n, c, hm, hc⟩ | ⟨t, ht, hc⟩
      · exact absurd (h3 n c hm) hc
      · obtain ⟨c, hm⟩ := h4 t ht
        exact absurd hm (hc c)
    · exact h

/-! ## C48 -/

/-- `flags &= ~mask` on flag values. -/
def clearFlags (flags mask : Nat) : Nat := flags ^^^ (flags &&& mask)

theorem flagOn_pow (f i : Nat) : flagOn f (2 ^ i) = f.testBit i := by
  unfold flagOn
  cases h : f.testBit i with
  | true =>
    rw [bne_iff_ne]
    intro h0
    have := congrArg (fun x => Nat.testBit x i) h0
    simp [Nat.testBit_and, h] at this
  | false =>
    rw [bne_eq_false_iff_eq]
    apply Nat.eq_of_testBit_eq
    intro j
    rw [Nat.testBit_and, Nat.testBit_two_pow, Nat.zero_testBit]
    by_cases hj : i = j
    · subst hj; simp [h]
    · simp [hj]

theorem flagOn_or_mask (f a b : Nat) : flagOn f (a ||| b) = (flagOn f a || flagOn f b) := by
  unfold flagOn
  rw [Nat.and_or_distrib_left]
  cases h1 : (f &&& a != 0) <;> cases h2 : (f &&& b != 0)
  · simp only [bne_eq_false_iff_eq] at h1 h2; simp [h1, h2]
  · simp only [bne_eq_false_iff_eq] at h1; rw [h1]; simpa using h2
  · simp only [bne_eq_false_iff_eq] at h2; rw [h2]; simpa using h1
  · simp only [bne_iff_ne] at h1
    simp only [Bool.or_true, bne_iff_ne]
    intro h
    exact h1 (Nat.or_eq_zero_iff.1 h).1

/-- **C48** Setting / clearing the flag of bit `i` sets / clears exactly that flag. -/
theorem C48_set_clear (f i j : Nat) :
    flagOn (f ||| 2 ^ i) (2 ^ j) = (decide (i = j) || flagOn f (2 ^ j)) ∧
    flagOn (clearFlags f (2 ^ i)) (2 ^ j) = (!decide (i = j) && flagOn f (2 ^ j)) := by
  simp only [flagOn_pow, clearFlags, Nat.testBit_or, Nat.testBit_xor, Nat.testBit_and, Nat.testBit_two_pow]
  by_cases h : i = j
  · simp [h]
  · simp [h]

/-- **C48** The declared flags are distinct single bits, and the BOTH flags test true exactly when one of the two
does; setting BOTH sets both and no other flag. -/
theorem C48_named_flags :
    [MF.IGNORE, MF.SKIP_CHILDREN_ON_DELETE, MF.SKIP_UNMATCHED_SRC, MF.SKIP_UNMATCHED_DST, MF.NATURAL_DELETION_ORDER] =
      [2 ^ 0, 2 ^ 1, 2 ^ 2, 2 ^ 3, 2 ^ 4] ∧
    [GF.CONTINUE_ON_FAILURE, GF.SKIP_UNMATCHED_SRC, GF.SKIP_UNMATCHED_DST, GF.LOG_UNCHANGED_RECORDS] =
      [2 ^ 0, 2 ^ 1, 2 ^ 2, 2 ^ 3] ∧
    (∀ f, flagOn f MF.SKIP_UNMATCHED_BOTH = (flagOn f MF.SKIP_UNMATCHED_SRC || flagOn f MF.SKIP_UNMATCHED_DST)) ∧
    (∀ f, flagOn f GF.SKIP_UNMATCHED_BOTH = (flagOn f GF.SKIP_UNMATCHED_SRC || flagOn f GF.SKIP_UNMATCHED_DST)) ∧
    (∀ f j, flagOn (f ||| MF.SKIP_UNMATCHED_BOTH) (2 ^ j) = (j == 2 || j == 3 || flagOn f (2 ^ j))) ∧
    (∀ f j, flagOn (f ||| GF.SKIP_UNMATCHED_BOTH) (2 ^ j) = (j == 1 || j == 2 || flagOn f (2 ^ j))) := by
  refine ⟨by decide, by decide, fun f => flagOn_or_mask f _ _, fun f => flagOn_or_mask f _ _, ?_, ?_⟩
  · intro f j
    have : MF.SKIP_UNMATCHED_BOTH = 2 ^ 2 ||| 2 ^ 3 := by decide
    rw [this]
    simp only [flagOn_pow, Nat.testBit_or, Nat.testBit_two_pow]
    by_cases h2 : j = 2
    · subst h2; simp
    by_cases h3 : j = 3
    · subst h3; simp
    · simp [h2, h3, Ne.symm h2, Ne.symm h3]
  · intro f j
    have : GF.SKIP_UNMATCHED_BOTH = 2 ^ 1 ||| 2 ^ 2 := by decide
    rw [this]
    simp only [flagOn_pow, Nat.testBit_or, Nat.testBit_two_pow]
    by_cases h2 : j = 1
    · subst h2; simp
    by_cases h3 : j = 2
    · subst h3; simp
    · simp [h2, h3, Ne.symm h2, Ne.symm h3]

/-! ## Concrete cases -/
namespace Ex

theorem valid_of_check {c : ModelClass V} (h : c.fieldNames.Nodup ∧ (Dict.keys c.children).Nodup ∧
    (∀ k ∈ c.identifiers, k ∈ c.fieldNames) ∧ (∀ k ∈ c.shortname, k ∈ c.fieldNames) ∧
    (∀ k ∈ c.attributes, k ∈ c.fieldNames) ∧ (∀ k ∈ c.identifiers, k ∉ c.attributes)) : c.Valid :=
  ⟨h.1, h.2.1, h.2.2.1, h.2.2.2.1, h.2.2.2.2.1, h.2.2.2.2.2⟩

theorem siteC_valid : siteC.Valid := valid_of_check (by decide +kernel)
theorem deviceC_valid : deviceC.Valid := valid_of_check (by decide +kernel)
theorem interfaceC_valid : interfaceC.Valid := valid_of_check (by decide +kernel)

theorem complete_of_check {m : Model V} (h : Dict.keys m.vals = m.cls.fieldNames ∧ (Dict.keys m.kids).Nodup ∧
    Dict.keys m.kids = m.cls.childFields) : m.Complete := ⟨h.1, h.2.1, fun f => by rw [h.2.2]⟩

-- C43: two interfaces meeting the hypotheses (two identifiers, safe strings)
example : ∀ k ∈ interfaceC.identifiers, SafeId ((interface "a" "eth0" "x").strField k) ∧
    SafeId ((interface "b" "eth0" "y").strField k) := by
  unfold SafeId; decide +kernel
example : (interface "a" "eth0" "x").uid = "a__eth0" ∧ (interface "a" "eth0" "x").Complete :=
  ⟨by decide +kernel, complete_of_check (by decide +kernel)⟩

/-- **C43**, negative part: different identifier values, same unique id. -/
theorem C43_not_injective : ∃ m m' : Model String, m.cls = m'.cls ∧ m.cls.Valid ∧ m.Complete ∧ m'.Complete ∧
    (∃ k ∈ m.cls.identifiers, m.strField k ≠ m'.strField k) ∧ m.uid = m'.uid :=
  ⟨interface "a__b" "c" "", interface "a" "b__c" "", rfl, interfaceC_valid,
    complete_of_check (by decide +kernel), complete_of_check (by decide +kernel), by decide +kernel, by decide +kernel⟩

-- C44
example : Dict.get? (site "nyc" []).cls.children "device" = some "devices" ∧ ({ site "nyc" [] with kids := [] } : Model String).kidList "devices" = none := by decide +kernel
example : (site "nyc" ["a"]).addChild "device" "b" = .ok (site "nyc" ["a", "b"]) ∧
    (site "nyc" ["a"]).addChild "device" "a" = .error .objectAlreadyExists ∧
    (site "nyc" ["a"]).addChild "interface" "a" = .error .objectStoreWrongType ∧ (site "nyc" ["a"]).Complete :=
  ⟨by decide +kernel, by decide +kernel, by decide +kernel, complete_of_check (by decide +kernel)⟩
-- C45
example : validateClass ["name", "site", "role", "interfaces"] ["x"] ["name", "x"] [] ["role"] [("interface", "interfaces")] = .ok () ∧
    validateClass ["name", "role"] [] ["name"] [] ["name"] [] = .error .attributeError := by decide +kernel
-- C55
example : ({ ad 1 with classes := [("rack", siteC)] } : Adapter String).validate = .error .attributeError :=
  (C55_adapter_refused _).2 (.inl ⟨"rack", siteC, by simp, by decide⟩)
example : (ad 1).validate = .ok () ∧ ({ ad 1 with topLevel := ["rack"] }).validate = .error .attributeError := by decide +kernel
-- C48
example : flagOn (MF.IGNORE ||| MF.SKIP_UNMATCHED_BOTH) MF.SKIP_UNMATCHED_DST = true ∧
    flagOn (clearFlags 31 MF.IGNORE) MF.IGNORE = false := by decide +kernel

end Ex
end DS
