import Verif.Lemmas.DiffErr
/-! # Which objects may be compared: `diff_object_list` and `validate_objects_for_diff`

`DiffSyncDiffer.diff_object_list(src, dst)` pairs the objects of two lists by unique id (/repo/diffsync/helpers.py:111-121) and, before it compares
anything, checks every pair (/repo/diffsync/helpers.py:140-161).  Here the lists are any lists at all: objects of several types, several objects with one
unique id, objects that no adapter holds. -/
set_option linter.unusedSectionVars false

namespace DS
variable {V E : Type} [PyVal V]

/-- Of several objects with one unique id in a list, the last. -/
def lastWithUid (l : List (Model V)) (u : String) : Option (Model V) := (l.filter (fun m => m.uid = u)).getLast?

/-- The documented precondition of comparing two objects: the same type, the same short name, equal identifiers. -/
structure MayCompare (s d : Model V) : Prop where
  type : s.type = d.type
  shortname : s.shortname = d.shortname
  identifiers : Dict.pyEq s.identifiers d.identifiers = true

/-- The exception for two objects that may not be compared: `TypeError` for different types, else `ValueError`. -/
def Mismatch (s d : Model V) (e : Err) : Prop :=
  (s.type ≠ d.type ∧ e = .typeError) ∨
  (s.type = d.type ∧ (s.shortname ≠ d.shortname ∨ Dict.pyEq s.identifiers d.identifiers = false) ∧ e = .valueError)

theorem validatePair_ok_iff {x : Option (Model V) × Option (Model V)} :
    validatePair x = .ok () ↔ ∀ s d, x = (some s, some d) → MayCompare s d := by
  obtain ⟨s, d⟩ := x
  cases s with
  | none => simp [validatePair]
  | some s =>
    cases d with
    | none => simp [validatePair]
    | some d =>
      simp only [validatePair]
      constructor
      · rintro h _ _ ⟨⟩
        split at h
        · cases h
        · split at h
          · cases h
          · split at h
            · exact ⟨by simp_all, by simp_all, by assumption⟩
            · cases h
      · intro h
        obtain ⟨h1, h2, h3⟩ := h s d rfl
        simp [h1, h2, h3]

theorem validatePair_error_iff {x : Option (Model V) × Option (Model V)} {e : Err} :
    validatePair x = .error e ↔ ∃ s d, x = (some s, some d) ∧ Mismatch s d e := by
  obtain ⟨s, d⟩ := x
  cases s with
  | none => simp [validatePair]
  | some s =>
    cases d with
    | none => simp [validatePair]
    | some d =>
      simp only [validatePair, Mismatch]
      constructor
      · intro h
        refine ⟨s, d, rfl, ?_⟩
        split at h
        · rename_i h1; cases h; exact .inl ⟨h1, rfl⟩
        · rename_i h1
          have h1 : s.type = d.type := by simpa using h1
          split at h
          · rename_i h2; cases h; exact .inr ⟨h1, .inl h2, rfl⟩
          · split at h
            · cases h
            · rename_i h3; cases h; exact .inr ⟨h1, .inr (by simpa using h3), rfl⟩
      · rintro ⟨_, _, ⟨⟩, ⟨h, rfl⟩ | ⟨h1, h2 | h2, rfl⟩⟩
        · simp [h]
        · simp [h1, h2]
        · by_cases h3 : s.shortname = d.shortname <;> simp [h1, h2, h3]

/-- **C92** `validate_objects_for_diff` accepts a list of pairs exactly when the two objects of every full pair have the same type, the same short name and
equal identifiers. -/
theorem C92_validate_accepts (l : List (Option (Model V) × Option (Model V))) :
    validatePairs l = .ok () ↔ ∀ s d, (some s, some d) ∈ l → MayCompare s d := by
  induction l with
  | nil => simp [validatePairs]
  | cons x l ih =>
    unfold validatePairs
    constructor
    · intro h
      split at h
      · rename_i h1
        rintro s d (_ | ⟨_, hm⟩)
        · exact validatePair_ok_iff.1 h1 s d rfl
        · exact ih.1 h s d hm
      · cases h
    · intro h
      have h1 : validatePair x = .ok () := validatePair_ok_iff.2 (fun s d he => h s d (by rw [he]; simp))
      rw [h1]
      exact ih.2 (fun s d hm => h s d (List.mem_cons_of_mem _ hm))

/-- **C92** Otherwise the first pair that may not be compared decides the exception: `TypeError` if its objects have different types, `ValueError` if
only their short names or identifiers differ. -/
theorem C92_validate_raises (l : List (Option (Model V) × Option (Model V))) (e : Err) :
    validatePairs l = .error e ↔
      ∃ pre s d post, l = pre ++ (some s, some d) :: post ∧ (∀ s' d', (some s', some d') ∈ pre → MayCompare s' d') ∧ Mismatch s d e := by
  induction l with
  | nil => simp [validatePairs]
  | cons x l ih =>
    unfold validatePairs
    constructor
    · intro h
      split at h
      · rename_i h1
        obtain ⟨pre, s, d, post, rfl, h2, h3⟩ := ih.1 h
        refine ⟨x :: pre, s, d, post, rfl, ?_, h3⟩
        rintro s' d' (_ | ⟨_, hm⟩)
        · exact validatePair_ok_iff.1 h1 _ _ rfl
        · exact h2 _ _ hm
      · rename_i e' h1
        cases h
        obtain ⟨s, d, rfl, h2⟩ := validatePair_error_iff.1 h1
        exact ⟨[], s, d, l, rfl, by simp, h2⟩
    · rintro ⟨pre, s, d, post, hl, h2, h3⟩
      cases pre with
      | nil =>
        cases hl
        rw [validatePair_error_iff.2 ⟨s, d, rfl, h3⟩]
      | cons y pre =>
        cases hl
        rw [validatePair_ok_iff.2 (fun s' d' he => h2 s' d' (by rw [he]; simp))]
        exact ih.2 ⟨pre, s, d, post, rfl, fun s' d' hm => h2 s' d' (List.mem_cons_of_mem _ hm), h3⟩

theorem get?_byUid_foldl_last (l : List (Model V)) (d : Dict (Model V)) (u : String) :
    Dict.get? ((l.map (fun m => (m.uid, m))).foldl (fun d p => Dict.set d p.1 p.2) d) u = (lastWithUid l u).or (Dict.get? d u) := by
  induction l generalizing d with
  | nil => rfl
  | cons a l ih =>
    simp only [List.map_cons, List.foldl_cons]
    rw [ih, Dict.get?_set]
    unfold lastWithUid
    rw [List.filter_cons]
    by_cases ha : a.uid = u
    · simp only [ha, decide_true, if_true]
      rw [List.getLast?_cons]
      cases (l.filter (fun m => m.uid = u)).getLast? <;> rfl
    · have ha' : ¬ u = a.uid := fun h => ha h.symm
      simp [ha]

theorem get?_byUid_last (l : List (Model V)) (u : String) : Dict.get? (byUid l) u = lastWithUid l u := by
  have := get?_byUid_foldl_last l ([] : Dict (Model V)) u
  rw [show Dict.get? ([] : Dict (Model V)) u = none from rfl] at this
  rw [Option.or_none] at this
  exact this

theorem mem_values_combine {src dst : List (Model V)} {s d : Option (Model V)} :
    (s, d) ∈ Dict.values (combine src dst) ↔ ∃ u, s = lastWithUid src u ∧ d = lastWithUid dst u ∧ (s ≠ none ∨ d ≠ none) := by
  unfold Dict.values
  rw [List.mem_map]
  constructor
  · rintro ⟨⟨u, x⟩, h, rfl⟩
    refine ⟨u, ?_⟩
    rw [← get?_byUid_last, ← get?_byUid_last]
    exact mem_combine.1 h
  · rintro ⟨u, h⟩
    rw [← get?_byUid_last, ← get?_byUid_last] at h
    exact ⟨(u, (s, d)), mem_combine.2 h, rfl⟩

/-- The two objects are compared with each other when the lists are. -/
def Paired (src dst : List (Model V)) (s d : Model V) : Prop := ∃ u, lastWithUid src u = some s ∧ lastWithUid dst u = some d

theorem mem_values_combine_paired {src dst : List (Model V)} {s d : Model V} :
    (some s, some d) ∈ Dict.values (combine src dst) ↔ Paired src dst s d := by
  rw [mem_values_combine]
  constructor
  · rintro ⟨u, h1, h2, _⟩; exact ⟨u, h1.symm, h2.symm⟩
  · rintro ⟨u, h1, h2⟩; exact ⟨u, h1.symm, h2.symm, .inl (by simp)⟩

/-- Nothing but the progress counter and the reports of progress is different. -/
structure OnlyProgress (w w' : World V E) : Prop where
  heap : w'.heap = w.heap
  next : w'.next = w.next
  loc : w'.loc = w.loc
  redis : w'.redis = w.redis
  env : w'.env = w.env

theorem incrModels_onlyProgress (k : Nat) (w : World V E) : ∃ w', incrModels k w = (.ok (), w') ∧ OnlyProgress w w' := by
  unfold incrModels
  split
  · exact ⟨w, rfl, rfl, rfl, rfl, rfl, rfl⟩
  · exact ⟨_, rfl, rfl, rfl, rfl, rfl, rfl⟩

/-- `diff_object_list` up to the check. -/
theorem diffList_refused {C : DiffCtx V} {n : Nat} {src dst : List (Model V)} {e : Err} (h : validatePairs (Dict.values (combine src dst)) = .error e)
    (w : World V E) : ∃ w', diffList C (n + 1) src dst w = (.error e, w') ∧ OnlyProgress w w' := by
  obtain ⟨w', h1, h2⟩ := incrModels_onlyProgress ((src.length - (combine src dst).length) + (dst.length - (combine src dst).length)) w
  refine ⟨w', ?_, h2⟩
  unfold diffList
  rw [M.bind_ok h1, h]
  rfl

/-- **C92** Two lists with two objects of one unique id that may not be compared (of several objects of one list with this id, the last counts) are
refused before anything is compared: with `TypeError` or `ValueError`, as some pair with that fault says, and with no effect. -/
theorem C92_list_refused {C : DiffCtx V} {n : Nat} {src dst : List (Model V)} {s d : Model V} (h : Paired src dst s d) (hc : ¬ MayCompare s d)
    (w : World V E) :
    ∃ e w', diffList C (n + 1) src dst w = (.error e, w') ∧ OnlyProgress w w' ∧ ∃ s' d', Paired src dst s' d' ∧ Mismatch s' d' e := by
  cases hv : validatePairs (Dict.values (combine src dst)) with
  | ok x => exact absurd ((C92_validate_accepts _).1 hv s d (mem_values_combine_paired.2 h)) hc
  | error e =>
    obtain ⟨w', h1, h2⟩ := diffList_refused (C := C) (n := n) hv w
    obtain ⟨pre, s', d', post, h3, _, h4⟩ := (C92_validate_raises _ _).1 hv
    exact ⟨e, w', h1, h2, s', d', mem_values_combine_paired.1 (by rw [h3]; simp), h4⟩

/-- **C92** In particular, when only one pair of the two lists has different types, short names or identifiers, that pair decides the exception. -/
theorem C92_list_refused_one {C : DiffCtx V} {n : Nat} {src dst : List (Model V)} {s d : Model V} {e : Err} (h : Paired src dst s d) (hm : Mismatch s d e)
    (ho : ∀ s' d', Paired src dst s' d' → MayCompare s' d' ∨ (s' = s ∧ d' = d)) (w : World V E) :
    ∃ w', diffList C (n + 1) src dst w = (.error e, w') ∧ OnlyProgress w w' := by
  have hc : ∀ {s d : Model V} {e : Err}, Mismatch s d e → ¬ MayCompare s d := by
    rintro s d e (⟨h, _⟩ | ⟨_, h | h, _⟩) hc
    · exact h hc.type
    · exact h hc.shortname
    · rw [hc.identifiers] at h; cases h
  obtain ⟨e', w', h1, h2, s', d', h3, h4⟩ := C92_list_refused (C := C) (n := n) h (hc hm) w
  rcases ho s' d' h3 with h5 | ⟨rfl, rfl⟩
  · exact absurd h5 (hc h4)
  · have : e' = e := by
      rcases hm with ⟨h, rfl⟩ | ⟨h, _, rfl⟩ <;> rcases h4 with ⟨h', rfl⟩ | ⟨h', _, rfl⟩
      · rfl
      · exact absurd h' h
      · exact absurd h h'
      · rfl
    subst this
    exact ⟨w', h1, h2⟩

/-- Python: a new key goes to the end, a present one stays where it is. -/
def insEnd (d : List String) (k : String) : List String := if k ∈ d then d else d ++ [k]

theorem keys_ofList_insEnd_aux (l : List (String × α)) : ∀ d : Dict α,
    Dict.keys (l.foldl (fun d p => Dict.set d p.1 p.2) d) = (l.map Prod.fst).foldl insEnd (Dict.keys d) := by
  induction l with
  | nil => intro d; rfl
  | cons a l ih =>
    intro d
    rw [List.foldl_cons, ih, Dict.keys_set]
    rfl

theorem keys_ofList_insEnd (l : List (String × α)) : Dict.keys (Dict.ofList l) = (l.map Prod.fst).foldl insEnd [] :=
  keys_ofList_insEnd_aux l []

theorem mem_insEnd {d : List String} {k x : String} : x ∈ insEnd d k ↔ x ∈ d ∨ x = k := by
  unfold insEnd
  split
  · rename_i h
    exact ⟨.inl, fun h' => h'.elim id (fun e => e ▸ h)⟩
  · simp

theorem mem_foldl_insEnd {l : List String} {x : String} : ∀ {d : List String}, x ∈ l.foldl insEnd d ↔ x ∈ d ∨ x ∈ l := by
  induction l with
  | nil => simp
  | cons a l ih =>
    intro d
    rw [List.foldl_cons, ih, mem_insEnd, List.mem_cons, or_assoc]

theorem foldl_insEnd_insEnd (d e : List String) (b : String) : (insEnd e b).foldl insEnd d = insEnd (e.foldl insEnd d) b := by
  by_cases h : b ∈ e
  · have h' : b ∈ e.foldl insEnd d := mem_foldl_insEnd.2 (.inr h)
    simp only [insEnd, if_pos h]
    rw [show (if b ∈ e.foldl insEnd d then e.foldl insEnd d else e.foldl insEnd d ++ [b]) = e.foldl insEnd d from if_pos h']
  · rw [show insEnd e b = e ++ [b] from if_neg h, List.foldl_append]
    rfl

theorem foldl_insEnd_foldl (B : List String) : ∀ d e : List String, (B.foldl insEnd e).foldl insEnd d = B.foldl insEnd (e.foldl insEnd d) := by
  induction B with
  | nil => intro d e; rfl
  | cons b B ih => intro d e; rw [List.foldl_cons, ih, foldl_insEnd_insEnd]; rfl

theorem foldl_insEnd_eq (l : List String) : ∀ d : List String, l.foldl insEnd d = d ++ (l.filter (fun x => decide (x ∉ d))).eraseDups := by
  induction l with
  | nil => intro d; simp
  | cons a l ih =>
    intro d
    rw [List.foldl_cons, ih]
    by_cases h : a ∈ d
    · rw [show insEnd d a = d from if_pos h, List.filter_cons, if_neg (by simpa using h)]
    · rw [show insEnd d a = d ++ [a] from if_neg h, List.filter_cons, if_pos (by simpa using h), List.eraseDups_cons, List.filter_filter,
        List.append_assoc, List.singleton_append]
      congr 3
      apply List.filter_congr
      intro x _
      by_cases hx : x = a <;> simp [hx]

theorem keys_combine (src dst : List (Model V)) : Dict.keys (combine src dst) = (src.map Model.uid ++ dst.map Model.uid).eraseDups := by
  have h := foldl_insEnd_eq (src.map Model.uid ++ dst.map Model.uid) []
  rw [List.filter_eq_self.2 (by simp), List.nil_append] at h
  rw [← h]
  unfold combine byUid
  rw [keys_ofList_insEnd, List.map_map]
  have hk : ∀ l : List (Model V), Dict.keys (Dict.ofList (l.map (fun m => (m.uid, m)))) = (l.map Model.uid).foldl insEnd [] := fun l => by
    rw [keys_ofList_insEnd, List.map_map]; rfl
  rw [show ∀ (l : List String) (f : String → Option (Model V) × Option (Model V)), l.map (Prod.fst ∘ fun u => (u, f u)) = l from fun l f => by
    induction l with
    | nil => rfl
    | cons a l ih => rw [List.map_cons, ih]; rfl]
  rw [hk, hk, List.foldl_append, List.foldl_append, foldl_insEnd_foldl, foldl_insEnd_foldl]
  rfl

theorem values_combine (src dst : List (Model V)) :
    Dict.values (combine src dst) = ((src.map Model.uid ++ dst.map Model.uid).eraseDups).map (fun u => (lastWithUid src u, lastWithUid dst u)) := by
  rw [← keys_combine]
  unfold Dict.keys Dict.values
  rw [List.map_map]
  apply List.map_congr_left
  rintro ⟨u, s, d⟩ h
  obtain ⟨h1, h2, _⟩ := mem_combine.1 h
  simp only [Function.comp]
  rw [h1, h2, get?_byUid_last, get?_byUid_last]

/-- **C92** And two lists in which all objects with one unique id may be compared are not refused by the check: the comparison goes on with one pair for
each unique id of the two lists, in the order in which the ids first occur, the source's first. -/
theorem C92_list_compared {C : DiffCtx V} {n : Nat} {src dst : List (Model V)} (h : ∀ s d, Paired src dst s d → MayCompare s d) (w : World V E) :
    ∃ w', OnlyProgress w w' ∧ diffList C (n + 1) src dst w =
      diffPairs (diffPair C (diffList C n))
        (((src.map Model.uid ++ dst.map Model.uid).eraseDups).map (fun u => (lastWithUid src u, lastWithUid dst u))) w' := by
  obtain ⟨w', h1, h2⟩ := incrModels_onlyProgress ((src.length - (combine src dst).length) + (dst.length - (combine src dst).length)) w
  have hv : validatePairs (Dict.values (combine src dst)) = .ok () :=
    (C92_validate_accepts _).2 (fun s d hm => h s d (mem_values_combine_paired.1 hm))
  refine ⟨w', h2, ?_⟩
  rw [← values_combine]
  conv => lhs; unfold diffList
  rw [M.bind_ok h1, hv]
  rfl

end DS
