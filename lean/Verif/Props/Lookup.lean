import Verif.Props.Store
/-! # C60: `get` and `get_or_none` -/

namespace DS
set_option linter.unusedSectionVars false
variable {V E : Type} [PyVal V]

/-- The class a model argument stands for: the class itself, or the one the adapter declares for the name. -/
def ModelArg.Means (A : Adapter V) : ModelArg V → Option (ModelClass V)
  | .name s => Dict.get? A.classes s
  | .cls c => some c

theorem get_uid_eq (A : Adapter V) (arg : ModelArg V) (u : String) (w : World V E) :
    get A arg (.uid u) w = getRaw A arg.modelName u w := by
  cases arg <;> rfl

theorem get_dict_eq (A : Adapter V) (arg : ModelArg V) (d : Dict V) (w : World V E) :
    get A arg (.dict d) w = match arg.Means A with
      | none => (.error .valueError, w)
      | some c => match c.createUniqueId d with
        | none => (.error .keyError, w)
        | some u => getRaw A arg.modelName u w := by
  cases arg with
  | name s =>
    simp only [ModelArg.Means]
    unfold get resolve
    simp only
    cases Dict.get? A.classes s with
    | none => rfl
    | some c => simp only; cases c.createUniqueId d <;> rfl
  | cls c =>
    simp only [ModelArg.Means]
    unfold get resolve
    simp only
    cases c.createUniqueId d <;> rfl

theorem createUniqueId_none {c : ModelClass V} {d : Dict V} : c.createUniqueId d = none ↔ ∃ k ∈ c.identifiers, Dict.get? d k = none := by
  unfold ModelClass.createUniqueId
  rw [Option.map_eq_none_iff]
  induction c.identifiers with
  | nil => simp [traverse]
  | cons k l ih =>
    simp only [traverse]
    cases hk : Dict.get? d k with
    | none => simp [hk]
    | some v =>
      simp only [List.mem_cons, exists_eq_or_imp, hk]
      cases ht : traverse (fun k => Dict.get? d k) l with
      | none => rw [ht] at ih; simpa using ih
      | some vs => rw [ht] at ih; simpa using ih

theorem createUniqueId_some {c : ModelClass V} {d : Dict V} {v : String → V} (h : ∀ k ∈ c.identifiers, Dict.get? d k = some (v k)) :
    c.createUniqueId d = some (joinSep "__" (c.identifiers.map (fun k => PyVal.str (v k)))) := by
  unfold ModelClass.createUniqueId
  have : traverse (fun k => Dict.get? d k) c.identifiers = some (c.identifiers.map v) := by
    generalize c.identifiers = l at h
    induction l with
    | nil => rfl
    | cons k l ih => simp only [traverse, h k (by simp), ih (fun k hk => h k (by simp [hk])), List.map_cons, Option.map_some]
  rw [this]
  simp [List.map_map, Function.comp_def]

/-- `get_or_none` in terms of `get`. -/
theorem getOrNone_eq (A : Adapter V) (arg : ModelArg V) (i : Ident V) (w : World V E) :
    getOrNone A arg i w = match get A arg i w with
      | (.ok r, w') => (.ok (some r), w')
      | (.error .objectNotFound, w') => (.ok none, w')
      | (.error e, w') => (.error e, w') := by
  unfold getOrNone M.tryCatch
  rw [M.bind_def]
  rcases get A arg i w with ⟨e | r, w'⟩
  · cases e <;> rfl
  · rfl

/-- **C60** Looking up by unique id: `get` returns the stored object or raises `ObjectNotFound`, `get_or_none` returns it
or `None`; neither raises anything else or changes anything. -/
theorem C60_by_uid (A : Adapter V) (arg : ModelArg V) (ht : A.Takes arg.modelName) (u : String) (w : World V E) (hw : w.OK) :
    ((snap A w).find arg.modelName u = none ∧ (get A arg (.uid u) w).1 = .error .objectNotFound ∧
        (getOrNone A arg (.uid u) w).1 = .ok none ∨
     ∃ r, (get A arg (.uid u) w).1 = .ok r ∧ (getOrNone A arg (.uid u) w).1 = .ok (some r) ∧
        (snap A w).find arg.modelName u = some ((get A arg (.uid u) w).2.heap r).m ∧
        ∀ sid, A.ref.store = .local sid → findRef w sid arg.modelName u = some r) ∧
    (getOrNone A arg (.uid u) w).2 = (get A arg (.uid u) w).2 ∧
    ∀ B : Adapter V, snap B (get A arg (.uid u) w).2 = snap B w := by
  obtain ⟨h1, h2⟩ := getRaw_spec A arg.modelName u w hw.refs_lt
  rw [(agree_snap A w).find _ ht] at h2
  rw [getOrNone_eq, get_uid_eq]
  refine ⟨?_, ?_, fun B => h1.snap_eq hw.refs_lt hw.tbl_wf B⟩
  · cases hf : (snap A w).find arg.modelName u with
    | none =>
      rw [hf] at h2
      exact .inl ⟨rfl, h2, by rw [(Prod.ext h2 rfl : getRaw A arg.modelName u w = (.error .objectNotFound, _))]⟩
    | some m =>
      rw [hf] at h2
      obtain ⟨r, hr, hm, -, hl⟩ := h2
      exact .inr ⟨r, hr, by rw [(Prod.ext hr rfl : getRaw A arg.modelName u w = (.ok r, _))], by rw [hm], hl⟩
  · rcases getRaw A arg.modelName u w with ⟨e | r, w'⟩
    · cases e <;> rfl
    · rfl

/-- **C60** Looking up by a dictionary of identifiers.  A name that stands for no class is a `ValueError` and a missing
identifier a `KeyError`, for `get` and for `get_or_none`, whatever is stored, and nothing changes.  Otherwise both do what
they do for the unique id that consists of the values of the identifiers; other entries of the dictionary do not matter. -/
theorem C60_by_identifiers (A : Adapter V) (arg : ModelArg V) (d : Dict V) (w : World V E) :
    (arg.Means A = none → get A arg (.dict d) w = (.error .valueError, w) ∧ getOrNone A arg (.dict d) w = (.error .valueError, w)) ∧
    ∀ c, arg.Means A = some c →
      ((∃ k ∈ c.identifiers, Dict.get? d k = none) →
        get A arg (.dict d) w = (.error .keyError, w) ∧ getOrNone A arg (.dict d) w = (.error .keyError, w)) ∧
      ∀ v : String → V, (∀ k ∈ c.identifiers, Dict.get? d k = some (v k)) →
        get A arg (.dict d) w = get A arg (.uid (joinSep "__" (c.identifiers.map (fun k => PyVal.str (v k))))) w ∧
        getOrNone A arg (.dict d) w = getOrNone A arg (.uid (joinSep "__" (c.identifiers.map (fun k => PyVal.str (v k))))) w := by
  refine ⟨fun h => ?_, fun c h => ⟨fun hk => ?_, fun v hv => ?_⟩⟩
  · have : get A arg (.dict d) w = (.error .valueError, w) := by rw [get_dict_eq, h]
    exact ⟨this, by rw [getOrNone_eq, this]⟩
  · have : get A arg (.dict d) w = (.error .keyError, w) := by rw [get_dict_eq, h]; simp only; rw [createUniqueId_none.2 hk]
    exact ⟨this, by rw [getOrNone_eq, this]⟩
  · have : get A arg (.dict d) w = get A arg (.uid (joinSep "__" (c.identifiers.map (fun k => PyVal.str (v k))))) w := by
      rw [get_dict_eq, h, get_uid_eq]; simp only; rw [createUniqueId_some hv]
    exact ⟨this, by rw [getOrNone_eq, getOrNone_eq, this]⟩

namespace Ex

example : (get (ad 1) (.name "device") (.uid "a") w1).1 = .ok 7 ∧ (getOrNone (ad 1) (.name "device") (.uid "zzz") w1).1 = .ok none := by decide +kernel
example : getOrNone (ad 1) (.name "rack") (.dict [("name", "a")]) w1 = (.error .valueError, w1) :=
  ((C60_by_identifiers (ad 1) (.name "rack") [("name", "a")] w1).1 (by decide +kernel)).2
example : getOrNone (ad 1) (.name "device") (.dict [("role", "leaf")]) w1 = (.error .keyError, w1) :=
  (((C60_by_identifiers (ad 1) (.name "device") [("role", "leaf")] w1).2 deviceC rfl).1 ⟨"name", by decide +kernel, rfl⟩).2
example : (getOrNone (ad 1) (.name "device") (.dict [("role", "leaf"), ("name", "b")]) w1).1 = .ok (some 8) := by decide +kernel
-- on Redis each lookup returns a fresh object
example : ((ad 1).Takes "device") ∧ (adR 3 "one").Takes "device" := ⟨trivial, (by decide : Plain "device")⟩

end Ex
end DS
