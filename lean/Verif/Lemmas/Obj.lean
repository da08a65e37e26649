import Verif.Spec.Obj
import Verif.Lemmas.Dict
/-! Lemmas about model instances. -/
set_option linter.unusedSectionVars false

namespace DS
variable {V : Type}

theorem traverse_eq_some {α β : Type} {f : α → Option β} {l : List α} {bs : List β} :
    traverse f l = some bs ↔ l.map f = bs.map some := by
  induction l generalizing bs with
  | nil => cases bs <;> simp [traverse]
  | cons a l ih =>
    simp only [traverse, List.map_cons]
    cases hf : f a with
    | none => cases bs <;> simp
    | some b =>
      cases bs with
      | nil => simp
      | cons c cs =>
        simp only [Option.map_eq_some_iff, List.map_cons, List.cons.injEq, Option.some.injEq, ih]
        constructor
        · rintro ⟨a, h1, rfl, rfl⟩; exact ⟨rfl, h1⟩
        · rintro ⟨rfl, h1⟩; exact ⟨cs, h1, rfl, rfl⟩

theorem traverse_congr {α β : Type} {f g : α → Option β} {l : List α} (h : ∀ a ∈ l, f a = g a) :
    traverse f l = traverse g l := by
  induction l with
  | nil => rfl
  | cons a l ih =>
    simp only [traverse, h a (by simp)]
    rw [ih (fun x hx => h x (List.mem_cons_of_mem _ hx))]

theorem traverse_map_some {α β : Type} {f : α → Option β} {g : α → β} {l : List α} (h : ∀ a ∈ l, f a = some (g a)) :
    traverse f l = some (l.map g) := by
  rw [traverse_eq_some, List.map_map]
  exact List.map_congr_left h

theorem traverse_eq_none {α β : Type} {f : α → Option β} {l : List α} : traverse f l = none ↔ ∃ a ∈ l, f a = none := by
  induction l with
  | nil => simp [traverse]
  | cons a l ih =>
    simp only [traverse]
    cases hf : f a with
    | none => simp [hf]
    | some b => simp [hf, ih]

section
variable [PyVal V]

theorem ModelClass.createUniqueId_congr {c : ModelClass V} {d e : Dict V}
    (h : ∀ k ∈ c.identifiers, Dict.get? d k = Dict.get? e k) : c.createUniqueId d = c.createUniqueId e := by
  unfold ModelClass.createUniqueId; rw [traverse_congr h]

theorem Model.get?_identifiers (m : Model V) (k : String) :
    Dict.get? m.identifiers k = if k ∈ m.cls.identifiers then Dict.get? m.vals k else none := by
  unfold Model.identifiers
  rw [Dict.get?_filter (fun k => m.cls.identifiers.contains k)]
  by_cases h : k ∈ m.cls.identifiers <;> simp [h]

theorem Model.get?_attrs (m : Model V) (k : String) :
    Dict.get? m.attrs k = if k ∈ m.cls.attributes then Dict.get? m.vals k else none := by
  unfold Model.attrs
  rw [Dict.get?_filter (fun k => m.cls.attributes.contains k)]
  by_cases h : k ∈ m.cls.attributes <;> simp [h]

theorem Model.keys_identifiers (m : Model V) (hm : m.Complete) :
    Dict.keys m.identifiers = m.cls.fieldNames.filter (fun k => m.cls.identifiers.contains k) := by
  unfold Model.identifiers
  rw [Dict.keys_filter (fun k => m.cls.identifiers.contains k), hm.vals_keys]

theorem Model.keys_attrs (m : Model V) (hm : m.Complete) :
    Dict.keys m.attrs = m.cls.fieldNames.filter (fun k => m.cls.attributes.contains k) := by
  unfold Model.attrs
  rw [Dict.keys_filter (fun k => m.cls.attributes.contains k), hm.vals_keys]

theorem Model.vals_some {m : Model V} (hm : m.Complete) {k : String} (hk : k ∈ m.cls.fieldNames) :
    ∃ v, Dict.get? m.vals k = some v := Dict.mem_keys_iff.1 (hm.vals_keys ▸ hk)

theorem Model.vals_wf {m : Model V} (hm : m.Complete) (hc : m.cls.Valid) : Dict.WF m.vals := by
  unfold Dict.WF; rw [hm.vals_keys]; exact hc.fields_nodup

theorem Model.attrs_wf {m : Model V} (hm : m.Complete) (hc : m.cls.Valid) : Dict.WF m.attrs :=
  Dict.wf_filter (Model.vals_wf hm hc) (fun k => m.cls.attributes.contains k)

theorem Model.identifiers_wf {m : Model V} (hm : m.Complete) (hc : m.cls.Valid) : Dict.WF m.identifiers :=
  Dict.wf_filter (Model.vals_wf hm hc) (fun k => m.cls.identifiers.contains k)

theorem traverse_strField {m : Model V} {d : Dict V} (l : List String)
    (h : ∀ k ∈ l, Dict.get? d k = Dict.get? m.vals k ∧ ∃ v, Dict.get? m.vals k = some v) :
    (traverse (fun k => Dict.get? d k) l).map (fun vs => vs.map PyVal.str) = some (l.map m.strField) := by
  induction l with
  | nil => rfl
  | cons k l ih =>
    obtain ⟨h1, v, h2⟩ := h k (by simp)
    have ih := ih (fun x hx => h x (List.mem_cons_of_mem _ hx))
    simp only [traverse, h1, h2]
    rw [Option.map_eq_some_iff] at ih
    obtain ⟨vs, hvs, he⟩ := ih
    rw [hvs]
    simp [he, Model.strField, h2]

/-- The unique id computed from any dictionary that agrees with the field values on identifiers. -/
theorem Model.createUniqueId_of_agree {m : Model V} {d : Dict V}
    (h : ∀ k ∈ m.cls.identifiers, Dict.get? d k = Dict.get? m.vals k ∧ ∃ v, Dict.get? m.vals k = some v) :
    m.cls.createUniqueId d = some m.uid := by
  have := traverse_strField m.cls.identifiers h
  rw [Option.map_eq_some_iff] at this
  obtain ⟨vs, hvs, he⟩ := this
  unfold ModelClass.createUniqueId Model.uid
  rw [hvs]; simp [he]

/-- `get_unique_id()` written on field values is `create_unique_id(**get_identifiers())`. -/
theorem Model.uid_eq_createUniqueId (m : Model V) (hc : m.cls.Valid) (hm : m.Complete) :
    m.cls.createUniqueId m.identifiers = some m.uid := by
  apply Model.createUniqueId_of_agree
  intro k hk
  rw [Model.get?_identifiers, if_pos hk]
  exact ⟨rfl, Model.vals_some hm (hc.ids_fields k hk)⟩

/-! ## instantiate -/

/-- The constructor reads the values that it is given. -/
theorem taken_eq (c : ModelClass V) (kw : Dict V) (f : String) (d : Option V) :
    c.taken kw f d = (match Dict.get? kw f with | some v => c.reads f v | none => d) := by
  unfold ModelClass.taken ModelClass.parse ModelClass.reads
  cases Dict.get? kw f with
  | none => rfl
  | some v => cases Dict.get? c.types f <;> rfl

theorem instantiate_ok {c : ModelClass V} {kw : Dict V} {kids : Dict (List String)} {fl : Option Nat} {m : Model V}
    (h : c.instantiate kw kids fl = .ok m) :
    m.cls = c ∧ Dict.keys m.vals = c.fieldNames ∧
      m.kids = Dict.ofList (c.childFields.map (fun f => (f, (Dict.get? kids f).getD []))) ∧
      m.flags = fl.getD c.defaultFlags ∧
      (∀ p ∈ c.fields, ∃ v, c.taken kw p.1 p.2 = some v ∧ (p.1, v) ∈ m.vals) := by
  unfold ModelClass.instantiate at h
  split at h
  · rename_i vals hv
    cases h
    rw [traverse_eq_some] at hv
    refine ⟨rfl, ?_, rfl, rfl, ?_⟩
    · have := congrArg (List.map (Option.map Prod.fst)) hv
      rw [List.map_map, List.map_map] at this
      have e1 : (c.fields.map (Option.map Prod.fst ∘ fun p => Option.map (fun v => (p.1, v)) (c.taken kw p.1 p.2)))
          = c.fields.map (fun p => (c.taken kw p.1 p.2).map (fun _ => p.1)) := by
        apply List.map_congr_left; intro p _; simp only [Function.comp, Option.map_map]; rfl
      rw [e1] at this
      clear e1 hv
      unfold ModelClass.fieldNames Dict.keys
      generalize c.fields = fs at this
      induction fs generalizing vals with
      | nil => cases vals <;> simp_all
      | cons p fs ih =>
        cases vals with
        | nil => simp at this
        | cons q vals =>
          simp only [List.map_cons, List.cons.injEq, Function.comp, Option.map_some] at this
          obtain ⟨h1, h2⟩ := this
          rw [Option.map_eq_some_iff] at h1
          obtain ⟨_, _, h1⟩ := h1
          simp [h1, ih _ h2]
    · intro p hp
      have : (fun p : String × Option V => Option.map (fun v => (p.1, v)) (c.taken kw p.1 p.2)) p ∈ vals.map some := by
        rw [← hv]; exact List.mem_map.2 ⟨p, hp, rfl⟩
      obtain ⟨q, hq, he⟩ := List.mem_map.1 this
      have he := he.symm
      simp only [Option.map_eq_some_iff] at he
      obtain ⟨v, h1, h2⟩ := he
      exact ⟨v, h1, by rw [h2]; exact hq⟩
  · cases h

theorem instantiate_complete {c : ModelClass V} {kw : Dict V} {kids : Dict (List String)} {fl : Option Nat} {m : Model V}
    (h : c.instantiate kw kids fl = .ok m) : m.Complete := by
  obtain ⟨h1, h2, h3, _, _⟩ := instantiate_ok h
  refine ⟨by rw [h2, h1], by rw [h3]; exact Dict.wf_ofList _, fun f => ?_⟩
  rw [h3, Dict.mem_keys_ofList, List.map_map, h1]
  simp [Function.comp_def]

/-- Field values of a constructed instance: the keyword argument, or the default. -/
theorem instantiate_get? {c : ModelClass V} (hc : c.Valid) {kw : Dict V} {kids : Dict (List String)} {fl : Option Nat}
    {m : Model V} (h : c.instantiate kw kids fl = .ok m) {f : String} {d : Option V} (hf : (f, d) ∈ c.fields) :
    Dict.get? m.vals f = c.taken kw f d := by
  obtain ⟨h1, h2, _, _, h5⟩ := instantiate_ok h
  obtain ⟨v, h6, h7⟩ := h5 _ hf
  rw [h6]
  apply Dict.get?_of_mem _ h7
  unfold Dict.WF; rw [h2]; exact hc.fields_nodup

theorem instantiate_isOk {c : ModelClass V} {kw : Dict V} (kids : Dict (List String)) (fl : Option Nat)
    (h : ∀ f, (f, none) ∈ c.fields → f ∈ Dict.keys kw) (hp : ∀ f ∈ c.fieldNames, ∀ v, Dict.get? kw f = some v → c.reads f v ≠ none) :
    ∃ m, c.instantiate kw kids fl = .ok m := by
  unfold ModelClass.instantiate
  split
  · exact ⟨_, rfl⟩
  · rename_i hn
    rw [traverse_eq_none] at hn
    obtain ⟨⟨f, d⟩, hp', hn⟩ := hn
    rw [Option.map_eq_none_iff] at hn
    rw [taken_eq] at hn
    simp only at hn
    split at hn
    · rename_i v hv
      exact absurd hn (hp f (List.mem_map.2 ⟨_, hp', rfl⟩) v hv)
    · rename_i h1
      subst hn
      exact absurd (h f hp') (Dict.get?_eq_none_iff.1 h1)

theorem instantiate_isErr {c : ModelClass V} {kw : Dict V} (kids : Dict (List String)) (fl : Option Nat) {e : Err}
    (h : c.instantiate kw kids fl = .error e) : e = .validationError ∧ ((∃ f, (f, none) ∈ c.fields ∧ f ∉ Dict.keys kw) ∨
      ∃ f v, f ∈ c.fieldNames ∧ Dict.get? kw f = some v ∧ c.reads f v = none) := by
  unfold ModelClass.instantiate at h
  split at h
  · cases h
  · rename_i hn
    cases h
    rw [traverse_eq_none] at hn
    obtain ⟨⟨f, d⟩, hp, hn⟩ := hn
    rw [Option.map_eq_none_iff] at hn
    rw [taken_eq] at hn
    simp only at hn
    split at hn
    · rename_i v hv
      exact ⟨rfl, .inr ⟨f, v, List.mem_map.2 ⟨_, hp, rfl⟩, hv, hn⟩⟩
    · rename_i h1
      subst hn
      exact ⟨rfl, .inl ⟨f, hp, Dict.get?_eq_none_iff.1 h1⟩⟩

theorem traverse_some_of_mem {α β : Type} {f : α → Option β} {l : List α} {bs : List β} (h : traverse f l = some bs) {a : α} (ha : a ∈ l) : ∃ b, f a = some b := by
  cases hf : f a with
  | some b => exact ⟨b, rfl⟩
  | none => rw [traverse_eq_none.2 ⟨a, ha, hf⟩] at h; cases h

/-- Unique id of a constructed instance. -/
theorem instantiate_uid {c : ModelClass V} (hc : c.Valid) {kw : Dict V} {kids : Dict (List String)} {fl : Option Nat}
    {m : Model V} (h : c.instantiate kw kids fl = .ok m) (hk : c.KeepsIds kw) {u : String} (hu : c.createUniqueId kw = some u) : m.uid = u := by
  have hcl := (instantiate_ok h).1
  unfold ModelClass.createUniqueId at hu
  rw [Option.map_eq_some_iff] at hu
  obtain ⟨vs, hvs, rfl⟩ := hu
  unfold Model.uid
  congr 1
  rw [hcl]
  have key : ∀ f ∈ c.identifiers, ∃ v, Dict.get? kw f = some v ∧ m.strField f = PyVal.str v := by
    intro f hf
    obtain ⟨v, hv⟩ := traverse_some_of_mem hvs hf
    obtain ⟨⟨f', d⟩, hfd, rfl⟩ := List.mem_map.1 (hc.ids_fields f hf)
    refine ⟨v, hv, ?_⟩
    obtain ⟨v', h1, h2⟩ := (instantiate_ok h).2.2.2.2 _ hfd
    have h3 := instantiate_get? hc h hfd
    rw [taken_eq] at h1 h3
    simp only [show Dict.get? kw f' = some v from hv] at h1 h3
    unfold Model.strField
    rw [h3, h1]
    exact hk f' hf v v' hv h1
  rw [traverse_eq_some] at hvs
  clear h
  generalize c.identifiers = l at hvs key
  induction l generalizing vs with
  | nil => cases vs <;> simp_all
  | cons f l ih =>
    cases vs with
    | nil => simp at hvs
    | cons x vs =>
      simp only [List.map_cons, List.cons.injEq] at hvs ⊢
      obtain ⟨v, h1, h2⟩ := key f (List.mem_cons_self ..)
      rw [h1] at hvs
      refine ⟨by rw [h2]; exact congrArg _ (Option.some.inj hvs.1), ih vs hvs.2 (fun g hg => key g (List.mem_cons_of_mem _ hg))⟩

/-! ## construct -/

theorem construct_ok {c : ModelClass V} {ids attrs : Dict V} {m : Model V} (h : c.construct ids attrs = .ok m) :
    c.instantiate (ids ++ attrs) = .ok m := by
  unfold ModelClass.construct at h
  split at h
  · cases h
  · exact h

theorem construct_uid {c : ModelClass V} (hc : c.Valid) {ids attrs : Dict V} {m : Model V} (h : c.construct ids attrs = .ok m)
    (hkp : c.KeepsIds ids) {u : String} (hu : c.createUniqueId ids = some u) : m.uid = u := by
  have key : ∀ k ∈ c.identifiers, Dict.get? (ids ++ attrs) k = Dict.get? ids k := by
    intro k hk
    rw [Dict.get?_append]
    have : Dict.get? ids k ≠ none := by
      intro hn
      unfold ModelClass.createUniqueId at hu
      rw [traverse_eq_none.2 ⟨k, hk, hn⟩] at hu; cases hu
    cases hg : Dict.get? ids k with
    | none => exact absurd hg this
    | some v => rfl
  apply instantiate_uid hc (construct_ok h)
  · intro f hf v v' hv hp
    rw [key f hf] at hv
    exact hkp f hf v v' hv hp
  rw [← hu]
  exact ModelClass.createUniqueId_congr key

theorem construct_isErr {c : ModelClass V} {ids attrs : Dict V} {e : Err} (h : c.construct ids attrs = .error e) :
    (e = .typeError ∧ ∃ k, k ∈ Dict.keys ids ∧ k ∈ Dict.keys attrs) ∨
    (e = .validationError ∧ ((∃ f, (f, none) ∈ c.fields ∧ f ∉ Dict.keys ids ∧ f ∉ Dict.keys attrs) ∨
      ∃ f v, f ∈ c.fieldNames ∧ (Dict.get? ids f).or (Dict.get? attrs f) = some v ∧ c.reads f v = none)) := by
  unfold ModelClass.construct at h
  split at h
  · rename_i ha
    cases h
    rw [List.any_eq_true] at ha
    obtain ⟨k, h1, h2⟩ := ha
    exact .inl ⟨rfl, k, by simpa using h2, h1⟩
  · obtain ⟨rfl, ⟨f, h1, h2⟩ | ⟨f, v, h1, h2, h3⟩⟩ := instantiate_isErr _ _ h
    · refine .inr ⟨rfl, .inl ⟨f, h1, fun h => h2 ?_, fun h => h2 ?_⟩⟩
      · unfold Dict.keys at h ⊢; rw [List.map_append]; exact List.mem_append.2 (.inl h)
      · unfold Dict.keys at h ⊢; rw [List.map_append]; exact List.mem_append.2 (.inr h)
    · rw [Dict.get?_append] at h2
      exact .inr ⟨rfl, .inr ⟨f, v, h1, h2, h3⟩⟩

theorem construct_isOk {c : ModelClass V} {ids attrs : Dict V} (hd : ∀ k, k ∈ Dict.keys ids → k ∉ Dict.keys attrs)
    (h : ∀ f, (f, none) ∈ c.fields → f ∈ Dict.keys ids ∨ f ∈ Dict.keys attrs)
    (hp : ∀ f ∈ c.fieldNames, ∀ v, (Dict.get? ids f).or (Dict.get? attrs f) = some v → c.reads f v ≠ none) : ∃ m, c.construct ids attrs = .ok m := by
  cases hc : c.construct ids attrs with
  | ok m => exact ⟨m, rfl⟩
  | error e =>
    rcases construct_isErr hc with ⟨_, k, h1, h2⟩ | ⟨_, ⟨f, h1, h2, h3⟩ | ⟨f, v, h1, h2, h3⟩⟩
    · exact absurd h2 (hd k h1)
    · rcases h f h1 with h | h
      · exact absurd h h2
      · exact absurd h h3
    · exact absurd h3 (hp f h1 v h2)

/-! ## setattrs -/

theorem setattr_ok {m m' : Model V} {k : String} {v : V} (h : m.setattr k v = .ok m') :
    m' = { m with vals := Dict.set m.vals k v } ∧ k ∈ m.cls.fieldNames := by
  unfold Model.setattr at h
  split at h
  · cases h; rename_i hk; exact ⟨rfl, by simpa using hk⟩
  · cases h

theorem setattrs_spec (m : Model V) (d : Dict V) :
    (m.setattrs d).1.cls = m.cls ∧ (m.setattrs d).1.kids = m.kids ∧ (m.setattrs d).1.flags = m.flags ∧
    (∀ k, k ∉ Dict.keys d → Dict.get? (m.setattrs d).1.vals k = Dict.get? m.vals k) := by
  induction d generalizing m with
  | nil => simp [Model.setattrs]
  | cons p d ih =>
    obtain ⟨k, v⟩ := p
    unfold Model.setattrs
    split
    · rename_i m' hm'
      obtain ⟨rfl, _⟩ := setattr_ok hm'
      obtain ⟨h1, h2, h3, h4⟩ := ih { m with vals := Dict.set m.vals k v }
      refine ⟨h1, h2, h3, fun x hx => ?_⟩
      simp only [Dict.keys_cons, List.mem_cons, not_or] at hx
      rw [h4 x hx.2]; simp only; rw [Dict.get?_set_ne _ (Ne.symm hx.1)]
    · simp

theorem setattrs_keys (m : Model V) (d : Dict V) (hm : Dict.keys m.vals = m.cls.fieldNames) :
    Dict.keys (m.setattrs d).1.vals = m.cls.fieldNames := by
  induction d generalizing m with
  | nil => simpa [Model.setattrs] using hm
  | cons p d ih =>
    obtain ⟨k, v⟩ := p
    unfold Model.setattrs
    split
    · rename_i m' hm'
      obtain ⟨rfl, hk⟩ := setattr_ok hm'
      have := ih { m with vals := Dict.set m.vals k v } (by
        simp only [Dict.keys_set, hm, if_pos hk])
      simpa using this
    · simpa using hm

theorem setattrs_complete {m : Model V} (d : Dict V) (hm : m.Complete) : (m.setattrs d).1.Complete := by
  obtain ⟨h1, h2, _, _⟩ := setattrs_spec m d
  exact ⟨by rw [setattrs_keys m d hm.vals_keys, h1], by rw [h2]; exact hm.kids_wf, fun f => by rw [h1, h2]; exact hm.kids_keys f⟩

/-- When all keys are fields, `update_base` succeeds and sets exactly the given values. -/
theorem setattrs_all (m : Model V) (d : Dict V) (hd : Dict.WF d) (h : ∀ k ∈ Dict.keys d, k ∈ m.cls.fieldNames) :
    (m.setattrs d).2 = none ∧ ∀ k v, Dict.get? d k = some v → Dict.get? (m.setattrs d).1.vals k = some v := by
  induction d generalizing m with
  | nil => simp [Model.setattrs]
  | cons p d ih =>
    obtain ⟨k, v⟩ := p
    have hd' := List.nodup_cons.1 hd
    have hk := h k (by simp)
    have hs : m.setattr k v = .ok { m with vals := Dict.set m.vals k v } := by
      unfold Model.setattr; rw [if_pos (by simpa using hk)]
    unfold Model.setattrs
    rw [hs]
    obtain ⟨h1, h2⟩ := ih { m with vals := Dict.set m.vals k v } hd'.2 (fun x hx => h x (List.mem_cons_of_mem _ hx))
    refine ⟨h1, fun x w hx => ?_⟩
    rw [Dict.get?_cons] at hx
    split at hx
    · rename_i he; subst he; cases hx
      rw [(setattrs_spec _ d).2.2.2 k hd'.1]; simp
    · exact h2 x w hx

theorem parse_untyped {c : ModelClass V} (h : c.types = []) (f : String) (v : V) : c.reads f v = some v := by
  unfold ModelClass.reads; rw [h]; rfl

theorem keepsIds_untyped {c : ModelClass V} (h : c.types = []) (ids : Dict V) : c.KeepsIds ids := by
  intro f _ v v' _ hp
  rw [parse_untyped h] at hp; cases hp; rfl

theorem construct_get? {c : ModelClass V} (hc : c.Valid) {ids attrs : Dict V} {m : Model V} (h : c.construct ids attrs = .ok m) {f : String} {d : Option V}
    (hf : (f, d) ∈ c.fields) : Dict.get? m.vals f = c.newValue ids attrs f d := by
  rw [instantiate_get? hc (construct_ok h) hf]
  rw [taken_eq]
  unfold ModelClass.newValue
  rw [Dict.get?_append]
  rfl

theorem uid_congr {m m' : Model V} (hc : m'.cls = m.cls) (h : ∀ k ∈ m.cls.identifiers, Dict.get? m'.vals k = Dict.get? m.vals k) :
    m'.uid = m.uid := by
  unfold Model.uid
  rw [hc]
  congr 1
  apply List.map_congr_left
  intro k hk
  unfold Model.strField; rw [h k hk]

end
end DS
