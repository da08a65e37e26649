import Verif.Props.Store
/-! # C39: `update_or_instantiate` with an attribute that the object does not have -/
set_option linter.unusedSectionVars false

namespace DS
variable {V E : Type} [PyVal V]

theorem setattrsIfDiff_cons (m : Model V) (k : String) (v : V) (d : Dict V) : setattrsIfDiff m ((k, v) :: d) =
    match Dict.get? m.vals k with
    | none => (m, some .attributeError)
    | some v0 =>
      if PyVal.eq v0 v then setattrsIfDiff m d
      else match m.setattr k v with
        | .ok m' => setattrsIfDiff m' d
        | .error e => (m, some e) := rfl

theorem setattrsIfDiff_append (m : Model V) (a b : Dict V) (h : (setattrsIfDiff m a).2 = none) : setattrsIfDiff m (a ++ b) = setattrsIfDiff (setattrsIfDiff m a).1 b := by
  induction a generalizing m with
  | nil => rfl
  | cons p a ih =>
    obtain ⟨k, v⟩ := p
    rw [List.cons_append]
    rw [setattrsIfDiff_cons] at h
    rw [setattrsIfDiff_cons, setattrsIfDiff_cons m k v a]
    cases hg : Dict.get? m.vals k with
    | none => rw [hg] at h; cases h
    | some v0 =>
      rw [hg] at h
      simp only at h ⊢
      split at h
      · rename_i he
        rw [if_pos he, if_pos he]
        exact ih m h
      · rename_i he
        rw [if_neg he, if_neg he]
        cases hs : m.setattr k v with
        | error e => rw [hs] at h; cases h
        | ok m' => rw [hs] at h; exact ih m' h

theorem setattrsIfDiff_unknown {m : Model V} (hm : m.Complete) {before after : Dict V} {k : String} {v : V} (hd : Dict.WF before)
    (hb : ∀ x ∈ Dict.keys before, x ∈ m.cls.fieldNames) (hk : k ∉ m.cls.fieldNames) :
    ∃ m', setattrsIfDiff m (before ++ (k, v) :: after) = (m', some .attributeError) ∧ TakesValues before m m' := by
  obtain ⟨h1, h2⟩ := setattrsIfDiff_spec m before hd fun x hx => ⟨hb x hx, by rw [hm.vals_keys]; exact hb x hx⟩
  refine ⟨(setattrsIfDiff m before).1, ?_, h2⟩
  rw [setattrsIfDiff_append m before _ h1]
  have hg : Dict.get? (setattrsIfDiff m before).1.vals k = none := by
    rw [h2.others k fun hx => hk (hb k hx), Dict.get?_eq_none_iff, hm.vals_keys]
    exact hk
  rw [setattrsIfDiff_cons, hg]

/-- **C39** If one of the attributes given to `update_or_instantiate` is not a field, it raises `AttributeError`; but the object is in the store all the same, a new one
if there was none, and has the values of the attributes given before that one. -/
theorem C39_unknown_attribute (A : Adapter V) {sid : Nat} (hA : A.ref.store = .local sid) (c : ModelClass V) (hc : c.Valid)
    (ids before after : Dict V) (k : String) (v : V) (w : World V E) (hw : w.OK) (u : String) (hu : c.createUniqueId ids = some u) (hids : c.KeepsIds ids) (hd : Dict.WF before)
    (hold : ∀ r, findRef w sid c.name u = some r →
      (w.heap r).m.Complete ∧ (∀ x ∈ Dict.keys before, x ∈ (w.heap r).m.cls.fieldNames) ∧ k ∉ (w.heap r).m.cls.fieldNames)
    (hnew : findRef w sid c.name u = none →
      (∃ m, c.construct ids (before ++ (k, v) :: after) = .ok m) ∧ (∀ x ∈ Dict.keys before, x ∈ c.fieldNames) ∧ k ∉ c.fieldNames) :
    ∃ res w', updateOrInstantiate A c ids (before ++ (k, v) :: after) w = (.error .attributeError, w') ∧ GotOrPut sid c.name u w res w' ∧
      (res.2 = false → TakesValues before (w.heap res.1).m (w'.heap res.1).m) ∧
      (res.2 = true → ∃ m, c.construct ids (before ++ (k, v) :: after) = .ok m ∧ TakesValues before m (w'.heap res.1).m) := by
  generalize hat : before ++ (k, v) :: after = attrs at hnew ⊢
  have hsplit : updateOrInstantiate (E := E) A c ids attrs w = (getOrInstantiate A c ids attrs >>= fun p => do
      let o ← deref p.1
      let (m', e?) := setattrsIfDiff o.m attrs
      writeObj p.1 { o with m := m' }
      match e? with
      | none => Pure.pure (p.1, p.2)
      | some e => M.raise e) w := rfl
  rcases C39_get_or_instantiate A hA c hc ids attrs hids w hw with ⟨u', res, w1, h1, e1, g, hf, ht⟩ | ⟨e, w1, _, _, h⟩
  · rw [hu] at h1
    obtain rfl := Option.some.inj h1
    have hM : (w1.heap res.1).m.Complete ∧ (∀ x ∈ Dict.keys before, x ∈ (w1.heap res.1).m.cls.fieldNames) ∧ k ∉ (w1.heap res.1).m.cls.fieldNames := by
      cases hb : res.2 with
      | false => rw [hf hb]; exact hold _ (g.found hb)
      | true =>
        have hi := ht hb
        refine ⟨instantiate_complete (construct_ok hi), ?_⟩
        rw [(instantiate_ok (construct_ok hi)).1]
        exact (hnew (g.created.1 hb)).2
    obtain ⟨m', h2, h3⟩ := setattrsIfDiff_unknown (v := v) (after := after) hM.1 hd hM.2.1 hM.2.2
    rw [hat] at h2
    refine ⟨res, w1.setObj res.1 { w1.heap res.1 with m := m' }, ?_, ⟨g.created, g.found, g.stored, g.entries, ?_, g.redis⟩, ?_, ?_⟩
    · rw [hsplit, M.bind_ok e1, deref_bind]
      simp only [h2]
      rfl
    · intro r hr hne
      simp only [World.setObj, if_neg hne]
      exact g.objects r hr hne
    · intro hb
      simp only [World.setObj, if_true]
      rw [← hf hb]; exact h3
    · intro hb
      refine ⟨_, ht hb, ?_⟩
      simp only [World.setObj, if_true]
      exact h3
  · exfalso
    rcases h with ⟨_, h⟩ | ⟨he, ⟨u', h1, h2⟩, _⟩
    · rw [hu] at h; cases h
    · rw [hu] at h1
      cases h1
      obtain ⟨m, hm⟩ := (hnew h2).1
      rw [hm] at he
      cases he

end DS
