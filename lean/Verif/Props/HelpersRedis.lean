import Verif.Props.Store
import Verif.Lemmas.SyncStore
/-! # C39 on Redis: the `get_or_…` and `update_or_…` helpers -/
set_option linter.unusedSectionVars false

namespace DS
variable {V E : Type} [PyVal V]

/-- What a Redis store holds for a model name and unique id: the instance that was pickled. -/
def redisEntry (w : World V E) (sid t u : String) : Option (Model V) := (Dict.get? w.redis (redisKey sid t u)).map Obj.m

/-- A helper has returned the object `res.1` and whether it was created: it was created just when none was stored; one is stored
afterwards, the same as before if there was one; nothing else on the server, no local store and no other object has changed. -/
structure RedisGotOrPut (sid t u : String) (w : World V E) (res : Ref × Bool) (w' : World V E) : Prop where
  created : res.2 = true ↔ redisEntry w sid t u = none
  kept : res.2 = false → redisEntry w' sid t u = redisEntry w sid t u
  stored : ∃ m, redisEntry w' sid t u = some m
  others : ∀ k, k ≠ redisKey sid t u → Dict.get? w'.redis k = Dict.get? w.redis k
  locals : w'.loc = w.loc
  objects : ∀ r, r < w.next → r ≠ res.1 → w'.heap r = w.heap r

section
variable {A : Adapter V} {sid : String} (hA : A.ref.store = .redis sid)
include hA

theorem get_redis (a : ModelArg V) (i : Ident V) (t u : String) (h : resolve A a i = .ok (t, u)) (w : World V E) :
    match Dict.get? w.redis (redisKey sid t u) with
    | none => get A a i w = (.error .objectNotFound, w)
    | some o => get A a i w = (.ok w.next, (alloc { o with adapter := some A.ref } w).2) := by
  have := getRaw_redis hA t u w
  unfold get
  rw [h, M.bind_ok (show M.ofExcept (.ok (t, u)) w = (.ok (t, u), w) from rfl)]
  exact this

theorem add_redis_none (r : Ref) (w : World V E) (h : Dict.get? w.redis (redisKey sid (w.heap r).m.type (w.heap r).m.uid) = none) :
    add A r w = (.ok (), { w with redis := Dict.set w.redis (redisKey sid (w.heap r).m.type (w.heap r).m.uid) { w.heap r with adapter := none } }) := by
  unfold add
  rw [deref_bind]
  simp only [hA]
  rw [M.read_bind, h]
  rfl

/-- **C39** On a Redis store `get_or_instantiate` returns a copy of the stored object, which stays as it is, or adds and returns an instance made of the
given identifiers and attributes; its failures are those on a local store (`C39_get_or_instantiate`), and then nothing changes. -/
theorem C39_redis_get_or_instantiate (c : ModelClass V) (hc : c.Valid) (ids attrs : Dict V) (hids : c.KeepsIds ids) (w : World V E) :
    (∃ u res w', c.createUniqueId ids = some u ∧ getOrInstantiate A c ids attrs w = (.ok res, w') ∧
      RedisGotOrPut sid c.name u w res w' ∧ redisEntry w' sid c.name u = some (w'.heap res.1).m ∧
      (res.2 = true → c.construct ids attrs = .ok (w'.heap res.1).m)) ∨
    (∃ e, getOrInstantiate A c ids attrs w = (.error e, w) ∧
      (e = .keyError ∧ c.createUniqueId ids = none ∨
       c.construct ids attrs = .error e ∧ (∃ u, c.createUniqueId ids = some u ∧ redisEntry w sid c.name u = none) ∧
       ((e = .typeError ∧ ∃ k, k ∈ Dict.keys ids ∧ k ∈ Dict.keys attrs) ∨
        (e = .validationError ∧ ((∃ f, (f, none) ∈ c.fields ∧ f ∉ Dict.keys ids ∧ f ∉ Dict.keys attrs) ∨
          ∃ f v, f ∈ c.fieldNames ∧ (Dict.get? ids f).or (Dict.get? attrs f) = some v ∧ c.reads f v = none))))) := by
  cases hu : c.createUniqueId ids with
  | none =>
    refine .inr ⟨.keyError, ?_, .inl ⟨rfl, rfl⟩⟩
    unfold getOrInstantiate M.tryCatch
    have : get A (.cls c) (.dict ids) w = (.error .keyError, w) := by
      unfold get resolve
      simp only [hu]; rfl
    rw [M.bind_err this]
    rfl
  | some u =>
    have hres : resolve A (.cls c) (.dict ids) = .ok (c.name, u) := by unfold resolve; simp only [hu]; rfl
    have hg := get_redis (E := E) hA (.cls c) (.dict ids) _ _ hres w
    cases hf : Dict.get? w.redis (redisKey sid c.name u) with
    | some o =>
      rw [hf] at hg
      dsimp only at hg
      have he : redisEntry w sid c.name u = some o.m := by unfold redisEntry; rw [hf]; rfl
      refine .inl ⟨u, (w.next, false), (alloc { o with adapter := some A.ref } w).2, rfl, ?_,
        ⟨by simp [he], fun _ => rfl, ⟨o.m, he⟩, fun _ _ => rfl, rfl, fun r _ hr => ?_⟩, ?_, by simp⟩
      · unfold getOrInstantiate M.tryCatch
        rw [M.bind_ok hg]; rfl
      · show (if r = w.next then _ else _) = _
        rw [if_neg hr]
      · show redisEntry w sid c.name u = some (if w.next = w.next then _ else _ : Obj V).m
        rw [he, if_pos rfl]
    | none =>
      rw [hf] at hg
      dsimp only at hg
      have he : redisEntry w sid c.name u = none := by unfold redisEntry; rw [hf]; rfl
      cases hi : c.construct ids attrs with
      | error e =>
        refine .inr ⟨e, ?_, .inr ⟨rfl, ⟨u, rfl, he⟩, construct_isErr hi⟩⟩
        unfold getOrInstantiate M.tryCatch
        rw [M.bind_err hg]
        simp only [Err.isNotFound, if_true, hi]
        rfl
      | ok m =>
        have hmt : m.type = c.name := by unfold Model.type; rw [(instantiate_ok (construct_ok hi)).1]
        have hmu : m.uid = u := construct_uid hc hi hids hu
        have hal : alloc { m := m } w = (.ok w.next, (alloc { m := m } w).2) := rfl
        generalize hw2 : (alloc { m := m } w).2 = w2 at hal
        have hh2 : w2.heap w.next = { m := m } := by rw [← hw2]; simp [alloc, World.setObj]
        have hh3 : ∀ r, r ≠ w.next → w2.heap r = w.heap r := by
          intro r hr
          rw [← hw2]
          simp only [alloc, World.setObj]
          rw [if_neg hr]
        have hr2 : w2.redis = w.redis := by rw [← hw2]; rfl
        have hl2 : w2.loc = w.loc := by rw [← hw2]; rfl
        have hadd := add_redis_none hA w.next w2 (by rw [hh2]; dsimp only; rw [hmt, hmu, hr2, hf])
        rw [hh2] at hadd
        dsimp only at hadd
        rw [hmt, hmu] at hadd
        refine .inl ⟨u, (w.next, true), { w2 with redis := Dict.set w2.redis (redisKey sid c.name u) { m := m } }, rfl, ?_, ⟨by simp [he], by simp, ⟨m, ?_⟩, fun k hk => ?_, hl2, fun r _ hr => hh3 r hr⟩, ?_, fun _ => ?_⟩
        · unfold getOrInstantiate M.tryCatch
          rw [M.bind_err hg]
          simp only [Err.isNotFound, if_true, hi]
          rw [M.bind_ok (show M.ofExcept (.ok m) w = (.ok m, w) from rfl), M.bind_ok hal, M.bind_ok hadd]
          rfl
        · unfold redisEntry; dsimp only; rw [Dict.get?_set_self]; rfl
        · dsimp only; rw [Dict.get?_set_ne _ hk.symm, hr2]
        · unfold redisEntry; dsimp only; rw [Dict.get?_set_self, hh2]; rfl
        · dsimp only; rw [hh2]

/-- **C39** On a Redis store `get_or_add_model_instance` returns a copy of the stored object with the same model and id, which stays as it is, or stores
the given object and returns it.  It never fails. -/
theorem C39_redis_get_or_add (r : Ref) (w : World V E) (hr : r < w.next) :
    ∃ res w', getOrAddInstance A r w = (.ok res, w') ∧ RedisGotOrPut sid (w.heap r).m.type (w.heap r).m.uid w res w' ∧
      redisEntry w' sid (w.heap r).m.type (w.heap r).m.uid = some (w'.heap res.1).m ∧ (res.2 = true → res.1 = r ∧ w'.heap r = w.heap r) := by
  have hres : resolve A (.name (w.heap r).m.type) (.uid (w.heap r).m.uid) = .ok ((w.heap r).m.type, (w.heap r).m.uid) := rfl
  have hg := get_redis (E := E) hA _ _ _ _ hres w
  cases hf : Dict.get? w.redis (redisKey sid (w.heap r).m.type (w.heap r).m.uid) with
  | some o =>
    rw [hf] at hg
    dsimp only at hg
    have he : redisEntry w sid (w.heap r).m.type (w.heap r).m.uid = some o.m := by unfold redisEntry; rw [hf]; rfl
    refine ⟨(w.next, false), (alloc { o with adapter := some A.ref } w).2, ?_,
      ⟨by simp [he], fun _ => rfl, ⟨o.m, he⟩, fun _ _ => rfl, rfl, fun r _ hr => ?_⟩, ?_, by simp⟩
    · unfold getOrAddInstance
      rw [deref_bind]
      unfold M.tryCatch
      rw [M.bind_ok hg]; rfl
    · show (if r = w.next then _ else _) = _
      rw [if_neg hr]
    · show redisEntry w sid _ _ = some (if w.next = w.next then _ else _ : Obj V).m
      rw [he, if_pos rfl]
  | none =>
    rw [hf] at hg
    dsimp only at hg
    have he : redisEntry w sid (w.heap r).m.type (w.heap r).m.uid = none := by unfold redisEntry; rw [hf]; rfl
    have hadd := add_redis_none hA r w hf
    refine ⟨(r, true), { w with redis := Dict.set w.redis (redisKey sid (w.heap r).m.type (w.heap r).m.uid) { w.heap r with adapter := none } }, ?_, ⟨by simp [he], by simp, ⟨(w.heap r).m, ?_⟩, fun k hk => ?_, rfl, fun _ _ _ => rfl⟩, ?_, fun _ => ⟨rfl, rfl⟩⟩
    · unfold getOrAddInstance
      rw [deref_bind]
      unfold M.tryCatch
      rw [M.bind_err hg]
      simp only [Err.isNotFound, if_true]
      rw [M.bind_ok hadd]; rfl
    · unfold redisEntry; dsimp only; rw [Dict.get?_set_self]; rfl
    · dsimp only; rw [Dict.get?_set_ne _ hk.symm]
    · unfold redisEntry; dsimp only; rw [Dict.get?_set_self]; rfl

/-- **C39**, partial (on a Redis store the new values of an existing object are not stored): `update_or_instantiate` is like `get_or_instantiate`, and the
returned object has the given attribute values; but when one was stored already, what is stored stays as it was.  Hypotheses
as in `C39_update_or_instantiate_partial`. -/
theorem C39_redis_update_or_instantiate_partial (c : ModelClass V) (hc : c.Valid)
    (ids attrs : Dict V) (w : World V E) (u : String) (hu : c.createUniqueId ids = some u) (hd : Dict.WF attrs)
    (hold : ∀ m, redisEntry w sid c.name u = some m → m.Complete ∧ ∀ k ∈ Dict.keys attrs, k ∈ m.cls.fieldNames)
    (hsep : ∀ k, k ∈ Dict.keys ids → k ∉ Dict.keys attrs)
    (hnew : (∀ k ∈ Dict.keys attrs, k ∈ c.fieldNames) ∧ ∀ f, (f, none) ∈ c.fields → f ∈ Dict.keys ids ∨ f ∈ Dict.keys attrs)
    (hparse : ∀ f ∈ c.fieldNames, ∀ v, (Dict.get? ids f).or (Dict.get? attrs f) = some v → c.reads f v ≠ none) (hids : c.KeepsIds ids) :
    ∃ res w' m, updateOrInstantiate A c ids attrs w = (.ok res, w') ∧ RedisGotOrPut sid c.name u w res w' ∧
      redisEntry w' sid c.name u = some m ∧ TakesValues attrs m (w'.heap res.1).m ∧ (res.2 = true → c.construct ids attrs = .ok m) := by
  have hsplit : updateOrInstantiate (E := E) A c ids attrs w = (getOrInstantiate A c ids attrs >>= fun p => do
      let o ← deref p.1
      let (m', e?) := setattrsIfDiff o.m attrs
      writeObj p.1 { o with m := m' }
      match e? with
      | none => Pure.pure (p.1, p.2)
      | some e => M.raise e) w := rfl
  rcases C39_redis_get_or_instantiate hA c hc ids attrs hids w with ⟨u', res, w1, h1, e1, g, hst, ht⟩ | ⟨e, _, h⟩
  · rw [hu] at h1
    obtain rfl := Option.some.inj h1
    have hM : (w1.heap res.1).m.Complete ∧ ∀ k ∈ Dict.keys attrs, k ∈ (w1.heap res.1).m.cls.fieldNames := by
      cases hb : res.2 with
      | false => exact hold _ (by rw [← g.kept hb]; exact hst)
      | true =>
        have hi := ht hb
        refine ⟨instantiate_complete (construct_ok hi), ?_⟩
        rw [(instantiate_ok (construct_ok hi)).1]; exact hnew.1
    obtain ⟨h2, h3⟩ := setattrsIfDiff_spec (w1.heap res.1).m attrs hd (fun k hk => ⟨hM.2 k hk, by rw [hM.1.vals_keys]; exact hM.2 k hk⟩)
    generalize hm' : setattrsIfDiff (w1.heap res.1).m attrs = p at h2 h3
    obtain ⟨m', e?⟩ := p
    simp only at h2 h3
    subst h2
    refine ⟨res, w1.setObj res.1 { w1.heap res.1 with m := m' }, _, ?_, ⟨g.created, g.kept, g.stored, g.others, g.locals, ?_⟩, hst, ?_, ht⟩
    · rw [hsplit, M.bind_ok e1, deref_bind]
      simp only [hm']
      rfl
    · intro r hr hne
      simp only [World.setObj, if_neg hne]
      exact g.objects r hr hne
    · simp only [World.setObj, if_true]
      exact h3
  · exfalso
    rcases h with ⟨_, h⟩ | ⟨_, _, ⟨_, k, h1, h2⟩ | ⟨_, ⟨f, h1, h2, h3⟩ | ⟨f, v, h1, h2, h3⟩⟩⟩
    · rw [hu] at h; cases h
    · exact hsep k h1 h2
    · rcases hnew.2 f h1 with h | h
      · exact h2 h
      · exact h3 h
    · exact hparse f h1 v h2 h3

/-- **C39**, partial (on a Redis store the new values of an existing object are not stored): `update_or_add_model_instance` is like
`get_or_add_model_instance`, and the returned object has the attribute values of the given one; but when one was stored already, what is
stored stays as it was.  Hypothesis: those attributes are fields of the object already stored, if any. -/
theorem C39_redis_update_or_add_partial (r : Ref) (w : World V E) (hr : r < w.next) (hc : (w.heap r).m.cls.Valid) (hm : (w.heap r).m.Complete)
    (hold : ∀ m, redisEntry w sid (w.heap r).m.type (w.heap r).m.uid = some m → ∀ k ∈ (w.heap r).m.cls.attributes, k ∈ m.cls.fieldNames) :
    ∃ res w' m, updateOrAddInstance A r w = (.ok res, w') ∧ RedisGotOrPut sid (w.heap r).m.type (w.heap r).m.uid w res w' ∧
      redisEntry w' sid (w.heap r).m.type (w.heap r).m.uid = some m ∧ TakesValues (w.heap r).m.attrs m (w'.heap res.1).m ∧
      (res.2 = true → res.1 = r ∧ m = (w.heap r).m) := by
  have hsplit : updateOrAddInstance (E := E) A r w = (getOrAddInstance A r >>= fun p => do
      setattrsRef p.1 (w.heap r).m.attrs
      Pure.pure (p.1, p.2)) w := rfl
  obtain ⟨res, w1, e1, g, hst, ht⟩ := C39_redis_get_or_add hA r w hr
  have hcl : ∀ k ∈ Dict.keys (w.heap r).m.attrs, k ∈ (w1.heap res.1).m.cls.fieldNames := by
    intro k hk
    rw [Model.keys_attrs _ hm, List.mem_filter] at hk
    cases hb : res.2 with
    | false => exact hold _ (by rw [← g.kept hb]; exact hst) k (by simpa using hk.2)
    | true => rw [(ht hb).1, (ht hb).2]; exact hk.1
  obtain ⟨h2, h3⟩ := setattrs_all (w1.heap res.1).m (w.heap r).m.attrs (Model.attrs_wf hm hc) hcl
  obtain ⟨h4, h5, h6, h7⟩ := setattrs_spec (w1.heap res.1).m (w.heap r).m.attrs
  refine ⟨res, w1.setObj res.1 { w1.heap res.1 with m := ((w1.heap res.1).m.setattrs (w.heap r).m.attrs).1 }, _, ?_,
    ⟨g.created, g.kept, g.stored, g.others, g.locals, ?_⟩, hst, ?_, fun hb => ⟨(ht hb).1, by rw [(ht hb).1, (ht hb).2]⟩⟩
  · rw [hsplit, M.bind_ok e1]
    have : setattrsRef res.1 (w.heap r).m.attrs w1 = (.ok (), w1.setObj res.1 { w1.heap res.1 with m := ((w1.heap res.1).m.setattrs (w.heap r).m.attrs).1 }) := by
      unfold setattrsRef
      rw [deref_bind]
      generalize hp : (w1.heap res.1).m.setattrs (w.heap r).m.attrs = p at h2
      obtain ⟨m', e?⟩ := p
      simp only at h2
      subst h2
      rfl
    rw [M.bind_ok this]; rfl
  · intro x hx hne
    simp only [World.setObj, if_neg hne]
    exact g.objects x hx hne
  · simp only [World.setObj, if_true]
    exact ⟨fun k v hk => ⟨v, h3 k v hk, .inl rfl⟩, h7, h4, h5, h6⟩
end

namespace Ex
/-- A Redis store with one device. -/
def wHelp : World String (List Outcome) := addModels (adR 1 "x") [device "a" "leaf" []] (world0 String (List Outcome) [])

/-- C39: the stored device is found, another one is instantiated and added. -/
example : (getOrInstantiate (adR 1 "x") deviceC [("name", "a")] [("role", "spine")] wHelp).1 = .ok (1, false) ∧
    (getOrInstantiate (adR 1 "x") deviceC [("name", "b")] [("role", "spine")] wHelp).1 = .ok (1, true) ∧
    redisEntry (getOrInstantiate (adR 1 "x") deviceC [("name", "b")] [("role", "spine")] wHelp).2 "x" "device" "b" = some (device "b" "spine" []) := by decide +kernel
example := C39_redis_get_or_instantiate (A := adR 1 "x") rfl deviceC deviceC_valid [("name", "b")] [("role", "spine")] (keepsIds_untyped rfl _) wHelp
example := C39_redis_get_or_add (A := adR 1 "x") rfl 0 wHelp (by decide +kernel)
example := C39_redis_update_or_instantiate_partial (A := adR 1 "x") rfl deviceC deviceC_valid [("name", "a")] [("role", "spine")] wHelp "a" (by decide +kernel)
  (by unfold Dict.WF; decide +kernel) (fun m hm => by
    have : redisEntry wHelp "x" "device" "a" = some (device "a" "leaf" []) := by decide +kernel
    rw [show deviceC.name = "device" from rfl, this] at hm
    cases hm
    exact ⟨⟨by decide +kernel, by unfold Dict.WF; decide +kernel, fun f => by simp [device, deviceC, Dict.keys, ModelClass.childFields, Dict.values]⟩, by decide +kernel⟩)
  (by decide +kernel) ⟨by decide +kernel, fun f hf => by
    have : ∀ p ∈ deviceC.fields, p.2 = none → p.1 ∈ Dict.keys [("name", "a")] ∨ p.1 ∈ Dict.keys [("role", "spine")] := by decide +kernel
    exact this _ hf rfl⟩
  (fun f _ v _ => by rw [parse_untyped (c := deviceC) rfl]; simp) (keepsIds_untyped rfl _)
end Ex

end DS
