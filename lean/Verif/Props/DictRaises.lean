import Verif.Props.RoundTrip
import Verif.Props.RedisScan
import Verif.Props.RedisEx
/-! # When `Adapter.dict()` raises

`dict()` goes through the names of `get_all_model_names()` and files each object that `get_all` returns under the object's own type
(/repo/diffsync/__init__.py:536-543). -/
set_option linter.unusedSectionVars false

namespace DS
variable {V E : Type} [PyVal V]

/-- `get_all` returns this object for the name. -/
def GetAllHas (A : Adapter V) (w : World V E) (t : String) (m : Model V) : Prop := ∃ rs w', getAll A t w = (.ok rs, w') ∧ ∃ r ∈ rs, (w'.heap r).m = m

theorem getAllHas_iff {A : Adapter V} {w : World V E} (hw : w.OK) {t : String} {m : Model V} : GetAllHas A w t m ↔ m ∈ (rawSnap A w).all t := by
  obtain ⟨_, rs, h2, h3, _⟩ := getAll_spec A t w hw.refs_lt hw.tbl_wf
  constructor
  · rintro ⟨rs', w', h4, r, h5, rfl⟩
    rw [h4] at h2 h3
    cases h2
    rw [← h3]
    exact List.mem_map.2 ⟨r, h5, rfl⟩
  · intro h
    rw [← h3] at h
    obtain ⟨r, h5, h6⟩ := List.mem_map.1 h
    exact ⟨rs, _, Prod.ext h2 rfl, r, h5, h6⟩

theorem dictModels_cases (ed : Bool) (ms : List (Model V)) : ∀ data : Dict (Dict (ObjDict V)),
    ((∃ data', dictModels ed ms data = .ok data' ∧ ∀ k, k ∈ Dict.keys data' ↔ k ∈ Dict.keys data) ∧ ∀ m ∈ ms, m.type ∈ Dict.keys data) ∨
    (dictModels ed ms data = .error .keyError ∧ ∃ m ∈ ms, m.type ∉ Dict.keys data) := by
  induction ms with
  | nil => intro data; exact .inl ⟨⟨data, rfl, fun _ => Iff.rfl⟩, by simp⟩
  | cons m ms ih =>
    intro data
    unfold dictModels
    cases hg : Dict.get? data m.type with
    | none => exact .inr ⟨rfl, m, by simp, Dict.get?_eq_none_iff.1 hg⟩
    | some d =>
      have hm : m.type ∈ Dict.keys data := Dict.mem_keys_iff.2 ⟨d, hg⟩
      have hk : ∀ x (k : String), k ∈ Dict.keys (Dict.set data m.type x) ↔ k ∈ Dict.keys data := fun x k => by
        rw [Dict.mem_keys_iff, Dict.mem_keys_iff, Dict.get?_set]
        split
        · rename_i h; subst h; exact ⟨fun _ => ⟨d, hg⟩, fun _ => ⟨x, rfl⟩⟩
        · exact Iff.rfl
      rcases ih (Dict.set data m.type (Dict.set d m.uid (m.toDict ed))) with ⟨⟨data', h1, h2⟩, h3⟩ | ⟨h1, x, h2, h3⟩
      · refine .inl ⟨⟨data', h1, fun k => (h2 k).trans (hk _ k)⟩, ?_⟩
        rintro x (_ | ⟨_, hx⟩)
        · exact hm
        · exact (hk _ _).1 (h3 x hx)
      · exact .inr ⟨h1, x, by simp [h2], fun h => h3 ((hk _ _).2 h)⟩

theorem dictNames_cases {A : Adapter V} {S : Snap V} (ed : Bool) (ts : List String) : ∀ (data : Dict (Dict (ObjDict V))) (w : World V E), w.OK → rawSnap A w = S →
    ((∃ data', (dictNames A ed ts data w).1 = .ok data') ∧ ∀ a t b m, ts = a ++ t :: b → m ∈ S.all t → m.type ∈ Dict.keys data ∨ m.type ∈ a ++ [t]) ∨
    ((dictNames A ed ts data w).1 = .error .keyError ∧ ∃ a t b m, ts = a ++ t :: b ∧ m ∈ S.all t ∧ m.type ∉ Dict.keys data ∧ m.type ∉ a ++ [t]) := by
  induction ts with
  | nil => intro data w _ _; exact .inl ⟨⟨data, rfl⟩, fun a t b m h => by cases a <;> cases h⟩
  | cons t ts ih =>
    intro data w hw hs
    obtain ⟨h1, h2⟩ := getAllModels_spec A t w hw.refs_lt hw.tbl_wf
    rw [hs] at h2
    unfold dictNames
    rw [M.bind_ok (Prod.ext h2 rfl : getAllModels A t w = (.ok (S.all t), _))]
    have hk : ∀ k : String, k ∈ Dict.keys (Dict.set data t []) ↔ k ∈ Dict.keys data ∨ k = t := fun k => by
      rw [Dict.mem_keys_iff, Dict.mem_keys_iff, Dict.get?_set]
      split
      · rename_i h; exact ⟨fun _ => .inr h.symm, fun _ => ⟨_, rfl⟩⟩
      · rename_i h; exact ⟨.inl, fun x => x.resolve_right fun e => h e.symm⟩
    rcases dictModels_cases ed (S.all t) (Dict.set data t []) with ⟨⟨data', g1, g2⟩, g3⟩ | ⟨g1, m, g2, g3⟩
    · rw [g1]
      show ((∃ _, (dictNames A ed ts data' _).1 = _) ∧ _) ∨ ((dictNames A ed ts data' _).1 = _ ∧ _)
      rcases ih data' (getAllModels A t w).2 (h1.toDRel.ok hw) ((h1.toDRel.rawSnap_eq hw.refs_lt hw.tbl_wf A).trans hs) with ⟨i1, i2⟩ | ⟨i1, a, t', b, m, i2, i3, i4, i5⟩
      · refine .inl ⟨i1, fun a t' b m he hm => ?_⟩
        cases a with
        | nil =>
          cases he
          rcases (hk _).1 (g3 m hm) with h | h
          · exact .inl h
          · exact .inr (by simp [h])
        | cons x a =>
          cases he
          rcases i2 a t' b m rfl hm with h | h
          · rcases (hk _).1 ((g2 _).1 h) with h | h
            · exact .inl h
            · exact .inr (by simp [h])
          · exact .inr (List.mem_cons_of_mem _ h)
      · have := fun h => i4 ((g2 _).2 ((hk _).2 h))
        refine .inr ⟨i1, t :: a, t', b, m, by rw [i2]; rfl, i3, fun h => this (.inl h), fun h => ?_⟩
        rcases List.mem_cons.1 h with h | h
        · exact this (.inr h)
        · exact i5 h
    · rw [g1]
      refine .inr ⟨rfl, [], t, ts, m, rfl, g2, fun h => g3 ((hk _).2 (.inl h)), fun h => g3 ((hk _).2 (.inr (by simpa using h)))⟩

/-- **C46** Exactly when an export returns: `dict()` of any adapter, with any store in any state, returns or raises `KeyError`; it returns if and only if every object that
`get_all` returns for a name is of that type, or of a type whose name comes earlier among the names of `get_all_model_names()`. -/
theorem C46_dict_returns_iff (A : Adapter V) (ed : Bool) {w : World V E} (hw : w.OK) {ts : List String} (hts : getAllModelNames A w = (.ok ts, w)) :
    ((∃ data, (adapterDict A ed w).1 = .ok data) ↔ ∀ a t b m, ts = a ++ t :: b → GetAllHas A w t m → m.type ∈ a ++ [t]) ∧
    ((∃ data, (adapterDict A ed w).1 = .ok data) ∨ (adapterDict A ed w).1 = .error .keyError) := by
  have e : adapterDict A ed w = dictNames A ed ts [] w := by unfold adapterDict; rw [M.bind_ok hts]
  rw [e]
  rcases dictNames_cases (A := A) ed ts [] w hw rfl with ⟨⟨d, h1⟩, h2⟩ | ⟨h1, a, t, b, m, h2, h3, _, h4⟩
  · exact ⟨⟨fun _ a t b m he hm => (h2 a t b m he ((getAllHas_iff hw).1 hm)).resolve_left (by simp [Dict.keys]), fun _ => ⟨d, h1⟩⟩, .inl ⟨d, h1⟩⟩
  · refine ⟨⟨fun ⟨d, hd⟩ => ?_, fun h => absurd (h a t b m h2 ((getAllHas_iff hw).2 h3)) h4⟩, .inr h1⟩
    rw [h1] at hd; cases hd

/-- **C46** Where exporting fails: an adapter with a Redis store that holds an object whose type has a colon in its name cannot be exported, `dict()` raises `KeyError`
(the names of `get_all_model_names()` have no colons). -/
theorem C46_redis_colon_key_error (A : Adapter V) {sid : String} (hA : A.ref.store = .redis sid) (ed : Bool) {w w1 : World V E} (hw : w.OK) (hr : Dict.WF w.redis)
    (hs : ':' ∉ sid.toList ∧ '[' ∉ sid.toList ∧ '\\' ∉ sid.toList) {t u : String} (ht : '[' ∉ t.toList ∧ '\\' ∉ t.toList) (hc : ':' ∈ t.toList) {r : Ref}
    (hg : get A (.name t) (.uid u) w = (.ok r, w1)) (hty : (w1.heap r).m.type = t) : (adapterDict A ed w).1 = .error .keyError := by
  obtain ⟨ts, h1, _, h3⟩ := C63_names hA w
  obtain ⟨g1, g2⟩ := C46_dict_returns_iff A ed hw h1
  refine g2.resolve_left fun hd => ?_
  obtain ⟨p, q, hpq, hp⟩ := (colon_cases t.toList).resolve_left fun h => h hc
  have hm : (Dict.get? w.redis (redisKey sid t u)).map Obj.m = some (w1.heap r).m := by
    have h3 := (getRaw_spec A t u w hw.refs_lt).2
    have e : getRaw A t u w = (.ok r, w1) := hg
    have e' : (rawSnap A w).find t u = (Dict.get? w.redis (redisKey sid t u)).map Obj.m := by unfold rawSnap; rw [hA]
    rw [← e']
    cases hf : (rawSnap A w).find t u with
    | none => rw [hf, e] at h3; cases h3
    | some m =>
      rw [hf, e] at h3
      obtain ⟨r', h3, h4, _⟩ := h3
      cases h3
      rw [← h4]
  have hkey : redisKey sid t u ∈ Dict.keys w.redis := by
    cases ho : Dict.get? w.redis (redisKey sid t u) with
    | none => rw [ho] at hm; cases hm
    | some o => exact Dict.mem_keys_iff.2 ⟨o, ho⟩
  have hkl : (redisKey sid t u).toList = "diffsync:".toList ++ (sid.toList ++ (':' :: (p ++ ':' :: (q ++ ':' :: u.toList)))) := by
    rw [redisKey_toList, hpq]; simp [String.toList_append]
  have hmem : String.ofList p ∈ ts := by
    refine (h3 _).2 ⟨_, hkey, ?_, "diffsync".toList, sid.toList, by decide, hs.1, by rw [String.toList_ofList]; exact hp, ':' :: (q ++ ':' :: u.toList), ?_, .inr ⟨_, rfl⟩⟩
    · have e1 : ("diffsync:" ++ sid ++ ":*").toList = ("diffsync:" ++ sid ++ ":").toList ++ ['*'] := by simp [String.toList_append]
      have e2 : (redisKey sid t u).toList = ("diffsync:" ++ sid ++ ":").toList ++ (p ++ ':' :: (q ++ ':' :: u.toList)) := by rw [hkl]; simp [String.toList_append]
      rw [e1, e2]
      refine Glob.self_append ?_ ?_ ?_
      · simp only [String.toList_append, List.mem_append, not_or]; exact ⟨⟨by decide, hs.2.1⟩, by decide⟩
      · simp only [String.toList_append, List.mem_append, not_or]; exact ⟨⟨by decide, hs.2.2⟩, by decide⟩
      · have := Glob.star (p ++ ':' :: (q ++ ':' :: u.toList)) Glob.done
        rw [List.append_nil] at this
        exact this
    · rw [hkl, String.toList_ofList]; simp
  obtain ⟨a, b, hab⟩ := List.append_of_mem hmem
  have hl : GetAllHas A w (String.ofList p) (w1.heap r).m := by
    obtain ⟨ks, _, hk, rs, w2, k1, k2⟩ := C63_get_all hA hw hr (t := String.ofList p)
    refine ⟨rs, w2, k1, ?_⟩
    have hin : redisKey sid t u ∈ ks := by
      refine (hk _).2 ⟨hkey, ?_⟩
      have e1 : ("diffsync:" ++ sid ++ ":" ++ String.ofList p ++ ":*").toList = ("diffsync:" ++ sid ++ ":" ++ String.ofList p ++ ":").toList ++ ['*'] := by simp [String.toList_append]
      have e2 : (redisKey sid t u).toList = ("diffsync:" ++ sid ++ ":" ++ String.ofList p ++ ":").toList ++ (q ++ ':' :: u.toList) := by rw [hkl]; simp [String.toList_append]
      rw [e1, e2]
      rw [hpq] at ht
      simp only [List.mem_append, not_or] at ht
      refine Glob.self_append ?_ ?_ ?_
      · simp only [String.toList_append, List.mem_append, not_or, String.toList_ofList]; exact ⟨⟨⟨⟨by decide, hs.2.1⟩, by decide⟩, ht.1.1⟩, by decide⟩
      · simp only [String.toList_append, List.mem_append, not_or, String.toList_ofList]; exact ⟨⟨⟨⟨by decide, hs.2.2⟩, by decide⟩, ht.2.1⟩, by decide⟩
      · have := Glob.star (q ++ ':' :: u.toList) Glob.done
        rw [List.append_nil] at this
        exact this
    have : some (w1.heap r).m ∈ rs.map (fun r => some (w2.heap r).m) := by
      rw [k2]
      exact List.mem_map.2 ⟨_, hin, hm⟩
    obtain ⟨r2, i3, i4⟩ := List.mem_map.1 this
    exact ⟨r2, i3, Option.some.inj i4⟩
  have := g1.1 hd a _ b _ hab hl
  rw [hty] at this
  have hin : t ∈ ts := by rw [hab]; simp only [List.mem_append, List.mem_cons, List.not_mem_nil, or_false] at this ⊢; rcases this with h | h <;> simp [h]
  obtain ⟨_, _, _, _, _, _, _, h6, _⟩ := (h3 t).1 hin
  exact h6 hc

namespace Ex
/-- A Redis store with an object of a type whose name has a colon. -/
def rackC : ModelClass String := { siteC with name := "rack:row" }
def wColon : World String (List Outcome) := addModels (adR 1 "one") [⟨rackC, [("name", "r1")], [("devices", [])], 0⟩] (world0 String _ [])
theorem wColon_ok : wColon.OK := addModels_ok _ _ _ (world0_ok _)
example : (adapterDict (adR 1 "one") true wColon).1 = .error .keyError := by
  have h : (get (adR 1 "one") (.name "rack:row") (.uid "r1") wColon).1.toOption = some 1 := by decide +kernel
  have hty : ((get (adR 1 "one") (.name "rack:row") (.uid "r1") wColon).2.heap 1).m.type = "rack:row" := by decide +kernel
  cases hg : get (adR 1 "one") (.name "rack:row") (.uid "r1") wColon with
  | mk res w1 =>
    rw [hg] at h hty
    cases res with
    | error e => cases h
    | ok r =>
      cases h
      exact C46_redis_colon_key_error _ rfl true wColon_ok (by unfold Dict.WF; decide +kernel) (by decide) (by decide) (by decide) hg hty
end Ex

end DS
