import Verif.Spec.Glob
import Verif.Lemmas.PDiff
import Verif.Props.Store
/-! # C63: what a Redis store finds on the server, whatever its id -/
set_option linter.unusedSectionVars false

namespace DS
variable {V E : Type} [PyVal V]

theorem anySuffix_iff {f : List Char → Bool} {s : List Char} : anySuffix f s = true ↔ ∃ x y, s = x ++ y ∧ f y = true := by
  induction s with
  | nil =>
    constructor
    · intro h; exact ⟨[], [], rfl, h⟩
    · rintro ⟨x, y, h, hf⟩
      obtain ⟨rfl, rfl⟩ := List.append_eq_nil_iff.1 h.symm
      exact hf
  | cons c s ih =>
    simp only [anySuffix, Bool.or_eq_true, ih]
    constructor
    · rintro (h | ⟨x, y, rfl, h⟩)
      · exact ⟨[], c :: s, rfl, h⟩
      · exact ⟨c :: x, y, rfl, h⟩
    · rintro ⟨x, y, h, hf⟩
      cases x with
      | nil => left; rw [List.nil_append] at h; rw [h]; exact hf
      | cons d x =>
        rw [List.cons_append] at h
        injection h with h1 h2
        exact .inr ⟨x, y, h2, hf⟩

theorem inItems_iff {I : List (Char × Char)} {c : Char} : inItems I c = true ↔ InRanges I c := by
  unfold inItems InRanges
  simp only [List.any_eq_true, Bool.or_eq_true, Bool.and_eq_true, decide_eq_true_eq]
  rfl

theorem InRanges.congr {I J : List (Char × Char)} (h : ∀ i, i ∈ I ↔ i ∈ J) (c : Char) : InRanges I c ↔ InRanges J c :=
  ⟨fun ⟨i, a, b⟩ => ⟨i, (h i).1 a, b⟩, fun ⟨i, a, b⟩ => ⟨i, (h i).2 a, b⟩⟩

theorem parse_brackets {p r : List Char} {I : List (Char × Char)} (h : Brackets p I r) (neg : Bool) (J : List (Char × Char)) :
    parseGlob (.inside neg J) p = .cls neg (I.reverse ++ J) :: parseGlob .outside r := by
  induction h generalizing J with
  | closed => rw [parseGlob]; rfl
  | unclosed => rw [parseGlob, parseGlob]; rfl
  | quoted c _ ih => rw [parseGlob, ih]; simp
  | range b h1 h2 _ ih =>
    rw [parseGlob, ih]
    · simp
    all_goals (intros; simp_all)
  | @one p I r c h1 h2 h3 _ ih =>
    rw [parseGlob, ih]
    · simp
    · intro d q hc hq
      rw [h2 hc] at hq
      cases hq
    · exact h1
    · intro b q hq
      exact h3 b q hq

theorem brackets_exist (p : List Char) : ∃ I r, Brackets p I r ∧ r.length ≤ p.length := by
  induction hl : p.length using Nat.strongRecOn generalizing p with
  | ind n ih =>
    cases p with
    | nil => exact ⟨[], [], .unclosed, by simp⟩
    | cons c p =>
      rw [List.length_cons] at hl
      by_cases h1 : c = ']'
      · subst h1; exact ⟨[], p, .closed, by omega⟩
      by_cases h2 : c = '\\'
      · subst h2
        cases p with
        | nil => exact ⟨_, [], .one (by decide) (fun _ => rfl) (fun _ _ h => by cases h) .unclosed, by simp⟩
        | cons d p =>
          rw [List.length_cons] at hl
          obtain ⟨I, r, h, hle⟩ := ih p.length (by omega) p rfl
          exact ⟨_, r, .quoted d h, by omega⟩
      by_cases h3 : ∃ b q, p = '-' :: b :: q
      · obtain ⟨b, q, rfl⟩ := h3
        simp only [List.length_cons] at hl
        obtain ⟨I, r, h, hle⟩ := ih q.length (by omega) q rfl
        exact ⟨_, r, .range b h1 h2 h, by omega⟩
      · obtain ⟨I, r, h, hle⟩ := ih p.length (by omega) p rfl
        exact ⟨_, r, .one h1 (fun h => absurd h h2) (fun b q hq => h3 ⟨b, q, hq⟩) h, by omega⟩

theorem parse_open {p : List Char} (h : ∀ q, p ≠ '^' :: q) : parseGlob .outside ('[' :: p) = parseGlob (.inside false []) p := by
  rw [parseGlob]
  exact fun q hq => h q hq

theorem glob_of_match {p s : List Char} (h : matchToks (parseGlob .outside p) s = true) : Glob p s := by
  induction hl : p.length using Nat.strongRecOn generalizing p s with
  | ind n ih =>
    cases p with
    | nil =>
      simp only [parseGlob, matchToks, List.isEmpty_iff] at h
      rw [h]; exact .done
    | cons c p =>
      rw [List.length_cons] at hl
      by_cases h1 : c = '*'
      · subst h1
        rw [parseGlob] at h
        obtain ⟨x, y, rfl, hy⟩ := anySuffix_iff.1 h
        exact .star x (ih p.length (by omega) hy rfl)
      by_cases h2 : c = '?'
      · subst h2
        rw [parseGlob] at h
        cases s with
        | nil => cases h
        | cons d s => exact .one d (ih p.length (by omega) h rfl)
      by_cases h3 : c = '\\'
      · subst h3
        cases p with
        | nil =>
          cases s with
          | nil => simp [parseGlob, matchToks] at h
          | cons d s =>
            simp [parseGlob, matchToks] at h
            rw [← h.1, h.2]; exact .backslash
        | cons d p =>
          rw [List.length_cons] at hl
          rw [parseGlob] at h
          cases s with
          | nil => cases h
          | cons e s =>
            simp only [matchToks, Bool.and_eq_true, beq_iff_eq] at h
            rw [← h.1]
            exact .quoted d (ih p.length (by omega) h.2 rfl)
      by_cases h4 : c = '['
      · subst h4
        by_cases h5 : ∃ q, p = '^' :: q
        · obtain ⟨q, rfl⟩ := h5
          rw [List.length_cons] at hl
          obtain ⟨I, r, hb, hle⟩ := brackets_exist q
          rw [parseGlob, parse_brackets hb] at h
          cases s with
          | nil => cases h
          | cons e s =>
            simp only [matchToks, Bool.and_eq_true, bne_iff_ne, ne_eq] at h
            refine .other hb (fun hin => h.1 ?_) (ih r.length (by omega) h.2 rfl)
            exact inItems_iff.2 ((InRanges.congr (by simp) e).1 hin)
        · have h5' : ∀ q, p ≠ '^' :: q := fun q hq => h5 ⟨q, hq⟩
          obtain ⟨I, r, hb, hle⟩ := brackets_exist p
          rw [parse_open h5', parse_brackets hb] at h
          cases s with
          | nil => cases h
          | cons e s =>
            simp only [matchToks, Bool.and_eq_true, bne_iff_ne, ne_eq, Bool.not_eq_false] at h
            exact .among h5' hb ((InRanges.congr (by simp) e).1 (inItems_iff.1 h.1)) (ih r.length (by omega) h.2 rfl)
      · rw [parseGlob] at h <;> try (first | exact h1 | exact h2 | exact h4 | (intros; simp_all; done))
        cases s with
        | nil => cases h
        | cons e s =>
          simp only [matchToks, Bool.and_eq_true, beq_iff_eq] at h
          rw [← h.1]
          exact .lit h1 h2 h3 h4 (ih p.length (by omega) h.2 rfl)

theorem match_of_glob {p s : List Char} (h : Glob p s) : matchToks (parseGlob .outside p) s = true := by
  induction h with
  | done => rfl
  | star x _ ih =>
    rw [parseGlob]
    exact anySuffix_iff.2 ⟨x, _, rfl, ih⟩
  | one c _ ih => rw [parseGlob]; exact ih
  | quoted c _ ih =>
    rw [parseGlob]
    simp only [matchToks, Bool.and_eq_true, beq_iff_eq]
    exact ⟨trivial, ih⟩
  | backslash => decide
  | @among p I r s c h1 hb hin _ ih =>
    rw [parse_open h1, parse_brackets hb]
    simp only [matchToks, Bool.and_eq_true, bne_iff_ne, ne_eq, Bool.not_eq_false]
    exact ⟨inItems_iff.2 ((InRanges.congr (by simp) c).1 hin), ih⟩
  | @other p I r s c hb hin _ ih =>
    rw [parseGlob, parse_brackets hb]
    simp only [matchToks, Bool.and_eq_true, bne_iff_ne, ne_eq]
    exact ⟨fun h => hin ((InRanges.congr (by simp) c).1 (inItems_iff.1 h)), ih⟩
  | @lit p s c h1 h2 h3 h4 _ ih =>
    rw [parseGlob] <;> try (first | exact h1 | exact h2 | exact h4 | (intros; simp_all; done))
    simp only [matchToks, Bool.and_eq_true, beq_iff_eq]
    exact ⟨trivial, ih⟩

theorem globMatch_iff {p k : String} : globMatch p k = true ↔ Glob p.toList k.toList := ⟨glob_of_match, match_of_glob⟩

theorem Glob.self_append {p q s : List Char} (h1 : '[' ∉ p) (h2 : '\\' ∉ p) (h : Glob q s) : Glob (p ++ q) (p ++ s) := by
  induction p with
  | nil => exact h
  | cons c p ih =>
    have := ih (fun h => h1 (List.mem_cons_of_mem _ h)) (fun h => h2 (List.mem_cons_of_mem _ h))
    have hb : c ≠ '\\' := fun h => h2 (by rw [h]; exact List.mem_cons_self ..)
    have hc : c ≠ '[' := fun h => h1 (by rw [h]; exact List.mem_cons_self ..)
    by_cases e1 : c = '*'
    · subst e1; exact .star ['*'] this
    by_cases e2 : c = '?'
    · subst e2; exact .one '?' this
    exact .lit e1 e2 hb hc this

theorem scan_iff {d : Dict (Obj V)} {pfx : String} {k : String} : k ∈ scanKeys d pfx ↔ k ∈ Dict.keys d ∧ Glob (pfx ++ "*").toList k.toList := by
  unfold scanKeys
  rw [List.mem_filter, globMatch_iff]

theorem scan_nodup {d : Dict (Obj V)} (h : Dict.WF d) (pfx : String) : (scanKeys d pfx).Nodup := List.Nodup.sublist List.filter_sublist h

/-- **C63** `count()` of a Redis store is the number of keys on the server that match the pattern `diffsync:<store id>:*`. -/
theorem C63_count {A : Adapter V} {sid : String} (hA : A.ref.store = .redis sid) {w : World V E} (hw : Dict.WF w.redis) :
    ∃ ks : List String, ks.Nodup ∧ (∀ k, k ∈ ks ↔ k ∈ Dict.keys w.redis ∧ Glob ("diffsync:" ++ sid ++ ":*").toList k.toList) ∧
      count A none w = (.ok ks.length, w) := by
  refine ⟨scanKeys w.redis (storeLabel sid ++ ":"), scan_nodup hw _, fun k => ?_, ?_⟩
  · have : storeLabel sid ++ ":" ++ "*" = "diffsync:" ++ sid ++ ":*" := by
      unfold storeLabel; rw [String.append_assoc]; rfl
    rw [scan_iff, this]
  · unfold count
    rw [hA]
    simp only [lenAdapter, countStore, hA]

/-- **C63** `get_all(model)` of a Redis store returns the values of the keys on the server that match the pattern
`diffsync:<store id>:<model>:*`, each once. -/
theorem C63_get_all {A : Adapter V} {sid : String} (hA : A.ref.store = .redis sid) {t : String}
    {w : World V E} (hw : w.OK) (hr : Dict.WF w.redis) :
    ∃ ks : List String, ks.Nodup ∧ (∀ k, k ∈ ks ↔ k ∈ Dict.keys w.redis ∧ Glob ("diffsync:" ++ sid ++ ":" ++ t ++ ":*").toList k.toList) ∧
      ∃ rs w', getAll A t w = (.ok rs, w') ∧ rs.map (fun r => some (w'.heap r).m) = ks.map (fun k => (Dict.get? w.redis k).map Obj.m) := by
  refine ⟨scanKeys w.redis (storeLabel sid ++ (":" ++ (t ++ ":"))), scan_nodup hr _, fun k => ?_, ?_⟩
  · rw [scan_iff]
    have : storeLabel sid ++ (":" ++ (t ++ ":")) ++ "*" = "diffsync:" ++ sid ++ ":" ++ t ++ ":*" := by
      unfold storeLabel; simp only [String.append_assoc]; rfl
    rw [this]
  · obtain ⟨_, rs, h1, h2, _⟩ := getAll_spec A t w hw.refs_lt hw.tbl_wf
    refine ⟨rs, _, Prod.ext h1 rfl, ?_⟩
    have h3 := congrArg (List.map some) h2
    rw [List.map_map] at h3
    refine h3.trans ?_
    unfold rawSnap
    rw [hA]
    dsimp only
    have hk : ∀ k ∈ scanKeys w.redis (storeLabel sid ++ (":" ++ (t ++ ":"))), k ∈ Dict.keys w.redis := fun k hk => (List.mem_filter.1 hk).1
    generalize scanKeys w.redis (storeLabel sid ++ (":" ++ (t ++ ":"))) = ks at hk
    induction ks with
    | nil => rfl
    | cons k ks ih =>
      obtain ⟨o, ho⟩ := Dict.mem_keys_iff.1 (hk k (by simp))
      simp only [List.filterMap_cons, List.map_cons, ho, Option.map_some]
      rw [ih (fun k h => hk k (by simp [h]))]

/-- **C63** A Redis store sees all its objects: what `get` finds, `get_all` returns too, if the store id and the model name have no brackets and no
backslashes (wildcards and colons do no harm to that). -/
theorem C63_sees_its_objects {A : Adapter V} {sid : String} (hA : A.ref.store = .redis sid) {t u : String}
    (hs : '[' ∉ sid.toList ∧ '\\' ∉ sid.toList) (ht : '[' ∉ t.toList ∧ '\\' ∉ t.toList) {w w1 : World V E} (hw : w.OK) (hr : Dict.WF w.redis) {r : Ref}
    (hg : get A (.name t) (.uid u) w = (.ok r, w1)) :
    ∃ rs w2, getAll A t w = (.ok rs, w2) ∧ ∃ r2 ∈ rs, (w2.heap r2).m = (w1.heap r).m := by
  obtain ⟨ks, _, hk, rs, w2, h1, h2⟩ := C63_get_all hA hw hr (t := t)
  refine ⟨rs, w2, h1, ?_⟩
  have hm : (rawSnap A w).find t u = some (w1.heap r).m := by
    have h3 := (getRaw_spec A t u w hw.refs_lt).2
    have e : getRaw A t u w = (.ok r, w1) := hg
    cases hf : (rawSnap A w).find t u with
    | none => rw [hf, e] at h3; cases h3
    | some m =>
      rw [hf, e] at h3
      obtain ⟨r', h3, h4, _⟩ := h3
      cases h3
      rw [← h4]
  unfold rawSnap at hm
  rw [hA] at hm
  dsimp only at hm
  have hkey : redisKey sid t u ∈ ks := by
    rw [hk]
    refine ⟨?_, ?_⟩
    · cases ho : Dict.get? w.redis (redisKey sid t u) with
      | none => rw [ho] at hm; cases hm
      | some o => exact Dict.mem_keys_iff.2 ⟨o, ho⟩
    · have e1 : ("diffsync:" ++ sid ++ ":" ++ t ++ ":*").toList = ("diffsync:" ++ sid ++ ":" ++ t ++ ":").toList ++ ['*'] := by
        simp [String.toList_append]
      have e2 : (redisKey sid t u).toList = ("diffsync:" ++ sid ++ ":" ++ t ++ ":").toList ++ u.toList := by
        rw [redisKey_toList]; simp [String.toList_append]
      rw [e1, e2]
      refine Glob.self_append ?_ ?_ ?_
      · simp only [String.toList_append, List.mem_append, not_or]
        exact ⟨⟨⟨⟨by decide, hs.1⟩, by decide⟩, ht.1⟩, by decide⟩
      · simp only [String.toList_append, List.mem_append, not_or]
        exact ⟨⟨⟨⟨by decide, hs.2⟩, by decide⟩, ht.2⟩, by decide⟩
      · have := Glob.star u.toList Glob.done
        rw [List.append_nil] at this
        exact this
  have : some (w1.heap r).m ∈ rs.map (fun r => some (w2.heap r).m) := by
    rw [h2]
    exact List.mem_map.2 ⟨_, hkey, hm⟩
  obtain ⟨r2, h3, h4⟩ := List.mem_map.1 this
  exact ⟨r2, h3, Option.some.inj h4⟩


theorem splitColon_single {a : List Char} (ha : ':' ∉ a) : getAllModelNames.splitColon a = [a] := by
  induction a with
  | nil => rfl
  | cons c a ih =>
    simp only [List.mem_cons, not_or] at ha
    unfold getAllModelNames.splitColon
    rw [if_neg (Ne.symm ha.1), ih ha.2]

/-- A text has a colon or none. -/
theorem colon_cases (l : List Char) : ':' ∉ l ∨ ∃ a b, l = a ++ ':' :: b ∧ ':' ∉ a := by
  induction l with
  | nil => exact .inl (by simp)
  | cons c l ih =>
    by_cases hc : c = ':'
    · subst hc; exact .inr ⟨[], l, rfl, by simp⟩
    · rcases ih with h | ⟨a, b, rfl, h⟩
      · exact .inl (by simp [h, Ne.symm hc])
      · exact .inr ⟨c :: a, b, rfl, by simp [h, Ne.symm hc]⟩

theorem split_first {l t : List Char} : (getAllModelNames.splitColon l)[0]? = some t ↔ ':' ∉ t ∧ (l = t ∨ ∃ r, l = t ++ ':' :: r) := by
  constructor
  · intro h
    rcases colon_cases l with h1 | ⟨a, b, rfl, ha⟩
    · rw [splitColon_single h1] at h
      cases h
      exact ⟨h1, .inl rfl⟩
    · rw [splitColon_append ha] at h
      cases h
      exact ⟨ha, .inr ⟨b, rfl⟩⟩
  · rintro ⟨ht, rfl | ⟨r, rfl⟩⟩
    · rw [splitColon_single ht]; rfl
    · rw [splitColon_append ht]; rfl

theorem split_next {l t : List Char} {n : Nat} : (getAllModelNames.splitColon l)[n + 1]? = some t ↔ ∃ a r, l = a ++ ':' :: r ∧ ':' ∉ a ∧ (getAllModelNames.splitColon r)[n]? = some t := by
  constructor
  · intro h
    rcases colon_cases l with h1 | ⟨a, b, rfl, ha⟩
    · rw [splitColon_single h1] at h
      cases h
    · rw [splitColon_append ha] at h
      exact ⟨a, b, rfl, ha, h⟩
  · rintro ⟨a, r, rfl, ha, h⟩
    rw [splitColon_append ha]
    exact h

/-- **C63** `get_all_model_names()` of a Redis store are the third parts of the keys on the server that match `diffsync:<store id>:*`, i.e. what is between their second and
third colons, each once. -/
theorem C63_names {A : Adapter V} {sid : String} (hA : A.ref.store = .redis sid) (w : World V E) :
    ∃ ts : List String, getAllModelNames A w = (.ok ts, w) ∧ ts.Nodup ∧ ∀ t : String, t ∈ ts ↔
      ∃ k ∈ Dict.keys w.redis, Glob ("diffsync:" ++ sid ++ ":*").toList k.toList ∧
        ∃ a b : List Char, ':' ∉ a ∧ ':' ∉ b ∧ ':' ∉ t.toList ∧ ∃ r, k.toList = a ++ ':' :: (b ++ ':' :: (t.toList ++ r)) ∧ (r = [] ∨ ∃ r', r = ':' :: r') := by
  have hp : storeLabel sid ++ ":" ++ "*" = "diffsync:" ++ sid ++ ":*" := by
    unfold storeLabel; rw [String.append_assoc]; rfl
  refine ⟨dedup ((scanKeys w.redis (storeLabel sid ++ ":")).filterMap fun k => (getAllModelNames.splitColon k.toList)[2]?.map String.ofList), ?_, nodup_dedup _,
    fun t => ?_⟩
  · unfold getAllModelNames
    rw [hA]
  · rw [mem_dedup, List.mem_filterMap]
    constructor
    · rintro ⟨k, hk, ht⟩
      rw [scan_iff, hp] at hk
      refine ⟨k, hk.1, hk.2, ?_⟩
      obtain ⟨t', ht', rfl⟩ := Option.map_eq_some_iff.1 ht
      obtain ⟨a, x, h1, ha, hx⟩ := split_next.1 ht'
      obtain ⟨b, y, h2, hb, hy⟩ := split_next.1 hx
      obtain ⟨h3, h4⟩ := split_first.1 hy
      rw [String.toList_ofList]
      refine ⟨a, b, ha, hb, h3, ?_⟩
      rcases h4 with h4 | ⟨r, h4⟩
      · exact ⟨[], by rw [h1, h2, h4, List.append_nil], .inl rfl⟩
      · exact ⟨':' :: r, by rw [h1, h2, h4], .inr ⟨r, rfl⟩⟩
    · rintro ⟨k, hk, hg, a, b, ha, hb, ht, r, he, hr⟩
      refine ⟨k, by rw [scan_iff, hp]; exact ⟨hk, hg⟩, ?_⟩
      refine Option.map_eq_some_iff.2 ⟨t.toList, split_next.2 ⟨a, _, he, ha, split_next.2 ⟨b, _, rfl, hb, split_first.2 ⟨ht, ?_⟩⟩⟩, String.ofList_toList⟩
      rcases hr with rfl | ⟨r', rfl⟩
      · exact .inl (List.append_nil _)
      · exact .inr ⟨r', rfl⟩

end DS
