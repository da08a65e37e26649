import Verif.Model.Refused
import Verif.Lemmas.Store
import Verif.Props.DiffRef
/-! # C96: the object that `ObjectAlreadyExists` carries -/
set_option linter.unusedSectionVars false

namespace DS
variable {V E : Type} [PyVal V]

/-- **C96** Apart from the attribute of the exception, `add` is the `add` of the other properties. -/
theorem C96_add_same (A : Adapter V) (r : Ref) (w : World V E) : (forget (addX A r w).1, (addX A r w).2) = add A r w := by
  unfold addX add
  rw [deref_bind]
  cases hs : A.ref.store with
  | «local» sid =>
    dsimp only
    rw [M.bind_ok (localModel_eq sid _ w)]
    unfold addLocalX
    dsimp only
    rw [get?_touch]
    show _ = (match Dict.get? (tbl w sid (w.heap r).m.type) (w.heap r).m.uid with
      | some r' => if r' = r then pure () else M.raise .objectAlreadyExists
      | none => _ : M V E Unit) _
    unfold tbl
    cases hg : Dict.get? ((Dict.get? (w.loc sid) (w.heap r).m.type).getD []) (w.heap r).m.uid with
    | some r' =>
      by_cases h : r' = r
      · subst h; simp [forget]; rfl
      · simp [h, forget, alreadyExists]; rfl
    | none =>
      dsimp only
      show _ = M.bind M.read _ _
      unfold M.bind M.read
      dsimp only
      split <;> rfl
  | redis sid =>
    unfold addRedisX
    dsimp only
    show _ = M.bind M.read _ _
    unfold M.bind M.read
    dsimp only
    cases hg : Dict.get? w.redis (redisKey sid (w.heap r).m.type (w.heap r).m.uid) with
    | some o' =>
      dsimp only
      cases h : o'.m.dictEq (w.heap r).m <;> simp [forget, alreadyExists] <;> rfl
    | none => rfl

/-- **C96** `add_child` likewise. -/
theorem C96_add_child_same (p c : Ref) (w : World V E) : (forget (addChildX p c w).1, (addChildX p c w).2) = addChildRef p c w := by
  unfold addChildX addChildRef
  rw [deref_bind, deref_bind]
  unfold Model.addChild
  dsimp only
  cases h1 : Dict.get? (w.heap p).m.cls.children (w.heap c).m.type with
  | none => simp only [h1]; rfl
  | some f =>
    cases h2 : (w.heap p).m.kidList f with
    | none => simp only [h1, h2]; rfl
    | some l =>
      cases h3 : l.contains (w.heap c).m.uid <;> simp only [h1, h2, h3] <;> rfl

/-- **C96** `Diff.add` likewise. -/
theorem C96_diff_add_same (h : DiffHeap V) (d e : Nat) : (forget (h.addX d e).1, (h.addX d e).2) = h.add d e := by
  unfold DiffHeap.addX DiffHeap.add
  dsimp only
  split <;> rfl

/-- **C96** When a local store refuses an object, there is another object with the same type and unique id in it, and it stays there; but `existing_object` is the object that was
refused, not this one. -/
theorem C96_local_partial {A : Adapter V} {sid : Nat} (hA : A.ref.store = .local sid) {r : Ref} {w w' : World V E} {x : Thrown} (h : addX A r w = (.error x, w')) :
    x.kind = .objectAlreadyExists ∧ x.existing = some r ∧
      ∃ there, findRef w sid (w.heap r).m.type (w.heap r).m.uid = some there ∧ findRef w' sid (w.heap r).m.type (w.heap r).m.uid = some there ∧ x.existing ≠ some there := by
  have hsame := C96_add_same A r w
  rw [h] at hsame
  cases hf : findRef w sid (w.heap r).m.type (w.heap r).m.uid with
  | none =>
    obtain ⟨w2, h2, _⟩ := add_local_none hA r w hf
    rw [h2] at hsame
    cases congrArg Prod.fst hsame
  | some q =>
    obtain ⟨w2, h2, _, ht, _⟩ := add_local_some hA r q w hf
    unfold addX at h
    rw [hA] at h
    dsimp only at h
    unfold addLocalX at h
    dsimp only at h
    rw [get?_touch] at h
    have hq : Dict.get? (tbl w sid (w.heap r).m.type) (w.heap r).m.uid = some q := hf
    unfold tbl at hq
    rw [hq] at h
    dsimp only at h
    by_cases hqr : q = r
    · rw [if_neg (by simp [hqr])] at h; cases congrArg Prod.fst h
    · rw [if_pos hqr] at h
      have e1 := congrArg Prod.fst h
      cases e1
      refine ⟨rfl, rfl, q, rfl, ?_, fun he => hqr (Option.some.inj he).symm⟩
      rw [h2, if_neg hqr] at hsame
      have : w' = w2 := congrArg Prod.snd hsame
      rw [this]
      unfold findRef
      rw [ht]
      exact hf

/-- **C96** When a Redis store refuses an object, another with the same type and unique id is stored, with other contents, and stays; `existing_object` is the one that was refused. -/
theorem C96_redis_partial {A : Adapter V} {sid : String} (hA : A.ref.store = .redis sid) {r : Ref} {w w' : World V E} {x : Thrown} (h : addX A r w = (.error x, w')) :
    x.kind = .objectAlreadyExists ∧ x.existing = some r ∧ w' = w ∧
      ∃ there, Dict.get? w.redis (redisKey sid (w.heap r).m.type (w.heap r).m.uid) = some there ∧ there.m.dictEq (w.heap r).m = false := by
  unfold addX at h
  rw [hA] at h
  dsimp only at h
  unfold addRedisX at h
  dsimp only at h
  cases hg : Dict.get? w.redis (redisKey sid (w.heap r).m.type (w.heap r).m.uid) with
  | none => rw [hg] at h; cases congrArg Prod.fst h
  | some o =>
    rw [hg] at h
    dsimp only at h
    cases hd : o.m.dictEq (w.heap r).m with
    | true => rw [hd] at h; cases congrArg Prod.fst h
    | false =>
      rw [hd] at h
      cases congrArg Prod.fst h
      exact ⟨rfl, rfl, (congrArg Prod.snd h).symm, o, rfl, hd⟩

/-- **C96** When a diff refuses an element, one with the same type and name is in it already; `existing_object` is the element that was refused, hence the one that is there only if
the same element was added twice. -/
theorem C96_diff_partial {h : DiffHeap V} {log : Nat → List Nat} (H : ByHand h log) {d e : Nat} {x : Thrown} {h' : DiffHeap V} (hx : h.addX d e = (.error x, h')) :
    x.kind = .objectAlreadyExists ∧ x.existing = some e ∧ h' = h ∧
      ∃ there ∈ log d, (h.elem there).type = (h.elem e).type ∧ (h.elem there).name = (h.elem e).name ∧ (x.existing = some there ↔ there = e) := by
  have hsame := C96_diff_add_same h d e
  rw [hx] at hsame
  have hk : x.existing = some e := by
    unfold DiffHeap.addX at hx
    dsimp only at hx
    split at hx
    · cases congrArg Prod.fst hx; rfl
    · cases congrArg Prod.fst hx
  by_cases ht : ∃ y ∈ log d, (h.elem y).type = (h.elem e).type ∧ (h.elem y).name = (h.elem e).name
  · have h1 := (C85_add H d e).1 ht
    rw [h1] at hsame
    obtain ⟨y, hy, h2, h3⟩ := ht
    refine ⟨?_, hk, congrArg Prod.snd hsame, y, hy, h2, h3, ?_⟩
    · have : Except.error (ε := Err) (α := Unit) x.kind = .error .objectAlreadyExists := congrArg Prod.fst hsame
      cases x; cases this; rfl
    · rw [hk]; exact ⟨fun h => (Option.some.inj h).symm, fun h => by rw [h]⟩
  · have h1 := ((C85_add H d e).2 (fun y hy h => ht ⟨y, hy, h⟩)).1
    rw [← hsame] at h1
    cases h1

/-- **C96** When `add_child` refuses a child, its unique id is in the list, and `existing_object` is the child that was given. -/
theorem C96_add_child {p c : Ref} {w w' : World V E} {x : Thrown} (h : addChildX p c w = (.error x, w')) :
    w' = w ∧ ((x.kind = .objectAlreadyExists ↔ ∃ f l, Dict.get? (w.heap p).m.cls.children (w.heap c).m.type = some f ∧ (w.heap p).m.kidList f = some l ∧ (w.heap c).m.uid ∈ l) ∧
      (x.kind = .objectAlreadyExists → x.existing = some c) ∧ (x.kind ≠ .objectAlreadyExists → x.existing = none)) := by
  unfold addChildX at h
  dsimp only at h
  cases hc : Dict.get? (w.heap p).m.cls.children (w.heap c).m.type with
  | none =>
    rw [hc] at h
    cases congrArg Prod.fst h
    exact ⟨(congrArg Prod.snd h).symm, ⟨fun h => (by cases h), fun ⟨_, _, h, _⟩ => by cases h⟩, fun h => (by cases h), fun _ => rfl⟩
  | some f =>
    rw [hc] at h
    dsimp only at h
    cases hl : (w.heap p).m.kidList f with
    | none =>
      rw [hl] at h
      cases congrArg Prod.fst h
      refine ⟨(congrArg Prod.snd h).symm, ⟨fun h => (by cases h), ?_⟩, fun h => (by cases h), fun _ => rfl⟩
      rintro ⟨f', l, h1, h2, _⟩
      cases h1; rw [hl] at h2; cases h2
    | some l =>
      rw [hl] at h
      dsimp only at h
      cases hu : l.contains (w.heap c).m.uid with
      | true =>
        rw [hu] at h
        cases congrArg Prod.fst h
        exact ⟨(congrArg Prod.snd h).symm, ⟨fun _ => ⟨f, l, rfl, hl, by simpa using hu⟩, fun _ => rfl⟩, fun _ => rfl, fun h => absurd rfl h⟩
      | false => rw [hu] at h; cases congrArg Prod.fst h

end DS
