import Verif.Spec.Load
import Verif.Lemmas.RoundTrip
import Verif.Lemmas.SyncBase
/-! # C80: what constructors and `load_from_dict` make of the values they are given -/
set_option linter.unusedSectionVars false

namespace DS
variable {V E : Type} [PyVal V]

theorem isNew_of_instantiate {c : ModelClass V} (hc : c.Valid) {v : ObjDict V} {m : Model V}
    (h : c.instantiate v.vals v.kids v.flags = .ok m) : IsNew c v m := by
  obtain ⟨h1, h2, h3, h4, h5⟩ := instantiate_ok h
  have hcomp := instantiate_complete h
  have hwf : Dict.WF m.vals := by unfold Dict.WF; rw [h2]; exact hc.fields_nodup
  refine ⟨h1, h2, ?_, ?_, fun f => by rw [hcomp.kids_keys, h1], ?_, h4⟩
  · intro f x hf hx
    obtain ⟨⟨f', d⟩, hfd, rfl⟩ := List.mem_map.1 hf
    obtain ⟨y, h6, h7⟩ := h5 _ hfd
    rw [taken_eq] at h6
    dsimp only at hx h6
    rw [hx] at h6
    exact ⟨y, h6, Dict.get?_of_mem hwf h7⟩
  · intro f d hfd hx
    obtain ⟨y, h6, h7⟩ := h5 _ hfd
    rw [taken_eq] at h6
    dsimp only at h6
    rw [hx] at h6
    exact ⟨y, h6, Dict.get?_of_mem hwf h7⟩
  · intro f hf
    rw [h3]
    rw [get?_ofList_map, if_pos hf]

/-- **C80** A constructor given keyword arguments gives exactly the instance that its class reads from them; if there is none, it raises
`ValidationError`. -/
theorem C80_constructor (c : ModelClass V) (hc : c.Valid) (v : ObjDict V) :
    (∃ m, c.instantiate v.vals v.kids v.flags = .ok m ∧ IsNew c v m) ∨
    (c.instantiate v.vals v.kids v.flags = .error .validationError ∧ ¬ ∃ m, IsNew c v m) := by
  cases h : c.instantiate v.vals v.kids v.flags with
  | ok m => exact .inl ⟨m, rfl, isNew_of_instantiate hc h⟩
  | error e =>
    obtain ⟨rfl, h2⟩ := instantiate_isErr _ _ h
    refine .inr ⟨rfl, ?_⟩
    rintro ⟨m, hm⟩
    rcases h2 with ⟨f, hf, hn⟩ | ⟨f, x, hf, hx, hn⟩
    · obtain ⟨y, hy, _⟩ := hm.default f none hf (Dict.get?_eq_none_iff.2 hn)
      cases hy
    · obtain ⟨y, hy, _⟩ := hm.given f x hf hx
      rw [hn] at hy; cases hy

/-! ## load_from_dict -/

theorem forEach_append {α : Type} (f : α → M V E Unit) (l l' : List α) (w : World V E) :
    M.forEach f (l ++ l') w = (M.forEach f l >>= fun _ => M.forEach f l') w := by
  induction l generalizing w with
  | nil => rw [List.nil_append, M.bind_ok (M.forEach_nil f w)]
  | cons a l ih =>
    rw [List.cons_append, M.forEach_cons, M.forEach_cons]
    cases h : f a w with
    | mk r w' =>
      cases r with
      | ok x => rw [M.bind_ok h, ih, M.bind_assoc', M.bind_ok h]
      | error e => rw [M.bind_err h, M.bind_assoc', M.bind_err h]

/-- The two loops of `load_from_dict` are one loop over the entries. -/
theorem loadFromDict_eq {A : Adapter V} (hk : ∀ t ∈ A.topLevel, t ∈ Dict.keys A.classes) (data : Dict (Dict (ObjDict V))) (w : World V E) :
    loadFromDict A data w = M.forEach (fun e => loadOne A e.1 e.2) (toLoad A data) w := by
  have hk' : ∀ t ∈ A.topLevel ++ (Dict.keys A.classes).filter (fun t => !A.topLevel.contains t), t ∈ Dict.keys A.classes := by
    intro t ht
    rcases List.mem_append.1 ht with h | h
    · exact hk t h
    · exact (List.mem_filter.1 h).1
  unfold loadFromDict valueOrder toLoad
  generalize A.topLevel ++ (Dict.keys A.classes).filter (fun t => !A.topLevel.contains t) = ts at hk'
  induction ts generalizing w with
  | nil => rfl
  | cons t ts ih =>
    obtain ⟨c, hc⟩ := Dict.mem_keys_iff.1 (hk' t (by simp))
    have hone : ∀ w : World V E, (do
        let c ← M.ofOption .attributeError (Dict.get? A.classes t)
        M.forEach (loadOne A c) (Dict.values ((Dict.get? data t).getD [])) : M V E Unit) w =
        M.forEach (fun e => loadOne A e.1 e.2) (match Dict.get? A.classes t, Dict.get? data t with
          | some c, some es => es.map (fun e => (c, e.2))
          | _, _ => []) w := by
      intro w
      rw [M.bind_ok (show M.ofOption .attributeError (Dict.get? A.classes t) w = (.ok c, w) by rw [hc]; rfl), hc]
      cases Dict.get? data t with
      | none => rfl
      | some es =>
        dsimp only [Option.getD_some]
        unfold Dict.values
        induction es generalizing w with
        | nil => rfl
        | cons e es ihe =>
          rw [List.map_cons, List.map_cons, M.forEach_cons, M.forEach_cons]
          cases h : loadOne A c e.2 w with
          | mk r w' =>
            cases r with
            | ok x => rw [M.bind_ok h, M.bind_ok h]; exact ihe w'
            | error e => rw [M.bind_err h, M.bind_err h]
    rw [M.forEach_cons, List.flatMap_cons, forEach_append]
    have h1 := hone w
    generalize M.forEach (fun e => loadOne A e.1 e.2) (match Dict.get? A.classes t, Dict.get? data t with
          | some c, some es => es.map (fun e => (c, e.2))
          | _, _ => []) = prog at h1 ⊢
    cases h : prog w with
    | mk r w' =>
      rw [h] at h1
      cases r with
      | ok x => rw [M.bind_ok h1, M.bind_ok h]; exact ih w' (fun x hx => hk' x (by simp [hx]))
      | error e => rw [M.bind_err h1, M.bind_err h]

theorem loadOne_step {A : Adapter V} {sid : Nat} (hA : A.ref.store = .local sid) {c : ModelClass V} (hc : c.Valid) (v : ObjDict V) {w : World V E} (hw : w.OK) :
    ∃ res w', loadOne A c v w = (res, w') ∧ w'.OK ∧ (∀ B : Adapter V, B.ref.store ≠ A.ref.store → snap B w' = snap B w) ∧
      ((res = .ok () ∧ ∃ m, IsNew c v m ∧ (snap A w).find m.type m.uid = none ∧
          ∀ t u, (snap A w').find t u = if t = m.type ∧ u = m.uid then some m else (snap A w).find t u) ∨
        (res = .error .validationError ∧ (¬ ∃ m, IsNew c v m) ∧ snap A w' = snap A w) ∨
        (res = .error .objectAlreadyExists ∧ (∃ m, IsNew c v m ∧ (snap A w).find m.type m.uid ≠ none) ∧ snap A w' = snap A w)) := by
  rcases C80_constructor c hc v with ⟨m, h1, h2⟩ | ⟨h1, h2⟩
  · have hone : loadOne A c v w = (alloc { m := m } >>= fun r => add A r) w := by
      unfold loadOne
      rw [M.bind_ok (show M.ofExcept (c.instantiate v.vals v.kids v.flags) w = (.ok m, w) by rw [h1]; rfl)]
    cases hf : (snap A w).find m.type m.uid with
    | none =>
      obtain ⟨w', h3, ⟨h4, h5⟩, h6⟩ := loads_local hA w w m ⟨hw, fun _ _ => rfl⟩ trivial hf
      exact ⟨_, w', hone.trans h3, h4, h5, .inl ⟨rfl, m, h2, hf, fun t u => h6 t u trivial⟩⟩
    | some m0 =>
      have d1 := RRel.alloc w { m := m }
      have hs1 : ∀ A : Adapter V, snap A (alloc { m := m } w).2 = snap A w := d1.toDRel.snap_eq hw.refs_lt hw.tbl_wf
      have ok1 := OK.alloc hw { m := m }
      rw [alloc_bind] at hone
      have hw1 : (alloc (E := E) { m := m } w).2 = { w.setObj w.next { m := m } with next := w.next + 1 } := rfl
      rw [← hw1] at hone
      generalize hw1' : (alloc (E := E) { m := m } w).2 = w1 at hs1 ok1 d1 hone
      have hm1 : (w1.heap w.next).m = m := by rw [← hw1']; simp [alloc, World.setObj]
      have hf1 : ∃ r', findRef w1 sid (w1.heap w.next).m.type (w1.heap w.next).m.uid = some r' := by
        rw [hm1]
        rw [← hs1 A, snap, hA] at hf
        simp only [Option.map_eq_some_iff] at hf
        obtain ⟨r', h, _⟩ := hf
        exact ⟨r', h⟩
      obtain ⟨r', hr'⟩ := hf1
      have hne : r' ≠ w.next := fun he => by
        rw [d1.toDRel.findRef_eq] at hr'
        exact Nat.lt_irrefl _ (he ▸ hw.refs_lt _ _ _ _ hr')
      obtain ⟨w2, h3, f, ts, hh⟩ := add_local_some hA w.next r' w1 hr'
      rw [if_neg hne] at h3
      have hs2 : ∀ B : Adapter V, snap B w2 = snap B w := fun B => ((f.still ts).snap_eq ok1 B).trans (hs1 B)
      exact ⟨_, w2, hone.trans h3, OK.of_same ok1 f ts, fun B _ => hs2 B, .inr (.inr ⟨rfl, ⟨m, h2, by rw [hf]; simp⟩, hs2 A⟩)⟩
  · refine ⟨.error .validationError, w, ?_, hw, fun _ _ => rfl, .inr (.inl ⟨rfl, h2, rfl⟩)⟩
    unfold loadOne
    rw [M.bind_err (show M.ofExcept (c.instantiate v.vals v.kids v.flags) w = (.error .validationError, w) by rw [h1]; rfl)]

/-- **C80** `load_from_dict` with any data into an adapter with any contents adds one instance for each entry, in order, up to the first entry
for which that is not possible: one whose values the class refuses (`ValidationError`), or one whose unique id is taken (`ObjectAlreadyExists`).
Nothing that was stored is replaced, what was added stays, and no other adapter is touched. -/
theorem C80_load_from_dict {A : Adapter V} {sid : Nat} (hA : A.ref.store = .local sid) (hk : ∀ t ∈ A.topLevel, t ∈ Dict.keys A.classes)
    (hc : ∀ t c, Dict.get? A.classes t = some c → c.Valid) (data : Dict (Dict (ObjDict V))) {w w' : World V E} (hw : w.OK) {res : Except Err Unit}
    (h : loadFromDict A data w = (res, w')) :
    (∃ done rest ms, toLoad A data = done ++ rest ∧ ms.length = done.length ∧ (∀ e m, (e, m) ∈ done.zip ms → IsNew e.1 e.2 m) ∧
      Adds (snap A w) ms (snap A w') ∧
      ((res = .ok () ∧ rest = []) ∨
        ∃ e rest', rest = e :: rest' ∧
          ((res = .error .validationError ∧ ¬ ∃ m, IsNew e.1 e.2 m) ∨
            (res = .error .objectAlreadyExists ∧ ∃ m, IsNew e.1 e.2 m ∧ (snap A w').find m.type m.uid ≠ none)))) ∧
    ∀ B : Adapter V, B.ref.store ≠ A.ref.store → snap B w' = snap B w := by
  rw [loadFromDict_eq hk] at h
  have hv : ∀ e ∈ toLoad A data, e.1.Valid := by
    intro e he
    unfold toLoad at he
    obtain ⟨t, _, he⟩ := List.mem_flatMap.1 he
    cases h1 : Dict.get? A.classes t with
    | none => rw [h1] at he; cases he
    | some c =>
      rw [h1] at he
      cases h2 : Dict.get? data t with
      | none => rw [h2] at he; cases he
      | some es =>
        rw [h2] at he
        obtain ⟨x, _, rfl⟩ := List.mem_map.1 he
        exact hc t c h1
  generalize toLoad A data = es at h hv
  induction es generalizing w with
  | nil =>
    cases h
    exact ⟨⟨[], [], [], rfl, rfl, fun _ _ h => (by cases h), ⟨by simp, by simp, by simp, fun _ _ _ => rfl⟩, .inl ⟨rfl, rfl⟩⟩, fun _ _ => rfl⟩
  | cons e es ih =>
    rw [M.forEach_cons] at h
    obtain ⟨r1, w1, h1, ok1, hB1, hcase⟩ := loadOne_step hA (hv e (by simp)) e.2 hw
    have stuck : ∀ x, r1 = .error x → res = .error x ∧ w' = w1 := by
      rintro x rfl
      rw [M.bind_err h1] at h
      cases h; exact ⟨rfl, rfl⟩
    rcases hcase with ⟨rfl, m, hm, hn, hfind⟩ | ⟨rfl, hno, hs⟩ | ⟨rfl, ⟨m, hm, hf⟩, hs⟩
    · rw [M.bind_ok h1] at h
      obtain ⟨⟨done, rest, ms, g1, g2, g3, g4, g5⟩, g6⟩ := ih ok1 h (fun x hx => hv x (by simp [hx]))
      refine ⟨⟨e :: done, rest, m :: ms, by rw [g1]; rfl, by simp [g2], ?_, ?_, g5⟩, fun B hB => (g6 B hB).trans (hB1 B hB)⟩
      · intro x y hxy
        rw [List.zip_cons_cons, List.mem_cons] at hxy
        rcases hxy with hxy | hxy
        · cases hxy; exact hm
        · exact g3 x y hxy
      · have hkey : (m.type, m.uid) ∉ ms.map (fun m => (m.type, m.uid)) := by
          intro hmem
          obtain ⟨m', h1, h2⟩ := List.mem_map.1 hmem
          have := g4.fresh m' h1
          rw [Prod.mk.injEq] at h2
          rw [h2.1, h2.2, hfind, if_pos ⟨rfl, rfl⟩] at this
          cases this
        refine ⟨?_, ?_, ?_, ?_⟩
        · rw [List.map_cons, List.nodup_cons]; exact ⟨hkey, g4.distinct⟩
        · intro x hx
          rcases List.mem_cons.1 hx with rfl | hx
          · exact hn
          · have := g4.fresh x hx
            rw [hfind] at this
            split at this
            · cases this
            · exact this
        · intro x hx
          rcases List.mem_cons.1 hx with rfl | hx
          · rw [g4.others _ _ hkey, hfind, if_pos ⟨rfl, rfl⟩]
          · exact g4.stored x hx
        · intro t u htu
          rw [List.map_cons, List.mem_cons, not_or] at htu
          rw [g4.others _ _ htu.2, hfind, if_neg]
          rintro ⟨rfl, rfl⟩
          exact htu.1 rfl
    · obtain ⟨rfl, rfl⟩ := stuck _ rfl
      exact ⟨⟨[], e :: es, [], rfl, rfl, fun _ _ h => (by cases h), ⟨by simp, by simp, by simp, fun t u _ => by rw [hs]⟩,
        .inr ⟨e, es, rfl, .inl ⟨rfl, hno⟩⟩⟩, hB1⟩
    · obtain ⟨rfl, rfl⟩ := stuck _ rfl
      exact ⟨⟨[], e :: es, [], rfl, rfl, fun _ _ h => (by cases h), ⟨by simp, by simp, by simp, fun t u _ => by rw [hs]⟩,
        .inr ⟨e, es, rfl, .inr ⟨rfl, m, hm, by rw [hs]; exact hf⟩⟩⟩, hB1⟩

/-! ## update -/

theorem setattrs_stops (m : Model V) (pre : Dict V) (hd : Dict.WF pre) (h : ∀ k ∈ Dict.keys pre, k ∈ m.cls.fieldNames) {k : String} (hk : k ∉ m.cls.fieldNames)
    (v : V) (post : Dict V) : m.setattrs (pre ++ (k, v) :: post) = ((m.setattrs pre).1, some .valueError) := by
  induction pre generalizing m with
  | nil =>
    simp only [List.nil_append, Model.setattrs]
    unfold Model.setattr
    rw [if_neg (by simpa using hk)]
  | cons p pre ih =>
    obtain ⟨k', v'⟩ := p
    have hk' := h k' (by simp)
    have hs : m.setattr k' v' = .ok { m with vals := Dict.set m.vals k' v' } := by
      unfold Model.setattr; rw [if_pos (by simpa using hk')]
    rw [List.cons_append]
    unfold Model.setattrs
    rw [hs]
    exact ih { m with vals := Dict.set m.vals k' v' } (List.nodup_cons.1 hd).2 (fun x hx => h x (List.mem_cons_of_mem _ hx)) hk

theorem updateBase_eq (r : Ref) (attrs : Dict V) (w : World V E) :
    updateBase r attrs w = (match ((w.heap r).m.setattrs attrs).2 with
      | none => (.ok (), w.setObj r { w.heap r with m := ((w.heap r).m.setattrs attrs).1, status := .success, msg := "Updated successfully" })
      | some e => (.error e, w.setObj r { w.heap r with m := ((w.heap r).m.setattrs attrs).1 })) := by
  have h1 : setattrsRef r attrs w = (match ((w.heap r).m.setattrs attrs).2 with
      | none => (.ok (), w.setObj r { w.heap r with m := ((w.heap r).m.setattrs attrs).1 })
      | some e => (.error e, w.setObj r { w.heap r with m := ((w.heap r).m.setattrs attrs).1 })) := by
    unfold setattrsRef
    rw [deref_bind]
    cases h : ((w.heap r).m.setattrs attrs) with
    | mk m' e => cases e <;> rfl
  unfold updateBase
  cases h : ((w.heap r).m.setattrs attrs).2 with
  | none =>
    rw [h] at h1
    rw [M.bind_ok h1]
    rw [setStatus_eq]
    congr 1
    unfold World.setObj
    simp only [if_true]
    congr 1
    funext x
    by_cases hx : x = r
    · simp [hx]
    · simp [hx]
  | some e =>
    rw [h] at h1
    rw [M.bind_err h1]

/-- **C80** `obj.update(attrs)` sets exactly the given attributes, to the values as they are given, and says so in the status; it touches no other
object and no store. -/
theorem C80_update (r : Ref) (attrs : Dict V) (hd : Dict.WF attrs) (w : World V E) (hf : ∀ k ∈ Dict.keys attrs, k ∈ (w.heap r).m.cls.fieldNames) :
    ∃ w', updateBase r attrs w = (.ok (), w') ∧
      (∀ f, Dict.get? (w'.heap r).m.vals f = (Dict.get? attrs f).or (Dict.get? (w.heap r).m.vals f)) ∧
      (w'.heap r).m.cls = (w.heap r).m.cls ∧ (w'.heap r).m.kids = (w.heap r).m.kids ∧ (w'.heap r).m.flags = (w.heap r).m.flags ∧
      (w'.heap r).adapter = (w.heap r).adapter ∧ (w'.heap r).getStatus = (.success, "Updated successfully") ∧
      (∀ r', r' ≠ r → w'.heap r' = w.heap r') ∧ w'.loc = w.loc ∧ w'.redis = w.redis := by
  obtain ⟨h1, h2⟩ := setattrs_all (w.heap r).m attrs hd hf
  obtain ⟨h3, h4, h5, h6⟩ := setattrs_spec (w.heap r).m attrs
  refine ⟨_, by rw [updateBase_eq, h1], ?_⟩
  simp only [World.setObj, if_true, Obj.getStatus]
  refine ⟨fun f => ?_, h3, h4, h5, trivial, trivial, fun r' hr => if_neg hr, trivial, trivial⟩
  cases hg : Dict.get? attrs f with
  | some v => rw [h2 f v hg]; rfl
  | none => rw [h6 f (Dict.get?_eq_none_iff.1 hg)]; rfl

/-- **C80** If one of the attributes is not a field of the class, `obj.update(attrs)` raises `ValueError` with the attributes before it set and the
rest, and the status, as they were. -/
theorem C80_update_unknown (r : Ref) (pre post : Dict V) (k : String) (v : V) (hd : Dict.WF pre) (w : World V E)
    (hf : ∀ k ∈ Dict.keys pre, k ∈ (w.heap r).m.cls.fieldNames) (hk : k ∉ (w.heap r).m.cls.fieldNames) :
    ∃ w', updateBase r (pre ++ (k, v) :: post) w = (.error .valueError, w') ∧
      (∀ f, Dict.get? (w'.heap r).m.vals f = (Dict.get? pre f).or (Dict.get? (w.heap r).m.vals f)) ∧
      (w'.heap r).m.cls = (w.heap r).m.cls ∧ (w'.heap r).m.kids = (w.heap r).m.kids ∧ (w'.heap r).m.flags = (w.heap r).m.flags ∧
      (w'.heap r).adapter = (w.heap r).adapter ∧ (w'.heap r).getStatus = (w.heap r).getStatus ∧
      (∀ r', r' ≠ r → w'.heap r' = w.heap r') ∧ w'.loc = w.loc ∧ w'.redis = w.redis := by
  obtain ⟨h1, h2⟩ := setattrs_all (w.heap r).m pre hd hf
  obtain ⟨h3, h4, h5, h6⟩ := setattrs_spec (w.heap r).m pre
  have hs := setattrs_stops (w.heap r).m pre hd hf hk v post
  refine ⟨_, by rw [updateBase_eq, hs], ?_⟩
  simp only [World.setObj, if_true, Obj.getStatus]
  refine ⟨fun f => ?_, h3, h4, h5, trivial, trivial, fun r' hr => if_neg hr, trivial, trivial⟩
  cases hg : Dict.get? pre f with
  | some v => rw [h2 f v hg]; rfl
  | none => rw [h6 f (Dict.get?_eq_none_iff.1 hg)]; rfl

end DS
