import Verif.Lemmas.StoreOps
/-! `remove(obj, remove_children=True)`: a traversal of the child graph. -/
set_option linter.unusedSectionVars false

namespace DS
variable {V E : Type} [PyVal V]

/-- What removal needs to know of a store: `keyOf` gives the place of a model name and unique id, `at_` what is
there, `size` the number of stored objects, `I` the invariant of the store. -/
structure DelSpec {K : Type} [DecidableEq K] (A : Adapter V) (I : World V E → Prop) (ok : String → Prop) (keyOf : String → String → K)
    (at_ : World V E → K → Option (Model V)) (size : World V E → Nat) : Prop where
  get_none : ∀ w t u, I w → ok t → at_ w (keyOf t u) = none → ∃ w', getRaw A t u w = (.error .objectNotFound, w') ∧ I w' ∧
    at_ w' = at_ w ∧ size w' = size w ∧ w.next ≤ w'.next ∧ ∀ r, r < w.next → (w'.heap r).m = (w.heap r).m
  get_some : ∀ w t u m, I w → ok t → at_ w (keyOf t u) = some m → ∃ r w', getRaw A t u w = (.ok r, w') ∧ I w' ∧
    at_ w' = at_ w ∧ size w' = size w ∧ w.next ≤ w'.next ∧ (∀ r, r < w.next → (w'.heap r).m = (w.heap r).m) ∧
    r < w'.next ∧ (w'.heap r).m = m ∧ m.type = t ∧ m.uid = u
  del : ∀ w r m, I w → r < w.next → ok (w.heap r).m.type → at_ w (keyOf (w.heap r).m.type (w.heap r).m.uid) = some m →
    ∃ w', removeOne A r w = (.ok (), w') ∧ I w' ∧
    at_ w' = (fun k => if k = keyOf (w.heap r).m.type (w.heap r).m.uid then none else at_ w k) ∧
    size w' + 1 = size w ∧ w.next ≤ w'.next ∧ (∀ r, r < w.next → (w'.heap r).m = (w.heap r).m)
  emit : ∀ w ev, I w → I { w with trace := w.trace ++ [ev] }
  emit_at : ∀ w ev, at_ { w with trace := w.trace ++ [ev] } = at_ w
  emit_size : ∀ w ev, size { w with trace := w.trace ++ [ev] } = size w
  size_pos : ∀ w k m, I w → at_ w k = some m → 0 < size w
  kids_ok : ∀ w k m, I w → at_ w k = some m → ∀ c ∈ childRefs m, ok c.1

section
variable {K : Type} [DecidableEq K] {A : Adapter V} {I : World V E → Prop} {ok : String → Prop} {keyOf : String → String → K}
  {at_ : World V E → K → Option (Model V)} {size : World V E → Nat}

/-- Reachability through child lists of stored objects. -/
inductive Reach (keyOf : String → String → K) (G : K → Option (Model V)) (x : K) : K → Prop where
  | refl : Reach keyOf G x x
  | step {y m c} : Reach keyOf G x y → G y = some m → c ∈ childRefs m → Reach keyOf G x (keyOf c.1 c.2)

/-- A path of the given length through child lists of stored objects. -/
inductive Path (keyOf : String → String → K) (G : K → Option (Model V)) : Nat → K → K → Prop where
  | refl {x} : Path keyOf G 0 x x
  | step {j x m c y} : G x = some m → c ∈ childRefs m → Path keyOf G j (keyOf c.1 c.2) y → Path keyOf G (j + 1) x y

/-- What happened between two states of a removal. -/
structure DelPost (I : World V E → Prop) (keyOf : String → String → K) (at_ : World V E → K → Option (Model V)) (size : World V E → Nat)
    (G : K → Option (Model V)) (root : K) (w w' : World V E) : Prop where
  inv : I w'
  sub : ∀ k, at_ w' k = at_ w k ∨ at_ w' k = none
  size_le : size w' ≤ size w
  closed : ∀ k m, at_ w k = some m → at_ w' k = none → Reach keyOf G root k ∧ ∀ c ∈ childRefs m, at_ w' (keyOf c.1 c.2) = none
  next_le : w.next ≤ w'.next
  heap : ∀ r, r < w.next → (w'.heap r).m = (w.heap r).m

theorem DelPost.none_mono {G : K → Option (Model V)} {root : K} {w w' : World V E} (h : DelPost I keyOf at_ size G root w w') {k : K}
    (hk : at_ w k = none) : at_ w' k = none := by
  rcases h.sub k with h' | h'
  · rw [h', hk]
  · exact h'

theorem DelPost.trans {G : K → Option (Model V)} {root : K} {a b c : World V E} (h1 : DelPost I keyOf at_ size G root a b)
    (h2 : DelPost I keyOf at_ size G root b c) : DelPost I keyOf at_ size G root a c where
  inv := h2.inv
  sub k := by
    rcases h2.sub k with h | h
    · rw [h]; exact h1.sub k
    · exact .inr h
  size_le := Nat.le_trans h2.size_le h1.size_le
  closed k m hk hc := by
    cases hb : at_ b k with
    | none =>
      obtain ⟨hr, hcl⟩ := h1.closed k m hk hb
      exact ⟨hr, fun c hc => h2.none_mono (hcl c hc)⟩
    | some m' =>
      have : m' = m := by
        rcases h1.sub k with h | h
        · rw [hb, hk] at h; exact Option.some.inj h
        · rw [hb] at h; cases h
      subst this
      exact h2.closed k m' hb hc
  next_le := Nat.le_trans h1.next_le h2.next_le
  heap r hr := by rw [h2.heap r (Nat.lt_of_lt_of_le hr h1.next_le), h1.heap r hr]

theorem DelPost.of_same {G : K → Option (Model V)} {root : K} {w w' : World V E} (hI : I w') (ha : at_ w' = at_ w) (hs : size w' = size w)
    (hn : w.next ≤ w'.next) (hh : ∀ r, r < w.next → (w'.heap r).m = (w.heap r).m) : DelPost I keyOf at_ size G root w w' where
  inv := hI
  sub k := .inl (by rw [ha])
  size_le := by rw [hs]; exact Nat.le_refl _
  closed k m hk hc := by rw [ha, hk] at hc; cases hc
  next_le := hn
  heap := hh

theorem remove_dfs (D : DelSpec A I ok keyOf at_ size) (G : K → Option (Model V)) (root : K) (n : Nat) :
    ∀ (r : Ref) (w : World V E), I w →
      (size w ≤ n ∨ ∀ j y, Path keyOf G j (keyOf (w.heap r).m.type (w.heap r).m.uid) y → j < n) → r < w.next → ok (w.heap r).m.type →
      at_ w (keyOf (w.heap r).m.type (w.heap r).m.uid) = some (w.heap r).m → (∀ k m, at_ w k = some m → G k = some m) →
      Reach keyOf G root (keyOf (w.heap r).m.type (w.heap r).m.uid) →
      ∃ w', remove A n r true w = (.ok (), w') ∧ DelPost I keyOf at_ size G root w w' ∧
        at_ w' (keyOf (w.heap r).m.type (w.heap r).m.uid) = none := by
  induction n with
  | zero =>
    intro r w hI hs _ _ ha _ _
    have := D.size_pos w _ _ hI ha
    rcases hs with hs | hs
    · omega
    · exact absurd (hs 0 _ .refl) (Nat.lt_irrefl 0)
  | succ n ih =>
    intro r w hI hs hr hok ha hG hreach
    obtain ⟨w1, e1, i1, a1, s1, n1, h1⟩ := D.del w r _ hI hr hok ha
    -- the loop over the children
    have loop : ∀ (cs : List (String × String)), (∀ c ∈ cs, c ∈ childRefs (w.heap r).m) → ∀ w2 : World V E, I w2 →
        (size w2 ≤ n ∨ ∀ c ∈ childRefs (w.heap r).m, ∀ j y, Path keyOf G j (keyOf c.1 c.2) y → j < n) →
        (∀ k m, at_ w2 k = some m → G k = some m) →
        ∃ w3, M.forEach (fun c => M.tryCatch
            (do let k ← getRaw A c.1 c.2
                remove A n k true)
            Err.isNotFound
            (fun _ => M.emit (.childNotFound c.1 c.2 (w.heap r).m.type (w.heap r).m.uid))) cs w2 = (.ok (), w3) ∧
          DelPost I keyOf at_ size G root w2 w3 ∧ ∀ c ∈ cs, at_ w3 (keyOf c.1 c.2) = none := by
      intro cs
      induction cs with
      | nil =>
        intro _ w2 i2 _ _
        exact ⟨w2, rfl, DelPost.of_same i2 rfl rfl (Nat.le_refl _) (fun _ _ => rfl), by simp⟩
      | cons c cs ihc =>
        intro hcs w2 i2 s2 g2
        have hcm := hcs c (by simp)
        have hokc : ok c.1 := D.kids_ok w _ _ hI ha c hcm
        have step : ∃ w3, M.tryCatch
            (do let k ← getRaw A c.1 c.2
                remove A n k true)
            Err.isNotFound
            (fun _ => M.emit (.childNotFound c.1 c.2 (w.heap r).m.type (w.heap r).m.uid)) w2 = (.ok (), w3) ∧
            DelPost I keyOf at_ size G root w2 w3 ∧ at_ w3 (keyOf c.1 c.2) = none := by
          cases hc : at_ w2 (keyOf c.1 c.2) with
          | none =>
            obtain ⟨w3, e3, i3, a3, s3, n3, h3⟩ := D.get_none w2 c.1 c.2 i2 hokc hc
            refine ⟨{ w3 with trace := w3.trace ++ [.childNotFound c.1 c.2 (w.heap r).m.type (w.heap r).m.uid] }, ?_, ?_, ?_⟩
            · unfold M.tryCatch
              rw [M.bind_err e3]
              rfl
            · exact DelPost.of_same (D.emit _ _ i3) (by rw [D.emit_at, a3]) (by rw [D.emit_size, s3]) n3 h3
            · rw [D.emit_at, a3, hc]
          | some m =>
            obtain ⟨k, w3, e3, i3, a3, s3, n3, h3, k3, m3, mt, mu⟩ := D.get_some w2 c.1 c.2 m i2 hokc hc
            have hkey : keyOf (w3.heap k).m.type (w3.heap k).m.uid = keyOf c.1 c.2 := by rw [m3, mt, mu]
            obtain ⟨w4, e4, p4, z4⟩ := ih k w3 i3 (by rw [s3, hkey]; exact s2.imp id (fun h => h c hcm)) k3 (by rw [m3, mt]; exact hokc)
              (by rw [hkey, a3, hc, m3]) (by rw [a3]; exact g2)
              (by rw [hkey]; exact .step hreach (hG _ _ ha) hcm)
            refine ⟨w4, ?_, (DelPost.of_same i3 a3 s3 n3 h3).trans p4, by rw [← hkey]; exact z4⟩
            unfold M.tryCatch
            rw [M.bind_ok e3, e4]
        obtain ⟨w3, e3, p3, z3⟩ := step
        obtain ⟨w4, e4, p4, z4⟩ := ihc (fun x hx => hcs x (by simp [hx])) w3 p3.inv (s2.imp (fun h => Nat.le_trans p3.size_le h) id) (by
          intro k m hk
          rcases p3.sub k with h | h
          · rw [h] at hk; exact g2 k m hk
          · rw [h] at hk; cases hk)
        refine ⟨w4, ?_, p3.trans p4, ?_⟩
        · rw [M.forEach_cons, M.bind_ok e3]; exact e4
        · intro x hx
          rcases List.mem_cons.1 hx with rfl | hx
          · exact p4.none_mono z3
          · exact z4 x hx
    obtain ⟨w3, e3, p3, z3⟩ := loop (childRefs (w.heap r).m) (fun _ h => h) w1 i1 (hs.imp (fun h => by omega)
        (fun h c hc j y hp => Nat.lt_of_succ_lt_succ (h (j + 1) y (.step (hG _ _ ha) hc hp)))) (by
      intro k m hk
      rw [a1] at hk
      dsimp only at hk
      split at hk
      · cases hk
      · exact hG k m hk)
    have hself : at_ w1 (keyOf (w.heap r).m.type (w.heap r).m.uid) = none := by rw [a1]; simp
    refine ⟨w3, ?_, ⟨p3.inv, ?_, ?_, ?_, Nat.le_trans n1 p3.next_le, ?_⟩, p3.none_mono hself⟩
    · rw [remove, deref_bind, M.bind_ok e1]
      exact e3
    · intro k
      rcases p3.sub k with h | h
      · rw [h, a1]
        dsimp only
        split
        · exact .inr rfl
        · exact .inl rfl
      · exact .inr h
    · have := p3.size_le; omega
    · intro k m hk h3
      by_cases hkk : k = keyOf (w.heap r).m.type (w.heap r).m.uid
      · subst hkk
        rw [ha] at hk; cases hk
        exact ⟨hreach, z3⟩
      · exact p3.closed k m (by rw [a1]; simp only [if_neg hkk]; exact hk) h3
    · intro r' hr'
      rw [p3.heap r' (Nat.lt_of_lt_of_le hr' n1), h1 r' hr']

/-- `remove(obj, remove_children=True)` removes exactly what is reachable. -/
theorem remove_exact (D : DelSpec A I ok keyOf at_ size) (n : Nat) (r : Ref) (w : World V E) (hI : I w)
    (hs : size w ≤ n ∨ ∀ j y, Path keyOf (at_ w) j (keyOf (w.heap r).m.type (w.heap r).m.uid) y → j < n)
    (hr : r < w.next) (hok : ok (w.heap r).m.type) (ha : at_ w (keyOf (w.heap r).m.type (w.heap r).m.uid) = some (w.heap r).m) :
    ∃ w', remove A n r true w = (.ok (), w') ∧ I w' ∧ w.next ≤ w'.next ∧ (∀ r, r < w.next → (w'.heap r).m = (w.heap r).m) ∧
      (∀ k, Reach keyOf (at_ w) (keyOf (w.heap r).m.type (w.heap r).m.uid) k → at_ w' k = none) ∧
      (∀ k, ¬ Reach keyOf (at_ w) (keyOf (w.heap r).m.type (w.heap r).m.uid) k → at_ w' k = at_ w k) := by
  obtain ⟨w', e, p, z⟩ := remove_dfs D (at_ w) (keyOf (w.heap r).m.type (w.heap r).m.uid) n r w hI hs hr hok ha (fun _ _ h => h) .refl
  refine ⟨w', e, p.inv, p.next_le, p.heap, ?_, ?_⟩
  · intro k hk
    induction hk with
    | refl => exact z
    | step hy hm hc ih => exact (p.closed _ _ hm ih).2 _ hc
  · intro k hk
    rcases p.sub k with h | h
    · exact h
    · cases hw : at_ w k with
      | none => exact h
      | some m => exact absurd (p.closed k m hw h).1 hk
end

/-! ## the local store -/

theorem sum_set (d : Dict (Dict Ref)) (t : String) (x : Dict Ref) :
    ((Dict.set d t x).map (fun p => p.2.length)).sum + ((Dict.get? d t).getD []).length = (d.map (fun p => p.2.length)).sum + x.length := by
  induction d with
  | nil => simp [Dict.set]
  | cons p d ih =>
    obtain ⟨k, v⟩ := p
    unfold Dict.set
    rw [Dict.get?_cons]
    by_cases h : k = t
    · simp only [if_pos h, List.map_cons, List.sum_cons, Option.getD_some]; omega
    · simp only [if_neg h, List.map_cons, List.sum_cons]; omega

theorem removeItem_count {A : Adapter V} {sid : Nat} (hA : A.ref.store = .local sid) (t u : String) (w : World V E)
    (hwf : TblWF w) (h : (findRef w sid t u).isSome = true) :
    countStore (.local sid) (removeItem A t u w).2 + 1 = countStore (.local sid) w := by
  unfold removeItem
  simp only [hA]
  rw [M.bind_ok (localModel_eq sid _ w)]
  have hh : Dict.has (tbl w sid t) u = true := h
  have hm : u ∈ Dict.keys (tbl w sid t) := Dict.has_iff.1 hh
  simp only [hh, if_true, M.modify, countStore, World.setLoc]
  have h1 := sum_set (touch (w.loc sid) t) t (Dict.erase (tbl w sid t) u)
  rw [get?_touch] at h1
  have h2 := Dict.length_erase (hwf sid t) hm
  have h3 := sum_touch (w.loc sid) t
  unfold tbl at h1 h2 ⊢
  omega

theorem countStore_setObj (w : World V E) (r : Ref) (o : Obj V) (k : StoreKind) : countStore k (w.setObj r o) = countStore k w := rfl

theorem removeOne_count {A : Adapter V} {sid : Nat} (hA : A.ref.store = .local sid) (r : Ref) (w : World V E)
    (hwf : TblWF w) (h : (findRef w sid (w.heap r).m.type (w.heap r).m.uid).isSome = true) :
    countStore (.local sid) (removeOne A r w).2 + 1 = countStore (.local sid) w := by
  have h1 := removeItem_count hA (w.heap r).m.type (w.heap r).m.uid w hwf h
  obtain ⟨w1, e1, _⟩ := removeItem_local hA (w.heap r).m.type (w.heap r).m.uid w
  rw [if_pos h] at e1
  rw [e1] at h1
  unfold removeOne
  rw [deref_bind, M.bind_ok e1, M.read_bind]
  split
  · exact h1
  · exact h1

theorem length_le_sum {d : Dict (Dict Ref)} {t : String} {x : Dict Ref} (h : Dict.get? d t = some x) :
    x.length ≤ (d.map (fun p => p.2.length)).sum := by
  induction d with
  | nil => cases h
  | cons p d ih =>
    obtain ⟨k, v⟩ := p
    rw [Dict.get?_cons] at h
    simp only [List.map_cons, List.sum_cons]
    split at h
    · cases h; omega
    · have := ih h; omega

theorem findRef_count_pos {w : World V E} {sid : Nat} {t u : String} {r : Ref} (h : findRef w sid t u = some r) :
    0 < countStore (.local sid) w := by
  unfold findRef tbl at h
  cases hg : Dict.get? (w.loc sid) t with
  | none => rw [hg] at h; cases h
  | some x =>
    rw [hg] at h
    have h1 := length_le_sum hg
    have h2 : 0 < x.length := by
      cases x with
      | nil => cases h
      | cons _ _ => simp
    unfold countStore
    simp only
    omega

/-- The invariant of removal from a local store, started in `w0`. -/
structure LocalInv (sid : Nat) (w0 w : World V E) : Prop where
  ok : w.OK
  redis : w.redis = w0.redis
  others : ∀ s t, s ≠ sid → tbl w s t = tbl w0 s t
  mine : ∀ t u, findRef w sid t u = findRef w0 sid t u ∨ findRef w sid t u = none
  heap : ∀ r, (w.heap r).m = (w0.heap r).m

theorem LocalInv.refl {sid : Nat} {w : World V E} (h : w.OK) : LocalInv sid w w :=
  ⟨h, rfl, fun _ _ _ => rfl, fun _ _ => .inl rfl, fun _ => rfl⟩

theorem LocalInv.same {sid : Nat} {w0 w w' : World V E} (h : LocalInv sid w0 w) (f : Frame w w') (t : TblSame w w') : LocalInv sid w0 w' :=
  ⟨OK.of_same h.ok f t, f.redis_eq.trans h.redis, fun s x hs => (t s x).trans (h.others s x hs), fun x u => by rw [t.findRef]; exact h.mine x u,
   fun r => (f.heap_m r).trans (h.heap r)⟩

theorem LocalInv.erase {sid : Nat} {w0 w w' : World V E} (h : LocalInv sid w0 w) (f : Frame w w') {x u : String} (t : TblErase sid x u w w') :
    LocalInv sid w0 w' where
  ok := OK.of_erase h.ok f t
  redis := f.redis_eq.trans h.redis
  others s x hs := by rw [t, if_neg (fun hc => hs hc.1)]; exact h.others s x hs
  mine x u := by
    rw [t.findRef]
    split
    · exact .inr rfl
    · exact h.mine x u
  heap r := (f.heap_m r).trans (h.heap r)

/-- The store invariant used by removal. -/
theorem delSpec_local {A : Adapter V} {sid : Nat} (hA : A.ref.store = .local sid) (w0 : World V E) :
    DelSpec (E := E) A (LocalInv sid w0) (fun _ => True) (fun t u => (t, u)) (fun w k => (findRef w sid k.1 k.2).map (fun r => (w.heap r).m))
      (countStore (.local sid)) where
  get_none w t u hI _ h := by
    have hf : findRef w sid t u = none := by simpa using h
    refine ⟨w.setLoc sid (touch (w.loc sid) t), ?_, ?_, ?_, ?_, Nat.le_refl _, fun _ _ => rfl⟩
    · unfold getRaw
      simp only [hA]
      rw [M.bind_ok (localModel_eq sid t w)]
      have : Dict.get? (tbl w sid t) u = none := hf
      rw [this]; rfl
    · exact hI.same (Frame.setLoc _ _ _ (fun h => wf_touch h _)) (tbl_setLoc_touch _ _ _)
    · funext k
      rw [TblSame.findRef (tbl_setLoc_touch _ _ _)]; rfl
    · exact (DRel.setLoc_touch w sid t).count_eq _
  get_some w t u m hI _ h := by
    simp only [Option.map_eq_some_iff] at h
    obtain ⟨r, hf, rfl⟩ := h
    refine ⟨r, w.setLoc sid (touch (w.loc sid) t), ?_, ?_, ?_, ?_, Nat.le_refl _, fun _ _ => rfl, hI.ok.refs_lt _ _ _ _ hf, rfl, hI.ok.key_ok _ _ _ _ hf⟩
    · unfold getRaw
      simp only [hA]
      rw [M.bind_ok (localModel_eq sid t w)]
      have : Dict.get? (tbl w sid t) u = some r := hf
      rw [this]; rfl
    · exact hI.same (Frame.setLoc _ _ _ (fun h => wf_touch h _)) (tbl_setLoc_touch _ _ _)
    · funext k
      rw [TblSame.findRef (tbl_setLoc_touch _ _ _)]; rfl
    · exact (DRel.setLoc_touch w sid t).count_eq _
  del w r m hI hr _ h := by
    simp only [Option.map_eq_some_iff] at h
    obtain ⟨r', hf, rfl⟩ := h
    obtain ⟨w', e, f, t, _⟩ := removeOne_local hA r w
    have hs : (findRef w sid (w.heap r).m.type (w.heap r).m.uid).isSome = true := by rw [hf]; rfl
    rw [if_pos hs] at e
    refine ⟨w', e, hI.erase f t, ?_, ?_, ?_, fun r _ => f.heap_m r⟩
    · funext k
      rw [t.findRef]
      simp only [true_and, f.heap_m]
      by_cases hk : k = ((w.heap r).m.type, (w.heap r).m.uid)
      · subst hk; simp
      · rw [if_neg hk, if_neg]
        rintro ⟨h1, h2⟩
        exact hk (Prod.ext h1 h2)
    · have := removeOne_count hA r w hI.ok.tbl_wf hs
      rw [e] at this; exact this
    · rw [f.next_eq]; exact Nat.le_refl _
  emit w ev h := ⟨⟨h.ok.loc_wf, h.ok.tbl_wf, h.ok.refs_lt, h.ok.key_ok⟩, h.redis, h.others, h.mine, h.heap⟩
  emit_at _ _ := rfl
  emit_size _ _ := rfl
  size_pos w k m _ h := by
    simp only [Option.map_eq_some_iff] at h
    obtain ⟨r, hf, _⟩ := h
    exact findRef_count_pos hf
  kids_ok _ _ _ _ _ _ _ := trivial

/-! ## the Redis store -/

/-- What a Redis store holds, for plain model names. -/
def redisAt (sid : String) (w : World V E) (k : String × String) : Option (Model V) :=
  if Plain k.1 then (Dict.get? w.redis (redisKey sid k.1 k.2)).map Obj.m else none

theorem scanKeys_erase_length {d : Dict (Obj V)} (hd : Dict.WF d) {k pfx : String} (hk : k ∈ Dict.keys d)
    (hp : globMatch (pfx ++ "*") k = true) : (scanKeys (Dict.erase d k) pfx).length + 1 = (scanKeys d pfx).length := by
  unfold scanKeys
  rw [Dict.keys_erase]
  have hnd : (Dict.keys d).Nodup := hd
  clear hd
  generalize Dict.keys d = l at hk hnd
  induction l with
  | nil => cases hk
  | cons a l ih =>
    rw [List.nodup_cons] at hnd
    by_cases ha : a = k
    · subst ha
      have : l.filter (fun x => !decide (x = a)) = l := by
        rw [List.filter_eq_self]
        intro x hx
        simp only [Bool.not_eq_true', decide_eq_false_iff_not]
        rintro rfl; exact hnd.1 hx
      simp only [List.filter_cons, decide_true, Bool.not_true, Bool.false_eq_true, if_false, this, hp, if_true, List.length_cons]
    · have hk' : k ∈ l := by
        rcases List.mem_cons.1 hk with h | h
        · exact absurd h.symm ha
        · exact h
      have := ih hk' hnd.2
      simp only [List.filter_cons, ha, decide_false, Bool.not_false, if_true]
      split
      · simp only [List.length_cons]; omega
      · exact this

/-- The invariant of removal from a Redis store, started in `w0`. -/
structure RedisInv (sid : String) (w0 w : World V E) : Prop extends RedisStoreOK sid w where
  loc : w.loc = w0.loc
  others : ∀ k, (∀ t u, k ≠ redisKey sid t u) → Dict.get? w.redis k = Dict.get? w0.redis k

theorem RedisInv.refl {sid : String} {w : World V E} (h : RedisStoreOK sid w) : RedisInv sid w w := ⟨h, rfl, fun _ _ => rfl⟩

theorem delSpec_redis {A : Adapter V} {sid : String} (hA : A.ref.store = .redis sid) (w0 : World V E) :
    DelSpec (E := E) A (RedisInv sid w0) Plain (fun t u => (t, u)) (redisAt sid) (countStore (.redis sid)) where
  get_none w t u hI ht h := by
    simp only [redisAt, if_pos ht, Option.map_eq_none_iff] at h
    refine ⟨w, ?_, hI, rfl, rfl, Nat.le_refl _, fun _ _ => rfl⟩
    unfold getRaw redisLoad
    simp only [hA, h]
  get_some w t u m hI ht h := by
    simp only [redisAt, if_pos ht, Option.map_eq_some_iff] at h
    obtain ⟨o, ho, rfl⟩ := h
    refine ⟨w.next, (alloc { o with adapter := some A.ref } w).2, ?_, ⟨⟨⟨hI.wf, hI.keys⟩, hI.sid_ok, hI.key_ok, hI.kids_ok⟩, hI.loc, hI.others⟩, rfl, rfl, Nat.le_succ _, ?_,
      Nat.lt_succ_self _, ?_, hI.key_ok _ _ _ ht ho⟩
    · unfold getRaw redisLoad
      simp only [hA, ho]
      rfl
    · intro r hr
      simp only [alloc, World.setObj]; rw [if_neg (Nat.ne_of_lt hr)]
    · simp [alloc, World.setObj]
  del w r m hI hr ht h := by
    simp only [redisAt, if_pos ht, Option.map_eq_some_iff] at h
    obtain ⟨o, ho, rfl⟩ := h
    have hh : Dict.has w.redis (redisKey sid (w.heap r).m.type (w.heap r).m.uid) = true := by unfold Dict.has; rw [ho]; rfl
    generalize hw1 : ({ w with redis := Dict.erase w.redis (redisKey sid (w.heap r).m.type (w.heap r).m.uid) } : World V E) = w1
    have hrun : ∃ w', removeOne A r w = (.ok (), w') ∧ (w' = w1 ∨ w' = w1.setObj r { w.heap r with adapter := none }) := by
      unfold removeOne removeItem
      rw [deref_bind]
      simp only [hA]
      rw [M.bind_assoc', M.read_bind]
      simp only [hh, if_true]
      rw [M.modify_bind, M.read_bind, hw1]
      split
      · exact ⟨_, rfl, .inr rfl⟩
      · exact ⟨_, rfl, .inl rfl⟩
    obtain ⟨w', hrun, hcase⟩ := hrun
    have hred : w'.redis = Dict.erase w.redis (redisKey sid (w.heap r).m.type (w.heap r).m.uid) := by
      rcases hcase with rfl | rfl
      · rw [← hw1]
      · rw [← hw1]; rfl
    have hnx : w'.next = w.next := by
      rcases hcase with rfl | rfl
      · rw [← hw1]
      · rw [← hw1]; rfl
    have hsub : ∀ k o, Dict.get? w'.redis k = some o → Dict.get? w.redis k = some o := by
      intro k o hk
      rw [hred, Dict.get?_erase] at hk
      split at hk
      · cases hk
      · exact hk
    have hRO := redisOK_erase hI.toRedisOK (redisKey sid (w.heap r).m.type (w.heap r).m.uid)
    refine ⟨w', hrun, ⟨⟨⟨by rw [hred]; exact hRO.wf, by rw [hred]; exact hRO.keys⟩, hI.sid_ok, fun t u o h1 h2 => hI.key_ok t u o h1 (hsub _ _ h2),
      fun t u o h1 h2 => hI.kids_ok t u o h1 (hsub _ _ h2)⟩, ?_, ?_⟩, ?_, ?_, by rw [hnx]; exact Nat.le_refl _, ?_⟩
    · rcases hcase with rfl | rfl
      · rw [← hw1]; exact hI.loc
      · rw [← hw1]; exact hI.loc
    · intro k hk
      rw [hred, Dict.get?_erase, if_neg (fun h => hk _ _ h.symm)]
      exact hI.others k hk
    · funext k
      unfold redisAt
      by_cases hk : Plain k.1
      · simp only [if_pos hk, hred, Dict.get?_erase]
        by_cases he : k = ((w.heap r).m.type, (w.heap r).m.uid)
        · subst he; simp
        · rw [if_neg he, if_neg]
          intro h'
          obtain ⟨_, h2, h3⟩ := redisKey_inj hI.sid_ok hI.sid_ok ht hk h'
          exact he (Prod.ext h2.symm h3.symm)
      · simp only [if_neg hk]
        split <;> rfl
    · unfold countStore
      simp only [hred]
      exact scanKeys_erase_length hI.wf (Dict.has_iff.1 hh) ((globStore_eq hI.sid_ok _).trans ((prefixStore_iff hI.sid_ok hI.sid_ok).2 rfl))
    · intro r' _
      rcases hcase with rfl | rfl
      · rw [← hw1]
      · rw [← hw1]
        simp only [World.setObj]
        split
        · rename_i h'; subst h'; rfl
        · rfl
  emit w ev h := ⟨⟨⟨h.wf, h.keys⟩, h.sid_ok, h.key_ok, h.kids_ok⟩, h.loc, h.others⟩
  emit_at _ _ := rfl
  emit_size _ _ := rfl
  size_pos w k m hI h := by
    unfold redisAt at h
    split at h
    · rename_i hk
      simp only [Option.map_eq_some_iff] at h
      obtain ⟨o, ho, _⟩ := h
      have : redisKey sid k.1 k.2 ∈ scanKeys w.redis (storeLabel sid ++ ":") :=
        (mem_scan_store hI.toRedisOK hI.sid_ok).2 ⟨_, _, hk, rfl, Dict.mem_keys_iff.2 ⟨_, ho⟩⟩
      exact List.length_pos_of_mem this
    · cases h
  kids_ok w k m hI h c hc := by
    unfold redisAt at h
    split at h
    · rename_i hk
      simp only [Option.map_eq_some_iff] at h
      obtain ⟨o, ho, rfl⟩ := h
      exact hI.kids_ok _ _ _ hk ho c hc
    · cases h

end DS
