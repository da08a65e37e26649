import Verif.Lemmas.Remove
import Verif.Spec.Removal
/-! The warnings of a removal with children. -/
set_option linter.unusedSectionVars false

namespace DS
variable {V E : Type} [PyVal V]

theorem listings_eq (m : Model V) : m.listings = (childRefs m).map (fun c => (c, m.key)) := by
  simp [Model.listings, childRefs, List.map_flatMap, List.map_map, Function.comp_def]

/-- Reading from a store reports nothing. -/
theorem getRaw_trace (A : Adapter V) (t u : String) (w : World V E) : (getRaw A t u w).2.trace = w.trace := by
  cases hA : A.ref.store with
  | «local» sid =>
    unfold getRaw
    simp only [hA]
    rw [M.bind_ok (localModel_eq sid t w)]
    cases Dict.get? (tbl w sid t) u <;> rfl
  | redis sid =>
    unfold getRaw
    simp only [hA]
    unfold redisLoad
    cases Dict.get? w.redis (redisKey sid t u) <;> rfl

theorem removeItem_trace (A : Adapter V) (t u : String) (w : World V E) : (removeItem A t u w).2.trace = w.trace := by
  cases hA : A.ref.store with
  | «local» sid =>
    unfold removeItem
    simp only [hA]
    rw [M.bind_ok (localModel_eq sid t w)]
    cases Dict.has (tbl w sid t) u <;> rfl
  | redis sid =>
    unfold removeItem
    simp only [hA]
    cases h : Dict.has w.redis (redisKey sid t u) <;> simp [bind, M.bind, M.read, h, M.modify, M.raise]

theorem removeOne_trace (A : Adapter V) (r : Ref) (w : World V E) : (removeOne A r w).2.trace = w.trace := by
  unfold removeOne
  rw [deref_bind]
  cases h : removeItem A (w.heap r).m.type (w.heap r).m.uid w with
  | mk q w1 =>
    have h1 := removeItem_trace A (w.heap r).m.type (w.heap r).m.uid w
    rw [h] at h1
    cases q with
    | error x => rw [M.bind_err h]; exact h1
    | ok _ =>
      rw [M.bind_ok h, M.bind_ok (show M.read w1 = (.ok w1, w1) from rfl)]
      split
      · exact h1
      · exact h1

section
variable {A : Adapter V} {I : World V E → Prop} {ok : String → Prop} {at_ : World V E → Key → Option (Model V)} {size : World V E → Nat}

/-- What happened between two states of a removal: `gone` was removed, `warned` was reported. -/
structure GonePost (I : World V E → Prop) (at_ : World V E → Key → Option (Model V)) (size : World V E → Nat) (gone : List (Model V))
    (warned : List (Key × Key)) (w w' : World V E) : Prop where
  inv : I w'
  size_le : size w' ≤ size w
  nodup : (gone.map Model.key).Nodup
  was : ∀ m ∈ gone, at_ w m.key = some m
  now : ∀ k, at_ w' k = if k ∈ gone.map Model.key then none else at_ w k
  trace : w'.trace = w.trace ++ warned.map listingWarning
  absent : ∀ l ∈ warned, at_ w' l.1 = none
  next_le : w.next ≤ w'.next
  heap : ∀ r, r < w.next → (w'.heap r).m = (w.heap r).m

theorem GonePost.trans {g1 g2 : List (Model V)} {l1 l2 : List (Key × Key)} {a b c : World V E} (h1 : GonePost I at_ size g1 l1 a b)
    (h2 : GonePost I at_ size g2 l2 b c) : GonePost I at_ size (g1 ++ g2) (l1 ++ l2) a c where
  inv := h2.inv
  size_le := Nat.le_trans h2.size_le h1.size_le
  nodup := by
    rw [List.map_append, List.nodup_append]
    refine ⟨h1.nodup, h2.nodup, ?_⟩
    rintro k hk _ hk' rfl
    obtain ⟨m, hm, rfl⟩ := List.mem_map.1 hk'
    have := h2.was m hm
    rw [h1.now, if_pos hk] at this
    cases this
  was m hm := by
    rcases List.mem_append.1 hm with hm | hm
    · exact h1.was m hm
    · have := h2.was m hm
      rw [h1.now] at this
      split at this
      · cases this
      · exact this
  now k := by
    rw [h2.now, h1.now, List.map_append]
    by_cases hk2 : k ∈ g2.map Model.key <;> by_cases hk1 : k ∈ g1.map Model.key <;> simp only [List.mem_append, hk1, hk2] <;> simp
  trace := by rw [h2.trace, h1.trace, List.map_append, List.append_assoc]
  absent l hl := by
    rcases List.mem_append.1 hl with hl | hl
    · rw [h2.now, h1.absent l hl]; simp
    · exact h2.absent l hl
  next_le := Nat.le_trans h1.next_le h2.next_le
  heap r hr := by rw [h2.heap r (Nat.lt_of_lt_of_le hr h1.next_le), h1.heap r hr]

theorem GonePost.of_same {w w' : World V E} (hI : I w') (ha : at_ w' = at_ w) (hs : size w' = size w) (ht : w'.trace = w.trace)
    (hn : w.next ≤ w'.next) (hh : ∀ r, r < w.next → (w'.heap r).m = (w.heap r).m) : GonePost I at_ size [] [] w w' where
  inv := hI
  size_le := by rw [hs]; exact Nat.le_refl _
  nodup := List.nodup_nil
  was := by simp
  now k := by rw [ha]; simp
  trace := by simp [ht]
  absent := by simp
  next_le := hn
  heap := hh

theorem remove_report (D : DelSpec A I ok (fun t u => (t, u)) at_ size) (n : Nat) :
    ∀ (r : Ref) (w : World V E), I w → size w ≤ n → r < w.next → ok (w.heap r).m.type → at_ w (w.heap r).m.key = some (w.heap r).m →
      ∃ w' gl warned via, remove A n r true w = (.ok (), w') ∧ GonePost I at_ size ((w.heap r).m :: gl) warned w w' ∧
        (warned ++ via).Perm (((w.heap r).m :: gl).flatMap Model.listings) ∧ (via.map Prod.fst).Perm (gl.map Model.key) := by
  induction n with
  | zero =>
    intro r w hI hs _ _ ha
    have := D.size_pos w _ _ hI ha
    omega
  | succ n ih =>
    intro r w hI hs hr hok ha
    obtain ⟨w1, e1, i1, a1, s1, n1, h1⟩ := D.del w r _ hI hr hok ha
    have t1 : w1.trace = w.trace := by have := removeOne_trace A r w; rw [e1] at this; exact this
    have loop : ∀ (cs : List (String × String)), (∀ c ∈ cs, c ∈ childRefs (w.heap r).m) → ∀ w2 : World V E, I w2 → size w2 ≤ n →
        ∃ w3 gl warned via, M.forEach (fun c => M.tryCatch
            (do let k ← getRaw A c.1 c.2
                remove A n k true)
            Err.isNotFound
            (fun _ => M.emit (.childNotFound c.1 c.2 (w.heap r).m.type (w.heap r).m.uid))) cs w2 = (.ok (), w3) ∧
          GonePost I at_ size gl warned w2 w3 ∧
          (warned ++ via).Perm (cs.map (fun c => (c, (w.heap r).m.key)) ++ gl.flatMap Model.listings) ∧ (via.map Prod.fst).Perm (gl.map Model.key) := by
      intro cs
      induction cs with
      | nil =>
        intro _ w2 i2 _
        exact ⟨w2, [], [], [], rfl, GonePost.of_same i2 rfl rfl rfl (Nat.le_refl _) (fun _ _ => rfl), List.Perm.refl _, List.Perm.refl _⟩
      | cons c cs ihc =>
        intro hcs w2 i2 s2
        have hcm := hcs c (by simp)
        have hokc : ok c.1 := D.kids_ok w _ _ hI ha c hcm
        have step : ∃ w3 gl warned via, M.tryCatch
            (do let k ← getRaw A c.1 c.2
                remove A n k true)
            Err.isNotFound
            (fun _ => M.emit (.childNotFound c.1 c.2 (w.heap r).m.type (w.heap r).m.uid)) w2 = (.ok (), w3) ∧
            GonePost I at_ size gl warned w2 w3 ∧
            (warned ++ via).Perm ((c, (w.heap r).m.key) :: gl.flatMap Model.listings) ∧ (via.map Prod.fst).Perm (gl.map Model.key) := by
          have ht := getRaw_trace A c.1 c.2 w2
          cases hc : at_ w2 (c.1, c.2) with
          | none =>
            obtain ⟨w3, e3, i3, a3, s3, n3, h3⟩ := D.get_none w2 c.1 c.2 i2 hokc hc
            rw [e3] at ht
            refine ⟨{ w3 with trace := w3.trace ++ [.childNotFound c.1 c.2 (w.heap r).m.type (w.heap r).m.uid] }, [], [(c, (w.heap r).m.key)], [], ?_, ?_, ?_, ?_⟩
            · unfold M.tryCatch
              rw [M.bind_err e3]
              rfl
            · refine ⟨D.emit _ _ i3, by rw [D.emit_size, s3]; exact Nat.le_refl _, List.nodup_nil, by simp, fun k => by rw [D.emit_at, a3]; simp, ?_, ?_, n3, h3⟩
              · show w3.trace ++ _ = _
                rw [show w3.trace = w2.trace from ht]
                rfl
              · intro l hl
                rw [List.mem_singleton] at hl
                subst hl
                rw [D.emit_at, a3]; exact hc
            · exact List.Perm.refl _
            · exact List.Perm.refl _
          | some m =>
            obtain ⟨k, w3, e3, i3, a3, s3, n3, h3, k3, m3, mt, mu⟩ := D.get_some w2 c.1 c.2 m i2 hokc hc
            rw [e3] at ht
            have hkey : (w3.heap k).m.key = c := by rw [m3]; unfold Model.key; rw [mt, mu]
            obtain ⟨w4, gl, wa, vi, e4, p4, q4, v4⟩ := ih k w3 i3 (by rw [s3]; exact s2) k3 (by rw [m3, mt]; exact hokc)
              (by rw [hkey, a3, m3]; exact hc)
            refine ⟨w4, (w3.heap k).m :: gl, wa, (c, (w.heap r).m.key) :: vi, ?_, (GonePost.of_same i3 a3 s3 ht n3 h3).trans p4, ?_, ?_⟩
            · unfold M.tryCatch
              rw [M.bind_ok e3, e4]
            · exact List.perm_middle.trans (q4.cons _)
            · rw [List.map_cons, List.map_cons, hkey]
              exact v4.cons _
        obtain ⟨w3, g3, wa3, vi3, e3, p3, q3, v3⟩ := step
        obtain ⟨w4, g4, wa4, vi4, e4, p4, q4, v4⟩ := ihc (fun x hx => hcs x (by simp [hx])) w3 p3.inv (Nat.le_trans p3.size_le s2)
        refine ⟨w4, g3 ++ g4, wa3 ++ wa4, vi3 ++ vi4, ?_, p3.trans p4, ?_, ?_⟩
        · rw [M.forEach_cons, M.bind_ok e3]; exact e4
        · rw [List.perm_iff_count] at q3 q4 ⊢
          intro x
          have a := q3 x
          have b := q4 x
          simp only [List.count_append, List.map_cons, List.count_cons, List.flatMap_append] at a b ⊢
          omega
        · rw [List.map_append, List.map_append]; exact v3.append v4
    obtain ⟨w3, gl, wa, vi, e3, p3, q3, v3⟩ := loop (childRefs (w.heap r).m) (fun _ h => h) w1 i1 (by omega)
    have p1 : GonePost I at_ size [(w.heap r).m] [] w w1 := by
      refine ⟨i1, by omega, by simp, ?_, ?_, by simp [t1], by simp, n1, h1⟩
      · intro m hm
        rw [List.mem_singleton] at hm
        subst hm; exact ha
      · intro k
        rw [a1]
        simp [Model.key]
    refine ⟨w3, gl, wa, vi, ?_, p1.trans p3, ?_, v3⟩
    · rw [remove, deref_bind, M.bind_ok e1]
      exact e3
    · rw [List.flatMap_cons, listings_eq]; exact q3
end
end DS
