import Verif.Props.History
import Verif.Props.RenderAdapter
/-! # C62: the adapter that an object refers to -/
set_option linter.unusedSectionVars false

namespace DS
variable {V E : Type} [PyVal V] {F : Decls V}

/-- **C62** `obj.adapter` of an object in an adapter's local store is an adapter with that store, after any history of a program that minds
the adapters of objects: whatever was added, updated, removed, loaded and synced, in any order and with any failures. -/
theorem C62_stored_objects_refer_back {w : World V E} (h : Reachable F True w) (A : Adapter V) : Owned A w :=
  fun sid _ t u r hr => (h.invO (O := some (.local sid)) (fun _ => trivial)).own (by simp) sid t u r hr

/-- **C62** The object that `get` returns refers to an adapter with the store it was read from, local or Redis. -/
theorem C62_got_objects_refer_back {w w' : World V E} (h : Reachable F True w) {A : Adapter V} (hA : Family F A) {model : ModelArg V} {ident : Ident V} {r : Ref}
    (hg : get A model ident w = (.ok r, w')) : Attached A w' r := by
  have hr := Run.get (h.invO (O := some A.ref.store) (fun _ => trivial)) hA model ident
  have := hr.post r (by rw [hg])
  rw [hg] at this
  exact this.2.1 (by simp)

theorem mapEach_attached {A : Adapter V} {α : Type} {f : α → M V E Ref} (P : World V E → Prop) (l : List α)
    (hf : ∀ a ∈ l, ∀ w, P w → P (f a w).2 ∧ DRel w (f a w).2 ∧ ∀ r, (f a w).1 = .ok r → r < (f a w).2.next ∧ Attached A (f a w).2 r)
    {w w' : World V E} {rs : List Ref} (hw : P w) (h : M.mapEach f l w = (.ok rs, w')) : DRel w w' ∧ ∀ r ∈ rs, Attached A w' r := by
  induction l generalizing w rs with
  | nil => cases h; exact ⟨DRel.refl _, by simp⟩
  | cons a l ih =>
    obtain ⟨h1, h2, h3⟩ := hf a (by simp) w hw
    rw [M.mapEach_cons] at h
    cases hx : f a w with
    | mk res w1 =>
      rw [hx] at h1 h2 h3
      cases res with
      | error e => rw [M.bind_err hx] at h; cases h
      | ok r =>
        rw [M.bind_ok hx] at h
        cases hy : M.mapEach f l w1 with
        | mk res2 w2 =>
          cases res2 with
          | error e => rw [M.bind_err hy] at h; cases h
          | ok rs2 =>
            rw [M.bind_ok hy] at h
            cases h
            obtain ⟨h4, h5⟩ := ih (fun a ha => hf a (by simp [ha])) h1 hy
            obtain ⟨h6, a, ha, hs⟩ := h3 r rfl
            refine ⟨h2.trans h4, fun x hx => ?_⟩
            rcases List.mem_cons.1 hx with hx | hx
            · rw [hx]; exact ⟨a, by rw [h4.heap_eq r h6]; exact ha, hs⟩
            · exact h5 x hx

/-- **C62** The objects that `get_by_uids` returns refer to an adapter with the store they were read from. -/
theorem C62_got_by_uids_refer_back {w w' : World V E} (h : Reachable F True w) {A : Adapter V} (hA : Family F A) {us : List String} {t : String} {rs : List Ref}
    (hg : getByUids A us t w = (.ok rs, w')) : ∀ r ∈ rs, Attached A w' r := by
  refine (mapEach_attached (Inv F none (some A.ref.store)) us (fun u _ w hw => ?_) (h.invO (fun _ => trivial)) hg).2
  have hr := Run.getRaw hw hA t u
  exact ⟨hr.inv, (getRaw_spec A t u w hw.ok.refs_lt).1.toDRel, fun r hr' => ⟨(hr.post r hr').1.1, (hr.post r hr').2.1 (by simp)⟩⟩

/-- **C62** The objects that `get_all` returns refer to an adapter with the store they were read from. -/
theorem C62_all_objects_refer_back {w w' : World V E} (h : Reachable F True w) {A : Adapter V} (hA : Family F A) {t : String} {rs : List Ref}
    (hg : getAll A t w = (.ok rs, w')) : ∀ r ∈ rs, Attached A w' r := by
  have hw : Inv F none (some A.ref.store) w := h.invO (fun _ => trivial)
  unfold getAll at hg
  cases hs : A.ref.store with
  | «local» sid =>
    simp only [hs] at hg
    rw [M.bind_ok (localModel_eq sid t w)] at hg
    cases hg
    intro r hr
    obtain ⟨p, hp, rfl⟩ := List.mem_map.1 hr
    obtain ⟨a, ha, has⟩ := hw.own (by simp) sid t p.1 p.2 (Dict.get?_of_mem (hw.ok.tbl_wf sid t) hp)
    exact ⟨a, ha, has.trans hs.symm⟩
  | redis sid =>
    simp only [hs] at hg
    rw [M.read_bind] at hg
    refine (mapEach_attached (Inv F none (some A.ref.store)) _ (fun k hk w hw => ?_) hw hg).2
    have hr := Run.redisLoad hw hA hs (scan_store (hA.plain sid hs).1 hk)
    refine ⟨hr.inv, ?_, fun r hr' => ⟨(hr.post r hr').1.1, (hr.post r hr').2.1 (by simp)⟩⟩
    unfold redisLoad
    split
    · exact DRel.alloc w _
    · exact DRel.refl w

/-- **C62** After such a history an adapter is fit for the theorems about `str()`. -/
theorem C62_fit_for_str {w : World V E} (h : Reachable F True w) {A : Adapter V} (hA : Family F A) :
    w.OK ∧ Serves A (snap A w) ∧ Owned A w ∧ A.PlainStore :=
  ⟨h.inv.ok, h.inv.serves hA, C62_stored_objects_refer_back h A, fun sid hs => (hA.plain sid hs).1⟩

/-- **C62** `remove(obj)` unsets `obj.adapter`, unless it leaves the adapter empty (an empty adapter counts as false). -/
theorem C62_removed_objects {w w' : World V E} {A : Adapter V} {r : Ref} (ha : Attached A w r) {n : Nat} (h : remove A n r false w = (.ok (), w')) :
    (countStore A.ref.store w' ≠ 0 → (w'.heap r).adapter = none) ∧ (countStore A.ref.store w' = 0 → w'.heap r = w.heap r) := by
  obtain ⟨a, ha, hs⟩ := ha
  have h1 : removeOne A r w = (.ok (), w') := by
    cases n with
    | zero => cases h
    | succ n =>
      unfold remove at h
      rw [deref_bind] at h
      cases hx : removeOne A r w with
      | mk res w1 =>
        cases res with
        | error e => rw [M.bind_err hx] at h; cases h
        | ok u => rw [M.bind_ok hx] at h; cases h; rfl
  have hh : (removeItem A (w.heap r).m.type (w.heap r).m.uid w).2.heap = w.heap := by
    cases hk : A.ref.store with
    | «local» sid =>
      obtain ⟨w1, e1, _, _, p1⟩ := removeItem_local hk (w.heap r).m.type (w.heap r).m.uid w
      rw [e1]
      split <;> exact p1
    | redis sid =>
      unfold removeItem
      rw [hk]
      dsimp only
      rw [M.read_bind]
      split <;> rfl
  unfold removeOne at h1
  rw [deref_bind] at h1
  cases hx : removeItem A (w.heap r).m.type (w.heap r).m.uid w with
  | mk res w1 =>
    rw [hx] at hh
    cases res with
    | error e => rw [M.bind_err hx] at h1; cases h1
    | ok u =>
      rw [M.bind_ok hx, M.read_bind] at h1
      have ht : adapterTruthy (w.heap r).adapter w1 = (countStore A.ref.store w1 != 0) := by rw [ha, ← hs]; rfl
      rw [ht] at h1
      split at h1
      · rename_i hc
        cases h1
        refine ⟨fun _ => ?_, fun h0 => ?_⟩
        · show (if r = r then _ else _ : Obj V).adapter = _
          rw [if_pos rfl]
        · rw [countStore_setObj] at h0
          rw [h0] at hc; cases hc
      · rename_i hc
        cases h1
        refine ⟨fun h0 => absurd (by simpa using h0) hc, fun _ => by rw [hh]⟩

end DS
