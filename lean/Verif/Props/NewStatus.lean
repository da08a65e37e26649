import Verif.Props.Load
import Verif.Props.SyncCallback
/-! # The status of new objects; `sync_from` with a diff and an arbitrary callback -/
set_option linter.unusedSectionVars false

namespace DS
variable {V E : Type} [PyVal V]

theorem add_status (A : Adapter V) (r : Ref) (w : World V E) :
    (∀ x, ((add A r w).2.heap x).getStatus = (w.heap x).getStatus) ∧ (add A r w).2.next = w.next := by
  unfold add
  rw [deref_bind]
  cases hA : A.ref.store with
  | «local» sid =>
    dsimp only
    have hl : localModel sid (w.heap r).m.type w = (.ok ((Dict.get? (touch (w.loc sid) (w.heap r).m.type) (w.heap r).m.type).getD []), w.setLoc sid (touch (w.loc sid) (w.heap r).m.type)) := rfl
    rw [M.bind_ok hl]
    cases Dict.get? ((Dict.get? (touch (w.loc sid) (w.heap r).m.type) (w.heap r).m.type).getD []) (w.heap r).m.uid with
    | some r' =>
      dsimp only
      split
      · exact ⟨fun _ => rfl, rfl⟩
      · exact ⟨fun _ => rfl, rfl⟩
    | none =>
      dsimp only
      rw [M.read_bind]
      split
      · exact ⟨fun _ => rfl, rfl⟩
      · refine ⟨fun x => ?_, rfl⟩
        show (Obj.getStatus (if x = r then _ else _)) = _
        split
        · rename_i h; rw [h]; rfl
        · rfl
  | redis sid =>
    dsimp only
    rw [M.read_bind]
    cases Dict.get? w.redis (redisKey sid (w.heap r).m.type (w.heap r).m.uid) with
    | some o =>
      dsimp only
      split
      · exact ⟨fun _ => rfl, rfl⟩
      · exact ⟨fun _ => rfl, rfl⟩
    | none => exact ⟨fun _ => rfl, rfl⟩

theorem getOrInstantiate_status {A : Adapter V} {c : ModelClass V} {ids attrs : Dict V} {w w' : World V E} {r : Ref}
    (h : getOrInstantiate A c ids attrs w = (.ok (r, true), w')) : (w'.heap r).getStatus = (.success, "") := by
  unfold getOrInstantiate M.tryCatch at h
  cases hg : (do let r ← get A (.cls c) (.dict ids); pure (r, false) : M V E (Ref × Bool)) w with
  | mk res w1 =>
    rw [hg] at h
    cases res with
    | ok p =>
      cases h
      rw [M.bind_def] at hg
      cases hx : get A (.cls c) (.dict ids) w with
      | mk res2 w2 =>
        rw [hx] at hg
        cases res2 with
        | ok r2 => cases hg
        | error e => cases hg
    | error e =>
      dsimp only at h
      split at h
      · cases hi : c.construct ids attrs with
        | error e' => rw [hi] at h; cases h
        | ok m =>
          rw [hi, M.bind_ok (show M.ofExcept (.ok m) w1 = ((.ok m : Except Err (Model V)), w1) from rfl), alloc_bind] at h
          obtain ⟨hs, _⟩ := add_status A w1.next { w1.setObj w1.next { m := m } with next := w1.next + 1 }
          cases ha : add A w1.next { w1.setObj w1.next { m := m } with next := w1.next + 1 } with
          | mk res3 w3 =>
            rw [ha] at hs
            cases res3 with
            | error e' => rw [M.bind_err ha] at h; cases h
            | ok _ =>
              rw [M.bind_ok ha] at h
              cases h
              rw [hs w1.next]
              show Obj.getStatus (if w1.next = w1.next then _ else _) = _
              rw [if_pos rfl]
              rfl
      · cases h

/-- **C80** A new object that `get_or_instantiate` or `update_or_instantiate` makes has status `SUCCESS` and no message; on any store. -/
theorem C80_new_status {A : Adapter V} {c : ModelClass V} {ids attrs : Dict V} {w w' : World V E} {r : Ref} :
    (getOrInstantiate A c ids attrs w = (.ok (r, true), w') → (w'.heap r).getStatus = (.success, "")) ∧
    (updateOrInstantiate A c ids attrs w = (.ok (r, true), w') → (w'.heap r).getStatus = (.success, "")) := by
  refine ⟨getOrInstantiate_status, fun h => ?_⟩
  have hsplit : updateOrInstantiate (E := E) A c ids attrs w = (getOrInstantiate A c ids attrs >>= fun p => do
      let o ← deref p.1
      let m' := (setattrsIfDiff o.m attrs).1
      writeObj p.1 { o with m := m' }
      match (setattrsIfDiff o.m attrs).2 with
      | none => pure p
      | some e => M.raise e) w := rfl
  rw [hsplit] at h
  cases hg : getOrInstantiate (E := E) A c ids attrs w with
  | mk res w1 =>
    cases res with
    | error e => rw [M.bind_err hg] at h; cases h
    | ok p =>
      rw [M.bind_ok hg, deref_bind] at h
      cases hs : (setattrsIfDiff (w1.heap p.1).m attrs).2 with
      | some e => simp only [hs] at h; cases h
      | none =>
        simp only [hs] at h
        cases h
        show Obj.getStatus (if r = r then _ else _) = _
        rw [if_pos rfl]
        exact getOrInstantiate_status hg

/-- **C80** So have the objects that `load_from_dict` makes, on any store; those that were there keep theirs. -/
theorem C80_load_status (A : Adapter V) (data : Dict (Dict (ObjDict V))) (w : World V E) :
    (∀ r, w.next ≤ r → r < (loadFromDict A data w).2.next → ((loadFromDict A data w).2.heap r).getStatus = (.success, "")) ∧
    (∀ r, r < w.next → ((loadFromDict A data w).2.heap r).getStatus = (w.heap r).getStatus) := by
  have one : ∀ (c : ModelClass V) (v : ObjDict V) (w : World V E), w.next ≤ (loadOne A c v w).2.next ∧
      (∀ r, w.next ≤ r → r < (loadOne A c v w).2.next → ((loadOne A c v w).2.heap r).getStatus = (.success, "")) ∧
      (∀ r, r < w.next → ((loadOne A c v w).2.heap r).getStatus = (w.heap r).getStatus) := by
    intro c v w
    unfold loadOne
    cases hi : c.instantiate v.vals v.kids v.flags with
    | error e =>
      rw [M.bind_err (show M.ofExcept (.error e) w = ((.error e : Except Err (Model V)), w) from rfl)]
      exact ⟨Nat.le_refl _, fun r h1 h2 => absurd h1 (Nat.not_le.2 h2), fun _ _ => rfl⟩
    | ok m =>
      rw [M.bind_ok (show M.ofExcept (.ok m) w = ((.ok m : Except Err (Model V)), w) from rfl), alloc_bind]
      obtain ⟨hs, hn⟩ := add_status A w.next { w.setObj w.next { m := m } with next := w.next + 1 }
      rw [hn]
      refine ⟨Nat.le_succ _, fun r h1 h2 => ?_, fun r h1 => ?_⟩
      · have : r = w.next := Nat.le_antisymm (Nat.lt_succ_iff.1 h2) h1
        rw [hs, this]
        show Obj.getStatus (if w.next = w.next then _ else _) = _
        rw [if_pos rfl]
        rfl
      · rw [hs]
        show Obj.getStatus (if r = w.next then _ else _) = _
        rw [if_neg (Nat.ne_of_lt h1)]
  let P : World V E → World V E → Prop := fun w w' => w.next ≤ w'.next ∧
      (∀ r, w.next ≤ r → r < w'.next → (w'.heap r).getStatus = (.success, "")) ∧ (∀ r, r < w.next → (w'.heap r).getStatus = (w.heap r).getStatus)
  have refl : ∀ w, P w w := fun w => ⟨Nat.le_refl _, fun r h1 h2 => absurd h1 (Nat.not_le.2 h2), fun _ _ => rfl⟩
  have trans : ∀ a b c, P a b → P b c → P a c := fun a b c ⟨h1, h2, h3⟩ ⟨k1, k2, k3⟩ =>
    ⟨Nat.le_trans h1 k1, fun r g1 g2 => if hr : r < b.next then (k3 r hr).trans (h2 r g1 hr) else k2 r (Nat.not_lt.1 hr) g2,
      fun r g => (k3 r (Nat.lt_of_lt_of_le g h1)).trans (h3 r g)⟩
  have loop : ∀ {β : Type} (f : β → M V E Unit) (l : List β), (∀ x w, P w (f x w).2) → ∀ w, P w (M.forEach f l w).2 := by
    intro β f l hf
    induction l with
    | nil => exact fun w => refl w
    | cons a l ih =>
      intro w
      rw [M.forEach_cons]
      cases ha : f a w with
      | mk res w1 =>
        have h1 := hf a w
        rw [ha] at h1
        cases res with
        | error e => rw [M.bind_err ha]; exact h1
        | ok x => rw [M.bind_ok ha]; exact trans _ _ _ h1 (ih w1)
  have h : P w (loadFromDict A data w).2 := by
    unfold loadFromDict
    refine loop _ _ (fun t w => ?_) w
    cases Dict.get? A.classes t with
    | none => exact refl w
    | some c => exact loop _ _ (fun v w => one c v w) w
  exact h.2

/-- **C81** `sync_from(source, diff=d, callback=cb)` is exactly the sync that the claims about arbitrary user code speak of, if `d` has elements.  If `d` is empty it is passed
over, whatever its class: the diff is computed as without the argument. -/
theorem C81_sync_given (n rl : Nat) (hooks : OpenHooks V E) (dst src : Adapter V) (dc : DiffClass V) (flags : Nat) (d : Diff V) (w : World V E) :
    (d.len ≠ 0 → cSyncFrom n rl hooks dst src dc flags (some d) w = oSyncFrom n rl hooks dst src dc flags (some d) w) ∧
    (d.len = 0 → cSyncFrom n rl hooks dst src dc flags (some d) w = cSyncFrom n rl hooks dst src dc flags none w) := by
  constructor
  · intro hl
    have ht : d.truthy = true := by unfold Diff.truthy; simpa using hl
    unfold cSyncFrom oSyncFrom oChooseDiff chooseDiff
    simp only [ht, if_true]
    rfl
  · intro hl
    have ht : d.truthy = false := by unfold Diff.truthy; simpa using hl
    unfold cSyncFrom oChooseDiff checkDiffClass
    simp only [ht, Bool.false_and, Bool.false_eq_true, if_false]

end DS
