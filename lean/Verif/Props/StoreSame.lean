import Verif.Lemmas.Mirror
import Verif.Props.Store
/-! # C41: when adding under a used key is a no-op on Redis -/

namespace DS
set_option linter.unusedSectionVars false
variable {V E : Type} [PyVal V]

/-- The two objects have the same fields with equal (`==`) values, the same child lists and the same model flags. -/
structure SameData (a b : Model V) : Prop where
  fields : ∀ f, Dict.get? a.vals f = none ↔ Dict.get? b.vals f = none
  values : ∀ f x y, Dict.get? a.vals f = some x → Dict.get? b.vals f = some y → PyVal.eq x y = true
  lists : ∀ f, Dict.get? a.kids f = Dict.get? b.kids f
  flags : a.flags = b.flags

theorem pyEqBy_iff {α : Type} {eq : α → α → Bool} {d e : Dict α} (hd : Dict.WF d) (he : Dict.WF e) :
    Dict.pyEqBy eq d e = true ↔ (∀ f, Dict.get? d f = none ↔ Dict.get? e f = none) ∧
      ∀ f x y, Dict.get? d f = some x → Dict.get? e f = some y → eq x y = true := by
  have hmem : ∀ (d : Dict α) f, f ∈ Dict.keys d ↔ Dict.get? d f ≠ none := by
    intro d f
    rw [Dict.mem_keys_iff]
    cases Dict.get? d f <;> simp
  unfold Dict.pyEqBy
  rw [Bool.and_eq_true, List.all_eq_true, beq_iff_eq]
  constructor
  · rintro ⟨hl, ha⟩
    have hsub : ∀ k ∈ Dict.keys d, k ∈ Dict.keys e := by
      intro k hk
      obtain ⟨v, hv⟩ := Dict.mem_keys_iff.1 hk
      have := ha (k, v) (Dict.mem_of_get? hv)
      simp only at this
      split at this
      · rename_i w hw; exact Dict.mem_keys_iff.2 ⟨w, hw⟩
      · cases this
    have hsup : ∀ k ∈ Dict.keys e, k ∈ Dict.keys d := by
      intro k hk
      apply Classical.byContradiction
      intro hn
      have := nodup_length_le (l := k :: Dict.keys d) (m := Dict.keys e) (List.nodup_cons.2 ⟨hn, hd⟩) (by
        intro x hx
        rcases List.mem_cons.1 hx with rfl | hx
        · exact hk
        · exact hsub x hx)
      simp only [List.length_cons, Dict.keys, List.length_map] at this
      omega
    refine ⟨fun f => ?_, ?_⟩
    · have h1 := hsub f
      have h2 := hsup f
      rw [hmem, hmem] at h1 h2
      exact ⟨fun h => Classical.byContradiction fun hn => h2 hn h, fun h => Classical.byContradiction fun hn => h1 hn h⟩
    · intro f x y hx hy
      have := ha (f, x) (Dict.mem_of_get? hx)
      simpa only [hy] using this
  · rintro ⟨hn, hv⟩
    have hk : ∀ k, k ∈ Dict.keys d ↔ k ∈ Dict.keys e := by
      intro k; rw [hmem, hmem, Ne, Ne, hn]
    refine ⟨?_, ?_⟩
    · have h1 := nodup_length_le (l := Dict.keys d) (m := Dict.keys e) hd (fun k h => (hk k).1 h)
      have h2 := nodup_length_le (l := Dict.keys e) (m := Dict.keys d) he (fun k h => (hk k).2 h)
      simp only [Dict.keys, List.length_map] at h1 h2
      omega
    · rintro ⟨k, x⟩ hkx
      simp only
      obtain ⟨y, hy⟩ := Dict.mem_keys_iff.1 ((hk k).1 (Dict.mem_keys_of_mem hkx))
      simp only [hy]
      exact hv k x y (Dict.get?_of_mem hd hkx) hy

theorem dictEq_iff {a b : Model V} (ha : Dict.WF a.vals) (hb : Dict.WF b.vals) (ha' : Dict.WF a.kids) (hb' : Dict.WF b.kids) :
    a.dictEq b = true ↔ SameData a b := by
  unfold Model.dictEq Dict.pyEq
  rw [Bool.and_eq_true, Bool.and_eq_true, pyEqBy_iff ha hb, pyEqBy_iff ha' hb', beq_iff_eq]
  constructor
  · rintro ⟨⟨⟨h1, h2⟩, h3, h4⟩, h5⟩
    refine ⟨h1, h2, fun f => ?_, h5⟩
    cases hx : Dict.get? a.kids f with
    | none => exact ((h3 f).1 hx).symm
    | some x =>
      cases hy : Dict.get? b.kids f with
      | none => rw [(h3 f).2 hy] at hx; cases hx
      | some y => rw [beq_iff_eq.1 (h4 f x y hx hy)]
  · rintro ⟨h1, h2, h3, h5⟩
    refine ⟨⟨⟨h1, h2⟩, fun f => by rw [h3], ?_⟩, h5⟩
    intro f x y hx hy
    rw [h3 f, hy] at hx
    cases hx
    exact beq_self_eq_true _

/-- **C41** Adding an object to a Redis store under a key that is in use changes nothing; it succeeds exactly if the object
that the store holds has the same data — equal values, child lists and flags — and else raises `ObjectAlreadyExists`. -/
theorem C41_add_used_key (A : Adapter V) {sid : String} (hA : A.ref.store = .redis sid) (r : Ref) (w : World V E) {o : Obj V}
    (ho : Dict.get? w.redis (redisKey sid (w.heap r).m.type (w.heap r).m.uid) = some o)
    (h1 : Dict.WF o.m.vals) (h2 : Dict.WF (w.heap r).m.vals) (h3 : Dict.WF o.m.kids) (h4 : Dict.WF (w.heap r).m.kids) :
    (add A r w).2 = w ∧
    (SameData o.m (w.heap r).m → (add A r w).1 = .ok ()) ∧
    (¬ SameData o.m (w.heap r).m → (add A r w).1 = .error .objectAlreadyExists) := by
  rw [← dictEq_iff h1 h2 h3 h4]
  have h : add A r w = if o.m.dictEq (w.heap r).m = true then (.ok (), w) else (.error .objectAlreadyExists, w) := by
    unfold add
    rw [deref_bind]
    simp only [hA]
    rw [M.read_bind, ho]
    simp only
    split <;> rfl
  rw [h]
  by_cases he : o.m.dictEq (w.heap r).m = true
  · simp [he]
  · simp [he]

namespace Ex

/-- A stored device, and objects to add under its key: an equal one, one with other flags, one with another child. -/
def wSame : World String (List Outcome) :=
  (do let r ← alloc { m := device "a" "leaf" [] }
      add (adR 3 "one") r
      let _ ← alloc { m := device "a" "leaf" [] }
      let _ ← alloc { m := { device "a" "leaf" [] with flags := MF.IGNORE } }
      let _ ← alloc { m := device "a" "leaf" ["a__eth0"] }
      pure () : M String (List Outcome) Unit) (world0 String (List Outcome) []) |>.2

example : (add (adR 3 "one") 1 wSame).1 = .ok () ∧ (add (adR 3 "one") 2 wSame).1 = .error .objectAlreadyExists ∧
    (add (adR 3 "one") 3 wSame).1 = .error .objectAlreadyExists := by decide +kernel
example : (add (adR 3 "one") 2 wSame).1 = .error .objectAlreadyExists :=
  (C41_add_used_key (adR 3 "one") rfl 2 wSame (o := { m := device "a" "leaf" [] }) rfl
    (by unfold Dict.WF; decide +kernel) (by unfold Dict.WF; decide +kernel) (by unfold Dict.WF; decide +kernel) (by unfold Dict.WF; decide +kernel)).2.2
    (fun h => absurd h.flags (by decide +kernel))

end Ex

end DS
