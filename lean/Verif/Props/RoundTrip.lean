import Verif.Lemmas.RoundTrip
import Verif.Lemmas.Compared
import Verif.Props.Store
/-! # C46: exporting an adapter and loading the export into a fresh one -/
set_option linter.unusedSectionVars false

namespace DS
variable {V E : Type} [PyVal V]

/-- The names an adapter exports: without repetition, and including every type that has objects. -/
theorem names_cover (A : Adapter V) {w : World V E} (hx : Exportable A w)
    (hr : ∀ sid, A.ref.store = .redis sid → Plain sid ∧ RedisOK w) :
    ∃ ts, getAllModelNames A w = (.ok ts, w) ∧ ts.Nodup ∧ (∀ t ∈ ts, A.Takes t) ∧ ∀ t, (∃ u, (snap A w).find t u ≠ none) → t ∈ ts := by
  cases hA : A.ref.store with
  | «local» sid =>
    obtain ⟨ts, h1, h2⟩ := C49_model_names_local_partial A hA w
    have : ts = Dict.keys (w.loc sid) := by
      unfold getAllModelNames at h1; simp only [hA] at h1
      injection h1 with h1 _; injection h1 with h1; exact h1.symm
    exact ⟨ts, h1, this ▸ hx.ok.loc_wf sid, fun t _ => takes_local hA t, h2⟩
  | redis sid =>
    obtain ⟨a, b⟩ := hr sid hA
    obtain ⟨ts, h1, h2, h3⟩ := C49_model_names_redis A hA a w b
    refine ⟨ts, h1, h2, fun t ht => ?_, fun t => (h3 t).2⟩
    obtain ⟨u, hu⟩ := (h3 t).1 ht
    unfold Adapter.Takes
    rw [hA]
    apply Decidable.byContradiction
    intro hc
    simp [snap, hA, hc] at hu

/-- C46.  Exporting an adapter `A` (any store) and loading the export into an adapter `B` of the same class with an empty local store
succeeds; afterwards `B` holds exactly the objects of `A`, each with its values, child lists and flags; exporting `B` gives the same
entries as the first export; and neither export nor load changed `A`. -/
theorem C46_round_trip (A B : Adapter V) (ed : Bool) {w : World V E} (hx : Exportable A w)
    (hr : ∀ sid, A.ref.store = .redis sid → Plain sid ∧ RedisOK w) (hAB : SameClass A B) {sid : Nat} (hB : B.ref.store = .local sid) (hne : A.ref.store ≠ B.ref.store)
    (hfresh : ∀ t u, (snap B w).find t u = none) :
    ∃ data w1 w2 data' w3, adapterDict A ed w = (.ok data, w1) ∧ loadFromDict B data w1 = (.ok (), w2) ∧ adapterDict B ed w2 = (.ok data', w3) ∧
      (∀ t u, RestoredO ed ((snap A w).find t u) ((snap B w2).find t u)) ∧
      (∀ t u, entry data t u = ((snap A w).find t u).map (fun m => m.toDict ed)) ∧
      (∀ t u, SameEntry (entry data' t u) (entry data t u)) ∧
      snap A w2 = snap A w := by
  obtain ⟨ts, ht1, ht2, htk, ht3⟩ := names_cover A hx hr
  obtain ⟨w1, h1, d1⟩ := adapterDict_eq hx.ok hx.consistent ed ht1 ht2 htk
  have hs1 : ∀ C : Adapter V, snap C w1 = snap C w := d1.toDRel.snap_eq hx.ok.refs_lt hx.ok.tbl_wf
  have ok1 : w1.OK := d1.toDRel.ok hx.ok
  obtain ⟨w2, h2, ⟨ok2, hA2⟩, h3⟩ := load_export (loads_local hB w1) hx.consistent hAB (fun _ _ => trivial) ht3
    (fun t u m hm => ⟨hx.known t u m hm, hx.complete t u m hm, hx.valid t u m hm, hx.plain t u m hm, hx.parsed t u m hm⟩) ⟨ok1, fun _ _ => rfl⟩
    (fun t u _ => by rw [hs1]; exact hfresh t u) ed
  have hcB : (snap B w2).Consistent := by
    apply consistent_stored ok2 hB
    intro t u r hf
    have h4 := h3 t u trivial
    rw [show (snap B w2).find t u = some (w2.heap r).m by simp [snap, hB, hf]] at h4
    cases hm : (snap A w).find t u with
    | none => rw [hm] at h4; exact h4.elim
    | some m => rw [hm] at h4; rw [h4.1.cls]; exact (hx.valid t u m hm).children_nodup
  obtain ⟨ts', hn1, hn2⟩ := C49_model_names_local_partial B hB w2
  have hnd' : ts'.Nodup := by
    have : ts' = Dict.keys (w2.loc sid) := by
      unfold getAllModelNames at hn1; simp only [hB] at hn1
      injection hn1 with h1 _; injection h1 with h1; exact h1.symm
    exact this ▸ ok2.loc_wf sid
  obtain ⟨w3, h5, _⟩ := adapterDict_eq ok2 hcB ed hn1 hnd' (fun t _ => takes_local hB t)
  refine ⟨_, w1, w2, _, w3, h1, h2, h5, fun t u => h3 t u trivial, entry_export hx.consistent ed ht3, ?_, ?_⟩
  · intro t u
    rw [entry_export hx.consistent ed ht3, entry_export hcB ed hn2]
    have h4 := h3 t u trivial
    cases hm : (snap A w).find t u with
    | none =>
      rw [hm] at h4
      cases hm' : (snap B w2).find t u with
      | none => trivial
      | some m' => rw [hm'] at h4; exact h4.elim
    | some m =>
      rw [hm] at h4
      cases hm' : (snap B w2).find t u with
      | none => rw [hm'] at h4; exact h4.elim
      | some m' =>
        rw [hm'] at h4
        exact restored_toDict (hx.complete t u m hm) (hx.valid t u m hm) h4.2 h4.1 (hx.plain t u m hm)
  · rw [hA2 A hne, hs1]

/-- C46 for a target whose store is in Redis: the load succeeds and every object is there again. -/
theorem C46_load_into_redis (A B : Adapter V) (ed : Bool) {w : World V E} (hx : Exportable A w)
    (hr : ∀ sid, A.ref.store = .redis sid → Plain sid) (hok : RedisOK w) (hcol : ∀ t ∈ Dict.keys A.classes, Plain t)
    (hAB : SameClass A B) {sid : String} (hB : B.ref.store = .redis sid) (hsid : Plain sid) (hne : A.ref.store ≠ B.ref.store)
    (hfresh : ∀ t u, (snap B w).find t u = none) :
    ∃ data w1 w2, adapterDict A ed w = (.ok data, w1) ∧ loadFromDict B data w1 = (.ok (), w2) ∧
      (∀ t u, RestoredO ed ((snap A w).find t u) ((snap B w2).find t u)) ∧
      (∀ t u, (snap A w2).find t u = (snap A w).find t u) := by
  obtain ⟨ts, ht1, ht2, htk, ht3⟩ := names_cover A hx (fun s hs => ⟨hr s hs, hok⟩)
  obtain ⟨w1, h1, d1⟩ := adapterDict_eq hx.ok hx.consistent ed ht1 ht2 htk
  have hs1 : ∀ C : Adapter V, snap C w1 = snap C w := d1.toDRel.snap_eq hx.ok.refs_lt hx.ok.tbl_wf
  have ok1 : w1.OK := d1.toDRel.ok hx.ok
  have hok1 : RedisOK w1 := ⟨d1.redis_eq ▸ hok.wf, d1.redis_eq ▸ hok.keys⟩
  obtain ⟨w2, h2, ⟨_, _, hA2, hA2'⟩, h3⟩ := load_export (loads_redis hB hsid w1) hx.consistent hAB hcol ht3
    (fun t u m hm => ⟨hx.known t u m hm, hx.complete t u m hm, hx.valid t u m hm, hx.plain t u m hm, hx.parsed t u m hm⟩)
    ⟨ok1, hok1, fun _ _ => rfl, fun _ _ _ _ _ _ _ _ => rfl⟩
    (fun t u ht => by rw [hs1]; exact hfresh t u) ed
  refine ⟨_, w1, w2, h1, h2, ?_, ?_⟩
  · intro t u
    by_cases ht : Plain t
    · exact h3 t u ht
    · have e : (snap A w).find t u = none := by
        cases hf : (snap A w).find t u with
        | none => rfl
        | some m => exact absurd (hcol t (Dict.mem_keys_iff.2 ⟨_, hx.known t u m hf⟩)) ht
      rw [e, show (snap B w2).find t u = none by simp [snap, hB, ht]]
      trivial
  intro t u
  cases hA : A.ref.store with
  | «local» s => rw [hA2 A ⟨s, hA⟩, hs1]
  | redis s =>
    by_cases ht : Plain t
    case neg => simp [snap, hA, ht]
    rw [hA2' A s hA (hr s hA) (fun he => hne (by rw [hA, hB, he])) t u ht, hs1]

end DS
