import Verif.Spec.Retry
import Verif.Props.Outcome
/-! # Contents after attempts -/
set_option linter.unusedSectionVars false

namespace DS
variable {V E : Type} [PyVal V]
variable {src dst : Adapter V} {n flags : Nat} {S D D1 D2 T T1 : Snap V}

theorem SameO.self (o : Option (Model V)) : SameO o o := by
  cases o with
  | none => exact .absent
  | some m =>
    refine .both ⟨rfl, rfl, rfl, rfl, rfl, fun _ f _ => ?_⟩
    cases m.kidList f with
    | none => trivial
    | some l => exact .refl l

/-- `Shown`, in terms of keys. -/
inductive Reached (src dst : Adapter V) (flags : Nat) (S D : Snap V) : Key → Prop where
  | top {k : Key} : k.1 ∈ src.topLevel → k.1 ∈ dst.topLevel → (S.find k.1 k.2 ≠ none ∨ D.find k.1 k.2 ≠ none) →
      ¬ Hidden flags (S.find k.1 k.2) (D.find k.1 k.2) → Reached src dst flags S D k
  | child {p k : Key} : Reached src dst flags S D p → Linked S D p k → comparesType (S.find p.1 p.2) (D.find p.1 p.2) k.1 →
      ¬ Hidden flags (S.find k.1 k.2) (D.find k.1 k.2) → Reached src dst flags S D k

theorem Reached.placed {k : Key} (R : Reconcilable src dst n S D) (h : Reached src dst flags S D k) :
    Compared src dst flags S D (posAt S D k) ∧ (posAt S D k).Visible flags := by
  induction h with
  | @top k h1 h2 h3 h4 => exact ⟨.top ⟨h1, h2, rfl, rfl, h3⟩, h4⟩
  | child _ hl hc hv ih => exact ⟨.child ih.1 ih.2 (R.child hl hc), hv⟩

theorem reached_of_compared (R : Reconcilable src dst n S D) (hi : InstOf dst D) {p : Pos V} (hp : Compared src dst flags S D p) :
    p.Visible flags → Reached src dst flags S D (p.type, p.uid) := by
  induction hp with
  | @top c ht =>
    intro hv
    refine .top ht.src_top ht.dst_top ?_ ?_
    · have := ht.some_side; rw [ht.src_eq, ht.dst_eq] at this; exact this
    · have := hv; unfold Pos.Visible at this; rw [ht.src_eq, ht.dst_eq] at this; exact this
  | @child p c hp hv hc ih =>
    intro hv'
    obtain ⟨j, pl⟩ := hp.placed R hi
    have plc := pl.of_child R hi hc
    refine .child (ih hv) (pl.linked hc) ?_ ?_
    · have := hc.compared; rw [pl.src_eq, pl.dst_eq] at this; exact this
    · unfold Pos.Visible at hv'; rw [plc.src_eq, plc.dst_eq] at hv'; exact hv'

theorem shown_iff_reached (R : Reconcilable src dst n S D) (hi : InstOf dst D) {k : Key} : Shown src dst flags S D k ↔ Reached src dst flags S D k := by
  constructor
  · rintro ⟨p, hp, hv, rfl⟩; exact reached_of_compared R hi hp hv
  · intro h; exact ⟨posAt S D k, (h.placed R).1, (h.placed R).2, rfl⟩

/-- What attempts leave. -/
structure Partly (src dst : Adapter V) (flags : Nat) (S D D1 : Snap V) : Prop where
  gone : ∀ k : Key, D.find k.1 k.2 ≠ none → D1.find k.1 k.2 = none → S.find k.1 k.2 = none
  new : ∀ (k : Key) m, D.find k.1 k.2 = none → D1.find k.1 k.2 = some m → Shown src dst flags S D k ∧ ∃ s c, S.find k.1 k.2 = some s ∧
    Dict.get? dst.classes k.1 = some c ∧ m.cls = c ∧ m.flags = c.defaultFlags ∧
    ∀ f d, (f, d) ∈ c.fields → Dict.get? m.vals f = c.newValue s.identifiers s.attrs f d
  kept : ∀ (k : Key) m0 m, D.find k.1 k.2 = some m0 → D1.find k.1 k.2 = some m → m.cls = m0.cls ∧ m.flags = m0.flags ∧
    ∀ f, Dict.get? m.vals f = Dict.get? m0.vals f ∨ ∃ s a, S.find k.1 k.2 = some s ∧ Differs s m0 f a ∧ Dict.get? m.vals f = some a
  lists : ∀ k c : Key, listsO (D1.find k.1 k.2) c.1 c.2 = true ↔ D1.find k.1 k.2 ≠ none ∧ D1.find c.1 c.2 ≠ none ∧ Linked S D k c

theorem Partly.refl (R : Reconcilable src dst n S D) : Partly src dst flags S D D where
  gone k h h' := absurd h' h
  new k m h h' := by rw [h] at h'; cases h'
  kept k m0 m h h' := by rw [h] at h'; cases h'; exact ⟨rfl, rfl, fun _ => .inl rfl⟩
  lists k c := by
    constructor
    · intro h; exact ⟨listsO_some h, R.dst_stored k c h, .inr h⟩
    · rintro ⟨_, h2, h3 | h3⟩
      · exact R.src_place k c h3 h2
      · exact h3

theorem attrs_get {m m0 : Model V} (hc : m.cls = m0.cls) {f : String} (h : Dict.get? m.vals f = Dict.get? m0.vals f) : Dict.get? m.attrs f = Dict.get? m0.attrs f := by
  rw [Model.get?_attrs, Model.get?_attrs, hc, h]

/-- What differs after some attempts differed before. -/
theorem differs_back {s m0 m1 : Model V} (hc : m1.cls = m0.cls) {f : String}
    (h : Dict.get? m1.vals f = Dict.get? m0.vals f ∨ ∃ a, Differs s m0 f a ∧ Dict.get? m1.vals f = some a) {a : V} (hd : Differs s m1 f a) : Differs s m0 f a := by
  rcases h with h | ⟨a', h, _⟩
  · obtain ⟨h1, b, h2, h3⟩ := hd
    exact ⟨h1, b, by rw [← attrs_get hc h]; exact h2, h3⟩
  · cases h.1.symm.trans hd.1
    exact h

/-- A created object does not differ from its source. -/
theorem new_no_differs {s m : Model V} {c : ModelClass V} (hs : Sound s) (hkeep : c.KeepsValues s) (hm : Sound m) (hc : m.cls = c)
    (hv : ∀ f d, (f, d) ∈ c.fields → Dict.get? m.vals f = c.newValue s.identifiers s.attrs f d) (f : String) (a : V) : ¬ Differs s m f a := by
  rintro ⟨h1, b, h2, h3⟩
  have ha : f ∈ s.cls.attributes := by
    rw [Model.get?_attrs] at h1
    split at h1
    · assumption
    · cases h1
  have hi : Dict.get? s.identifiers f = none := by
    rw [Model.get?_identifiers, if_neg (fun h => hs.valid.ids_attrs f h ha)]
  have hb := attrs_vals h2
  have hf : f ∈ m.cls.fieldNames := by rw [← hm.vals]; exact Dict.mem_keys_iff.2 ⟨b, hb⟩
  rw [hc] at hf
  obtain ⟨⟨f', d⟩, hfd, rfl⟩ := List.mem_map.1 hf
  rw [hv f' d hfd] at hb
  unfold ModelClass.newValue at hb
  rw [hi, h1] at hb
  rw [hkeep _ _ _ h1 hb] at h3
  cases h3

theorem hidden_flags {s : Option (Model V)} {m m' : Model V} (hf : m'.flags = m.flags) (h : Hidden flags s (some m)) : Hidden flags s (some m') := by
  cases h with
  | globalDst _ h => exact .globalDst _ h
  | modelDst _ h => exact .modelDst _ (by rw [hf]; exact h)
  | ignoreSrc s _ h => exact .ignoreSrc _ _ h
  | ignoreDst _ _ h => exact .ignoreDst _ _ (by rw [hf]; exact h)

section
variable (R : Reconcilable src dst n S D) (hi : InstOf dst D) (P : Partly src dst flags S D D1)
include R hi P

/-- What takes part after some attempts took part before. -/
theorem Partly.back {k : Key} (h : Reached src dst flags S D1 k) : Reached src dst flags S D k := by
  have key : ∀ k : Key, S.find k.1 k.2 ≠ none ∨ D1.find k.1 k.2 ≠ none → ¬ Hidden flags (S.find k.1 k.2) (D1.find k.1 k.2) → Reached src dst flags S D k ∨
      ((S.find k.1 k.2 ≠ none ∨ D1.find k.1 k.2 ≠ none → S.find k.1 k.2 ≠ none ∨ D.find k.1 k.2 ≠ none) ∧ ¬ Hidden flags (S.find k.1 k.2) (D.find k.1 k.2)) := by
    intro k hex hv
    cases h0 : D.find k.1 k.2 with
    | none =>
      cases h1 : D1.find k.1 k.2 with
      | none => rw [h1] at hv; exact .inr ⟨id, hv⟩
      | some m => exact .inl ((shown_iff_reached R hi).1 (P.new k m h0 h1).1)
    | some m0 =>
      cases h1 : D1.find k.1 k.2 with
      | none => exact absurd hex (by rw [P.gone k (by rw [h0]; simp) h1, h1]; simp)
      | some m =>
        rw [h1] at hv
        exact .inr ⟨fun _ => .inr (by simp), fun hh => hv (hidden_flags (P.kept k m0 m h0 h1).2.1 hh)⟩
  induction h with
  | @top k h1 h2 h3 h4 =>
    rcases key k h3 h4 with h | ⟨h, h'⟩
    · exact h
    · exact .top h1 h2 (h h3) h'
  | @child p k hp hl hc hv ih =>
    have hex : S.find k.1 k.2 ≠ none ∨ D1.find k.1 k.2 ≠ none := by
      rcases hl with hl | hl
      · exact .inl (R.src_stored p k hl)
      · exact .inr ((P.lists p k).1 hl).2.1
    rcases key k hex hv with h | ⟨_, h'⟩
    · exact h
    · refine .child ih ?_ ⟨hc.1, fun m0 h0 => ?_⟩ h'
      · rcases hl with hl | hl
        · exact .inl hl
        · exact ((P.lists p k).1 hl).2.2
      · cases h1 : D1.find p.1 p.2 with
        | some m =>
          rw [← (P.kept p m0 m h0 h1).1]
          exact hc.2 m h1
        | none =>
          rcases hl with hl | hl
          · exact absurd (P.gone p (by rw [h0]; simp) h1) (listsO_some hl)
          · exact absurd h1 (listsO_some hl)

/-- What takes part and is in the source takes part after some attempts too. -/
theorem Partly.forth (hc : ∀ t c, Dict.get? dst.classes t = some c → flagOn c.defaultFlags MF.IGNORE = false) {k : Key} (h : Reached src dst flags S D k) :
    S.find k.1 k.2 ≠ none → Reached src dst flags S D1 k := by
  have key : ∀ k : Key, S.find k.1 k.2 ≠ none → ¬ Hidden flags (S.find k.1 k.2) (D.find k.1 k.2) → ¬ Hidden flags (S.find k.1 k.2) (D1.find k.1 k.2) := by
    intro k hs hv hh
    obtain ⟨s, hs'⟩ := Option.ne_none_iff_exists'.1 hs
    rw [hs'] at hv hh
    cases h0 : D.find k.1 k.2 with
    | none =>
      cases h1 : D1.find k.1 k.2 with
      | none => rw [h0] at hv; rw [h1] at hh; exact hv hh
      | some m =>
        rw [h1] at hh
        rw [h0] at hv
        obtain ⟨_, s', c, _, g2, _, g4, _⟩ := P.new k m h0 h1
        cases hh with
        | ignoreSrc _ _ h => exact hv (.ignoreSrc _ _ h)
        | ignoreDst _ _ h => rw [g4, hc _ _ g2] at h; cases h
    | some m0 =>
      cases h1 : D1.find k.1 k.2 with
      | none => exact hs (P.gone k (by rw [h0]; simp) h1)
      | some m =>
        rw [h1] at hh
        rw [h0] at hv
        exact hv (hidden_flags (P.kept k m0 m h0 h1).2.1.symm hh)
  induction h with
  | @top k h1 h2 h3 h4 => exact fun hs => .top h1 h2 (.inl hs) (key k hs h4)
  | @child p k hp hl hc' hv ih =>
    intro hs
    have hl' : listsO (S.find p.1 p.2) k.1 k.2 = true := by
      rcases hl with hl | hl
      · exact hl
      · exact R.dst_place p k hl hs
    refine .child (ih (listsO_some hl')) (.inl hl') ⟨hc'.1, fun m h1 => ?_⟩ (key k hs hv)
    cases h0 : D.find p.1 p.2 with
    | some m0 =>
      rw [(P.kept p m0 m h0 h1).1]
      exact hc'.2 m0 h0
    | none =>
      obtain ⟨_, s, c, g1, g2, g3, _⟩ := P.new p m h0 h1
      obtain ⟨f, hf⟩ := Dict.mem_keys_iff.1 (hc'.1 s g1)
      rw [g3]
      exact Dict.mem_keys_iff.2 ⟨f, (R.source p s c g1 g2).children _ _ hf⟩

theorem Partly.linked {k c : Key} (h : Linked S D1 k c) : Linked S D k c := by
  rcases h with h | h
  · exact .inl h
  · exact ((P.lists k c).1 h).2.2

/-- Attempts after attempts. -/
theorem Partly.trans (hi1 : InstOf dst D1) (R1 : Reconcilable src dst n S D1) (hkeep : KeepsValuesOf dst S) (P1 : Partly src dst flags S D1 D2) : Partly src dst flags S D D2 := by
  have sh : ∀ {k}, Shown src dst flags S D1 k → Shown src dst flags S D k := fun h =>
    (shown_iff_reached R hi).2 (P.back R hi ((shown_iff_reached R1 hi1).1 h))
  refine ⟨fun k h0 h2 => ?_, fun k m h0 h2 => ?_, fun k m0 m h0 h2 => ?_, fun k c => ?_⟩
  · by_cases h1 : D1.find k.1 k.2 = none
    · exact P.gone k h0 h1
    · exact P1.gone k h1 h2
  · cases h1 : D1.find k.1 k.2 with
    | none =>
      obtain ⟨g1, g2⟩ := P1.new k m h1 h2
      exact ⟨sh g1, g2⟩
    | some m1 =>
      obtain ⟨g0, s, c, g1, g2, g3, g4, g5⟩ := P.new k m1 h0 h1
      obtain ⟨i1, i2, i3⟩ := P1.kept k m1 m h1 h2
      refine ⟨g0, s, c, g1, g2, by rw [i1, g3], by rw [i2, g4], fun f d hfd => ?_⟩
      rcases i3 f with hh | ⟨s', a, hs', hdf, _⟩
      · rw [hh]; exact g5 f d hfd
      · cases g1.symm.trans hs'
        exact absurd hdf (new_no_differs (R.sound k s (.inl g1)) (hkeep k s c g1 g2) (R1.sound k m1 (.inr h1)) g3 g5 f a)
  · cases h1 : D1.find k.1 k.2 with
    | none =>
      obtain ⟨_, s, c, g1, _⟩ := P1.new k m h1 h2
      rw [P.gone k (by rw [h0]; simp) h1] at g1
      cases g1
    | some m1 =>
      obtain ⟨i1, i2, i3⟩ := P.kept k m0 m1 h0 h1
      obtain ⟨j1, j2, j3⟩ := P1.kept k m1 m h1 h2
      refine ⟨j1.trans i1, j2.trans i2, fun f => ?_⟩
      rcases j3 f with hj | ⟨s, a, hs, hdf, hv⟩
      · rw [hj]; exact i3 f
      · refine .inr ⟨s, a, hs, differs_back i1 ?_ hdf, hv⟩
        rcases i3 f with hh | ⟨s', a', hs', g1, g2⟩
        · exact .inl hh
        · cases hs.symm.trans hs'
          exact .inr ⟨a', g1, g2⟩
  · rw [P1.lists]
    constructor
    · rintro ⟨h1, h2, h3⟩; exact ⟨h1, h2, P.linked R hi h3⟩
    · rintro ⟨h1, h2, h3⟩
      refine ⟨h1, h2, ?_⟩
      rcases h3 with h3 | h3
      · exact .inl h3
      · refine .inr ((P.lists k c).2 ⟨fun hn => ?_, fun hn => ?_, .inr h3⟩)
        · obtain ⟨m, hm⟩ := Option.ne_none_iff_exists'.1 h1
          obtain ⟨_, s, _, g1, _⟩ := P1.new k m hn hm
          rw [P.gone k (listsO_some h3) hn] at g1
          cases g1
        · obtain ⟨m, hm⟩ := Option.ne_none_iff_exists'.1 h2
          obtain ⟨_, s, _, g1, _⟩ := P1.new c m hn hm
          rw [P.gone c (R.dst_stored k c h3) hn] at g1
          cases g1
end

/-- One attempt. -/
theorem CanConverge.attempt {rl sid : Nat} {dc : DiffClass V} {hooks : Hooks V E} {w w' : World V E} {res : Except Err (Diff V)} (h : CanConverge n src dst sid w) (hrl : n ≤ rl)
    (hs : syncFrom n rl hooks dst src dc flags none w = (res, w')) :
    Partly src dst flags (snap src w) (snap dst w) (snap dst w') := by
  obtain ⟨d, ⟨w1, h1⟩, h2, _, h4, h5, _⟩ := h.sync hrl hs
  have ha : After src dst n sid flags w w' d.kids := ⟨h, h2, h4, h5⟩
  refine ⟨fun k h0 hn => ?_, fun k m h0 hm => ?_, fun k m0 m h0 hm => ?_, fun k c => ha.lists_iff⟩
  · exact ha.inv.keep k h0 (ha.find_none.1 hn)
  · obtain ⟨s, c, m1, g1, g2, _, g4, g5, _⟩ := ha.made hm h0
    have hcon := construct_ok g4
    obtain ⟨i1, _, _, i4, _⟩ := instantiate_ok hcon
    refine ⟨?_, s, c, g1, g2, by rw [g5.cls_eq, i1], by rw [g5.flags_eq, i4]; rfl, fun f d hf => ?_⟩
    · obtain ⟨d', hu, hd⟩ := C23_only_diffed_objects_change (t := k.1) (u := k.2) h.ready.dst (applicable_computed h.comparable h.ready.dst h.keepsIds) hs (by rw [hm, h0]; simp)
      have hk' : d'.kids = d.kids := by
        rcases hu with ⟨hu, _⟩ | ⟨_, hu⟩
        · cases hu
        · rw [h1] at hu; cases hu; rfl
      rw [hk'] at hd
      rcases hd with ⟨e, q1, q2⟩ | ht
      · exact ha.shown_iff.2 ⟨e, q1, q2⟩
      · obtain ⟨k0, q1, _, _, q4⟩ := ha.taken ht
        rcases q4 with q4 | q4
        · cases q4; exact ha.shown_iff.2 q1
        · cases q4 with
          | child hl => exact absurd h0 (h.reconcilable.dst_stored _ k hl)
          | step _ hl => exact absurd h0 (h.reconcilable.dst_stored _ k hl)
    · rw [g5.vals_eq, construct_get? (h.ready.valid.valid _ _ g2) g4 hf]
  · have ev := ha.evolved hm h0
    refine ⟨ev.cls_eq, ev.flags_eq, fun f => ?_⟩
    rcases ev.vals f with hv | ⟨e, v, he, hk', hact, hp, hv⟩
    · exact .inl hv
    · have hSn := (h4.update e k he hk' hact).1
      obtain ⟨s, hS⟩ := Option.ne_none_iff_exists'.1 hSn
      obtain ⟨t1, t2, _, _⟩ := ha.sides he hk'
      rw [hS] at t1
      rw [show (snap dst w).at k = some m0 from h0] at t2
      exact .inr ⟨s, v, hS, plus_differs t1 t2 hp, hv⟩

/-- Any number of attempts. -/
theorem Attempts.partly {rl sid : Nat} {w w1 : World V E} (h : CanConverge n src dst sid w) (hkeep : KeepsValuesOf dst (snap src w)) (hrl : n ≤ rl)
    (hs : Attempts n rl src dst flags w w1) : CanConverge n src dst sid w1 ∧ snap src w1 = snap src w ∧
      Partly src dst flags (snap src w) (snap dst w) (snap dst w1) := by
  induction hs with
  | nil => exact ⟨h, rfl, .refl h.reconcilable⟩
  | @sync w1 w' hooks dc res _ h1 ih =>
    obtain ⟨i1, i2, i4⟩ := ih
    have P := i1.attempt hrl h1
    have hR := i1.reconcilable
    rw [i2] at P hR
    exact ⟨i1.again hrl h1, (i1.src_same h1).trans i2, i4.trans h.reconcilable h.ready.instOf i1.ready.instOf hR hkeep P⟩

section
variable (R : Reconcilable src dst n S D) (hi : InstOf dst D) (P : Partly src dst flags S D D1)
include R hi P

/-- An object that the source does not have and that takes part no more is below one that is gone. -/
theorem Partly.orphan (hc : ∀ t c, Dict.get? dst.classes t = some c → flagOn c.defaultFlags MF.IGNORE = false) {k : Key} (h : Reached src dst flags S D k) :
    S.find k.1 k.2 = none → D1.find k.1 k.2 ≠ none → ¬ Reached src dst flags S D1 k →
      ∃ a, ListedBelow D a k ∧ S.find a.1 a.2 = none ∧ D.find a.1 a.2 ≠ none ∧ D1.find a.1 a.2 = none := by
  have key : ∀ k : Key, S.find k.1 k.2 = none → D1.find k.1 k.2 ≠ none → ¬ Hidden flags (S.find k.1 k.2) (D.find k.1 k.2) →
      ¬ Hidden flags (S.find k.1 k.2) (D1.find k.1 k.2) := by
    intro k hs h1 hv hh
    obtain ⟨m, hm⟩ := Option.ne_none_iff_exists'.1 h1
    cases h0 : D.find k.1 k.2 with
    | none =>
      obtain ⟨_, s, _, g1, _⟩ := P.new k m h0 hm
      rw [hs] at g1; cases g1
    | some m0 =>
      rw [h0] at hv
      rw [hm] at hh
      exact hv (hidden_flags (P.kept k m0 m h0 hm).2.1.symm hh)
  induction h with
  | @top k h1 h2 h3 h4 => intro hs hd hn; exact absurd (.top h1 h2 (.inr hd) (key k hs hd h4)) hn
  | @child p k hp hl hc' hv ih =>
    intro hs hd hn
    have hl' : listsO (D.find p.1 p.2) k.1 k.2 = true := by
      rcases hl with hl | hl
      · exact absurd hs (R.src_stored p k hl)
      · exact hl
    by_cases h1 : D1.find p.1 p.2 = none
    · exact ⟨p, .child hl', P.gone p (listsO_some hl') h1, listsO_some hl', h1⟩
    · have hnp : ¬ Reached src dst flags S D1 p := by
        intro hrp
        refine hn (.child hrp (.inr ((P.lists p k).2 ⟨h1, hd, hl⟩)) ⟨hc'.1, fun m hm => ?_⟩ (key k hs hd hv))
        obtain ⟨m0, h0⟩ := Option.ne_none_iff_exists'.1 (listsO_some hl')
        rw [(P.kept p m0 m h0 hm).1]
        exact hc'.2 m0 h0
      have hsp : S.find p.1 p.2 = none := Classical.byContradiction (fun h => hnp (P.forth R hi hc hp h))
      obtain ⟨a, g1, g2⟩ := ih hsp h1 hnp
      exact ⟨a, .step g1 hl', g2⟩

end

end DS
