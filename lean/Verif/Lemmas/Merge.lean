import Verif.Spec.Merge
import Verif.Props.HistoryConv
import Verif.Lemmas.Retry
import Verif.Lemmas.Remains
/-! # Merging two adapters: lemmas -/
set_option linter.unusedSectionVars false

namespace DS
variable {V E : Type} [PyVal V] {F : Decls V} {D : Prop}
variable {a b : Adapter V} {n f1 f2 : Nat} {A B B1 : Snap V}

theorem Separate.symm_local {sa sb : Nat} {w : World V E} (ha : a.ref.store = .local sa) (hb : b.ref.store = .local sb) (h : Separate a b w) : Separate b a w := by
  unfold Separate at *
  rw [ha, hb] at *
  exact ⟨fun e => h.1 e.symm, fun t u t' u' r h1 h2 => h.2 t' u' t u r h2 h1⟩

theorem not_hidden_0 (hA : A.Unflagged) (hB : B.Unflagged) (k : Key) : ¬ Hidden 0 (A.find k.1 k.2) (B.find k.1 k.2) := by
  generalize ha : A.find k.1 k.2 = x
  generalize hb : B.find k.1 k.2 = y
  intro h
  cases h with
  | globalSrc _ h => cases h
  | globalDst _ h => cases h
  | modelSrc s h => rw [(hA _ _ _ ha).2.1] at h; cases h
  | modelDst d h => rw [(hB _ _ _ hb).2.2] at h; cases h
  | ignoreSrc s d h => rw [(hA _ _ _ ha).1] at h; cases h
  | ignoreDst s d h => rw [(hB _ _ _ hb).1] at h; cases h

theorem not_hidden_src {s : Model V} {o : Option (Model V)} {flags : Nat} (hf : flagOn flags GF.SKIP_UNMATCHED_SRC = false)
    (hs : flagOn s.flags MF.IGNORE = false ∧ flagOn s.flags MF.SKIP_UNMATCHED_SRC = false ∧ flagOn s.flags MF.SKIP_UNMATCHED_DST = false)
    (ho : ∀ d, o = some d → flagOn d.flags MF.IGNORE = false) : ¬ Hidden flags (some s) o := by
  intro h
  cases h with
  | globalSrc _ h => rw [hf] at h; cases h
  | modelSrc _ h => rw [hs.2.1] at h; cases h
  | ignoreSrc _ _ h => rw [hs.1] at h; cases h
  | ignoreDst _ d h => rw [ho d rfl] at h; cases h

section
variable (R : Reconcilable a b n A B) (hi : InstOf b B) (hA : A.Unflagged) (hB : B.Unflagged)
  (hs : flagOn f1 GF.SKIP_UNMATCHED_SRC = false) (hd : flagOn f1 GF.SKIP_UNMATCHED_DST = true)
include R hA hB

theorem linked_stored {p k : Key} (h : Linked A B p k) : A.find k.1 k.2 ≠ none ∨ B.find k.1 k.2 ≠ none := by
  rcases h with h | h
  · exact .inl (R.src_stored p k h)
  · exact .inr (R.dst_stored p k h)

include hd in
theorem reached_skip_src {k : Key} (h : Reached a b f1 A B k) : A.find k.1 k.2 ≠ none := by
  intro hn
  have key : (A.find k.1 k.2 ≠ none ∨ B.find k.1 k.2 ≠ none) → ¬ Hidden f1 (A.find k.1 k.2) (B.find k.1 k.2) → False := by
    intro h1 h2
    obtain ⟨d, hd'⟩ := Option.ne_none_iff_exists'.1 (h1.resolve_left (fun h => h hn))
    rw [hn, hd'] at h2
    exact h2 (.globalDst _ hd)
  cases h with
  | top _ _ h3 h4 => exact key h3 h4
  | child _ hl _ hv => exact key (linked_stored R hA hB hl) hv

theorem reached_0_of {k : Key} (h : Reached a b f1 A B k) : Reached a b 0 A B k := by
  induction h with
  | top h1 h2 h3 _ => exact .top h1 h2 h3 (not_hidden_0 hA hB _)
  | child _ hl hc _ ih => exact .child ih hl hc (not_hidden_0 hA hB _)

include hs in
theorem reached_skip {k : Key} (h : Reached a b 0 A B k) : A.find k.1 k.2 ≠ none → Reached a b f1 A B k := by
  have key : ∀ k : Key, A.find k.1 k.2 ≠ none → ¬ Hidden f1 (A.find k.1 k.2) (B.find k.1 k.2) := by
    intro k hk
    obtain ⟨s, hs'⟩ := Option.ne_none_iff_exists'.1 hk
    rw [hs']
    exact not_hidden_src hs (hA _ _ _ hs') (fun d hd => (hB _ _ _ hd).1)
  induction h with
  | @top k h1 h2 h3 _ => intro hk; exact .top h1 h2 (.inl hk) (key _ hk)
  | @child p k hp hl hc _ ih =>
    intro hk
    have hl' : listsO (A.find p.1 p.2) k.1 k.2 = true := by
      rcases hl with hl | hl
      · exact hl
      · exact R.dst_place p k hl hk
    exact .child (ih (listsO_some hl')) (.inl hl') hc (key _ hk)

include hi hd in
/-- Nothing is to be deleted. -/
theorem not_goesAlong_skip {k : Key} : ¬ GoesAlong a b f1 A B k := by
  rintro ⟨k0, h1, h2, _⟩
  exact reached_skip_src R hA hB hd ((shown_iff_reached R hi).1 h1) h2

variable (P : Synced a b f1 A B B1)

include P hs hi in
theorem synced_has {k : Key} (h : Reached a b 0 A B k) (hk : A.find k.1 k.2 ≠ none) : B1.find k.1 k.2 ≠ none := by
  have hr := (shown_iff_reached R hi).2 (reached_skip R hA hB hs h hk)
  obtain ⟨s, hs'⟩ := Option.ne_none_iff_exists'.1 hk
  cases hb : B.find k.1 k.2 with
  | none => obtain ⟨_, m, _, h2, _⟩ := P.created k s hr hs' hb; rw [h2]; simp
  | some m0 => obtain ⟨m, h2, _⟩ := P.updated k s m0 hr hs' hb; rw [h2]; simp

include P hi hd in
theorem synced_keeps {k : Key} {m0 : Model V} (h : B.find k.1 k.2 = some m0) : ∃ m, B1.find k.1 k.2 = some m ∧ m.cls = m0.cls ∧ m.flags = m0.flags ∧
    (∀ f, Dict.get? m.vals f = Dict.get? m0.vals f ∨ ∃ s v, A.find k.1 k.2 = some s ∧ Differs s m0 f v ∧ Dict.get? m.vals f = some v) := by
  by_cases hr : Shown a b f1 A B k
  · obtain ⟨s, hs'⟩ := Option.ne_none_iff_exists'.1 (reached_skip_src R hA hB hd ((shown_iff_reached R hi).1 hr))
    obtain ⟨m, g1, g2, g3, g4, g5⟩ := P.updated k s m0 hr hs' h
    refine ⟨m, g1, g2, g3, fun f => ?_⟩
    by_cases hx : ∃ v, Differs s m0 f v
    · obtain ⟨v, hx⟩ := hx; exact .inr ⟨s, v, hs', hx, g4 f v hx⟩
    · exact .inl (g5 f (fun v hv => hx ⟨v, hv⟩))
  · exact ⟨m0, by rw [P.others k hr (not_goesAlong_skip R hi hA hB hd)]; exact h, rfl, rfl, fun _ => .inl rfl⟩

include P hi hd in
theorem synced_new {k : Key} {m : Model V} (h : B1.find k.1 k.2 = some m) (h0 : B.find k.1 k.2 = none) : ∃ s c, A.find k.1 k.2 = some s ∧ Shown a b f1 A B k ∧
    Dict.get? b.classes k.1 = some c ∧ m.cls = c ∧ m.flags = c.defaultFlags ∧ ∀ f d, (f, d) ∈ c.fields → Dict.get? m.vals f = c.newValue s.identifiers s.attrs f d := by
  by_cases hr : Shown a b f1 A B k
  · obtain ⟨s, hs'⟩ := Option.ne_none_iff_exists'.1 (reached_skip_src R hA hB hd ((shown_iff_reached R hi).1 hr))
    obtain ⟨c, m', g1, g2, g3, g4, g5⟩ := P.created k s hr hs' h0
    rw [h] at g2
    cases g2
    exact ⟨s, c, hs', hr, g1, g3, g4, g5⟩
  · rw [P.others k hr (not_goesAlong_skip R hi hA hB hd), h0] at h
    cases h

include P hi hd in
theorem synced_unflagged (hm : MakesUnflagged b) : B1.Unflagged := by
  intro t u m h
  cases h0 : B.find t u with
  | none =>
    obtain ⟨s, c, _, _, g3, _, g5, _⟩ := synced_new R hi hA hB hd P (k := (t, u)) h h0
    rw [g5]; exact hm _ _ g3
  | some m0 =>
    obtain ⟨m', g1, _, g3, _⟩ := synced_keeps R hi hA hB hd P (k := (t, u)) h0
    rw [h] at g1
    cases g1
    rw [g3]; exact hB _ _ _ h0

include P hi hd in
theorem synced_linked {k c : Key} : Linked B1 A k c ↔ Linked A B k c := by
  constructor
  · rintro (h | h)
    · exact ((P.lists k c).1 h).2.2
    · exact .inl h
  · rintro (h | h)
    · exact .inr h
    · obtain ⟨x, hx⟩ := Option.ne_none_iff_exists'.1 (listsO_some h)
      obtain ⟨y, hy⟩ := Option.ne_none_iff_exists'.1 (R.dst_stored k c h)
      obtain ⟨x', hx', _⟩ := synced_keeps R hi hA hB hd P hx
      obtain ⟨y', hy', _⟩ := synced_keeps R hi hA hB hd P hy
      exact .inl ((P.lists k c).2 ⟨by rw [hx']; simp, by rw [hy']; simp, .inr h⟩)

include P hi hs hd in
/-- The second comparison is about the same objects. -/
theorem merge_reached (hcls : ∀ (k : Key) s, A.find k.1 k.2 = some s → Dict.get? b.classes k.1 = some s.cls) (hm : MakesUnflagged b)
    (hs2 : flagOn f2 GF.SKIP_UNMATCHED_SRC = false) {k : Key} : Reached b a f2 B1 A k ↔ Reached a b 0 A B k := by
  have hB1 := synced_unflagged R hi hA hB hd P hm
  have some_side : ∀ k : Key, (B1.find k.1 k.2 ≠ none ∨ A.find k.1 k.2 ≠ none) → A.find k.1 k.2 ≠ none ∨ B.find k.1 k.2 ≠ none := by
    rintro k (h | h)
    · cases h0 : B.find k.1 k.2 with
      | some m0 => exact .inr (by simp)
      | none =>
        obtain ⟨m, hm⟩ := Option.ne_none_iff_exists'.1 h
        obtain ⟨s, _, g, _⟩ := synced_new R hi hA hB hd P hm h0
        exact .inl (by rw [g]; simp)
    · exact .inl h
  constructor
  · intro h
    induction h with
    | @top k h1 h2 h3 _ => exact .top h2 h1 (some_side k h3) (not_hidden_0 hA hB _)
    | @child p k _ hl hc _ ih =>
      refine .child ih ((synced_linked R hi hA hB hd P).1 hl) ⟨hc.2, fun m0 h0 => ?_⟩ (not_hidden_0 hA hB _)
      obtain ⟨m, g1, g2, _⟩ := synced_keeps R hi hA hB hd P h0
      rw [← g2]
      exact hc.1 m g1
  · intro h
    have vis : ∀ k : Key, Reached a b 0 A B k → A.find k.1 k.2 ≠ none ∨ B.find k.1 k.2 ≠ none → ¬ Hidden f2 (B1.find k.1 k.2) (A.find k.1 k.2) := by
      intro k hr hk
      have : B1.find k.1 k.2 ≠ none := by
        rcases hk with hk | hk
        · exact synced_has R hi hA hB hs P hr hk
        · obtain ⟨m0, h0⟩ := Option.ne_none_iff_exists'.1 hk
          obtain ⟨m, g1, _⟩ := synced_keeps R hi hA hB hd P h0
          rw [g1]; simp
      obtain ⟨m, hm'⟩ := Option.ne_none_iff_exists'.1 this
      rw [hm']
      exact not_hidden_src hs2 (hB1 _ _ _ hm') (fun d hd' => (hA _ _ _ hd').1)
    induction h with
    | @top k h1 h2 h3 h4 =>
      have hv := vis k (.top h1 h2 h3 h4) h3
      refine .top h2 h1 ?_ hv
      rcases h3 with h3 | h3
      · exact .inr h3
      · obtain ⟨m0, h0⟩ := Option.ne_none_iff_exists'.1 h3
        obtain ⟨m, g1, _⟩ := synced_keeps R hi hA hB hd P h0
        exact .inl (by rw [g1]; simp)
    | @child p k hp hl hc hv ih =>
      refine .child ih ((synced_linked R hi hA hB hd P).2 hl) ⟨fun m hm' => ?_, hc.1⟩ (vis k (.child hp hl hc hv) (linked_stored R hA hB hl))
      cases h0 : B.find p.1 p.2 with
      | some m0 =>
        obtain ⟨m', g1, g2, _⟩ := synced_keeps R hi hA hB hd P h0
        rw [hm'] at g1
        cases g1
        rw [g2]; exact hc.2 m0 h0
      | none =>
        obtain ⟨s, c, g1, _, g3, g4, _⟩ := synced_new R hi hA hB hd P hm' h0
        rw [hcls p s g1] at g3
        cases g3
        rw [g4]; exact hc.1 s g1
end
end DS
