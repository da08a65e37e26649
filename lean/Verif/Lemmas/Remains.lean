import Verif.Spec.Remains
import Verif.Lemmas.SyncDoneTop
import Verif.Lemmas.ConvErr
import Verif.Lemmas.Retry
import Verif.Props.SyncArgs
import Verif.Props.SyncFail
import Verif.Props.SyncLog
/-! What a sync leaves to do. -/
set_option linter.unusedSectionVars false

namespace DS
variable {V E : Type} [PyVal V]

theorem callKey_unique {A : Adapter V} {c : CrudCall V} {k k' : Key} (h : CallKey A c k) (h' : CallKey A c k') : k = k' := by
  cases c with
  | create t ids attrs =>
    obtain ⟨c1, u1, h1, h2, rfl⟩ := h
    obtain ⟨c2, u2, g1, g2, rfl⟩ := h'
    cases h1.symm.trans g1
    cases h2.symm.trans g2
    rfl
  | update t u attrs => exact Eq.trans h (Eq.symm h')
  | delete t u => exact Eq.trans h (Eq.symm h')

theorem ListedBelow.trans {D : Snap V} {a b c : Key} (h : ListedBelow D a b) (h' : ListedBelow D b c) : ListedBelow D a c := by
  induction h' with
  | child hl => exact .step h hl
  | step _ hl ih => exact .step ih hl

section
variable {n rl sid : Nat} {src dst : Adapter V} {dc : DiffClass V} {flags : Nat} {hooks : Hooks V E} {w w' : World V E} {res : Except Err (Diff V)}

theorem CanConverge.applicable (h : CanConverge n src dst sid w) : Applicable n dst src dc flags none w :=
  applicable_computed h.comparable h.ready.dst h.keepsIds

theorem CanConverge.sameIds (h : CanConverge n src dst sid w) : SameIds dst (snap src w) :=
  fun t u m c hm hc => (h.reconcilable.source (t, u) m c hm hc).identifiers

/-- What went along is at or below an object whose delete call did its work. -/
theorem After.taken_did {es : List (Elem V)} (h : After src dst n sid flags w w' es) {evs : List (Event V)} {k : Key} (ht : TakenAlong dst (snap dst w) es evs k) :
    (snap src w).at k = none ∧ ∃ k0, (k = k0 ∨ ListedBelow (snap dst w) k0 k) ∧ Did dst evs .delete k0 := by
  induction ht with
  | root he ha hk hs hd =>
    obtain ⟨out, h1, h2⟩ := hd
    exact ⟨(h.env.delete _ _ he hk ha).1, _, .inl rfl, _, out, h1, rfl, rfl, .inr ⟨by simp [CrudCall.act], h2⟩⟩
  | @down k k' ht hedge ih =>
    obtain ⟨hsk, k0, h4, h5⟩ := ih
    have hl : listsO ((snap dst w).at k) k'.1 k'.2 = true := by
      rcases hedge with ⟨m, hm, hl⟩ | ⟨e, e', he, he', hk, hk'⟩
      · have hm : (snap dst w).at k = some m := hm
        rw [hm]; exact hl
      · rcases h.env.edge k k' ⟨e, e', he, he', hk, hk'⟩ with hl | hl
        · exact absurd hsk (listsO_some hl)
        · exact hl
    refine ⟨h.below (.child hl) hsk, k0, .inr ?_, h5⟩
    rcases h4 with rfl | h4
    · exact .child hl
    · exact .step h4 hl

/-- A call is about an object that its kind fits. -/
theorem CanConverge.call_about (h : CanConverge n src dst sid w) (hrl : n ≤ rl) (hs : syncFrom n rl hooks dst src dc flags none w = (res, w'))
    {c : CrudCall V} {out : Outcome} (hc : Event.call c out ∈ newEvents w w') {k : Key} (hk : CallKey dst c k) :
    Shown src dst flags (snap src w) (snap dst w) k ∧
    (c.act = .create → (snap src w).find k.1 k.2 ≠ none ∧ (snap dst w).find k.1 k.2 = none) ∧
    (c.act = .update → (snap src w).find k.1 k.2 ≠ none ∧ (snap dst w).find k.1 k.2 ≠ none) ∧
    (c.act = .delete → (snap src w).find k.1 k.2 = none ∧ (snap dst w).find k.1 k.2 ≠ none) := by
  obtain ⟨d, ⟨w1, h1⟩, h2, _, h4, h5, _⟩ := h.sync hrl hs
  have ha : After src dst n sid flags w w' d.kids := ⟨h, h2, h4, h5⟩
  obtain ⟨d', w1', e, q, g1, g2, g3, _⟩ := computed_call h.comparable h.ready.dst h.keepsIds hs hc
  rw [h1] at g1
  cases g1
  obtain ⟨k', g4, g5⟩ := g3.key
  cases callKey_unique hk g5
  have hact := prescribes_act g3
  exact ⟨ha.shown_iff.2 ⟨e, g2, g4⟩, fun hx => h4.create e k g2 g4 (hact.trans (by rw [hx])), fun hx => h4.update e k g2 g4 (hact.trans (by rw [hx])),
    fun hx => h4.delete e k g2 g4 (hact.trans (by rw [hx]))⟩

/-- Whatever else fails, calls that did their work are in effect. -/
theorem CanConverge.took (h : CanConverge n src dst sid w) (hR : dc.Reorders) (hrl : n ≤ rl) (hs : syncFrom n rl hooks dst src dc flags none w = (res, w'))
    {c : CrudCall V} {out : Outcome} (hc : Event.call c out ∈ newEvents w w') (ht : Took c out) : InEffect dst (snap dst w) (snap dst w') c := by
  obtain ⟨d, ⟨w1, h1⟩, h2, hcls, h4, h5, _⟩ := h.sync hrl hs
  have ha : After src dst n sid flags w w' d.kids := ⟨h, h2, h4, h5⟩
  have hu : UsedDiff n dst src dc flags none w d := .inr ⟨(by simp), by rw [h1]⟩
  obtain ⟨evs, evs1, evs2, g1, g2, g3, g4, g5, g6⟩ := syncFrom_done h.ready.dst hu (h.applicable d hu) ⟨by rw [hcls]; exact hR, h4.dist⟩ hs
  have hn := newEvents_eq g1
  have hno : callsOf evs2 = [] := by
    obtain ⟨_, _, _, _, ⟨x, e1, L, c', out', R, e2, e3, e4, _⟩ | e1⟩ := h.clean hrl hR hs
    · rw [hn, g2] at e2
      have e5 : callsOf evs1 ++ callsOf evs2 = callsOf L ++ [(c', out')] := by
        rw [← callsOf_append, e2, callsOf_append, callsOf_call, e3]
      rcases List.eq_nil_or_concat (callsOf evs2) with e6 | ⟨l, b, e6⟩
      · exact e6
      · rw [e6, List.concat_eq_append, ← List.append_assoc] at e5
        have e7 : b = (c', out') := by
          have := congrArg List.getLast? e5
          simpa using this
        have : Event.call c' out' ∈ evs2 := by rw [← mem_callsOf, e6, e7]; simp
        have := (g6 c' out' this).1
        rw [e4] at this; cases this
    · exact g5 (fun x hx => by rw [e1] at hx; cases hx)
  have hc1 : Event.call c out ∈ evs1 := by
    rw [hn, g2] at hc
    rcases List.mem_append.1 hc with hc | hc
    · exact hc
    · rw [← mem_callsOf, hno] at hc; cases hc
  rcases g3 c out hc1 ht (fun _ => ⟨sid, h.ready.store⟩) with e | ⟨hna, k, hk, htk⟩
  · exact e
  · have hsn := (ha.taken_did htk).1
    obtain ⟨_, i1, i2, _⟩ := h.call_about hrl hs hc hk
    cases c with
    | create t ids attrs => exact absurd hsn (i1 rfl).1
    | update t u attrs => exact absurd hsn (i2 rfl).1
    | delete t u => exact absurd rfl hna

/-- An object is gone exactly if its delete call did its work or it went along with another. -/
theorem CanConverge.gone (h : CanConverge n src dst sid w) (hrl : n ≤ rl) (hs : syncFrom n rl hooks dst src dc flags none w = (res, w'))
    {k : Key} (h0 : (snap dst w).find k.1 k.2 ≠ none) (h1 : (snap dst w').find k.1 k.2 = none) :
    ∃ k0, (k = k0 ∨ ListedBelow (snap dst w) k0 k) ∧ Did dst (newEvents w w') .delete k0 := by
  obtain ⟨d, ⟨w1, hd⟩, h2, hcls, h4, h5, _⟩ := h.sync hrl hs
  have ha : After src dst n sid flags w w' d.kids := ⟨h, h2, h4, h5⟩
  rcases (C28_only_success_changes_contents h.ready.dst h.applicable hs k.1 k.2).2.1 h0 h1 with ⟨out, g1, g2⟩ | ⟨d', hu, g⟩
  · exact ⟨k, .inl rfl, _, out, g1, rfl, rfl, .inr ⟨by simp [CrudCall.act], g2⟩⟩
  · have hk' : d'.kids = d.kids := by
      rcases hu with ⟨hu, _⟩ | ⟨_, hu⟩
      · cases hu
      · rw [hd] at hu; cases hu; rfl
    rw [hk'] at g
    exact (ha.taken_did g).2

section
variable (h : CanConverge n src dst sid w) (hR : dc.Reorders) (hrl : n ≤ rl) (hs : syncFrom n rl hooks dst src dc flags none w = (res, w'))
include h hR hrl hs

theorem CanConverge.did_create {k : Key} (hd : Did dst (newEvents w w') .create k) : (snap dst w').find k.1 k.2 ≠ none := by
  obtain ⟨c, out, h1, h2, h3, h4⟩ := hd
  have he := h.took hR hrl hs h1 h4
  cases c with
  | create t ids attrs =>
    obtain ⟨c1, u, m, e1, e2, e3, _⟩ := he
    cases callKey_unique h3 (show CallKey dst (.create t ids attrs) (t, u) from ⟨c1, u, e1, e2, rfl⟩)
    rw [e3]; simp
  | update t u attrs => cases h2
  | delete t u => cases h2

theorem CanConverge.did_delete {k : Key} (hd : Did dst (newEvents w w') .delete k) : (snap src w).find k.1 k.2 = none ∧ (snap dst w').find k.1 k.2 = none := by
  obtain ⟨c, out, h1, h2, h3, h4⟩ := hd
  have he := h.took hR hrl hs h1 h4
  refine ⟨((h.call_about hrl hs h1 h3).2.2.2 h2).1, ?_⟩
  cases c with
  | create t ids attrs => cases h2
  | update t u attrs => cases h2
  | delete t u => cases (show k = (t, u) from h3); exact he

theorem CanConverge.did_update {k : Key} (hd : Did dst (newEvents w w') .update k) : ∃ s m0 m, (snap src w).find k.1 k.2 = some s ∧
    (snap dst w).find k.1 k.2 = some m0 ∧ (snap dst w').find k.1 k.2 = some m ∧ ∀ f a, Differs s m0 f a → Dict.get? m.vals f = some a := by
  obtain ⟨c, out, h1, h2, h3, h4⟩ := hd
  have he := h.took hR hrl hs h1 h4
  cases c with
  | create t ids attrs => cases h2
  | delete t u => cases h2
  | update t u attrs =>
    cases (show k = (t, u) from h3)
    obtain ⟨s, m0, g1, g2, g3⟩ := C25_update_arguments h.comparable h.ready.dst h.keepsIds h.sameIds hs h1
    obtain ⟨m0', m, e1, e2, _, e4⟩ := he
    cases g2.symm.trans e1
    refine ⟨s, m0, m, g1, g2, e2, fun f a hf => ?_⟩
    have hwf : Dict.WF attrs := by
      obtain ⟨d, ⟨w1, hd⟩, _, _, i4, _⟩ := h.sync hrl hs
      obtain ⟨d', w1', e, q, j1, j2, j3, _⟩ := computed_call h.comparable h.ready.dst h.keepsIds hs h1
      rw [hd] at j1
      cases j1
      have := i4.plus_wf e j2
      have hact := prescribes_act j3
      obtain ⟨u', _, j4⟩ := j3
      rw [hact] at j4
      cases j4
      exact this
    rw [e4 hwf f, (g3 f a).2 hf]; rfl
end
end

section
variable {src dst : Adapter V} {n flags : Nat} {S D D1 : Snap V}

/-- What is above an object that takes part, in the destination, and is not in the source, is still there. -/
theorem Partly.above (R : Reconcilable src dst n S D) (hi : InstOf dst D) (P : Partly src dst flags S D D1) {k : Key} (h : Reached src dst flags S D1 k) :
    ∀ {a : Key}, S.find a.1 a.2 = none → ListedBelow D a k → D1.find a.1 a.2 ≠ none := by
  have up : ∀ {a k : Key}, ListedBelow D a k → S.find a.1 a.2 = none → S.find k.1 k.2 = none := by
    intro a k hb
    induction hb with
    | child hl => intro hn; exact Classical.byContradiction (fun h => listsO_some (R.dst_place _ _ hl h) hn)
    | step _ hl ih => intro hn; exact Classical.byContradiction (fun h => listsO_some (R.dst_place _ _ hl h) (ih hn))
  induction h with
  | @top k h1 h2 _ _ =>
    intro a ha hb
    have : ∃ p : Key, listsO (D.find p.1 p.2) k.1 k.2 = true := by
      cases hb with
      | child hl => exact ⟨_, hl⟩
      | step _ hl => exact ⟨_, hl⟩
    obtain ⟨p, hp⟩ := this
    exact absurd ⟨h1, h2⟩ (R.not_top p k (.inr hp))
  | @child p k hp hl _ _ ih =>
    intro a ha hb
    have hlD : Linked S D p k := P.linked R hi hl
    have hp1 : D1.find p.1 p.2 ≠ none ∨ S.find p.1 p.2 ≠ none := by
      rcases hl with hl | hl
      · exact .inr (listsO_some hl)
      · exact .inl (listsO_some hl)
    cases hb with
    | child hl' =>
      cases R.one_parent _ _ _ hlD (.inr hl')
      exact hp1.resolve_right (fun h => h ha)
    | step hb' hl' =>
      cases R.one_parent _ _ _ hlD (.inr hl')
      exact ih ha hb'
end

theorem Did.append {dst : Adapter V} {l l' : List (Event V)} {a : Action} {k : Key} : Did dst (l ++ l') a k ↔ Did dst l a k ∨ Did dst l' a k := by
  constructor
  · rintro ⟨c, out, h1, h2⟩
    rcases List.mem_append.1 h1 with h1 | h1
    · exact .inl ⟨c, out, h1, h2⟩
    · exact .inr ⟨c, out, h1, h2⟩
  · rintro (⟨c, out, h1, h2⟩ | ⟨c, out, h1, h2⟩)
    · exact ⟨c, out, List.mem_append_left _ h1, h2⟩
    · exact ⟨c, out, List.mem_append_right _ h1, h2⟩

section
variable {src dst : Adapter V} {n flags : Nat} {S D D1 : Snap V} (R : Reconcilable src dst n S D) (hi : InstOf dst D) (P : Partly src dst flags S D D1)
include R hi P

/-- Places below an object that the source does not have, after attempts and before. -/
theorem Partly.listedBelow {a k : Key} (h : ListedBelow D1 a k) (hk : D.find k.1 k.2 ≠ none) (hD1 : D1.find k.1 k.2 ≠ none) : ListedBelow D a k := by
  have one : ∀ {p c : Key}, listsO (D1.find p.1 p.2) c.1 c.2 = true → D.find c.1 c.2 ≠ none → listsO (D.find p.1 p.2) c.1 c.2 = true := by
    intro p c hl hc
    rcases P.linked R hi (.inr hl) with h | h
    · exact R.src_place _ _ h hc
    · exact h
  induction h with
  | child hl => exact .child (one hl hk)
  | step hb hl ih =>
    have hl' := one hl hk
    exact .step (ih (listsO_some hl') (listsO_some hl)) hl'

theorem Partly.listedBelow' {a k : Key} (hr : Reached src dst flags S D1 k) (h : ListedBelow D a k) (ha : S.find a.1 a.2 = none) (hD1 : D1.find k.1 k.2 ≠ none) :
    ListedBelow D1 a k := by
  have gen : ∀ {a k : Key}, ListedBelow D a k → (∀ c, c = a ∨ ListedBelow D a c → c = k ∨ ListedBelow D c k → D1.find c.1 c.2 ≠ none) → ListedBelow D1 a k := by
    intro a k h
    induction h with
    | @child k hl =>
      intro g
      exact .child ((P.lists _ _).2 ⟨g _ (.inl rfl) (.inr (.child hl)), g _ (.inr (.child hl)) (.inl rfl), .inr hl⟩)
    | @step c k hb hl ih =>
      intro g
      refine .step (ih (fun x h1 h2 => g x h1 (.inr ?_))) ((P.lists _ _).2 ⟨g _ (.inr hb) (.inr (.child hl)), g _ (.inr (.step hb hl)) (.inl rfl), .inr hl⟩)
      rcases h2 with rfl | h2
      · exact .child hl
      · exact .step h2 hl
  refine gen h (fun c h1 h2 => ?_)
  rcases h2 with rfl | h2
  · exact hD1
  · refine P.above R hi hr ?_ h2
    rcases h1 with rfl | h1
    · exact ha
    · clear h2 h hr
      induction h1 with
      | child hl => exact Classical.byContradiction (fun h => listsO_some (R.dst_place _ _ hl h) ha)
      | step _ hl ih => exact Classical.byContradiction (fun h => listsO_some (R.dst_place _ _ hl h) ih)
end

section
variable {n rl sid : Nat} {src dst : Adapter V} {dc : DiffClass V} {flags : Nat} {hooks : Hooks V E} {w w1 w' : World V E} {res : Except Err (Diff V)}

theorem CanConverge.ext (h : CanConverge n src dst sid w) (hR : dc.Reorders) (hrl : n ≤ rl) (hs : syncFrom n rl hooks dst src dc flags none w = (res, w')) :
    ∃ evs, w'.trace = w.trace ++ evs := by
  obtain ⟨d, ⟨w1, h1⟩, h2, hcls, h4, h5, _⟩ := h.sync hrl hs
  have hu : UsedDiff n dst src dc flags none w d := .inr ⟨(by simp), by rw [h1]⟩
  obtain ⟨evs, _, _, g1, _⟩ := syncFrom_done h.ready.dst hu (h.applicable d hu) ⟨by rw [hcls]; exact hR, h4.dist⟩ hs
  exact ⟨evs, g1⟩

theorem Tries.attempts (h : Tries n rl src dst flags w w') : Attempts n rl src dst flags w w' := by
  induction h with
  | nil => exact .nil
  | sync _ _ h ih => exact .sync ih h

theorem newEvents_self (w : World V E) : newEvents w w = [] := by unfold newEvents; simp

theorem newEvents_trans {evs evs' : List (Event V)} (h : w1.trace = w.trace ++ evs) (h' : w'.trace = w1.trace ++ evs') :
    newEvents w w' = newEvents w w1 ++ newEvents w1 w' := by
  rw [newEvents_eq h, newEvents_eq h', newEvents_eq (evs := evs ++ evs') (by rw [h', h, List.append_assoc])]

theorem Tries.ext (h : CanConverge n src dst sid w) (hkeep : KeepsValuesOf dst (snap src w)) (hrl : n ≤ rl)
    (hs : Tries n rl src dst flags w w') : ∃ evs, w'.trace = w.trace ++ evs := by
  induction hs with
  | nil => exact ⟨[], by simp⟩
  | @sync w1 w' _ _ _ h1 hR h2 ih =>
    obtain ⟨evs, e1⟩ := ih
    obtain ⟨evs', e2⟩ := (h1.attempts.partly h hkeep hrl).1.ext hR hrl h2
    exact ⟨evs ++ evs', by rw [e2, e1, List.append_assoc]⟩

theorem differsAt_of {e : Elem V} {s m : Model V} (h1 : e.src = some s.attrs) (h2 : e.dst = some m.attrs) {f : String} {a : V} (h : Differs s m f a) : e.DiffersAt f := by
  obtain ⟨g1, b, g2, g3⟩ := h
  exact ⟨a, b, by unfold Elem.srcVal; rw [h1]; exact g1, by unfold Elem.dstVal; rw [h2]; exact g2, g3⟩

/-- The elements of the computed diff. -/
theorem CanConverge.plans (h : CanConverge n src dst sid w) {d : Diff V} (hd : diffFrom n dst src dc flags w = (.ok d, w1)) (k : Key) :
    (Plans dst d .create k ↔ ToCreate src dst flags (snap src w) (snap dst w) k) ∧
    (Plans dst d .delete k ↔ ToDelete src dst flags (snap src w) (snap dst w) k) ∧
    ∀ f a, (∃ e, InTree e d.kids ∧ ElemKey dst e k ∧ e.action = some .update ∧ Dict.get? (e.plus.getD []) f = some a) ↔
      ToUpdate src dst flags (snap src w) (snap dst w) k f a := by
  obtain ⟨r, hs⟩ : ∃ r, syncFrom n n (fun e _ => ({}, e) : Hooks V E) dst src dc flags none w = r := ⟨_, rfl⟩
  obtain ⟨d', ⟨w1', h1⟩, h2, _, h4, h5, _⟩ := h.sync (Nat.le_refl n) hs
  rw [hd] at h1
  cases h1
  have ha : After src dst n sid flags w r.2 d.kids := ⟨h, h2, h4, h5⟩
  refine ⟨⟨?_, ?_⟩, ⟨?_, ?_⟩, fun f a => ⟨?_, ?_⟩⟩
  · rintro ⟨e, g1, g2, g3⟩
    exact ⟨ha.shown_iff.2 ⟨e, g1, g2⟩, h4.create e k g1 g2 g3⟩
  · rintro ⟨g1, g2, g3⟩
    obtain ⟨e, i1, i2⟩ := ha.shown_iff.1 g1
    refine ⟨e, i1, i2, ?_⟩
    cases hact : e.action with
    | none => exact absurd g3 (h4.quiet e k i1 i2 hact).2
    | some x =>
      cases x with
      | create => rfl
      | update => exact absurd g3 (h4.update e k i1 i2 hact).2
      | delete => exact absurd g3 (h4.delete e k i1 i2 hact).2
  · rintro ⟨e, g1, g2, g3⟩
    exact ⟨ha.shown_iff.2 ⟨e, g1, g2⟩, h4.delete e k g1 g2 g3⟩
  · rintro ⟨g1, g2, g3⟩
    obtain ⟨e, i1, i2⟩ := ha.shown_iff.1 g1
    refine ⟨e, i1, i2, ?_⟩
    cases hact : e.action with
    | none => exact absurd g2 (h4.quiet e k i1 i2 hact).1
    | some x =>
      cases x with
      | delete => rfl
      | update => exact absurd g2 (h4.update e k i1 i2 hact).1
      | create => exact absurd g2 (h4.create e k i1 i2 hact).1
  · rintro ⟨e, g1, g2, g3, g4⟩
    obtain ⟨j1, j2⟩ := h4.update e k g1 g2 g3
    obtain ⟨s, hS⟩ := Option.ne_none_iff_exists'.1 j1
    obtain ⟨m, hD⟩ := Option.ne_none_iff_exists'.1 j2
    obtain ⟨s1, s2, _⟩ := ha.sides g1 g2
    rw [hS] at s1
    rw [hD] at s2
    exact ⟨ha.shown_iff.2 ⟨e, g1, g2⟩, s, m, hS, hD, plus_differs s1 s2 g4⟩
  · rintro ⟨g1, s, m, g2, g3, g4⟩
    obtain ⟨e, i1, i2⟩ := ha.shown_iff.1 g1
    obtain ⟨s1, s2, _⟩ := ha.sides i1 i2
    rw [show (snap src w).at k = some s from g2] at s1
    rw [show (snap dst w).at k = some m from g3] at s2
    exact ⟨e, i1, i2, action_update_iff.2 ⟨f, differsAt_of s1 s2 g4⟩, (plus_iff s1 s2 f a).2 g4⟩
end
end DS
