import Verif.Spec.SameContents
import Verif.Lemmas.Mirror
import Verif.Lemmas.SkipCount
/-! # Diffs of adapters with the same contents -/
set_option linter.unusedSectionVars false

namespace DS
variable {V E : Type} [PyVal V]

theorem SameList.symm : ∀ {a b : Option (List String)}, SameList a b → SameList b a
  | none, none, _ => trivial
  | some _, some _, h => List.Perm.symm h
  | none, some _, h => h.elim
  | some _, none, h => h.elim

theorem SameModel.symm {m m' : Model V} (h : SameModel m m') : SameModel m' m :=
  ⟨h.cls.symm, h.flags.symm, h.ids.symm, h.short.symm, h.attrs.symm, fun ct f hf => (h.lists ct f (h.cls ▸ hf)).symm⟩

theorem SameO.symm {o o' : Option (Model V)} (h : SameO o o') : SameO o' o := by
  cases h with
  | absent => exact .absent
  | both h => exact .both h.symm

theorem SameContents.symm {S S' : Snap V} (h : SameContents S S') : SameContents S' S := fun t u => (h t u).symm

theorem SameO.isNone {o o' : Option (Model V)} (h : SameO o o') : o' = none ↔ o = none := by
  cases h <;> simp

theorem SameModel.listsEq {m m' : Model V} (h : SameModel m m') (ct u : String) : m'.lists ct u = m.lists ct u := by
  unfold Model.lists
  rw [h.cls]
  cases hf : Dict.get? m.cls.children ct with
  | none => rfl
  | some f =>
    have := h.lists ct f hf
    cases h1 : m.kidList f <;> cases h2 : m'.kidList f <;> rw [h1, h2] at this <;> simp only [h1, h2]
    · exact this.elim
    · exact this.elim
    · simp only [SameList] at this
      rw [Bool.eq_iff_iff, List.contains_iff_mem, List.contains_iff_mem, this.mem_iff]

theorem SameO.listsO {o o' : Option (Model V)} (h : SameO o o') (ct u : String) : listsO o' ct u = listsO o ct u := by
  cases h with
  | absent => rfl
  | both h => exact h.listsEq ct u

theorem SameO.comparesType {s s' d d' : Option (Model V)} (hs : SameO s s') (hd : SameO d d') (ct : String) :
    comparesType s' d' ct ↔ comparesType s d ct := by
  have key : ∀ {o o' : Option (Model V)}, SameO o o' → ((∀ m, o' = some m → ct ∈ Dict.keys m.cls.children) ↔ (∀ m, o = some m → ct ∈ Dict.keys m.cls.children)) := by
    intro o o' h
    cases h with
    | absent => simp
    | both h => simp [h.cls]
  unfold DS.comparesType
  rw [key hs, key hd]

theorem SameO.hidden {flags : Nat} {s s' d d' : Option (Model V)} (hs : SameO s s') (hd : SameO d d') (h : Hidden flags s d) : Hidden flags s' d' := by
  cases h with
  | globalSrc s h => cases hs; cases hd; exact .globalSrc _ h
  | globalDst s h => cases hs; cases hd; exact .globalDst _ h
  | modelSrc s h => cases hs with | both g => cases hd; exact .modelSrc _ (by rw [g.flags]; exact h)
  | modelDst s h => cases hd with | both g => cases hs; exact .modelDst _ (by rw [g.flags]; exact h)
  | ignoreSrc s d h => cases hs with | both g => exact .ignoreSrc _ _ (by rw [g.flags]; exact h)
  | ignoreDst s d h => cases hd with | both g => exact .ignoreDst _ _ (by rw [g.flags]; exact h)

/-- The place with the same type, unique id and sides in other contents. -/
def Pos.recast (S D : Snap V) (p : Pos V) : Pos V :=
  ⟨p.type, p.uid, p.src.bind (fun _ => S.find p.type p.uid), p.dst.bind (fun _ => D.find p.type p.uid)⟩

/-- Two places that hold the same. -/
structure SamePos (p p' : Pos V) : Prop where
  type : p'.type = p.type
  uid : p'.uid = p.uid
  src : SameO p.src p'.src
  dst : SameO p.dst p'.dst

theorem SamePos.symm {p p' : Pos V} (h : SamePos p p') : SamePos p' p := ⟨h.type.symm, h.uid.symm, h.src.symm, h.dst.symm⟩

section
variable {S S' D D' : Snap V} (hS : SameContents S S') (hD : SameContents D D')
include hS hD

theorem recast_same {p : Pos V} (hp : Stored S D p) : SamePos p (p.recast S' D') := by
  refine ⟨rfl, rfl, ?_, ?_⟩
  · cases h : p.src with
    | none => simp only [Pos.recast, h]; exact .absent
    | some m => simp only [Pos.recast, h, Option.bind_some]; rw [← hp.src m h]; exact hS _ _
  · cases h : p.dst with
    | none => simp only [Pos.recast, h]; exact .absent
    | some m => simp only [Pos.recast, h, Option.bind_some]; rw [← hp.dst m h]; exact hD _ _

theorem recast_recast {p : Pos V} (hp : Stored S D p) : (p.recast S' D').recast S D = p := by
  obtain ⟨t, u, s, d⟩ := p
  have h1 := hS t u
  have h2 := hD t u
  simp only [Pos.recast, Pos.mk.injEq, true_and]
  constructor
  · cases s with
    | none => rfl
    | some m =>
      have := hp.src m rfl
      simp only at this
      rw [this] at h1 ⊢
      generalize S'.find t u = x at h1 ⊢
      cases h1 with
      | both _ => simp
  · cases d with
    | none => rfl
    | some m =>
      have := hp.dst m rfl
      simp only at this
      rw [this] at h2 ⊢
      generalize D'.find t u = x at h2 ⊢
      cases h2 with
      | both _ => simp

theorem stored_recast {p : Pos V} : Stored S' D' (p.recast S' D') := by
  refine ⟨fun m hm => ?_, fun m hm => ?_⟩
  · cases h : p.src with
    | none => simp [Pos.recast, h] at hm
    | some x => simpa [Pos.recast, h] using hm
  · cases h : p.dst with
    | none => simp [Pos.recast, h] at hm
    | some x => simpa [Pos.recast, h] using hm

theorem isTop_recast {src dst src' dst' : Adapter V} (h1 : SameTops src src') (h2 : SameTops dst dst') {c : Pos V}
    (h : IsTop src dst S D c) : IsTop src' dst' S' D' (c.recast S' D') := by
  have hs := hS c.type c.uid
  have hd := hD c.type c.uid
  have e1 : (c.recast S' D').src = S'.find c.type c.uid := by
    simp only [Pos.recast, h.src_eq]
    generalize S.find c.type c.uid = a at hs
    generalize S'.find c.type c.uid = b at hs ⊢
    cases hs <;> rfl
  have e2 : (c.recast S' D').dst = D'.find c.type c.uid := by
    simp only [Pos.recast, h.dst_eq]
    generalize D.find c.type c.uid = a at hd
    generalize D'.find c.type c.uid = b at hd ⊢
    cases hd <;> rfl
  refine ⟨(h1 _).1 h.src_top, (h2 _).1 h.dst_top, e1, e2, ?_⟩
  rw [e1, e2, Ne, Ne, hs.isNone, hd.isNone, ← h.src_eq, ← h.dst_eq]
  exact h.some_side

theorem isChild_recast {p p' c : Pos V} (hp : SamePos p p') (h : IsChild S D p c) : IsChild S' D' p' (c.recast S' D') := by
  have hs := hS c.type c.uid
  have hd := hD c.type c.uid
  refine ⟨(hp.src.comparesType hp.dst _).2 h.compared, ?_, ?_, ?_⟩
  · simp only [Pos.recast, hp.src.listsO, hp.dst.listsO]; exact h.listed
  · simp only [Pos.recast, hp.src.listsO, h.src_eq]
    split
    · generalize S.find c.type c.uid = a at hs
      generalize S'.find c.type c.uid = b at hs ⊢
      cases hs <;> rfl
    · rfl
  · simp only [Pos.recast, hp.dst.listsO, h.dst_eq]
    split
    · generalize D.find c.type c.uid = a at hd
      generalize D'.find c.type c.uid = b at hd ⊢
      cases hd <;> rfl
    · rfl

omit hS hD in
theorem SamePos.visible {flags : Nat} {p p' : Pos V} (h : SamePos p p') : p'.Visible flags ↔ p.Visible flags :=
  ⟨fun hv hh => hv (h.src.hidden h.dst hh), fun hv hh => hv (h.src.symm.hidden h.dst.symm hh)⟩

theorem recast_perm {ps ps' : List (Pos V)} (h1 : DistinctPos ps) (h2 : DistinctPos ps') (hs : ∀ c ∈ ps, Stored S D c)
    (hs' : ∀ c ∈ ps', Stored S' D' c) (h : ∀ c ∈ ps, c.recast S' D' ∈ ps') (h' : ∀ c ∈ ps', c.recast S D ∈ ps) :
    ps'.Perm (ps.map (Pos.recast S' D')) := by
  apply perm_of_nodup (distinct_nodup h2)
  · unfold List.Nodup
    rw [List.pairwise_map]
    refine List.Pairwise.imp ?_ h1
    intro a b hab he
    exact hab ⟨(congrArg Pos.type he : (a.recast S' D').type = _), (congrArg Pos.uid he : (a.recast S' D').uid = _)⟩
  · intro c
    rw [List.mem_map]
    constructor
    · intro hc
      exact ⟨c.recast S D, h' c hc, recast_recast hS.symm hD.symm (hs' c hc)⟩
    · rintro ⟨a, ha, rfl⟩
      exact h a ha

omit hS hD in
theorem same_kids {es es' : List (Elem V)} {ps ps' : List (Pos V)} {f : Pos V → Pos V} {R R' : Elem V → Pos V → Prop}
    (hl : es.length = ps.length) (hl' : es'.length = ps'.length) (hp : ps'.Perm (ps.map f))
    (hz : ∀ x ∈ es.zip ps, R x.1 x.2) (hz' : ∀ x ∈ es'.zip ps', R' x.1 x.2)
    (hm : ∀ e p e', e ∈ es → p ∈ ps → R e p → R' e' (f p) → SameElem e e') : SameElems es es' := by
  obtain ⟨l, g1, g2, g3⟩ := zip_perm hp es' hl'
  refine ⟨l, g1, by rw [g2, List.length_map, hl], ?_⟩
  clear g1
  have key : ∀ (es : List (Elem V)) (ps : List (Pos V)) (l : List (Elem V)), es.length = ps.length → l.length = ps.length →
      (∀ x ∈ es.zip ps, R x.1 x.2) → (∀ x ∈ l.zip (ps.map f), R' x.1 x.2) →
      (∀ e p e', e ∈ es → p ∈ ps → R e p → R' e' (f p) → SameElem e e') → ∀ x ∈ es.zip l, SameElem x.1 x.2 := by
    intro es
    induction es with
    | nil => intro ps l _ _ _ _ _ x hx; simp at hx
    | cons e es ih =>
      intro ps l h1 h2 h3 h4 h5 x hx
      match ps, l with
      | [], _ => simp at h1
      | p :: ps, [] => simp at h2
      | p :: ps, a :: l =>
        rw [List.zip_cons_cons] at hx h3
        rw [List.map_cons, List.zip_cons_cons] at h4
        rcases List.mem_cons.1 hx with rfl | hx
        · exact h5 e p a (by simp) (by simp) (h3 (e, p) (by simp)) (h4 (a, f p) (by simp))
        · exact ih ps l (by simpa using h1) (by simpa using h2) (fun x hx => h3 x (List.mem_cons_of_mem _ hx))
            (fun x hx => h4 x (List.mem_cons_of_mem _ hx))
            (fun e p e' he hp => h5 e p e' (List.mem_cons_of_mem _ he) (List.mem_cons_of_mem _ hp)) x hx
  exact key es ps l hl (by rw [g2, List.length_map]) hz (fun x hx => hz' x (g3 x hx)) hm

omit hS hD in
theorem SameO.map_attrs {o o' : Option (Model V)} (h : SameO o o') : o'.map Model.attrs = o.map Model.attrs := by
  cases h with
  | absent => rfl
  | both h => simp [h.attrs]

theorem describes_same {src dst src' dst' : Adapter V} {flags : Nat} {e : Elem V} : ∀ {p p' : Pos V} {e' : Elem V}, SamePos p p' →
    DescribesG src dst flags S D e p → DescribesG src' dst' flags S' D' e' p' → SameElem e e' := by
  induction e using Elem.ind with
  | h e ih =>
    intro p p' e' hp h h'
    cases h with
    | mk ps hg hh hd hps _ _ hl hz =>
      cases h' with
      | mk ps' hg' hh' hd' hps' _ _ hl' hz' =>
        have st : ∀ c ∈ ps, Stored S D c := fun c hc => isChild_stored ((hps c).1 hc).1
        have st' : ∀ c ∈ ps', Stored S' D' c := fun c hc => isChild_stored ((hps' c).1 hc).1
        have hperm := recast_perm hS hD hd hd' st st'
          (fun c hc => (hps' _).2 ⟨isChild_recast hS hD hp ((hps c).1 hc).1, (recast_same hS hD (st c hc)).visible.2 ((hps c).1 hc).2⟩)
          (fun c hc => (hps _).2 ⟨isChild_recast hS.symm hD.symm hp.symm ((hps' c).1 hc).1, (recast_same hS.symm hD.symm (st' c hc)).visible.2 ((hps' c).1 hc).2⟩)
        obtain ⟨l, g1, g2, g3⟩ := same_kids hl hl' hperm hz hz' (fun e p e' he hc h1 h2 => ih e he (recast_same hS hD (st p hc)) h1 h2)
        have hname : e'.name = e.name ∧ e'.keys = e.keys := by
          have hor : ∃ m m', p.src.or p.dst = some m ∧ p'.src.or p'.dst = some m' ∧ SameModel m m' := by
            have h1 := hp.src
            have h2 := hp.dst
            have h3 := hg.some_side
            generalize p.src = a at h1 h3 ⊢
            generalize p'.src = a' at h1 ⊢
            generalize p.dst = b at h2 h3 ⊢
            generalize p'.dst = b' at h2 ⊢
            cases h1 with
            | both h => exact ⟨_, _, rfl, rfl, h⟩
            | absent => cases h2 with
              | both h => exact ⟨_, _, rfl, rfl, h⟩
              | absent => simp at h3
          obtain ⟨m, m', e1, e2, hm⟩ := hor
          have n1 := hh.name_eq m e1
          have n2 := hh'.name_eq m' e2
          exact ⟨by rw [n1.1, n2.1, hm.short], by rw [n1.2, n2.2, hm.ids]⟩
        exact SameElem.mk l (by rw [hh.type_eq, hh'.type_eq, hp.type]) hname.1 hname.2 (by rw [hh.src_eq, hh'.src_eq, hp.src.map_attrs])
          (by rw [hh.dst_eq, hh'.dst_eq, hp.dst.map_attrs]) g1 g2 g3

theorem describesTop_same {src dst src' dst' : Adapter V} {flags : Nat} (h1 : SameTops src src') (h2 : SameTops dst dst') {es es' : List (Elem V)}
    (h : DescribesTopG src dst flags S D es) (h' : DescribesTopG src' dst' flags S' D' es') : SameElems es es' := by
  obtain ⟨_, _, ps, hd, hps, hl, hz⟩ := h
  obtain ⟨_, _, ps', hd', hps', hl', hz'⟩ := h'
  have st : ∀ c ∈ ps, Stored S D c := fun c hc => isTop_stored ((hps c).1 hc).1
  have st' : ∀ c ∈ ps', Stored S' D' c := fun c hc => isTop_stored ((hps' c).1 hc).1
  have hperm := recast_perm hS hD hd hd' st st'
    (fun c hc => (hps' _).2 ⟨isTop_recast hS hD h1 h2 ((hps c).1 hc).1, (recast_same hS hD (st c hc)).visible.2 ((hps c).1 hc).2⟩)
    (fun c hc => (hps _).2 ⟨isTop_recast hS.symm hD.symm (fun t => (h1 t).symm) (fun t => (h2 t).symm) ((hps' c).1 hc).1,
      (recast_same hS.symm hD.symm (st' c hc)).visible.2 ((hps' c).1 hc).2⟩)
  exact same_kids hl hl' hperm hz hz' (fun e p e' he hc g1 g2 => describes_same hS hD (recast_same hS hD (st p hc)) g1 g2)

/-! ## problems -/

theorem comparedAt_recast {src dst src' dst' : Adapter V} {flags : Nat} (h1 : SameTops src src') (h2 : SameTops dst dst') {k : Nat} {p : Pos V}
    (h : ComparedAt src dst flags S D k p) : ComparedAt src' dst' flags S' D' k (p.recast S' D') ∧ Stored S D p := by
  induction h with
  | top ht => exact ⟨.top (isTop_recast hS hD h1 h2 ht), isTop_stored ht⟩
  | child _ hv hc ih =>
    have := recast_same hS hD ih.2
    exact ⟨.child ih.1 (this.visible.2 hv) (isChild_recast hS hD this hc), isChild_stored hc⟩

theorem compared_recast {src dst src' dst' : Adapter V} {flags : Nat} (h1 : SameTops src src') (h2 : SameTops dst dst') {p : Pos V}
    (h : Compared src dst flags S D p) : Compared src' dst' flags S' D' (p.recast S' D') ∧ Stored S D p := by
  induction h with
  | top ht => exact ⟨.top (isTop_recast hS hD h1 h2 ht), isTop_stored ht⟩
  | child _ hv hc ih =>
    have := recast_same hS hD ih.2
    exact ⟨.child ih.1 (this.visible.2 hv) (isChild_recast hS hD this hc), isChild_stored hc⟩

omit hS hD in
theorem SamePos.clash {c d c' d' : Pos V} (h1 : SamePos c c') (h2 : SamePos d d') (h : Clash c d) : Clash c' d' := by
  have hor : ∀ {p p' : Pos V}, SamePos p p' → ∀ m, p.src.or p.dst = some m → ∃ m', p'.src.or p'.dst = some m' ∧ m'.shortname = m.shortname := by
    intro p p' hp m hm
    have h1 := hp.src
    have h2 := hp.dst
    generalize p.src = a at h1 hm
    generalize p'.src = a' at h1 ⊢
    generalize p.dst = b at h2 hm
    generalize p'.dst = b' at h2 ⊢
    cases h1 with
    | both h => cases hm; exact ⟨_, rfl, h.short⟩
    | absent => cases h2 with
      | both h => cases hm; exact ⟨_, rfl, h.short⟩
      | absent => cases hm
  obtain ⟨g1, g2, m, m', g3, g4, g5⟩ := h
  obtain ⟨x, x1, x2⟩ := hor h1 m g3
  obtain ⟨y, y1, y2⟩ := hor h2 m' g4
  exact ⟨by rw [h1.type, h2.type, g1], by rw [h1.uid, h2.uid]; exact g2, x, y, x1, y1, by rw [x2, y2, g5]⟩

theorem problem_same {src dst src' dst' : Adapter V} {flags n : Nat} (h1 : SameTops src src') (h2 : SameTops dst dst') {e : Err}
    (h : DiffProblem src dst flags S D n e) : DiffProblem src' dst' flags S' D' n e := by
  cases e with
  | objectNotFound =>
    obtain ⟨p, hp, hv, ct, u, hc, hl⟩ := h
    obtain ⟨hp', hst⟩ := compared_recast hS hD h1 h2 hp
    have hs := recast_same hS hD hst
    refine ⟨_, hp', hs.visible.2 hv, ct, u, (hs.src.comparesType hs.dst ct).2 hc, ?_⟩
    rw [hs.src.listsO, hs.dst.listsO, (hS ct u).isNone, (hD ct u).isNone]
    exact hl
  | valueError =>
    obtain ⟨p, hp, s, d, e1, e2, hu⟩ := h
    obtain ⟨hp', hst⟩ := compared_recast hS hD h1 h2 hp
    have hs := recast_same hS hD hst
    refine ⟨_, hp', ?_⟩
    have g1 := hs.src
    have g2 := hs.dst
    unfold Pos.Unlike
    generalize (p.recast S' D').src = a at g1 ⊢
    generalize (p.recast S' D').dst = b at g2 ⊢
    rw [e1] at g1
    rw [e2] at g2
    cases g1 with
    | both g1 => cases g2 with
      | both g2 =>
        refine ⟨_, _, rfl, rfl, ?_⟩
        unfold Model.type at hu ⊢
        rw [g1.cls, g2.cls, g1.short, g2.short, g1.ids, g2.ids]
        exact hu
  | objectAlreadyExists =>
    obtain ⟨c, c', v1, v2, hcl, h⟩ := h
    have hst : Stored S D c ∧ Stored S D c' := by
      rcases h with ⟨t1, t2⟩ | ⟨p, _, _, t1, t2⟩
      · exact ⟨isTop_stored t1, isTop_stored t2⟩
      · exact ⟨isChild_stored t1, isChild_stored t2⟩
    have s1 := recast_same hS hD hst.1
    have s2 := recast_same hS hD hst.2
    refine ⟨c.recast S' D', c'.recast S' D', s1.visible.2 v1, s2.visible.2 v2, s1.clash s2 hcl, ?_⟩
    rcases h with ⟨t1, t2⟩ | ⟨p, hp, hv, t1, t2⟩
    · exact .inl ⟨isTop_recast hS hD h1 h2 t1, isTop_recast hS hD h1 h2 t2⟩
    · obtain ⟨hp', hst⟩ := compared_recast hS hD h1 h2 hp
      have hs := recast_same hS hD hst
      exact .inr ⟨_, hp', hs.visible.2 hv, isChild_recast hS hD hs t1, isChild_recast hS hD hs t2⟩
  | attributeError =>
    obtain ⟨p, hp, hv, ct, f, m, hc, hm, hf, hk⟩ := h
    obtain ⟨hp', hst⟩ := compared_recast hS hD h1 h2 hp
    have hs := recast_same hS hD hst
    refine ⟨_, hp', hs.visible.2 hv, ct, f, ?_⟩
    have key : ∀ {o o' : Option (Model V)}, SameO o o' → o = some m → ∃ m', o' = some m' ∧ Dict.get? m'.cls.children ct = some f ∧ m'.kidList f = none := by
      intro o o' ho e
      subst e
      cases ho with
      | both g =>
        refine ⟨_, rfl, by rw [g.cls]; exact hf, ?_⟩
        have := g.lists ct f hf
        rw [hk] at this
        cases hx : Model.kidList _ f with
        | none => rfl
        | some l => rw [hx] at this; exact this.elim
    rcases hm with hm | hm
    · obtain ⟨m', e1, e2, e3⟩ := key hs.src hm
      exact ⟨m', (hs.src.comparesType hs.dst ct).2 hc, .inl e1, e2, e3⟩
    · obtain ⟨m', e1, e2, e3⟩ := key hs.dst hm
      exact ⟨m', (hs.src.comparesType hs.dst ct).2 hc, .inr e1, e2, e3⟩
  | recursionError =>
    rcases h with ⟨h0, t, t1, t2⟩ | ⟨k, p, hk, hp, hv, hside, ct, hct⟩
    · exact .inl ⟨h0, t, (h1 t).1 t1, (h2 t).1 t2⟩
    · obtain ⟨hp', hst⟩ := comparedAt_recast hS hD h1 h2 hp
      have hs := recast_same hS hD hst
      refine .inr ⟨k, _, hk, hp', hs.visible.2 hv, ?_, ct, (hs.src.comparesType hs.dst ct).2 hct⟩
      rw [Ne, Ne, hs.src.isNone, hs.dst.isNone]
      exact hside
  | _ => exact h.elim
end

/-! ## counts -/

theorem SameElem.action {e e' : Elem V} (h : SameElem e e') : e'.action = e.action := by
  cases h with
  | mk l _ _ _ hs hd _ _ _ => unfold Elem.action Elem.attrsKeys; rw [hs, hd]

theorem SameElem.count {e : Elem V} : ∀ {e' : Elem V}, SameElem e e' → ∀ a : Option Action,
    e'.nodes.countP (fun x => decide (x.action = a)) = e.nodes.countP (fun x => decide (x.action = a)) := by
  induction e using Elem.ind with
  | h e ih =>
    intro e' h a
    have ha := h.action
    cases h with
    | mk l _ _ _ hs hd hp hl hz =>
      rw [Elem.nodes_eq, Elem.nodes_eq, List.countP_cons, List.countP_cons, ← countP_nodesL_perm hp, ha]
      congr 1
      have key : ∀ (es l : List (Elem V)), l.length = es.length → (∀ x ∈ es, x ∈ e.kids) → (∀ x ∈ es.zip l, SameElem x.1 x.2) →
          (nodesL l).countP (fun x => decide (x.action = a)) = (nodesL es).countP (fun x => decide (x.action = a)) := by
        intro es
        induction es with
        | nil => intro l hl _ _; cases l <;> simp_all [nodesL]
        | cons x es ih' =>
          intro l hl hm hz
          cases l with
          | nil => simp at hl
          | cons y l =>
            rw [nodesL, nodesL, List.countP_append, List.countP_append]
            rw [ih x (hm x (by simp)) (hz (x, y) (by simp)) a,
              ih' l (by simpa using hl) (fun z hz' => hm z (List.mem_cons_of_mem _ hz'))
                (fun z hz' => hz z (by rw [List.zip_cons_cons]; exact List.mem_cons_of_mem _ hz'))]
      exact key e.kids l hl (fun _ h => h) hz

theorem SameElems.count {es es' : List (Elem V)} (h : SameElems es es') (a : Option Action) : countAction a es' = countAction a es := by
  obtain ⟨l, hp, hl, hz⟩ := h
  unfold countAction
  rw [← countP_nodesL_perm hp]
  clear hp
  induction es generalizing l with
  | nil => cases l <;> simp_all [nodesL]
  | cons x es ih =>
    cases l with
    | nil => simp at hl
    | cons y l =>
      rw [nodesL, nodesL, List.countP_append, List.countP_append, (hz (x, y) (by simp)).count a,
        ih l (by simpa using hl) (fun z hz' => hz z (by rw [List.zip_cons_cons]; exact List.mem_cons_of_mem _ hz'))]

/-! ## the skip counter -/

theorem SameModel.idsListed {m m' : Model V} (h : SameModel m m') (ct : String) : (idsListed (some m') ct).length = (idsListed (some m) ct).length := by
  unfold DS.idsListed
  simp only [h.cls]
  cases hf : Dict.get? m.cls.children ct with
  | none => rfl
  | some f =>
    have := h.lists ct f hf
    cases h1 : m.kidList f <;> cases h2 : m'.kidList f <;> rw [h1, h2] at this <;> simp only [h1, h2]
    · exact this.elim
    · exact this.elim
    · exact (List.Perm.length_eq this).symm

theorem SameO.idsListed {o o' : Option (Model V)} (h : SameO o o') (ct : String) : (idsListed o' ct).length = (idsListed o ct).length := by
  cases h with
  | absent => rfl
  | both h => exact h.idsListed ct

theorem SameModel.undeclared {m m' o o' : Model V} (h : SameModel m m') (ho : SameModel o o') : undeclared m' o' = undeclared m o := by
  unfold DS.undeclared
  rw [h.cls, ho.cls]
  congr 1
  exact List.map_congr_left (fun ct _ => h.idsListed ct)

theorem SamePos.oneSided {p p' : Pos V} (h : SamePos p p') : p'.oneSided = p.oneSided := by
  unfold Pos.oneSided
  have h1 := h.src
  have h2 := h.dst
  generalize p.src = a at h1 ⊢
  generalize p'.src = a' at h1 ⊢
  generalize p.dst = b at h2 ⊢
  generalize p'.dst = b' at h2 ⊢
  cases h1 with
  | absent => cases h2 <;> rfl
  | both h1 => cases h2 with
    | absent => rfl
    | both h2 => simp only [h1.undeclared h2, h2.undeclared h1]

theorem passedOver_same {S S' D D' : Snap V} (hS : SameContents S S') (hD : SameContents D D') {flags : Nat} {p : Pos V} {k : Nat}
    (h : PassedOver flags S D p k) : ∀ {p' : Pos V}, SamePos p p' → PassedOver flags S' D' p' k := by
  induction h with
  | excluded hh => intro p' hp; exact .excluded (hp.src.hidden hp.dst hh)
  | @shown p cts qs hv hn hc hd hi hq ih =>
    intro p' hp
    have st : ∀ c ∈ qs.map Prod.fst, Stored S D c := fun c hc => isChild_stored ((hi c).1 hc)
    have hm : (qs.map (fun x => (x.1.recast S' D', x.2))).map Prod.fst = (qs.map Prod.fst).map (Pos.recast S' D') := by simp
    have e1 : p'.repeats ((qs.map (fun x => (x.1.recast S' D', x.2))).map Prod.fst) = p.repeats (qs.map Prod.fst) := by
      funext ct
      have : placesOf ((qs.map (fun x => (x.1.recast S' D', x.2))).map Prod.fst) ct = placesOf (qs.map Prod.fst) ct := by
        rw [hm]
        unfold placesOf
        rw [List.filter_map, List.length_map]
        rfl
      simp only [Pos.repeats, this, hp.src.idsListed, hp.dst.idsListed]
    have e2 : (qs.map (fun x => (x.1.recast S' D', x.2))).map Prod.snd = qs.map Prod.snd := by simp
    rw [← hp.oneSided, ← e1, ← e2]
    refine .shown cts _ (hp.visible.2 hv) hn (fun ct => (hc ct).trans (hp.src.comparesType hp.dst ct).symm) ?_ ?_ ?_
    · rw [hm]
      unfold DistinctPos
      rw [List.pairwise_map]
      exact hd
    · intro c
      rw [hm]
      constructor
      · intro h
        obtain ⟨a, ha, rfl⟩ := List.mem_map.1 h
        exact isChild_recast hS hD hp ((hi a).1 ha)
      · intro h
        refine List.mem_map.2 ⟨c.recast S D, (hi _).2 (isChild_recast hS.symm hD.symm hp.symm h), recast_recast hS.symm hD.symm (isChild_stored h)⟩
    · intro x hx
      obtain ⟨y, hy, rfl⟩ := List.mem_map.1 hx
      exact ih y hy (recast_same hS hD (st y.1 (List.mem_map.2 ⟨y, hy, rfl⟩)))

theorem all_length_same {S S' : Snap V} (h : SameContents S S') (hc : S.Consistent) (hc' : S'.Consistent) (t : String) :
    (S'.all t).length = (S.all t).length := by
  have hmem : ∀ (S : Snap V), S.Consistent → ∀ u, u ∈ (S.all t).map Model.uid ↔ S.find t u ≠ none := by
    intro S hc u
    rw [List.mem_map]
    constructor
    · rintro ⟨m, hm, rfl⟩
      obtain ⟨u, hu⟩ := (hc.all_iff t m).1 hm
      rw [(hc.key_ok _ _ _ hu).2, hu]
      nofun
    · intro hn
      cases hf : S.find t u with
      | none => exact absurd hf hn
      | some m => exact ⟨m, (hc.all_iff t m).2 ⟨u, hf⟩, (hc.key_ok _ _ _ hf).2⟩
  have := perm_of_nodup (hc'.all_nodup t) (hc.all_nodup t) (fun u => by
    rw [hmem S hc, hmem S' hc', Ne, Ne, (h t u).isNone])
  simpa using this.length_eq

end DS
