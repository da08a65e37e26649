import Verif.Lemmas.ConvEnd
import Verif.Spec.RedisNext
/-! # The diff after a sync into a Redis store -/
set_option linter.unusedSectionVars false

namespace DS
variable {V : Type} [PyVal V]

theorem construct_kidList {c : ModelClass V} {ids attrs : Dict V} {m : Model V} (h : c.construct ids attrs = .ok m) {ct f : String} (hf : Dict.get? c.children ct = some f) :
    m.kidList f = some [] := by
  obtain ⟨_, _, h3, _⟩ := instantiate_ok (construct_ok h)
  unfold Model.kidList
  rw [h3]
  rw [Dict.get?_ofList_map c.childFields (fun f => (Dict.get? ([] : Dict (List String)) f).getD []), if_pos]
  · rfl
  · exact List.mem_map.2 ⟨_, Dict.mem_of_get? hf, rfl⟩

theorem construct_lists {c : ModelClass V} {ids attrs : Dict V} {m : Model V} (h : c.construct ids attrs = .ok m) (ct u : String) : m.lists ct u = false := by
  unfold Model.lists
  split
  · rfl
  · rename_i f hf
    rw [(instantiate_ok (construct_ok h)).1] at hf
    rw [construct_kidList h hf]
    rfl

theorem action_congr_sides {e x : Elem V} (h1 : e.src = x.src) (h2 : e.dst = x.dst) : e.action = x.action := by
  unfold Elem.action Elem.attrsKeys; rw [h1, h2]

/-- What has become of the contents. -/
structure Next (src dst : Adapter V) (n flags : Nat) (S D D' : Snap V) : Prop where
  R : Reconcilable src dst n S D
  inst : InstOf dst D
  hS : S.Consistent
  hD : D.Consistent
  hD' : D'.Consistent
  valid : dst.Valid
  quiet : NotIgnored dst
  del : ∀ k : Key, Shown src dst flags S D k → S.find k.1 k.2 = none → D'.find k.1 k.2 = none
  made : ∀ (k : Key) s, Shown src dst flags S D k → S.find k.1 k.2 = some s → D.find k.1 k.2 = none →
    ∃ c m, Dict.get? dst.classes k.1 = some c ∧ D'.find k.1 k.2 = some m ∧ c.construct s.identifiers s.attrs = .ok m
  others : ∀ k : Key, ¬ (Shown src dst flags S D k ∧ (S.find k.1 k.2 = none ∨ D.find k.1 k.2 = none)) → D'.find k.1 k.2 = D.find k.1 k.2

/-- A place at the top of the comparison whose object has been created. -/
structure NewTop (src dst : Adapter V) (flags : Nat) (S D D' : Snap V) (p : Pos V) (s m : Model V) (c : ModelClass V) : Prop where
  top : AtTop src dst (p.type, p.uid)
  psrc : p.src = some s
  pdst : p.dst = some m
  find : S.find p.type p.uid = some s
  was : D.find p.type p.uid = none
  isNow : D'.find p.type p.uid = some m
  cls : Dict.get? dst.classes p.type = some c
  built : c.construct s.identifiers s.attrs = .ok m
  before : Compared src dst flags S D ⟨p.type, p.uid, some s, none⟩
  visible : Pos.Visible flags ⟨p.type, p.uid, some s, (none : Option (Model V))⟩

/-- A place of the comparison that is as it was before. -/
structure OldPlace (src dst : Adapter V) (flags : Nat) (S D : Snap V) (p : Pos V) : Prop where
  before : Compared src dst flags S D p
  has_src : p.Visible flags → p.src ≠ none
  has_dst : p.Visible flags → AtTop src dst (p.type, p.uid) → p.dst ≠ none

section
variable {src dst : Adapter V} {n flags : Nat} {S D D' : Snap V}

theorem Compared.shown {p : Pos V} (h : Compared src dst flags S D p) (hv : p.Visible flags) : Shown src dst flags S D (p.type, p.uid) := ⟨p, h, hv, rfl⟩

namespace Next
variable (h : Next src dst n flags S D D')
include h

theorem shown_src {k : Key} (hk : Shown src dst flags S D k) : (S.find k.1 k.2 ≠ none ∨ D.find k.1 k.2 ≠ none) ∧ Pos.Visible flags ⟨k.1, k.2, S.find k.1 k.2, D.find k.1 k.2⟩ ∧
    Compared src dst flags S D ⟨k.1, k.2, S.find k.1 k.2, D.find k.1 k.2⟩ := by
  obtain ⟨p, h1, h2, rfl⟩ := hk
  obtain ⟨j, pl⟩ := h1.placed h.R h.inst
  have e : p = ⟨p.type, p.uid, S.find p.type p.uid, D.find p.type p.uid⟩ := by
    have := pl.src_eq
    have := pl.dst_eq
    cases p
    dsimp only at *
    subst_vars
    rfl
  have h3 := pl.some_side
  dsimp only
  rw [← pl.src_eq, ← pl.dst_eq]
  rw [← pl.src_eq, ← pl.dst_eq] at e
  rw [← e]
  exact ⟨h3, h2, h1⟩

/-- The places of the comparison afterwards. -/
theorem place (hn : ¬ DeletesBelowKept src dst flags S D) {p : Pos V} (hp : Compared src dst flags S D' p) :
    OldPlace src dst flags S D p ∨ ∃ s m c, NewTop src dst flags S D D' p s m c := by
  induction hp with
  | @top c ht =>
    by_cases hsh : Shown src dst flags S D (c.type, c.uid) ∧ (S.find c.type c.uid = none ∨ D.find c.type c.uid = none)
    · obtain ⟨h1, h2⟩ := hsh
      cases hs : S.find c.type c.uid with
      | none =>
        have := h.del _ h1 hs
        dsimp only at this
        rcases ht.some_side with h3 | h3
        · rw [ht.src_eq, hs] at h3; exact absurd rfl h3
        · rw [ht.dst_eq, this] at h3; exact absurd rfl h3
      | some s =>
        have hd : D.find c.type c.uid = none := by
          rcases h2 with h2 | h2
          · rw [hs] at h2; cases h2
          · exact h2
        obtain ⟨cl, m, m1, m2, m3⟩ := h.made _ s h1 hs hd
        obtain ⟨_, v1, v2⟩ := h.shown_src h1
        dsimp only at v1 v2
        rw [hs, hd] at v1 v2
        exact .inr ⟨s, m, cl, ⟨ht.src_top, ht.dst_top⟩, ht.src_eq.trans hs, ht.dst_eq.trans m2, hs, hd, m2, m1, m3, v2, v1⟩
    · have he := h.others _ hsh
      dsimp only at he
      have ht' : IsTop src dst S D c := ⟨ht.src_top, ht.dst_top, ht.src_eq, ht.dst_eq.trans he, ht.some_side⟩
      refine .inl ⟨.top ht', fun hv hs => hsh ⟨(Compared.top ht').shown hv, .inl (ht.src_eq.symm.trans hs)⟩,
        fun hv _ hd => hsh ⟨(Compared.top ht').shown hv, .inr (ht'.dst_eq.symm.trans hd)⟩⟩
  | @child p c hp hv hc ih =>
    left
    rcases ih with ho | ⟨s, m, cl, hnew⟩
    · obtain ⟨j, pl⟩ := ho.before.placed h.R h.inst
      have hps := ho.has_src hv
      have hkeep : listsO p.dst c.type c.uid = true → D'.find c.type c.uid = D.find c.type c.uid := by
        intro hl
        refine h.others (c.type, c.uid) fun ⟨h1, h2⟩ => ?_
        have hl' : listsO (D.find p.type p.uid) c.type c.uid = true := by rw [← pl.dst_eq]; exact hl
        rcases h2 with h2 | h2
        · exact hn ⟨(p.type, p.uid), (c.type, c.uid), by dsimp only; rw [← pl.src_eq]; exact hps, hl', h1, h2⟩
        · exact h.R.dst_stored (p.type, p.uid) (c.type, c.uid) hl' h2
      have hc' : IsChild S D p c := ⟨hc.compared, hc.listed, hc.src_eq, by
        rw [hc.dst_eq]
        split
        · rename_i hl; exact hkeep hl
        · rfl⟩
      have hcc := Compared.child ho.before hv hc'
      have plc := pl.of_child h.R h.inst hc'
      refine ⟨hcc, fun hvc hs => ?_, fun _ ht => absurd ht (h.R.not_top _ _ (pl.linked hc'))⟩
      have hcd : c.dst ≠ none := plc.some_side.resolve_left (fun hh => hh hs)
      have hl : listsO p.dst c.type c.uid = true := by
        rw [hc'.dst_eq] at hcd
        split at hcd
        · assumption
        · exact absurd rfl hcd
      exact hn ⟨(p.type, p.uid), (c.type, c.uid), by dsimp only; rw [← pl.src_eq]; exact hps, by dsimp only; rw [← pl.dst_eq]; exact hl, hcc.shown hvc, plc.src_eq.symm.trans hs⟩
    · have hm : listsO p.dst c.type c.uid = false := by rw [hnew.pdst]; exact construct_lists hnew.built _ _
      have hls : listsO p.src c.type c.uid = true := by
        rcases hc.listed with h1 | h1
        · exact h1
        · rw [hm] at h1; cases h1
      have hc' : IsChild S D ⟨p.type, p.uid, some s, none⟩ c := by
        refine ⟨⟨?_, fun _ h => by cases h⟩, .inl ?_, ?_, ?_⟩
        · rw [← hnew.psrc]; exact hc.compared.1
        · rw [← hnew.psrc]; exact hls
        · dsimp only; rw [← hnew.psrc]; exact hc.src_eq
        · rw [hc.dst_eq, hm]; rfl
      have hcc := Compared.child hnew.before hnew.visible hc'
      have pl := Placed.of_top (c := ⟨p.type, p.uid, some s, none⟩) h.R ⟨hnew.top.1, hnew.top.2, hnew.find.symm, hnew.was.symm, .inl (by simp)⟩
      refine ⟨hcc, fun _ hs => ?_, fun _ ht => absurd ht (h.R.not_top _ _ (pl.linked hc'))⟩
      rw [hc.src_eq, if_pos hls] at hs
      refine h.R.src_stored (p.type, p.uid) (c.type, c.uid) ?_ hs
      dsimp only
      rw [hnew.find, ← hnew.psrc]
      exact hls

/-- What becomes of a place. -/
theorem keeps {p : Pos V} (hp : Compared src dst flags S D p) (hv : p.Visible flags) (hs : p.src ≠ none) :
    (¬ (AtTop src dst (p.type, p.uid) ∧ p.dst = none) ∧ Compared src dst flags S D' p) ∨
    (AtTop src dst (p.type, p.uid) ∧ p.dst = none ∧ ∃ s m c, p.src = some s ∧ Compared src dst flags S D' ⟨p.type, p.uid, some s, some m⟩ ∧
      Pos.Visible flags ⟨p.type, p.uid, some s, some m⟩ ∧ Dict.get? dst.classes p.type = some c ∧ c.construct s.identifiers s.attrs = .ok m ∧ S.find p.type p.uid = some s) := by
  induction hp with
  | @top c ht =>
    have hsh := (Compared.top (flags := flags) ht).shown hv
    obtain ⟨s, hs'⟩ := Option.ne_none_iff_exists'.1 hs
    have hS := ht.src_eq.symm.trans hs'
    cases hd : c.dst with
    | none =>
      right
      obtain ⟨cl, m, m1, m2, m3⟩ := h.made _ s hsh hS (ht.dst_eq.symm.trans hd)
      refine ⟨⟨ht.src_top, ht.dst_top⟩, rfl, s, m, cl, hs', .top ⟨ht.src_top, ht.dst_top, hS.symm, m2.symm, .inl (by simp)⟩, ?_, m1, m3, hS⟩
      have hfl := h.quiet _ _ m1
      have hfm : m.flags = cl.defaultFlags := (instantiate_ok (construct_ok m3)).2.2.2.1
      rw [← hfm] at hfl
      intro hh
      unfold Pos.Visible at hv
      rw [hs'] at hv
      cases hh with
      | ignoreSrc _ _ hi => exact hv (.ignoreSrc _ _ hi)
      | ignoreDst _ _ hi => rw [hfl] at hi; cases hi
    | some m =>
      left
      refine ⟨fun hh => (by have := hh.2; cases this), .top ⟨ht.src_top, ht.dst_top, ht.src_eq, ?_, ht.some_side⟩⟩
      rw [ht.dst_eq]
      refine (h.others (c.type, c.uid) fun hh => ?_).symm
      rcases hh.2 with h1 | h1
      · rw [hS] at h1; cases h1
      · rw [ht.dst_eq] at hd; rw [hd] at h1; cases h1
  | @child p c hp hvp hc ih =>
    left
    obtain ⟨j, pl⟩ := hp.placed h.R h.inst
    have plc := pl.of_child h.R h.inst hc
    have hls : listsO p.src c.type c.uid = true := by
      rw [hc.src_eq] at hs
      split at hs
      · assumption
      · exact absurd rfl hs
    refine ⟨fun hh => h.R.not_top _ _ (pl.linked hc) hh.1, ?_⟩
    rcases ih hvp (listsO_some hls) with ⟨_, hcp⟩ | ⟨_, hpd, s, m, cl, hps, hcp, hvis, hcl, hcon, hfs⟩
    · refine .child hcp hvp ⟨hc.compared, hc.listed, hc.src_eq, ?_⟩
      rw [hc.dst_eq]
      split
      · rename_i hl
        refine (h.others (c.type, c.uid) fun hh => ?_).symm
        rcases hh.2 with h1 | h1
        · exact hs (plc.src_eq.trans h1)
        · rw [pl.dst_eq] at hl; exact h.R.dst_stored (p.type, p.uid) (c.type, c.uid) hl h1
      · rfl
    · have hml := construct_lists hcon c.type c.uid
      refine .child hcp hvis ⟨⟨?_, ?_⟩, .inl ?_, ?_, ?_⟩
      · rw [← hps]; exact hc.compared.1
      · intro m' hm'
        cases hm'
        have h1 := hc.compared.1 s hps
        obtain ⟨f, hf⟩ := Dict.mem_keys_iff.1 h1
        rw [(instantiate_ok (construct_ok hcon)).1]
        exact Dict.mem_keys_iff.2 ⟨f, (h.R.source (p.type, p.uid) s cl hfs hcl).children _ _ hf⟩
      · rw [← hps]; exact hls
      · dsimp only; rw [← hps]; exact hc.src_eq
      · have e1 : listsO p.dst c.type c.uid = false := by rw [hpd]; rfl
        have e2 : listsO (some m) c.type c.uid = false := hml
        rw [hc.dst_eq]
        simp only [e1, e2]; rfl

/-- A link afterwards was one before. -/
theorem linked {p c : Pos V} (hp : OldPlace src dst flags S D p ∨ ∃ s m c, NewTop src dst flags S D D' p s m c) (hc : IsChild S D' p c) : Linked S D (p.type, p.uid) (c.type, c.uid) := by
  rcases hp with ho | ⟨s, m, cl, hn⟩
  · obtain ⟨j, pl⟩ := ho.before.placed h.R h.inst
    rcases hc.listed with h1 | h1
    · rw [pl.src_eq] at h1; exact .inl h1
    · rw [pl.dst_eq] at h1; exact .inr h1
  · rcases hc.listed with h1 | h1
    · rw [hn.psrc, ← hn.find] at h1; exact .inl h1
    · rw [hn.pdst] at h1
      have := construct_lists hn.built c.type c.uid
      rw [show listsO (some m) c.type c.uid = m.lists c.type c.uid from rfl, this] at h1
      cases h1

/-- The object that gives a place its name is from before. -/
theorem object {p : Pos V} (hp : OldPlace src dst flags S D p ∨ ∃ s m c, NewTop src dst flags S D D' p s m c) {m : Model V} (hm : p.src.or p.dst = some m) :
    S.find p.type p.uid = some m ∨ D.find p.type p.uid = some m := by
  rcases hp with ho | ⟨s, m', cl, hn⟩
  · obtain ⟨j, pl⟩ := ho.before.placed h.R h.inst
    exact pl.object hm
  · rw [hn.psrc] at hm
    cases hm
    exact .inl hn.find

theorem depth (hn : ¬ DeletesBelowKept src dst flags S D) {j : Nat} {p : Pos V} (hp : ComparedAt src dst flags S D' j p) : FromTop src dst S D j (p.type, p.uid) := by
  induction hp with
  | top ht => exact .top ht.src_top ht.dst_top
  | child hp _ hc ih => exact .down ih (h.linked (h.place hn hp.compared) hc)

theorem fits {p : Pos V} {s m : Model V} {c : ModelClass V} (hn : NewTop src dst flags S D D' p s m c) : Fits s m := by
  obtain ⟨m', h1, h2⟩ := (h.R.source (p.type, p.uid) s c hn.find hn.cls).builds
  rw [hn.built] at h1
  cases h1
  exact h2

theorem no_problem (hn : ¬ DeletesBelowKept src dst flags S D) (e : Err) : ¬ DiffProblem src dst flags S D' n e := by
  have np := h.R.no_problem h.inst h.hS h.hD flags e
  intro hp
  cases e <;> simp only [DiffProblem] at hp np
  case objectNotFound =>
    obtain ⟨p, hc, hv, ct, u, hcmp, hd⟩ := hp
    rcases h.place hn hc with ho | ⟨s, m, cl, hw⟩
    · obtain ⟨j, pl⟩ := ho.before.placed h.R h.inst
      rcases hd with ⟨h1, h2⟩ | ⟨h1, h2⟩
      · exact np ⟨p, ho.before, hv, ct, u, hcmp, .inl ⟨h1, h2⟩⟩
      · by_cases hsh : Shown src dst flags S D (ct, u) ∧ (S.find ct u = none ∨ D.find ct u = none)
        · rcases hsh.2 with h3 | h3
          · exact hn ⟨(p.type, p.uid), (ct, u), by dsimp only; rw [← pl.src_eq]; exact ho.has_src hv, by dsimp only; rw [← pl.dst_eq]; exact h1, hsh.1, h3⟩
          · exact np ⟨p, ho.before, hv, ct, u, hcmp, .inr ⟨h1, h3⟩⟩
        · exact np ⟨p, ho.before, hv, ct, u, hcmp, .inr ⟨h1, (h.others (ct, u) hsh).symm.trans h2⟩⟩
    · rcases hd with ⟨h1, h2⟩ | ⟨h1, h2⟩
      · rw [hw.psrc, ← hw.find] at h1
        exact h.R.src_stored (p.type, p.uid) (ct, u) h1 h2
      · rw [hw.pdst, show listsO (some m) ct u = m.lists ct u from rfl, construct_lists hw.built] at h1
        cases h1
  case valueError =>
    obtain ⟨p, hc, hu⟩ := hp
    rcases h.place hn hc with ho | ⟨s, m, cl, hw⟩
    · exact np ⟨p, ho.before, hu⟩
    · obtain ⟨s', d', h1, h2, hu⟩ := hu
      rw [hw.psrc] at h1
      rw [hw.pdst] at h2
      cases h1
      cases h2
      obtain ⟨a1, a2⟩ := h.hS.key_ok _ _ _ hw.find
      obtain ⟨b1, b2⟩ := h.hD'.key_ok _ _ _ hw.isNow
      have hf := h.fits hw
      rcases hu with hu | hu | hu
      · exact hu (a1.trans b1.symm)
      · exact hu (hf.shortname (a2.trans b2.symm))
      · rw [hf.ids] at hu; cases hu
  case objectAlreadyExists =>
    obtain ⟨c, c', hv, hv', ⟨ht, hu, m, m', hm, hm', hsn⟩, hp⟩ := hp
    have key : Siblings src dst S D (c.type, c.uid) (c'.type, c'.uid) ∧ Compared src dst flags S D' c ∧ Compared src dst flags S D' c' := by
      rcases hp with ⟨h1, h2⟩ | ⟨p, hp, hv, h1, h2⟩
      · exact ⟨⟨ht, .inl ⟨h1.src_top, h1.dst_top⟩⟩, .top h1, .top h2⟩
      · exact ⟨⟨ht, .inr ⟨_, h.linked (h.place hn hp) h1, h.linked (h.place hn hp) h2⟩⟩, .child hp hv h1, .child hp hv h2⟩
    obtain ⟨k1, k2, k3⟩ := key
    exact h.R.names _ _ m m' k1 (fun he => hu (congrArg Prod.snd he)) (h.object (h.place hn k2) hm) (h.object (h.place hn k3) hm') hsn
  case attributeError =>
    obtain ⟨p, hc, hv, ct, f, m, hcmp, hm, hf, hk⟩ := hp
    rcases h.place hn hc with ho | ⟨s, m', cl, hw⟩
    · exact np ⟨p, ho.before, hv, ct, f, m, hcmp, hm, hf, hk⟩
    · rw [hw.psrc, hw.pdst] at hm
      rcases hm with hm | hm
      · cases hm
        obtain ⟨l, hl, _⟩ := (h.R.sound (p.type, p.uid) _ (.inl hw.find)).lists ct f hf
        rw [hk] at hl; cases hl
      · cases hm
        rw [(instantiate_ok (construct_ok hw.built)).1] at hf
        rw [construct_kidList hw.built hf] at hk
        cases hk
  case recursionError =>
    rcases hp with ⟨rfl, t, h1, h2⟩ | ⟨k, p, rfl, hc, _⟩
    · have := h.R.depth 0 (t, "") (.top h1 h2); omega
    · have := h.R.depth _ _ (h.depth hn hc); omega

theorem problem (hn : DeletesBelowKept src dst flags S D) : DiffProblem src dst flags S D' n .objectNotFound := by
  obtain ⟨k, c, h1, h2, ⟨q, hq, hv, rfl⟩, h4⟩ := hn
  dsimp only at h2 h4
  cases hq with
  | top ht => exact absurd ⟨ht.src_top, ht.dst_top⟩ (h.R.not_top k (q.type, q.uid) (.inr h2))
  | @child p _ hp hvp hc =>
    obtain ⟨j, pl⟩ := hp.placed h.R h.inst
    have hk := h.R.one_parent _ _ _ (pl.linked hc) (.inr h2)
    subst hk
    dsimp only at h1 h2
    have hps : p.src ≠ none := by rw [pl.src_eq]; exact h1
    have hpd : p.dst ≠ none := by rw [pl.dst_eq]; exact listsO_some h2
    rcases h.keeps hp hvp hps with ⟨_, hcp⟩ | ⟨_, hh, _⟩
    · exact ⟨p, hcp, hvp, q.type, q.uid, hc.compared, .inr ⟨by rw [pl.dst_eq]; exact h2, h.del _ ((Compared.child hp hvp hc).shown hv) h4⟩⟩
    · exact absurd hh hpd

theorem agrees (hself : KeepsNew src dst flags S D) {p : Pos V} {s m : Model V} {c : ModelClass V} (hw : NewTop src dst flags S D D' p s m c) : p.Agrees := by
  refine ⟨s, m, hw.psrc, hw.pdst, fun f a b ha hb => ?_⟩
  have hcl := (instantiate_ok (construct_ok hw.built)).1
  have hval := h.valid.valid _ _ hw.cls
  have hbv := attrs_vals hb
  have hfa : f ∈ c.attributes := by
    rw [Model.get?_attrs] at hb
    split at hb
    · rename_i hf; rw [hcl] at hf; exact hf
    · cases hb
  obtain ⟨⟨f', dflt⟩, hf1, rfl⟩ := List.mem_map.1 (hval.attrs_fields f hfa)
  rw [construct_get? hval hw.built hf1] at hbv
  have hid : Dict.get? s.identifiers f' = none := by
    rw [Model.get?_identifiers, if_neg]
    intro hid
    rw [Model.get?_attrs] at ha
    split at ha
    · rename_i hf; exact (h.R.sound (p.type, p.uid) s (.inl hw.find)).valid.ids_attrs _ hid hf
    · cases ha
  dsimp only at ha
  unfold ModelClass.newValue at hbv
  rw [hid, ha] at hbv
  exact hself (p.type, p.uid) s c ⟨_, hw.before, hw.visible, rfl⟩ hw.find hw.was hw.cls f' a b ha hbv

theorem keyed (hn : ¬ DeletesBelowKept src dst flags S D) {p : Pos V} (hp : Compared src dst flags S D' p) {e : Elem V} (he : Header src dst e p) : ∃ k, ElemKey dst e k := by
  rcases h.place hn hp with ho | ⟨s, m, cl, hw⟩
  · obtain ⟨j, pl⟩ := ho.before.placed h.R h.inst
    exact ⟨_, pl.elemKey h.R h.inst h.hS h.hD he⟩
  · obtain ⟨j, pl⟩ := hw.before.placed h.R h.inst
    have hh : Header src dst { e with dst := none } ⟨p.type, p.uid, some s, none⟩ :=
      ⟨he.type_eq, by rw [← hw.psrc]; exact he.src_eq, rfl, fun m' hm' => he.name_eq m' (by rw [hw.psrc]; exact hm'), he.srcName_eq, he.dstName_eq⟩
    obtain ⟨_, g1, g2⟩ : ∃ k, ElemKey dst { e with dst := none } k := ⟨_, pl.elemKey h.R h.inst h.hS h.hD hh⟩
    exact ⟨_, g1, g2⟩

/-- The elements of the next diff. -/
theorem plans (hn : ¬ DeletesBelowKept src dst flags S D) (hkeep : KeepsNew src dst flags S D) {es es' : List (Elem V)} (hd : DescribesTopG src dst flags S D es)
    (hd' : DescribesTopG src dst flags S D' es') :
    (∀ e' k, InTree e' es' → ElemKey dst e' k → e'.action ≠ none →
      ∃ e, InTree e es ∧ ElemKey dst e k ∧ e.src = e'.src ∧ e.dst = e'.dst ∧ e.action ≠ some .delete ∧ (AtTop src dst k → e.action ≠ some .create)) ∧
    (∀ e k, InTree e es → ElemKey dst e k → (e.action = some .update ∨ e.action = some .create ∧ ¬ AtTop src dst k) →
      ∃ e', InTree e' es' ∧ ElemKey dst e' k ∧ e'.src = e.src ∧ e'.dst = e.dst) := by
  constructor
  · intro e' k he hk ha
    obtain ⟨q, q1, q2, q3⟩ := hd'.inTree he
    rcases h.place hn q1 with ho | ⟨s, m, cl, hw⟩
    · obtain ⟨j, pl⟩ := ho.before.placed h.R h.inst
      obtain ⟨x, x1, x2⟩ := hd.complete ho.before q2
      have hkx := pl.elemKey h.R h.inst h.hS h.hD x2.header
      have hke := pl.elemKey h.R h.inst h.hS h.hD q3.header
      cases elemKey_unique hk hke
      refine ⟨x, x1, hkx, x2.header.src_eq.trans q3.header.src_eq.symm, x2.header.dst_eq.trans q3.header.dst_eq.symm, ?_, ?_⟩
      · rw [Ne, action_delete_iff, x2.header.src_eq]
        intro hh
        exact ho.has_src q2 (by simpa using hh.1)
      · intro ht
        rw [Ne, action_create_iff, x2.header.dst_eq]
        intro hh
        exact ho.has_dst q2 ht (by simpa using hh.2)
    · exact absurd ((header_action q3.header (.inl (by rw [hw.psrc]; simp))).2 (h.agrees hkeep hw)) ha
  · intro e k he hk ha
    obtain ⟨q, j, q1, q2, pl, q3, hkq⟩ := hd.place h.R h.inst h.hS h.hD he
    cases elemKey_unique hk hkq
    have hs : q.src ≠ none := by
      intro hh
      have e1 : e.src = none := by rw [q3.header.src_eq, hh]; rfl
      rcases ha with ha | ⟨ha, _⟩
      · exact (action_update_sides ha).1 e1
      · exact ((action_create_iff e).1 ha).1 e1
    rcases h.keeps q1 q2 hs with ⟨_, hc⟩ | ⟨ht, hd0, _⟩
    · obtain ⟨x, x1, x2⟩ := hd'.complete hc q2
      exact ⟨x, x1, pl.elemKey h.R h.inst h.hS h.hD x2.header, x2.header.src_eq.trans q3.header.src_eq.symm, x2.header.dst_eq.trans q3.header.dst_eq.symm⟩
    · exfalso
      rcases ha with ha | ⟨_, ha⟩
      · exact (action_update_sides ha).2 (by rw [q3.header.dst_eq, hd0]; rfl)
      · exact ha ht

end Next
end
end DS
