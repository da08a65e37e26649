import Verif.Lemmas.ConvStep
import Verif.Spec.Converge
import Verif.Props.SyncArgs
/-! The diff of two adapters that can be reconciled. -/
set_option linter.unusedSectionVars false

namespace DS
variable {V E : Type} [PyVal V]

/-- The object under a key. -/
abbrev Snap.at (S : Snap V) (k : Key) : Option (Model V) := S.find k.1 k.2

section
variable {S D : Key → Option (Model V)}

theorem Down.snoc {j : Nat} {a y z : Key} (h : Down S D j a y) (hu : UE S D y z) : Down S D (j + 1) a z := by
  induction h with
  | refl => exact .step hu .refl
  | step h1 _ ih => exact .step h1 (ih hu)

theorem Down.last {j : Nat} {a y : Key} (h : Down S D (j + 1) a y) : ∃ z, Down S D j a z ∧ UE S D z y := by
  generalize hi : j + 1 = i at h
  induction h generalizing j with
  | refl => cases hi
  | @step i' a c y h1 h2 ih =>
    cases hi
    cases h2 with
    | refl => exact ⟨a, .refl, h1⟩
    | step h3 h4 =>
      obtain ⟨z, i1, i2⟩ := ih rfl
      exact ⟨z, .step h1 i1, i2⟩

theorem Down.trans {i j : Nat} {a b c : Key} (h : Down S D i a b) (h' : Down S D j b c) : Down S D (i + j) a c := by
  induction h with
  | refl => simpa using h'
  | @step i _ _ _ h1 _ ih =>
    rw [show i + 1 + j = (i + j) + 1 by omega]
    exact .step h1 (ih h')

/-- Two paths to the same place: one starts on the other. -/
theorem Down.meet (hp : ∀ k k' c, UE S D k c → UE S D k' c → k = k') {i t : Nat} {a b y : Key} (h : Down S D i a y) (h' : Down S D (t + i) b y) : Down S D t b a := by
  induction i generalizing y with
  | zero => cases h; exact h'
  | succ i ih =>
    obtain ⟨z, h1, h2⟩ := h.last
    obtain ⟨z', h1', h2'⟩ := Down.last (j := t + i) h'
    cases hp _ _ _ h2 h2'
    exact ih h1 h1'
end

section
variable {src dst : Adapter V} {S D : Snap V} {n : Nat}

theorem FromTop.down' {j i : Nat} {k y : Key} (h : FromTop src dst S D j k) (hd : Down S.at D.at i k y) : FromTop src dst S D (j + i) y := by
  induction hd generalizing j with
  | refl => exact h
  | @step i _ _ _ h1 _ ih =>
    rw [show j + (i + 1) = (j + 1) + i by omega]
    exact ih (.down h h1)

theorem Reconcilable.acyclic (h : Reconcilable src dst n S D) {j i : Nat} {k : Key} (ht : FromTop src dst S D j k) : ¬ Down S.at D.at (i + 1) k k := by
  intro hd
  have : ∀ t, ∃ i, t ≤ i ∧ Down S.at D.at i k k := by
    intro t
    induction t with
    | zero => exact ⟨_, Nat.zero_le _, .refl⟩
    | succ t ih =>
      obtain ⟨i', h1, h2⟩ := ih
      exact ⟨_, by omega, h2.trans hd⟩
  obtain ⟨i', h1, h2⟩ := this n
  have := h.depth _ _ (ht.down' h2)
  omega

/-- Where a compared place is. -/
structure Placed (src dst : Adapter V) (S D : Snap V) (j : Nat) (p : Pos V) : Prop where
  src_eq : p.src = S.find p.type p.uid
  dst_eq : p.dst = D.find p.type p.uid
  top : FromTop src dst S D j (p.type, p.uid)
  some_side : p.src ≠ none ∨ p.dst ≠ none
  cls : ∃ c, Dict.get? dst.classes p.type = some c

/-- Objects of the destination are instances of its classes. -/
def InstOf (dst : Adapter V) (D : Snap V) : Prop := ∀ t u m c, D.find t u = some m → Dict.get? dst.classes t = some c → m.cls = c

theorem SyncReady.instOf {sid : Nat} {w : World V E} (h : SyncReady dst sid w) : InstOf dst (snap dst w) := by
  intro t u m c hm hc
  rw [snap_local_find h.store] at hm
  obtain ⟨r, h1, rfl⟩ := Option.map_eq_some_iff.1 hm
  exact h.inst _ _ _ _ h1 hc

theorem Placed.of_top (h : Reconcilable src dst n S D) {c : Pos V} (ht : IsTop src dst S D c) : Placed src dst S D 0 c where
  src_eq := ht.src_eq
  dst_eq := ht.dst_eq
  top := .top ht.src_top ht.dst_top
  some_side := ht.some_side
  cls := Option.ne_none_iff_exists'.1 (h.top_known _ ht.dst_top)

theorem Placed.linked {j : Nat} {p c : Pos V} (hp : Placed src dst S D j p) (hc : IsChild S D p c) : Linked S D (p.type, p.uid) (c.type, c.uid) := by
  have := hc.listed
  rw [hp.src_eq, hp.dst_eq] at this
  exact this

/-- The class of an object at a place declares the child types that are compared. -/
theorem Placed.declares (h : Reconcilable src dst n S D) (hi : InstOf dst D) {j : Nat} {p : Pos V} (hp : Placed src dst S D j p) {ct : String}
    (hc : comparesType p.src p.dst ct) {cl : ModelClass V} (hcl : Dict.get? dst.classes p.type = some cl) : ct ∈ Dict.keys cl.children := by
  cases hd : p.dst with
  | some m =>
    rw [← hi _ _ m cl (by rw [← hp.dst_eq, hd]) hcl]
    exact hc.2 m hd
  | none =>
    cases hs : p.src with
    | none => rcases hp.some_side with h | h <;> exact absurd ‹_› h
    | some s =>
      obtain ⟨f, hf⟩ := Dict.mem_keys_iff.1 (hc.1 s hs)
      exact Dict.mem_keys_iff.2 ⟨f, (h.source (p.type, p.uid) s cl (by rw [← hp.src_eq, hs]) hcl).children ct f hf⟩

theorem Placed.of_child (h : Reconcilable src dst n S D) (hi : InstOf dst D) {j : Nat} {p c : Pos V} (hp : Placed src dst S D j p) (hc : IsChild S D p c) :
    Placed src dst S D (j + 1) c := by
  have hl := hp.linked hc
  have hs : c.src = S.find c.type c.uid := by
    rw [hc.src_eq]
    split
    · rfl
    · rename_i hns
      rcases hc.listed with h1 | h1
      · exact absurd h1 hns
      · cases hf : S.find c.type c.uid with
        | none => rfl
        | some m =>
          rw [hp.dst_eq] at h1
          have := h.dst_place (p.type, p.uid) (c.type, c.uid) h1 (by dsimp only; rw [hf]; simp)
          rw [hp.src_eq] at hns
          exact absurd this hns
  have hd : c.dst = D.find c.type c.uid := by
    rw [hc.dst_eq]
    split
    · rfl
    · rename_i hns
      rcases hc.listed with h1 | h1
      · cases hf : D.find c.type c.uid with
        | none => rfl
        | some m =>
          rw [hp.src_eq] at h1
          have := h.src_place (p.type, p.uid) (c.type, c.uid) h1 (by dsimp only; rw [hf]; simp)
          rw [hp.dst_eq] at hns
          exact absurd this hns
      · exact absurd h1 hns
  refine ⟨hs, hd, .down hp.top hl, ?_, ?_⟩
  · rw [hs, hd]
    rcases hl with h1 | h1
    · exact .inl (h.src_stored _ _ h1)
    · exact .inr (h.dst_stored _ _ h1)
  · obtain ⟨cl, hcl⟩ := hp.cls
    exact Option.ne_none_iff_exists'.1 (h.kids_known _ _ _ hcl (hp.declares h hi hc.compared hcl))

theorem ComparedAt.placed (h : Reconcilable src dst n S D) (hi : InstOf dst D) {flags j : Nat} {p : Pos V} (hp : ComparedAt src dst flags S D j p) :
    Placed src dst S D j p := by
  induction hp with
  | top ht => exact .of_top h ht
  | child _ _ hc ih => exact ih.of_child h hi hc

theorem Compared.placed (h : Reconcilable src dst n S D) (hi : InstOf dst D) {flags : Nat} {p : Pos V} (hp : Compared src dst flags S D p) :
    ∃ j, Placed src dst S D j p := by
  induction hp with
  | top ht => exact ⟨_, .of_top h ht⟩
  | child _ _ hc ih => obtain ⟨j, ih⟩ := ih; exact ⟨_, ih.of_child h hi hc⟩

/-- A place on one side or the other. -/
theorem Placed.object {j : Nat} {p : Pos V} (hp : Placed src dst S D j p) {m : Model V} (hm : p.src.or p.dst = some m) :
    S.find p.type p.uid = some m ∨ D.find p.type p.uid = some m := by
  rw [← hp.src_eq, ← hp.dst_eq]
  cases hs : p.src with
  | none => rw [hs] at hm; exact .inr hm
  | some s => rw [hs] at hm; exact .inl hm

theorem Fits.shortname {s d : Model V} (h : Fits s d) (hu : s.uid = d.uid) : s.shortname = d.shortname := by
  unfold Model.shortname
  rw [h.short, hu]
  split
  · rfl
  · congr 1
    exact List.map_congr_left h.names

/-- Nothing can go wrong in a comparison. -/
theorem Reconcilable.no_problem (h : Reconcilable src dst n S D) (hi : InstOf dst D) (hS : S.Consistent) (hD : D.Consistent) (flags : Nat) (e : Err) :
    ¬ DiffProblem src dst flags S D n e := by
  intro hp
  cases e <;> simp only [DiffProblem] at hp
  case objectNotFound =>
    obtain ⟨p, hc, _, ct, u, _, hd⟩ := hp
    obtain ⟨j, pl⟩ := hc.placed h hi
    rcases hd with ⟨h1, h2⟩ | ⟨h1, h2⟩
    · rw [pl.src_eq] at h1; exact h.src_stored (p.type, p.uid) (ct, u) h1 h2
    · rw [pl.dst_eq] at h1; exact h.dst_stored (p.type, p.uid) (ct, u) h1 h2
  case valueError =>
    obtain ⟨p, hc, s, d, hs, hd, hu⟩ := hp
    obtain ⟨j, pl⟩ := hc.placed h hi
    rw [pl.src_eq] at hs
    rw [pl.dst_eq] at hd
    obtain ⟨s1, s2⟩ := hS.key_ok _ _ _ hs
    obtain ⟨d1, d2⟩ := hD.key_ok _ _ _ hd
    have hf := h.pairs (p.type, p.uid) s d hs hd
    rcases hu with hu | hu | hu
    · exact hu (s1.trans d1.symm)
    · exact hu (hf.shortname (s2.trans d2.symm))
    · rw [hf.ids] at hu; cases hu
  case objectAlreadyExists =>
    obtain ⟨c, c', _, _, ⟨ht, hu, m, m', hm, hm', hsn⟩, hp⟩ := hp
    have key : Siblings src dst S D (c.type, c.uid) (c'.type, c'.uid) ∧ (∃ j, Placed src dst S D j c) ∧ ∃ j, Placed src dst S D j c' := by
      rcases hp with ⟨h1, h2⟩ | ⟨p, hp, hv, h1, h2⟩
      · exact ⟨⟨ht, .inl ⟨h1.src_top, h1.dst_top⟩⟩, ⟨_, .of_top h h1⟩, ⟨_, .of_top h h2⟩⟩
      · obtain ⟨j, pl⟩ := hp.placed h hi
        exact ⟨⟨ht, .inr ⟨_, pl.linked h1, pl.linked h2⟩⟩, ⟨_, pl.of_child h hi h1⟩, ⟨_, pl.of_child h hi h2⟩⟩
    obtain ⟨k1, ⟨j, pl⟩, ⟨j', pl'⟩⟩ := key
    exact h.names _ _ m m' k1 (fun he => hu (congrArg Prod.snd he)) (pl.object hm) (pl'.object hm') hsn
  case attributeError =>
    obtain ⟨p, hc, _, ct, f, m, _, hm, hf, hk⟩ := hp
    obtain ⟨j, pl⟩ := hc.placed h hi
    rw [pl.src_eq, pl.dst_eq] at hm
    obtain ⟨l, hl, _⟩ := (h.sound (p.type, p.uid) m hm).lists ct f hf
    rw [hk] at hl; cases hl
  case recursionError =>
    rcases hp with ⟨rfl, t, h1, h2⟩ | ⟨k, p, rfl, hc, _⟩
    · have := h.depth 0 (t, "") (.top h1 h2); omega
    · have := h.depth _ _ (hc.placed h hi).top; omega

theorem Sound.createUniqueId {m : Model V} (h : Sound m) : m.cls.createUniqueId m.identifiers = some m.uid := by
  apply Model.createUniqueId_of_agree
  intro k hk
  rw [Model.get?_identifiers, if_pos hk]
  exact ⟨rfl, Dict.mem_keys_iff.1 (by rw [h.vals]; exact h.valid.ids_fields k hk)⟩

theorem createUniqueId_cls {c c' : ModelClass V} (h : c.identifiers = c'.identifiers) (d : Dict V) : c.createUniqueId d = c'.createUniqueId d := by
  unfold ModelClass.createUniqueId; rw [h]

/-- The key of an element is that of its place. -/
theorem Placed.elemKey (h : Reconcilable src dst n S D) (hi : InstOf dst D) (hS : S.Consistent) (hD : D.Consistent) {j : Nat} {p : Pos V}
    (hp : Placed src dst S D j p) {e : Elem V} (he : Header src dst e p) : ElemKey dst e (p.type, p.uid) := by
  obtain ⟨c, hc⟩ := hp.cls
  have fin : ∀ m, p.src.or p.dst = some m → m.uid = p.uid → c.identifiers = m.cls.identifiers → ElemKey dst e (p.type, p.uid) := by
    intro m hm hu hid
    refine ⟨c, p.uid, by rw [he.type_eq]; exact hc, ?_, by rw [he.type_eq]⟩
    rw [(he.name_eq m hm).2, createUniqueId_cls hid, (h.sound (p.type, p.uid) m (hp.object hm)).createUniqueId, hu]
  cases hs : p.src with
  | some s =>
    have hf := hp.src_eq.symm.trans hs
    exact fin s (by rw [hs]; rfl) (hS.key_ok _ _ _ hf).2 (h.source (p.type, p.uid) s c hf hc).identifiers
  | none =>
    cases hd : p.dst with
    | none => rcases hp.some_side with h | h <;> exact absurd ‹_› h
    | some m =>
      have hf := hp.dst_eq.symm.trans hd
      exact fin m (by rw [hs, hd]; rfl) (hD.key_ok _ _ _ hf).2 (by rw [hi _ _ _ _ hf hc])

/-! ## no object occurs twice -/

theorem zip_pairwise {α β : Type} {R : β → β → Prop} {Q : α → α → Prop} : ∀ {l : List α} {m : List β}, l.length = m.length → m.Pairwise R →
    (∀ a ∈ l.zip m, ∀ b ∈ l.zip m, R a.2 b.2 → Q a.1 b.1) → l.Pairwise Q
  | [], _, _, _, _ => .nil
  | a :: l, [], h, _, _ => by cases h
  | a :: l, b :: m, h, hp, hq => by
    rw [List.pairwise_cons] at hp ⊢
    have hl : l.length = m.length := by simpa using h
    refine ⟨fun x hx => ?_, zip_pairwise hl hp.2 (fun x hx y hy => hq x (by simp [hx]) y (by simp [hy]))⟩
    obtain ⟨y, hy, hxy⟩ := zip_mem_left hl hx
    exact hq (a, b) (by simp) (x, y) (by simp [hxy]) (hp.1 y hy)

theorem distinct_single {A : Adapter V} {e : Elem V} (h : DistinctKeys A e.kids) (hn : ∀ x, InTree x e.kids → ∀ k, ElemKey A e k → ¬ ElemKey A x k) : DistinctKeys A [e] := by
  unfold DistinctKeys at *
  obtain ⟨t, nm, ks, sn, dn, s, d, kids⟩ := e
  simp only [nodesL, Elem.nodes, List.append_nil, List.pairwise_cons]
  exact ⟨fun x hx => hn x ((mem_nodesL_iff _ _).1 hx), h⟩

theorem inTree_root {x : Elem V} {l : List (Elem V)} (h : InTree x l) : ∃ b ∈ l, InTree x [b] := by
  cases h with
  | here h => exact ⟨x, h, .here (by simp)⟩
  | under h h' => exact ⟨_, h, .under (by simp) h'⟩

theorem distinct_list {A : Adapter V} : ∀ {es : List (Elem V)}, (∀ e ∈ es, DistinctKeys A [e]) →
    es.Pairwise (fun a b => ∀ x y, InTree x [a] → InTree y [b] → ∀ k, ElemKey A x k → ¬ ElemKey A y k) → DistinctKeys A es
  | [], _, _ => by simp [DistinctKeys, nodesL]
  | e :: es, h, hp => by
    rw [List.pairwise_cons] at hp
    have h1 := h e (by simp)
    have h2 := distinct_list (fun x hx => h x (by simp [hx])) hp.2
    unfold DistinctKeys at *
    simp only [nodesL, List.append_nil] at h1
    rw [nodesL, List.pairwise_append]
    refine ⟨h1, h2, fun x hx y hy => ?_⟩
    have hx' : InTree x [e] := (mem_nodesL_iff _ _).1 (by simpa [nodesL] using hx)
    have hy' := (mem_nodesL_iff _ _).1 hy
    obtain ⟨b, hb, hyb⟩ := inTree_root hy'
    exact hp.1 b hb x y hx' hyb

/-- Subtrees of two different elements under the same place have nothing in common. -/
theorem Reconcilable.apart (h : Reconcilable src dst n S D) {a b k : Key} {i i' : Nat} (hab : a ≠ b)
    (hp : (∃ j p, FromTop src dst S D j p ∧ Linked S D p a ∧ Linked S D p b) ∨ ∀ p, ¬ Linked S D p a ∧ ¬ Linked S D p b)
    (ha : Down S.at D.at i a k) (hb : Down S.at D.at i' b k) : False := by
  have main : ∀ {a b : Key} {i t : Nat}, a ≠ b → ((∃ j p, FromTop src dst S D j p ∧ Linked S D p a ∧ Linked S D p b) ∨ ∀ p, ¬ Linked S D p a ∧ ¬ Linked S D p b) →
      Down S.at D.at i a k → Down S.at D.at (t + i) b k → False := by
    intro a b i t hab hp ha hb
    have hm := Down.meet h.one_parent ha hb
    cases t with
    | zero => cases hm; exact hab rfl
    | succ t =>
      obtain ⟨z, h1, h2⟩ := hm.last
      rcases hp with ⟨j, p, g1, g2, g3⟩ | g
      · cases h.one_parent z p a h2 g2
        exact h.acyclic g1 (.step g3 h1)
      · exact (g z).1 h2
  by_cases hle : i ≤ i'
  · exact main (t := i' - i) hab hp ha (by rw [Nat.sub_add_cancel hle]; exact hb)
  · refine main (t := i - i') (Ne.symm hab) ?_ hb (by rw [Nat.sub_add_cancel (by omega)]; exact ha)
    rcases hp with ⟨j, p, g1, g2, g3⟩ | g
    · exact .inl ⟨j, p, g1, g3, g2⟩
    · exact .inr (fun p => ⟨(g p).2, (g p).1⟩)

/-- An element below another is at a place below its place. -/
theorem Placed.tree (h : Reconcilable src dst n S D) (hi : InstOf dst D) {flags : Nat} {e : Elem V} {p : Pos V} (hd : DescribesG src dst flags S D e p) :
    ∀ {j : Nat}, Placed src dst S D j p → ∀ {x : Elem V}, InTree x [e] →
    ∃ q i j', Placed src dst S D j' q ∧ Header src dst x q ∧ Down S.at D.at i (p.type, p.uid) (q.type, q.uid) ∧ (x ≠ e → InTree x e.kids ∧ 0 < i) := by
  induction hd with
  | @mk e p ps hg hh hdp hi' hval hun hl hz ih =>
    intro j pl x hx
    have low : InTree x e.kids → ∃ q i j', Placed src dst S D j' q ∧ Header src dst x q ∧ Down S.at D.at (i + 1) (p.type, p.uid) (q.type, q.uid) := by
      intro hx
      obtain ⟨b, hb, hxb⟩ := inTree_root hx
      obtain ⟨c, hc, hbc⟩ := zip_mem_left hl hb
      have hch := ((hi' c).1 hc).1
      obtain ⟨q, i, j', g1, g2, g3, _⟩ := ih _ hbc (pl.of_child h hi hch) hxb
      exact ⟨q, i, j', g1, g2, .step (pl.linked hch) g3⟩
    by_cases hxe : x = e
    · subst hxe
      exact ⟨p, 0, j, pl, hh, .refl, fun h => absurd rfl h⟩
    · have hk : InTree x e.kids := by
        cases hx with
        | here hx => rw [List.mem_singleton] at hx; exact absurd hx hxe
        | under hk hx => rw [List.mem_singleton] at hk; rw [← hk]; exact hx
      obtain ⟨q, i, j', g1, g2, g3⟩ := low hk
      exact ⟨q, i + 1, j', g1, g2, g3, fun _ => ⟨hk, Nat.succ_pos _⟩⟩

theorem Placed.below (h : Reconcilable src dst n S D) (hi : InstOf dst D) {flags : Nat} {e : Elem V} {p : Pos V} (hd : DescribesG src dst flags S D e p)
    {j : Nat} (pl : Placed src dst S D j p) {x : Elem V} (hx : InTree x e.kids) :
    ∃ q i j', Placed src dst S D j' q ∧ Header src dst x q ∧ Down S.at D.at (i + 1) (p.type, p.uid) (q.type, q.uid) := by
  cases hd with
  | mk ps hg hh hdp hi' hval hun hl hz =>
    obtain ⟨b, hb, hxb⟩ := inTree_root hx
    obtain ⟨c, hc, hbc⟩ := zip_mem_left hl hb
    have hch := ((hi' c).1 hc).1
    obtain ⟨q, i, j', g1, g2, g3, _⟩ := Placed.tree h hi (hz _ hbc) (pl.of_child h hi hch) hxb
    exact ⟨q, i, j', g1, g2, .step (pl.linked hch) g3⟩

section
variable (h : Reconcilable src dst n S D) (hi : InstOf dst D) (hS : S.Consistent) (hD : D.Consistent)
include h hi hS hD

theorem Placed.key_of {j : Nat} {q : Pos V} (pl : Placed src dst S D j q) {x : Elem V} (hx : Header src dst x q) {k : Key} (hk : ElemKey dst x k) : k = (q.type, q.uid) :=
  elemKey_unique hk (pl.elemKey h hi hS hD hx)

theorem distinct_zip {flags : Nat} {es : List (Elem V)} {ps : List (Pos V)} (hdp : DistinctPos ps) (hl : es.length = ps.length)
    (hz : ∀ x ∈ es.zip ps, DescribesG src dst flags S D x.1 x.2) (hpl : ∀ c ∈ ps, ∃ j, Placed src dst S D j c)
    (hsib : ∀ c ∈ ps, ∀ c' ∈ ps, (∃ j p, FromTop src dst S D j p ∧ Linked S D p (c.type, c.uid) ∧ Linked S D p (c'.type, c'.uid)) ∨
      ∀ p, ¬ Linked S D p (c.type, c.uid) ∧ ¬ Linked S D p (c'.type, c'.uid))
    (hone : ∀ e ∈ es, DistinctKeys dst [e]) : DistinctKeys dst es := by
  refine distinct_list hone (zip_pairwise hl hdp ?_)
  intro a ha b hb hab x y hx hy k hkx hky
  obtain ⟨j, pa⟩ := hpl _ (zip_mem_of ha).2
  obtain ⟨j', pb⟩ := hpl _ (zip_mem_of hb).2
  obtain ⟨q, i, _, g1, g2, g3, _⟩ := Placed.tree h hi (hz _ ha) pa hx
  obtain ⟨q', i', _, g1', g2', g3', _⟩ := Placed.tree h hi (hz _ hb) pb hy
  rw [← g1.key_of h hi hS hD g2 hkx] at g3
  rw [← g1'.key_of h hi hS hD g2' hky] at g3'
  exact h.apart (fun he => hab ⟨congrArg Prod.fst he, congrArg Prod.snd he⟩) (hsib _ (zip_mem_of ha).2 _ (zip_mem_of hb).2) g3 g3'

theorem DescribesG.distinct {flags : Nat} {e : Elem V} {p : Pos V} (hd : DescribesG src dst flags S D e p) : ∀ {j : Nat}, Placed src dst S D j p → DistinctKeys dst [e] := by
  induction hd with
  | @mk e p ps hg hh hdp hi' hval hun hl hz ih =>
    intro j pl
    refine distinct_single ?_ ?_
    · refine distinct_zip h hi hS hD hdp hl hz (fun c hc => ⟨_, pl.of_child h hi ((hi' c).1 hc).1⟩) ?_ ?_
      · intro c hc c' hc'
        exact .inl ⟨j, _, pl.top, pl.linked ((hi' c).1 hc).1, pl.linked ((hi' c').1 hc').1⟩
      · intro b hb
        obtain ⟨c, hc, hbc⟩ := zip_mem_left hl hb
        exact ih _ hbc (pl.of_child h hi ((hi' c).1 hc).1)
    · intro x hx k hk hkx
      obtain ⟨q, i, _, g1, g2, g3⟩ := Placed.below h hi (.mk ps hg hh hdp hi' hval hun hl hz) pl hx
      rw [← g1.key_of h hi hS hD g2 hkx, ← pl.key_of h hi hS hD hh hk] at g3
      have := pl.top
      rw [← pl.key_of h hi hS hD hh hk] at this
      exact h.acyclic this g3

theorem DescribesTopG.distinct {flags : Nat} {es : List (Elem V)} (hd : DescribesTopG src dst flags S D es) : DistinctKeys dst es := by
  obtain ⟨_, _, ps, hdp, hi', hl, hz⟩ := hd
  refine distinct_zip h hi hS hD hdp hl hz (fun c hc => ⟨_, .of_top h ((hi' c).1 hc).1⟩) ?_ ?_
  · intro c hc c' hc'
    right
    intro p
    have h1 := ((hi' c).1 hc).1
    have h2 := ((hi' c').1 hc').1
    exact ⟨fun hl => h.not_top _ _ hl ⟨h1.src_top, h1.dst_top⟩, fun hl => h.not_top _ _ hl ⟨h2.src_top, h2.dst_top⟩⟩
  · intro b hb
    obtain ⟨c, hc, hbc⟩ := zip_mem_left hl hb
    exact (hz _ hbc).distinct h hi hS hD (.of_top h ((hi' c).1 hc).1)
end

/-! ## what the elements have to do with the two sides -/

theorem pick_wf {a : Dict V} {ks : List String} (h : ks.Nodup) : Dict.WF (Elem.pick a ks) := by
  unfold Dict.WF Elem.pick
  refine List.Sublist.nodup ?_ h
  clear h
  induction ks with
  | nil => simp [Dict.keys]
  | cons k ks ih =>
    rw [List.filterMap_cons]
    cases Dict.get? a k with
    | none => exact ih.cons _
    | some v => exact ih.cons_cons _

theorem Sound.attrs_wf {m : Model V} (h : Sound m) : Dict.WF m.attrs := by
  have hv : Dict.WF m.vals := by unfold Dict.WF; rw [h.vals]; exact h.valid.fields_nodup
  unfold Dict.WF Model.attrs Dict.keys at *
  exact (List.filter_sublist.map _).nodup hv

theorem plus_wf {e : Elem V} (hs : ∀ a, e.src = some a → Dict.WF a) (hd : ∀ a, e.dst = some a → Dict.WF a) : Dict.WF (e.plus.getD []) := by
  unfold Elem.plus Elem.attrsKeys
  cases h1 : e.src with
  | none => exact List.nodup_nil
  | some s =>
    cases h2 : e.dst with
    | none => exact pick_wf (hs s h1)
    | some d => exact pick_wf ((List.filter_sublist.trans List.filter_sublist).nodup (hd d h2))

theorem construct_congr {c : ModelClass V} {ids a b : Dict V} (h : ∀ k, Dict.get? a k = Dict.get? b k) : c.construct ids a = c.construct ids b := by
  have h1 : (Dict.keys a).any (fun k => (Dict.keys ids).contains k) = (Dict.keys b).any (fun k => (Dict.keys ids).contains k) := by
    rw [Bool.eq_iff_iff, List.any_eq_true, List.any_eq_true]
    constructor
    · rintro ⟨k, hk, hc⟩; exact ⟨k, Dict.mem_keys_iff.2 (by rw [← h]; exact Dict.mem_keys_iff.1 hk), hc⟩
    · rintro ⟨k, hk, hc⟩; exact ⟨k, Dict.mem_keys_iff.2 (by rw [h]; exact Dict.mem_keys_iff.1 hk), hc⟩
  have h2 : ∀ k, Dict.get? (ids ++ a) k = Dict.get? (ids ++ b) k := by
    intro k; rw [Dict.get?_append, Dict.get?_append, h]
  unfold ModelClass.construct ModelClass.instantiate ModelClass.taken
  rw [h1]
  simp only [h2]

theorem plus_create {e : Elem V} {a : Dict V} (hs : e.src = some a) (hd : e.dst = none) (k : String) : Dict.get? (e.plus.getD []) k = Dict.get? a k := by
  have : e.plus = some (Elem.pick a (Dict.keys a)) := by unfold Elem.plus Elem.attrsKeys; rw [hs, hd]
  rw [this, Option.getD_some, get?_pick]
  split
  · rfl
  · rename_i h; exact (Dict.get?_eq_none_iff.2 h).symm

section
variable (h : Reconcilable src dst n S D) (hi : InstOf dst D) (hS : S.Consistent) (hD : D.Consistent)
include h hi hS hD

/-- The place of an element. -/
theorem DescribesTopG.place {flags : Nat} {es : List (Elem V)} (hd : DescribesTopG src dst flags S D es) {e : Elem V} (he : InTree e es) :
    ∃ q j, Compared src dst flags S D q ∧ q.Visible flags ∧ Placed src dst S D j q ∧ DescribesG src dst flags S D e q ∧ ElemKey dst e (q.type, q.uid) := by
  obtain ⟨q, h1, h2, h3⟩ := hd.inTree he
  obtain ⟨j, pl⟩ := h1.placed h hi
  exact ⟨q, j, h1, h2, pl, h3, pl.elemKey h hi hS hD h3.header⟩

/-- The sides of an element, by its key. -/
theorem DescribesTopG.sides {flags : Nat} {es : List (Elem V)} (hd : DescribesTopG src dst flags S D es) {e : Elem V} (he : InTree e es) {k : Key} (hk : ElemKey dst e k) :
    e.src = (S.at k).map Model.attrs ∧ e.dst = (D.at k).map Model.attrs ∧ (∀ m, (S.at k).or (D.at k) = some m → e.keys = m.identifiers) ∧
      (S.at k ≠ none ∨ D.at k ≠ none) := by
  obtain ⟨q, j, _, _, pl, hg, hk'⟩ := hd.place h hi hS hD he
  cases elemKey_unique hk hk'
  have hh := hg.header
  have e1 := pl.src_eq
  have e2 := pl.dst_eq
  have e3 := pl.some_side
  unfold Snap.at
  dsimp only
  rw [← e1, ← e2]
  exact ⟨hh.src_eq, hh.dst_eq, fun m hm => (hh.name_eq m hm).2, e3⟩

theorem DescribesTopG.cenv {flags : Nat} {es : List (Elem V)} (hd : DescribesTopG src dst flags S D es) (hv : dst.Valid) (hg : GoodDiff dst es) : CEnv dst S.at D.at es where
  valid := hv
  keyed e he := by
    obtain ⟨q, _, _, _, _, _, hk⟩ := hd.place h hi hS hD he
    exact ⟨_, hk⟩
  dist := hd.distinct h hi hS hD
  plain := hg.plain
  del := hg.del
  ids := hg.ids
  create e k he hk ha := by
    obtain ⟨h1, h2, _, _⟩ := hd.sides h hi hS hD he hk
    rw [action_create_iff, h1, h2] at ha
    simpa using ha
  delete e k he hk ha := by
    obtain ⟨h1, h2, _, _⟩ := hd.sides h hi hS hD he hk
    rw [action_delete_iff, h1, h2] at ha
    simpa using ha
  update e k he hk ha := by
    obtain ⟨h1, h2, _, _⟩ := hd.sides h hi hS hD he hk
    have := action_update_sides ha
    rw [h1, h2] at this
    simpa using this
  quiet e k he hk ha := by
    obtain ⟨h1, h2, _, h3⟩ := hd.sides h hi hS hD he hk
    have n1 := mt (action_create_iff e).2 (by rw [ha]; simp)
    have n2 := mt (action_delete_iff e).2 (by rw [ha]; simp)
    rw [h1, h2] at n1 n2
    cases hs : S.at k <;> cases hd' : D.at k <;> simp_all
  edge k c hke := by
    obtain ⟨e, e', he, he', hk, hk'⟩ := hke
    obtain ⟨q, j, _, _, pl, hg', hkq⟩ := hd.place h hi hS hD he
    cases elemKey_unique hk hkq
    cases hg' with
    | mk ps hg hh hdp hi' hval hun hl hz =>
      obtain ⟨p, hp, hep⟩ := zip_mem_left hl he'
      have hch := ((hi' p).1 hp).1
      cases (pl.of_child h hi hch).key_of h hi hS hD (hz _ hep).header hk'
      exact pl.linked hch
  declared k c cl hke hcl := by
    obtain ⟨e, e', he, he', hk, hk'⟩ := hke
    obtain ⟨q, j, _, _, pl, hg', hkq⟩ := hd.place h hi hS hD he
    cases elemKey_unique hk hkq
    cases hg' with
    | mk ps hg hh hdp hi' hval hun hl hz =>
      obtain ⟨p, hp, hep⟩ := zip_mem_left hl he'
      have hch := ((hi' p).1 hp).1
      cases (pl.of_child h hi hch).key_of h hi hS hD (hz _ hep).header hk'
      exact pl.declares h hi hch.compared hcl
  parent := h.one_parent
  root e c he hk k hu := by
    obtain ⟨_, _, ps, hdp, hi', hl, hz⟩ := hd
    obtain ⟨p, hp, hep⟩ := zip_mem_left hl he
    have ht := ((hi' p).1 hp).1
    cases (Placed.of_top h ht).key_of h hi hS hD (hz _ hep).header hk
    exact h.not_top _ _ hu ⟨ht.src_top, ht.dst_top⟩
  src_stored := h.src_stored
  dst_stored := h.dst_stored
  src_place := h.src_place
  dst_place := h.dst_place
  build e c he ha hc := by
    obtain ⟨q, j, _, _, pl, hg', hk⟩ := hd.place h hi hS hD he
    obtain ⟨h1, h2, h3, _⟩ := hd.sides h hi hS hD he hk
    rw [action_create_iff] at ha
    cases hs : S.at (q.type, q.uid) with
    | none => rw [h1, hs] at ha; exact absurd rfl ha.1
    | some s =>
      rw [hg'.header.type_eq] at hc
      obtain ⟨m, hm, _⟩ := (h.source (q.type, q.uid) s c hs hc).builds
      refine ⟨m, ?_⟩
      rw [h3 s (by rw [hs]; rfl), ← hm]
      refine construct_congr (plus_create (a := s.attrs) (by rw [h1, hs]; rfl) ha.2)
  plus_wf e he := by
    obtain ⟨q, j, _, _, pl, hg', hk⟩ := hd.place h hi hS hD he
    obtain ⟨h1, h2, _, _⟩ := hd.sides h hi hS hD he hk
    refine plus_wf ?_ ?_
    · intro a ha
      rw [h1] at ha
      obtain ⟨m, hm, rfl⟩ := Option.map_eq_some_iff.1 ha
      exact (h.sound _ m (.inl hm)).attrs_wf
    · intro a ha
      rw [h2] at ha
      obtain ⟨m, hm, rfl⟩ := Option.map_eq_some_iff.1 ha
      exact (h.sound _ m (.inr hm)).attrs_wf
end

end
end DS
