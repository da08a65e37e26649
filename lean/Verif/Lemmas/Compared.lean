import Verif.Lemmas.Transfer
import Verif.Lemmas.Store
import Verif.Model.Concrete
/-! Consequences of `Describes` for all compared places; consistency of contents. -/
set_option linter.unusedSectionVars false

namespace DS
variable {V E : Type} [PyVal V]

theorem consistent_stored {w : World V E} (h : w.OK) {A : Adapter V} {sid : Nat} (hA : A.ref.store = .local sid)
    (hc : ∀ t u r, findRef w sid t u = some r → (Dict.keys (w.heap r).m.cls.children).Nodup) : (snap A w).Consistent := by
  unfold snap
  rw [hA]
  constructor
  · intro t u m hm
    simp only [Option.map_eq_some_iff] at hm
    obtain ⟨r, hr, rfl⟩ := hm
    exact h.key_ok _ _ _ _ hr
  · intro t m
    simp only [List.mem_map, Option.map_eq_some_iff]
    constructor
    · rintro ⟨r, hr, rfl⟩
      obtain ⟨u, hu⟩ := mem_values_findRef h.tbl_wf hr
      exact ⟨u, r, hu, rfl⟩
    · rintro ⟨u, r, hr, rfl⟩
      exact ⟨r, (Dict.mem_values_iff (h.tbl_wf sid t)).2 ⟨u, hr⟩, rfl⟩
  · intro t
    have hu : List.map Model.uid (List.map (fun r => (w.heap r).m) (Dict.values (tbl w sid t))) = Dict.keys (tbl w sid t) := by
      rw [List.map_map]
      unfold Dict.values Dict.keys
      rw [List.map_map]
      apply List.map_congr_left
      intro p hp
      exact (h.key_ok sid t p.1 p.2 (Dict.get?_of_mem (h.tbl_wf sid t) hp)).2
    simp only [hu]
    exact h.tbl_wf sid t
  · intro t u m hm
    simp only [Option.map_eq_some_iff] at hm
    obtain ⟨r, hr, rfl⟩ := hm
    exact hc _ _ r hr

theorem consistent_local {w : World V E} (h : w.OK) {A : Adapter V} {sid : Nat} (hA : A.ref.store = .local sid)
    (hc : ∀ r, r < w.next → (Dict.keys (w.heap r).m.cls.children).Nodup) : (snap A w).Consistent :=
  consistent_stored h hA (fun _ _ r hr => hc r (h.refs_lt _ _ _ _ hr))

/-! ## worlds built by `add` -/

theorem addModels_ok (A : Adapter V) (ms : List (Model V)) (w : World V E) (h : w.OK) : (Ex.addModels A ms w).OK := by
  unfold Ex.addModels
  have hp : PreOrd (fun w w' : World V E => w.OK → w'.OK) := ⟨fun _ h => h, fun _ _ _ h1 h2 h => h2 (h1 h)⟩
  refine Pres.forEach hp ms (fun m _ => ?_) w h
  intro w hw
  rw [alloc_bind]
  exact OK.add (OK.alloc hw _) (Nat.lt_succ_self _)

theorem world0_ok [Inhabited (ModelClass V)] (e : E) : (Ex.world0 V E e).OK where
  loc_wf _ := List.nodup_nil
  tbl_wf _ _ := List.nodup_nil
  refs_lt _ _ _ _ h := by cases h
  key_ok _ _ _ _ h := by cases h

/-! ## every place, every element -/

section
variable {src dst : Adapter V} {flags : Nat} {S D : Snap V}

theorem zip_mem_left {α β : Type} {l : List α} {m : List β} (h : l.length = m.length) {a : α} (ha : a ∈ l) :
    ∃ b ∈ m, (a, b) ∈ l.zip m := by
  obtain ⟨i, hi, rfl⟩ := List.getElem_of_mem ha
  have hi' : i < m.length := h ▸ hi
  refine ⟨m[i], List.getElem_mem hi', ?_⟩
  have hz : i < (l.zip m).length := by rw [List.length_zip]; omega
  have : (l.zip m)[i] = (l[i], m[i]) := List.getElem_zip
  rw [← this]
  exact List.getElem_mem hz

theorem zip_mem_right {α β : Type} {l : List α} {m : List β} (h : l.length = m.length) {b : β} (hb : b ∈ m) :
    ∃ a ∈ l, (a, b) ∈ l.zip m := by
  obtain ⟨i, hi, rfl⟩ := List.getElem_of_mem hb
  have hi' : i < l.length := h ▸ hi
  refine ⟨l[i], List.getElem_mem hi', ?_⟩
  have hz : i < (l.zip m).length := by rw [List.length_zip]; omega
  have : (l.zip m)[i] = (l[i], m[i]) := List.getElem_zip
  rw [← this]
  exact List.getElem_mem hz

theorem zip_mem_of {α β : Type} {l : List α} {m : List β} {x : α × β} (h : x ∈ l.zip m) : x.1 ∈ l ∧ x.2 ∈ m :=
  List.of_mem_zip (a := x.1) (b := x.2) h

/-- Every element below an element that describes a compared place describes a compared place. -/
theorem DescribesG.inTree {e : Elem V} {p : Pos V} (h : DescribesG src dst flags S D e p) (hc : Compared src dst flags S D p)
    (hv : p.Visible flags) {x : Elem V} (hx : InTree x e.kids) :
    ∃ q, Compared src dst flags S D q ∧ q.Visible flags ∧ DescribesG src dst flags S D x q := by
  induction h with
  | @mk e p ps _ _ _ hi _ _ hl hz ih =>
    cases hx with
    | here hx =>
      obtain ⟨q, hq, hxq⟩ := zip_mem_left hl hx
      have := (hi q).1 hq
      exact ⟨q, .child hc hv this.1, this.2, hz _ hxq⟩
    | under hk hx =>
      obtain ⟨q, hq, hxq⟩ := zip_mem_left hl hk
      have := (hi q).1 hq
      exact ih _ hxq (.child hc hv this.1) this.2 hx

theorem DescribesTopG.inTree {es : List (Elem V)} (h : DescribesTopG src dst flags S D es) {x : Elem V} (hx : InTree x es) :
    ∃ q, Compared src dst flags S D q ∧ q.Visible flags ∧ DescribesG src dst flags S D x q := by
  obtain ⟨_, _, ps, _, hi, hl, hz⟩ := h
  cases hx with
  | here hx =>
    obtain ⟨q, hq, hxq⟩ := zip_mem_left hl hx
    have := (hi q).1 hq
    exact ⟨q, .top this.1, this.2, hz _ hxq⟩
  | under hk hx =>
    obtain ⟨q, hq, hxq⟩ := zip_mem_left hl hk
    have := (hi q).1 hq
    exact (hz _ hxq).inTree (.top this.1) this.2 hx

theorem InTree.kid {x k : Elem V} {es : List (Elem V)} (h : InTree x es) (hk : k ∈ x.kids) : InTree k es := by
  induction h with
  | here h => exact .under h (.here hk)
  | under h _ ih => exact .under h ih

/-- Every visible compared place is described by some element. -/
theorem DescribesTopG.complete {es : List (Elem V)} (h : DescribesTopG src dst flags S D es) {q : Pos V}
    (hq : Compared src dst flags S D q) (hv : q.Visible flags) :
    ∃ x, InTree x es ∧ DescribesG src dst flags S D x q := by
  induction hq with
  | top ht =>
    obtain ⟨_, _, ps, _, hi, hl, hz⟩ := h
    obtain ⟨x, hx, hxq⟩ := zip_mem_right hl ((hi _).2 ⟨ht, hv⟩)
    exact ⟨x, .here hx, hz _ hxq⟩
  | child _ hvp hch ih =>
    obtain ⟨x, hx, hd⟩ := ih hvp
    cases hd with
    | mk ps _ _ _ hi _ _ hl hz =>
      obtain ⟨y, hy, hyq⟩ := zip_mem_right hl ((hi _).2 ⟨hch, hv⟩)
      exact ⟨y, hx.kid hy, hz _ hyq⟩

/-- All compared places, visible or not, hold like objects. -/
theorem DescribesTopG.validated {es : List (Elem V)} (h : DescribesTopG src dst flags S D es) {q : Pos V}
    (hq : Compared src dst flags S D q) : validatePair (q.src, q.dst) = .ok () := by
  cases hq with
  | top ht => exact h.2.1 _ ht
  | child hp hv hch =>
    obtain ⟨x, _, hd⟩ := h.complete hp hv
    cases hd with
    | mk _ _ _ _ _ hval _ _ _ => exact hval _ hch

theorem DescribesG.header {e : Elem V} {p : Pos V} (h : DescribesG src dst flags S D e p) : Header src dst e p := by
  cases h; assumption

theorem DescribesTopG.describesTop {es : List (Elem V)} (h : DescribesTopG src dst flags S D es) :
    DescribesTop src dst flags S D es := by
  obtain ⟨_, _, ps, a, b, c, d⟩ := h
  exact ⟨ps, a, b, c, fun x hx => (d x hx).describes⟩

end

/-- The diff returned by `diff_from`, described. -/
theorem diffFrom_describes {n : Nat} {dst src : Adapter V} {dc : DiffClass V} {flags : Nat} {w w' : World V E} {d : Diff V}
    (hw : w.OK) (hS : (snap src w).Consistent) (hD : (snap dst w).Consistent) (hF : SameFields (snap src w) (snap dst w))
    (hs : Serves src (snap src w)) (hd : Serves dst (snap dst w)) (ht : dst.topLevel.Nodup)
    (h : diffFrom n dst src dc flags w = (.ok d, w')) :
    DescribesTopG src dst flags (snap src w) (snap dst w) d.kids ∧ d.cls = dc := by
  obtain ⟨_, h2⟩ := diffFrom_spec n dst src dc flags w hw.refs_lt hw.tbl_wf hs hd
  cases hp : pDiff ⟨src, dst, flags⟩ (snap src w) (snap dst w) n with
  | error e => rw [hp, h] at h2; cases h2
  | ok r =>
    obtain ⟨es, k⟩ := r
    rw [hp, h] at h2
    obtain ⟨h2, h3⟩ := h2
    cases h2
    exact ⟨pDiff_describes hS hD hF ht hp, rfl⟩

end DS

namespace DS
variable {V E : Type} [PyVal V]

/-- Adapters with local stores are comparable when objects of the same type have the same child declarations. -/
theorem comparable_local {w : World V E} (h : w.OK) {src dst : Adapter V} {i j : Nat} (hs : src.ref.store = .local i)
    (hd : dst.ref.store = .local j) (hc : ∀ r, r < w.next → (Dict.keys (w.heap r).m.cls.children).Nodup)
    (hf : ∀ r, r < w.next → ∀ r', r' < w.next → (w.heap r).m.type = (w.heap r').m.type →
      (w.heap r).m.cls.children = (w.heap r').m.cls.children)
    (ht : dst.topLevel.Nodup) : Comparable src dst w where
  ok := h
  src_ok := consistent_local h hs hc
  dst_ok := consistent_local h hd hc
  top_nodup := ht
  src_types := serves_local hs _
  dst_types := serves_local hd _
  fields := by
    intro t u s d h1 h2 ct f f' g1 g2
    unfold snap at h1 h2
    rw [hs] at h1
    rw [hd] at h2
    simp only [Option.map_eq_some_iff] at h1 h2
    obtain ⟨r, hr, rfl⟩ := h1
    obtain ⟨r', hr', rfl⟩ := h2
    have := hf r (h.refs_lt _ _ _ _ hr) r' (h.refs_lt _ _ _ _ hr')
      ((h.key_ok _ _ _ _ hr).1.trans (h.key_ok _ _ _ _ hr').1.symm)
    rw [this, g2] at g1
    exact (Option.some.inj g1).symm

end DS
