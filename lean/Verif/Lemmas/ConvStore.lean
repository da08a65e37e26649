import Verif.Lemmas.Conv
import Verif.Props.SyncDel
import Verif.Props.Store
/-! Bookkeeping in the destination store keeps the invariant of `Verif.Lemmas.Conv`, and does not fail. -/
set_option linter.unusedSectionVars false

namespace DS
variable {V E : Type} [PyVal V]

/-! ## child lists -/

theorem children_inj {c : ModelClass V} (hn : c.childFields.Nodup) {ct ct' f : String} (h : Dict.get? c.children ct = some f)
    (h' : Dict.get? c.children ct' = some f) : ct = ct' := by
  have := nodup_map_inj (f := Prod.snd) (l := c.children) hn (Dict.mem_of_get? h) (Dict.mem_of_get? h') rfl
  exact congrArg Prod.fst this

/-- Replacing one child list. -/
theorem lists_set {m : Model V} (hn : m.cls.childFields.Nodup) {t f : String} {l : List String} (hf : Dict.get? m.cls.children t = some f) (ct v : String) :
    ({ m with kids := Dict.set m.kids f l } : Model V).lists ct v = if ct = t then l.contains v else m.lists ct v := by
  unfold Model.lists Model.kidList
  dsimp only
  by_cases h : ct = t
  · subst h
    rw [if_pos rfl, hf]
    simp only [Dict.get?_set, if_true]
  · rw [if_neg h]
    cases hc : Dict.get? m.cls.children ct with
    | none => rfl
    | some f' =>
      dsimp only
      have hff : f ≠ f' := by rintro rfl; exact h (children_inj hn hc hf)
      rw [Dict.get?_set, if_neg hff]

theorem FullKids.set {m : Model V} (h : FullKids m) {f : String} {l : List String} (hl : l.Nodup) : FullKids { m with kids := Dict.set m.kids f l } := by
  refine ⟨h.nodup, fun ct f' hf' => ?_⟩
  unfold Model.kidList
  dsimp only
  rw [Dict.get?_set]
  by_cases hff : f = f'
  · exact ⟨l, if_pos hff, hl⟩
  · rw [if_neg hff]; exact h.list ct f' hf'

theorem addChild_ok {m : Model V} (h : FullKids m) (hn : m.cls.childFields.Nodup) {k : Key} (ht : k.1 ∈ Dict.keys m.cls.children)
    (hl : m.lists k.1 k.2 = false) : ∃ m', m.addChild k.1 k.2 = .ok m' ∧ FullKids m' ∧
      ∀ c : Key, m'.lists c.1 c.2 = true ↔ c = k ∨ m.lists c.1 c.2 = true := by
  obtain ⟨f, hf⟩ : ∃ f, Dict.get? m.cls.children k.1 = some f := by
    cases hg : Dict.get? m.cls.children k.1 with
    | none => exact absurd ht (Dict.get?_eq_none_iff.1 hg)
    | some f => exact ⟨f, rfl⟩
  obtain ⟨l, hlist, hnd⟩ := h.list _ _ hf
  have hk : l.contains k.2 = false := by
    have : m.lists k.1 k.2 = l.contains k.2 := by unfold Model.lists; rw [hf]; dsimp only; rw [hlist]
    rw [← this]; exact hl
  have hk' : k.2 ∉ l := by simpa using hk
  refine ⟨{ m with kids := Dict.set m.kids f (l ++ [k.2]) }, ?_, h.set ?_, ?_⟩
  · unfold Model.addChild; rw [hf]; dsimp only; rw [hlist]; dsimp only; rw [hk]; rfl
  · rw [List.nodup_append]
    exact ⟨hnd, by simp, fun a ha b hb => by rw [List.mem_singleton] at hb; rw [hb]; rintro rfl; exact hk' ha⟩
  · intro c
    rw [lists_set hn hf]
    by_cases hc : c.1 = k.1
    · rw [if_pos hc]
      have : m.lists c.1 c.2 = l.contains c.2 := by unfold Model.lists; rw [hc, hf]; dsimp only; rw [hlist]
      rw [this]
      simp only [List.contains_eq_mem, List.mem_append, List.mem_singleton, decide_eq_true_eq]
      constructor
      · rintro (h1 | h1)
        · exact .inr h1
        · exact .inl (Prod.ext hc h1)
      · rintro (h1 | h1)
        · rw [h1]; exact .inr rfl
        · exact .inl h1
    · rw [if_neg hc]
      constructor
      · exact .inr
      · rintro (h1 | h1)
        · rw [h1] at hc; exact absurd rfl hc
        · exact h1

theorem removeChild_ok {m : Model V} (h : FullKids m) (hn : m.cls.childFields.Nodup) {k : Key}
    (hl : m.lists k.1 k.2 = true) : ∃ m', m.removeChild k.1 k.2 = .ok m' ∧ FullKids m' ∧
      ∀ c : Key, m'.lists c.1 c.2 = true ↔ c ≠ k ∧ m.lists c.1 c.2 = true := by
  obtain ⟨f, hf⟩ : ∃ f, Dict.get? m.cls.children k.1 = some f := by
    cases hg : Dict.get? m.cls.children k.1 with
    | none => unfold Model.lists at hl; rw [hg] at hl; cases hl
    | some f => exact ⟨f, rfl⟩
  obtain ⟨l, hlist, hnd⟩ := h.list _ _ hf
  have hk : l.contains k.2 = true := by
    have : m.lists k.1 k.2 = l.contains k.2 := by unfold Model.lists; rw [hf]; dsimp only; rw [hlist]
    rw [← this]; exact hl
  refine ⟨{ m with kids := Dict.set m.kids f (l.erase k.2) }, ?_, h.set (hnd.sublist List.erase_sublist), ?_⟩
  · unfold Model.removeChild; rw [hf]; dsimp only; rw [hlist]; dsimp only; rw [hk]; rfl
  · intro c
    rw [lists_set hn hf]
    by_cases hc : c.1 = k.1
    · rw [if_pos hc]
      have : m.lists c.1 c.2 = l.contains c.2 := by unfold Model.lists; rw [hc, hf]; dsimp only; rw [hlist]
      rw [this]
      simp only [List.contains_eq_mem, decide_eq_true_eq]
      rw [hnd.mem_erase_iff]
      constructor
      · rintro ⟨h1, h2⟩; exact ⟨fun h3 => h1 (by rw [h3]), h2⟩
      · rintro ⟨h1, h2⟩; exact ⟨fun h3 => h1 (Prod.ext hc h3), h2⟩
    · rw [if_neg hc]
      exact ⟨fun h1 => ⟨fun h2 => hc (by rw [h2]), h1⟩, fun h1 => h1.2⟩

theorem construct_full {c : ModelClass V} {ids attrs : Dict V} {m : Model V} (hv : c.Valid) (h : c.construct ids attrs = .ok m) :
    FullKids m ∧ ∀ a b, m.lists a b = false := by
  obtain ⟨h1, h2, h3⟩ := construct_spec h
  have hn : (Dict.keys m.cls.children).Nodup := by rw [h1]; exact hv.children_nodup
  refine ⟨⟨hn, fun ct f hf => ?_⟩, fun a b => ?_⟩
  · have hi := construct_ok h
    have hk : f ∈ Dict.keys m.kids := ((instantiate_complete hi).kids_keys f).2 (by
      unfold ModelClass.childFields Dict.values
      exact List.mem_map.2 ⟨(ct, f), Dict.mem_of_get? hf, rfl⟩)
    cases hl : m.kidList f with
    | none => exact absurd hk (Dict.get?_eq_none_iff.1 hl)
    | some l =>
      refine ⟨l, rfl, ?_⟩
      have : l = [] := by
        rw [List.eq_nil_iff_forall_not_mem]
        intro v hv
        have : (ct, v) ∈ childRefs m := mem_childRefs_iff.2 ⟨f, Dict.mem_of_get? hf, l, hl, hv⟩
        rw [h3] at this
        cases this
      rw [this]; simp
  · cases hl : m.lists a b with
    | false => rfl
    | true =>
      have := (mem_childRefs hn a b).2 hl
      rw [h3] at this
      cases this

/-! ## frames -/

/-- Keys of the elements of a subtree. -/
def InK (A : Adapter V) (e : Elem V) (k : Key) : Prop := ∃ x, InTree x [e] ∧ ElemKey A x k

/-- Of the keys of elements, only those in `K` are touched. -/
structure Fme (A : Adapter V) (es : List (Elem V)) (sid : Nat) (K : Key → Prop) (w w' : World V E) : Prop where
  pres : ∀ k, EK A es k → ¬ K k → fr sid w' k = fr sid w k
  vals : ∀ k r, EK A es k → ¬ K k → fr sid w k = some r → (w'.heap r).m.vals = (w.heap r).m.vals

section
variable {A : Adapter V} {S D : Key → Option (Model V)} {es : List (Elem V)} {sid : Nat} {T : Key → Option Ref} {w w' w'' : World V E} {K K' : Key → Prop}

theorem Fme.refl (w : World V E) : Fme A es sid K w w := ⟨fun _ _ _ => rfl, fun _ _ _ _ _ => rfl⟩
theorem Fme.mono (h : Fme A es sid K w w') (hK : ∀ k, K k → K' k) : Fme A es sid K' w w' :=
  ⟨fun k h1 h2 => h.pres k h1 (fun h3 => h2 (hK k h3)), fun k r h1 h2 => h.vals k r h1 (fun h3 => h2 (hK k h3))⟩
theorem Fme.trans (h1 : Fme A es sid K w w') (h2 : Fme A es sid K w' w'') : Fme A es sid K w w'' :=
  ⟨fun k h3 h4 => (h2.pres k h3 h4).trans (h1.pres k h3 h4),
   fun k r h3 h4 h5 => (h2.vals k r h3 h4 ((h1.pres k h3 h4).trans h5)).trans (h1.vals k r h3 h4 h5)⟩
theorem Still.fme (hj : J A S D es sid T w) (hs : Still w w') : Fme A es sid K w w' :=
  ⟨fun k _ _ => hs.fr_eq k, fun k r _ _ hr => by rw [hs.heap_m r (hj.lt (.inl hr))]⟩

/-- The object passed as parent belongs to the element above. -/
def Par (A : Adapter V) (es : List (Elem V)) (T : Key → Option Ref) (parent : Option Ref) (e : Elem V) : Prop :=
  (parent = none ∧ e ∈ es) ∨ ∃ p ep kp, parent = some p ∧ InTree ep es ∧ e ∈ ep.kids ∧ ElemKey A ep kp ∧ T kp = some p

theorem Par.edge {parent : Option Ref} {e : Elem V} {k0 : Key} (h : Par A es T parent e) (hk : ElemKey A e k0) {p : Ref} (hp : parent = some p) :
    ∃ kp, KE A es kp k0 ∧ T kp = some p := by
  rcases h with ⟨h, _⟩ | ⟨p', ep, kp, h1, h2, h3, h4, h5⟩
  · rw [h] at hp; cases hp
  · rw [h1] at hp; cases hp
    exact ⟨kp, ⟨ep, e, h2, h3, h4, hk⟩, h5⟩

theorem Par.root (hc : CEnv A S D es) {parent : Option Ref} {e : Elem V} {k0 : Key} (h : Par A es T parent e) (hk : ElemKey A e k0) (hp : parent = none) :
    ∀ k, ¬ UE S D k k0 := by
  rcases h with ⟨_, h⟩ | ⟨p', ep, kp, h1, _⟩
  · exact hc.root e k0 h hk
  · rw [hp] at h1; cases h1

theorem inTree_parent {x : Elem V} {l : List (Elem V)} (h : InTree x l) : x ∈ l ∨ ∃ y, InTree y l ∧ x ∈ y.kids := by
  induction h with
  | here h => exact .inl h
  | @under l k hk h ih =>
    rcases ih with h1 | ⟨y, h1, h2⟩
    · exact .inr ⟨k, .here hk, h1⟩
    · exact .inr ⟨y, .under hk h1, h2⟩

theorem InTree.trans_kids {x y : Elem V} {l : List (Elem V)} (h : InTree x l) (hy : InTree y x.kids) : InTree y l := by
  induction h with
  | here h => exact .under h hy
  | under h _ ih => exact .under h ih

theorem InTree.of_self {x e : Elem V} {l : List (Elem V)} (h : InTree x [e]) (he : InTree e l) : InTree x l := by
  cases h with
  | here h => rw [List.mem_singleton] at h; rw [h]; exact he
  | under h h' => rw [List.mem_singleton] at h; subst h; exact he.trans_kids h'

/-- What is below an element through child lists, and has an element, has it below that element. -/
theorem inK_of_UE (hc : CEnv A S D es) {e : Elem V} (he : InTree e es) {k c : Key} (hue : UE S D k c) (hk : EK A es k → InK A e k) (hce : EK A es c) : InK A e c := by
  obtain ⟨x, hx, hxk⟩ := hce
  rcases inTree_parent hx with h | ⟨y, h1, h2⟩
  · exact absurd hue (hc.root x c h hxk k)
  · obtain ⟨ky, hky⟩ := hc.keyed y h1
    have : ky = k := hc.parent _ _ _ (hc.edge _ _ ⟨y, x, h1, h2, hky, hxk⟩) hue
    subst this
    obtain ⟨z, hz, hzk⟩ := hk ⟨y, h1, hky⟩
    have hz' : InTree z es := hz.of_self he
    have := hc.dist.eq hz' h1 hzk hky
    subst this
    exact ⟨x, hz.kid h2, hxk⟩
end

section
variable {X : SyncCtx V E} {S D : Key → Option (Model V)} {es : List (Elem V)} {sid : Nat} {T : Key → Option Ref} {w : World V E} (hA : X.dst.ref.store = .local sid)
include hA

/-- Removing a deleted object, alone or with what is below it: also of objects that no element is about. -/
theorem store_delete_full (hc : CEnv X.dst S D es) (h : J X.dst S D es sid T w) {e : Elem V} {k0 : Key} {r : Ref} {parent : Option Ref} {skip : Bool}
    (he : InTree e es) (hk : ElemKey X.dst e k0) (ha : e.action = some .delete) (hr : fr sid w k0 = some r) (hpar : Par X.dst es T parent e)
    (hTE : ∀ k, T k ≠ none → EK X.dst es k) (hT : skip = true → ∀ k, InK X.dst e k → T k = none)
    (hrl : ∀ (G : Key → Option (Model V)), (∀ k m, G k = some m → ∀ c ∈ childRefs m, UE S D k c) → ∀ j y, Path (fun t u => (t, u)) G j k0 y → j < X.rlimit) :
    ∃ w', applyStore X (some .delete) parent r skip w = (.ok (), w') ∧ J X.dst S D es sid T w' ∧
      Fme X.dst es sid (fun k => k = k0 ∨ (skip = true ∧ InK X.dst e k)) w w' ∧ fr sid w' k0 = none ∧
      (skip = true → (∀ k, InK X.dst e k → fr sid w k ≠ none) → ∀ k, InK X.dst e k → fr sid w' k = none) ∧
      (∀ k, fr sid w' k ≠ fr sid w k → fr sid w' k = none ∧ (k = k0 ∨ (skip = true ∧ Bel D k0 k))) ∧
      (skip = true → (∀ k, Bel D k0 k → fr sid w k ≠ none) → ∀ k, Bel D k0 k → fr sid w' k = none) := by
  have hkey : (w.heap r).m.key = k0 := h.key (.inl hr)
  have hkt : (w.heap r).m.type = k0.1 := congrArg Prod.fst hkey
  have hku : (w.heap r).m.uid = k0.2 := congrArg Prod.snd hkey
  obtain ⟨hS0, hD0⟩ := hc.delete e k0 he hk ha
  -- the child list of the parent
  have step1 : ∃ wp, withParent parent (fun p => removeChildRef p r) w = (.ok (), wp) ∧ SInv X.dst sid (fun _ _ => True) (fun _ => True) wp ∧ wp.next = w.next ∧
      (∀ t u, findRef wp sid t u = findRef w sid t u) ∧ (∀ r', parent ≠ some r' → (wp.heap r').m = (w.heap r').m) ∧
      (∀ p, parent = some p → ∃ kp, KE X.dst es kp k0 ∧ T kp = some p ∧ KidsOnly (w.heap p).m (wp.heap p).m ∧ FullKids (wp.heap p).m ∧
        ∀ c : Key, (wp.heap p).m.lists c.1 c.2 = true ↔ c ≠ k0 ∧ (w.heap p).m.lists c.1 c.2 = true) := by
    cases hp : parent with
    | none => exact ⟨w, rfl, h.sinv, rfl, fun _ _ => rfl, fun _ _ => rfl, fun p hp' => by cases hp'⟩
    | some p =>
      obtain ⟨kp, hke, hTp⟩ := hpar.edge hk hp
      have htp := h.ofT hTp
      obtain ⟨_, _, hcp, _⟩ := h.trk _ _ hTp
      have hl : (w.heap p).m.lists k0.1 k0.2 = true := (h.lists _ _ htp k0).2 (.inl ⟨hke, by rw [hr]; simp⟩)
      obtain ⟨m', hm1, hm2, hm3⟩ := removeChild_ok (h.full _ _ htp) (hc.valid.fields _ _ hcp) hl
      have hko := removeChild_kidsOnly hm1
      have e1 := removeChildRef_eq p r w
      rw [hkt, hku, hm1] at e1
      have hh : ∀ r', ((w.setObj p { w.heap p with m := m' }).heap r').m = if r' = p then m' else (w.heap r').m := by
        intro r'; simp only [World.setObj]; split <;> rfl
      refine ⟨w.setObj p { w.heap p with m := m' }, e1, (kids_sframe (A := X.dst) (sid := sid) (b := 0) (K := fun _ _ => True) (P := fun _ => True) (X := fun _ => True) (Ev := fun _ => True)
        hko trivial h.sinv (fun _ _ _ _ _ => trivial)).2, rfl, fun _ _ => rfl, ?_, ?_⟩
      · intro r' hr'
        rw [hh, if_neg (fun h => hr' (by rw [h]))]
      · intro p' hp'
        cases hp'
        rw [hh, if_pos rfl]
        exact ⟨kp, hke, hTp, hko, hm2, hm3⟩
  obtain ⟨wp, e1, hip, hnp, hfp, hhp, hpp⟩ := step1
  have hlp : ∀ r', r' < w.next → KidsOnly (w.heap r').m (wp.heap r').m ∧ ∀ c : Key, (wp.heap r').m.lists c.1 c.2 = true → (w.heap r').m.lists c.1 c.2 = true := by
    intro r' _
    by_cases hp : parent = some r'
    · obtain ⟨kp, _, _, h3, _, h5⟩ := hpp r' hp
      exact ⟨h3, fun c hl => ((h5 c).1 hl).2⟩
    · rw [hhp r' hp]; exact ⟨⟨rfl, rfl, rfl⟩, fun _ h => h⟩
  have hkp : (wp.heap r).m.key = k0 := by rw [(hlp r (h.lt (.inl hr))).1.key_eq]; exact hkey
  have hkpt : (wp.heap r).m.type = k0.1 := congrArg Prod.fst hkp
  have hkpu : (wp.heap r).m.uid = k0.2 := congrArg Prod.snd hkp
  have hfr0 : findRef wp sid k0.1 k0.2 = some r := by rw [hfp]; exact hr
  -- edges of what is stored
  have hedge : ∀ (k : Key) m, (findRef wp sid k.1 k.2).map (fun r => (wp.heap r).m) = some m → ∀ c ∈ childRefs m, UE S D k c := by
    intro k m hm c hcm
    rw [Option.map_eq_some_iff] at hm
    obtain ⟨r', hr', rfl⟩ := hm
    rw [hfp] at hr'
    have ht : Trk sid T w k r' := .inl hr'
    obtain ⟨g1, g2⟩ := hlp r' (h.lt ht)
    have hnd : (Dict.keys (wp.heap r').m.cls.children).Nodup := by rw [g1.cls_eq]; exact (h.full _ _ ht).nodup
    exact h.listed hc ht (g2 c ((mem_childRefs hnd c.1 c.2).1 hcm))
  -- the removal itself
  let Rm : Key → Prop := fun k => if skip then Reach (fun t u => (t, u)) (fun k : Key => (findRef wp sid k.1 k.2).map (fun r => (wp.heap r).m)) k0 k else k = k0
  have hrm0 : Rm k0 := by
    show if skip then _ else _
    split
    · exact .refl
    · rfl
  have step2 : ∃ w', remove X.dst X.rlimit r skip wp = (.ok (), w') ∧ Removed sid (fun _ => True) wp w' ∧ (∀ k : Key, Rm k → findRef w' sid k.1 k.2 = none) ∧
      ∀ k : Key, ¬ Rm k → findRef w' sid k.1 k.2 = findRef wp sid k.1 k.2 := by
    cases hsk : skip with
    | false =>
      have hRm : ∀ k, Rm k ↔ k = k0 := by intro k; show (if skip then _ else _) ↔ _; rw [hsk]; simp
      obtain ⟨n, hn⟩ : ∃ n, X.rlimit = n + 1 := by
        have := hrl (fun _ => none) (fun _ _ h => by cases h) 0 k0 .refl
        cases hx : X.rlimit with
        | zero => rw [hx] at this; omega
        | succ n => exact ⟨n, rfl⟩
      obtain ⟨w1, e2, f1, t1, _⟩ := removeOne_local hA r wp
      rw [hkpt, hkpu, hfr0] at e2
      rw [hkpt, hkpu] at t1
      refine ⟨w1, ?_, removed_of_erase f1 t1 trivial, ?_, ?_⟩
      · rw [hn, remove, deref_bind, M.bind_ok e2]; rfl
      · intro k hk'
        rw [hRm] at hk'; subst hk'
        rw [t1.findRef, if_pos ⟨rfl, rfl, rfl⟩]
      · intro k hk'
        rw [hRm] at hk'
        rw [t1.findRef, if_neg (fun h' => hk' (Prod.ext h'.2.1 h'.2.2))]
    | true =>
      have hRm : ∀ k, Rm k ↔ Reach (fun t u => (t, u)) (fun k : Key => (findRef wp sid k.1 k.2).map (fun r => (wp.heap r).m)) k0 k := by
        intro k; show (if skip then _ else _) ↔ _; rw [hsk]; simp
      have hk0 : ((wp.heap r).m.type, (wp.heap r).m.uid) = k0 := hkp
      obtain ⟨w', e2, _, _, _, g1, g2⟩ := remove_exact (delSpec_local hA wp) X.rlimit r wp (.refl hip.ok) (.inr (by
        rw [hk0]; exact hrl _ hedge)) (by rw [hnp]; exact h.lt (.inl hr)) trivial (by
        dsimp only; rw [hkpt, hkpu, hfr0]; rfl)
      rw [hk0] at g1 g2
      have hrm := (remove_removed hA (fun _ => True) true X.rlimit r wp trivial (fun _ _ _ => trivial) (fun _ _ _ _ _ _ => ⟨trivial, fun _ _ => trivial⟩)).1
      rw [e2] at hrm
      refine ⟨w', e2, hrm, ?_, ?_⟩
      · intro k hk'
        have := g1 k ((hRm k).1 hk')
        simpa using this
      · intro k hk'
        have := g2 k (fun h => hk' ((hRm k).2 h))
        rcases hrm.mine k.1 k.2 with h' | h'
        · exact h'
        · rw [h'.1] at this ⊢
          simp only [Option.map_none] at this
          exact (Option.map_eq_none_iff.1 this.symm).symm
  obtain ⟨w', e2, hrm, hgone, hstay⟩ := step2
  have hrmS : ∀ k, Rm k → S k = none := by
    intro k hk'
    cases hsk : skip with
    | false =>
      have : k = k0 := by have : if skip then _ else _ := hk'; rw [hsk] at this; simpa using this
      rw [this]; exact hS0
    | true =>
      have hk' : Reach (fun t u => (t, u)) (fun k : Key => (findRef wp sid k.1 k.2).map (fun r => (wp.heap r).m)) k0 k := by
        have : if skip then _ else _ := hk'; rw [hsk] at this; simpa using this
      induction hk' with
      | refl => exact hS0
      | @step y m c hy hm hcm ih =>
        cases hSc : S (c.1, c.2) with
        | none => rfl
        | some s =>
          have hSy : S y = none := ih (by show if skip then _ else _; rw [hsk]; simpa using hy)
          rcases hedge y m hm c hcm with h1 | h1
          · rw [hSy] at h1; cases h1
          · have := hc.dst_place y c h1 (by rw [show S c = S (c.1, c.2) from rfl, hSc]; simp)
            rw [hSy] at this; cases this
  have hrmK : ∀ k, Rm k → EK X.dst es k → InK X.dst e k := by
    intro k hk'
    cases hsk : skip with
    | false =>
      have : k = k0 := by have : if skip then _ else _ := hk'; rw [hsk] at this; simpa using this
      rw [this]; exact fun _ => ⟨e, inTree_self e, hk⟩
    | true =>
      have hk' : Reach (fun t u => (t, u)) (fun k : Key => (findRef wp sid k.1 k.2).map (fun r => (wp.heap r).m)) k0 k := by
        have : if skip then _ else _ := hk'; rw [hsk] at this; simpa using this
      induction hk' with
      | refl => exact fun _ => ⟨e, inTree_self e, hk⟩
      | @step y m c hy hm hcm ih =>
        exact fun hce => inK_of_UE hc he (hedge y m hm c hcm) (ih (by show if skip then _ else _; rw [hsk]; simpa using hy)) hce
  have hcl : ∀ c, Rm c → c ≠ k0 → ∃ k', Rm k' ∧ UE S D k' c := by
    intro k hk' hne
    cases hsk : skip with
    | false =>
      have : k = k0 := by have : if skip then _ else _ := hk'; rw [hsk] at this; simpa using this
      exact absurd this hne
    | true =>
      have hk' : Reach (fun t u => (t, u)) (fun k : Key => (findRef wp sid k.1 k.2).map (fun r => (wp.heap r).m)) k0 k := by
        have : if skip then _ else _ := hk'; rw [hsk] at this; simpa using this
      cases hk' with
      | refl => exact absurd rfl hne
      | @step y m c hy hm hcm => exact ⟨y, by show if skip then _ else _; rw [hsk]; simpa using hy, hedge y m hm c hcm⟩
  have hpar' : ∀ p, parent = some p → ∃ kp, ParentStep X.dst es T p kp k0 w w' ∧
      ∀ c : Key, (w'.heap p).m.lists c.1 c.2 = true ↔ c ≠ k0 ∧ (w.heap p).m.lists c.1 c.2 = true := by
    intro p hp
    obtain ⟨kp, h1, h2, h3, h4, h5⟩ := hpp p hp
    refine ⟨kp, ⟨h1, h2, ?_, ?_⟩, ?_⟩
    · rw [hrm.heap_m]; exact h3
    · rw [hrm.heap_m]; exact h4
    · rw [hrm.heap_m]; exact h5
  have hTrm : (∀ k, Rm k → T k = none) ∨ (∀ k, Rm k → k = k0) := by
    cases hsk : skip with
    | false => exact .inr (fun k hk' => by have : if skip then _ else _ := hk'; rw [hsk] at this; simpa using this)
    | true =>
      refine .inl (fun k hk' => ?_)
      cases hTk : T k with
      | none => rfl
      | some x =>
        have := hT hsk k (hrmK k hk' (hTE k (by rw [hTk]; simp)))
        rw [hTk] at this; cases this
  have hJ : J X.dst S D es sid T w' := by
    refine h.delete hc (k0 := k0) (Rm := Rm) (parent := parent) ?_ (by rw [hrm.next_eq, hnp]; exact Nat.le_refl _) hgone ?_ hrm0 hrmS ?_ hpar' (fun hp => hpar.root hc hk hp) hcl hTrm
    · exact (hrm.sframe (A := X.dst) (b := 0) (K := fun _ _ => True) (P := fun _ => True) (X := fun _ => True) (Ev := fun _ => True) (fun _ _ _ => .inr trivial) hip).2
    · intro k hk'
      show findRef w' sid k.1 k.2 = _
      rw [hstay k hk', hfp]; rfl
    · intro r' _ hp
      rw [hrm.heap_m, hhp r' hp]
  refine ⟨w', ?_, hJ, ⟨?_, ?_⟩, hgone k0 hrm0, ?_, ?_, ?_⟩
  · unfold applyStore
    simp only
    rw [M.bind_ok e1]
    exact e2
  · intro k hek hnk
    have hnr : ¬ Rm k := by
      intro hk'
      apply hnk
      cases hsk : skip with
      | false => exact .inl (by have : if skip then _ else _ := hk'; rw [hsk] at this; simpa using this)
      | true => exact .inr ⟨rfl, hrmK k hk' hek⟩
    show findRef w' sid k.1 k.2 = _
    rw [hstay k hnr, hfp]; rfl
  · intro k r' hek hnk hr'
    rw [hrm.heap_m]
    exact (hlp r' (h.lt (.inl hr'))).1.vals_eq
  · intro hsk hpres
    have hRm : ∀ k, Reach (fun t u => (t, u)) (fun k : Key => (findRef wp sid k.1 k.2).map (fun r => (wp.heap r).m)) k0 k → Rm k := by
      intro k hk'; show (if skip then _ else _); rw [hsk]; simpa using hk'
    have hall : ∀ (l : List (Elem V)) (x : Elem V), InTree x l → (∀ z ∈ l, InTree z [e] ∧ ∃ kz, ElemKey X.dst z kz ∧
        Reach (fun t u => (t, u)) (fun k : Key => (findRef wp sid k.1 k.2).map (fun r => (wp.heap r).m)) k0 kz) →
        ∃ kx, ElemKey X.dst x kx ∧ Reach (fun t u => (t, u)) (fun k : Key => (findRef wp sid k.1 k.2).map (fun r => (wp.heap r).m)) k0 kx := by
      intro l x hx
      induction hx with
      | here hm => exact fun hl => (hl _ hm).2
      | @under l y hy hx ih =>
        intro hl
        apply ih
        intro z hz
        obtain ⟨hy1, ky, hky, hry⟩ := hl y hy
        have hyes : InTree y es := hy1.of_self he
        have hzes : InTree z es := hyes.kid hz
        have hz1 : InTree z [e] := hy1.kid hz
        obtain ⟨kz, hkz⟩ := hc.keyed z hzes
        refine ⟨hz1, kz, hkz, ?_⟩
        have hke : KE X.dst es ky kz := ⟨y, z, hyes, hz, hky, hkz⟩
        cases hfy : fr sid w ky with
        | none => exact absurd hfy (hpres ky ⟨y, hy1, hky⟩)
        | some ry =>
          have hnp' : parent ≠ some ry := by
            intro hp
            obtain ⟨kp, _, hTp⟩ := hpar.edge hk hp
            have hkk : ky = kp := h.inj (.inl hfy) (h.ofT hTp)
            subst hkk
            have := hT hsk ky ⟨y, hy1, hky⟩
            rw [hTp] at this; cases this
          have hl := (h.lists ky ry (.inl hfy) kz).2 (.inl ⟨hke, hpres kz ⟨z, hz1, hkz⟩⟩)
          have hcm : (kz.1, kz.2) ∈ childRefs (wp.heap ry).m := by
            rw [hhp ry hnp']
            exact (mem_childRefs (h.full ky ry (.inl hfy)).nodup kz.1 kz.2).2 hl
          have hst : (findRef wp sid ky.1 ky.2).map (fun r => (wp.heap r).m) = some (wp.heap ry).m := by
            rw [hfp, show findRef w sid ky.1 ky.2 = some ry from hfy]; rfl
          exact Reach.step (c := (kz.1, kz.2)) hry hst hcm
    intro k ⟨x, hx, hxk⟩
    obtain ⟨kx, hkx, hrx⟩ := hall [e] x hx (by
      intro z hz
      rw [List.mem_singleton] at hz
      subst hz
      exact ⟨inTree_self _, k0, hk, .refl⟩)
    have : kx = k := elemKey_unique hkx hxk
    subst this
    exact hgone _ (hRm _ hrx)
  · intro k hne
    by_cases hk' : Rm k
    · refine ⟨hgone k hk', ?_⟩
      cases hsk : skip with
      | false => exact .inl (by have : if skip then _ else _ := hk'; rw [hsk] at this; simpa using this)
      | true =>
        have hk' : Reach (fun t u => (t, u)) (fun k : Key => (findRef wp sid k.1 k.2).map (fun r => (wp.heap r).m)) k0 k := by
          have : if skip then _ else _ := hk'; rw [hsk] at this; simpa using this
        have : k = k0 ∨ Bel D k0 k := by
          clear hne
          induction hk' with
          | refl => exact .inl rfl
          | @step y m c hy hm hcm ih =>
            have hSy : S y = none := hrmS y (by show if skip then _ else _; rw [hsk]; simpa using hy)
            have hl : listsO (D y) c.1 c.2 = true := by
              rcases hedge y m hm c hcm with h1 | h1
              · rw [hSy] at h1; cases h1
              · exact h1
            rcases ih (by show if skip then _ else _; rw [hsk]; simpa using hy) with rfl | ih
            · exact .inr (.child hl)
            · exact .inr (.step ih hl)
        exact this.imp id (fun h => ⟨rfl, h⟩)
    · exact absurd (by show findRef w' sid k.1 k.2 = _; rw [hstay k hk', hfp]; rfl) hne
  · intro hsk hpres
    have hRm : ∀ k, Reach (fun t u => (t, u)) (fun k : Key => (findRef wp sid k.1 k.2).map (fun r => (wp.heap r).m)) k0 k → Rm k := by
      intro k hk'; show (if skip then _ else _); rw [hsk]; simpa using hk'
    have one : ∀ y c : Key, Reach (fun t u => (t, u)) (fun k : Key => (findRef wp sid k.1 k.2).map (fun r => (wp.heap r).m)) k0 y → fr sid w y ≠ none → fr sid w c ≠ none →
        listsO (D y) c.1 c.2 = true → Reach (fun t u => (t, u)) (fun k : Key => (findRef wp sid k.1 k.2).map (fun r => (wp.heap r).m)) k0 c := by
      intro y c hry hfy hfc hl
      obtain ⟨ry, hry'⟩ := Option.ne_none_iff_exists'.1 hfy
      by_cases hck : c = k0
      · rw [hck]; exact .refl
      · have hlw : (w.heap ry).m.lists c.1 c.2 = true := by
          refine (h.lists y ry (.inl hry') c).2 ?_
          by_cases hke : KE X.dst es y c
          · exact .inl ⟨hke, hfc⟩
          · exact .inr ⟨hke, hl⟩
        have hlp' : (wp.heap ry).m.lists c.1 c.2 = true ∧ (Dict.keys (wp.heap ry).m.cls.children).Nodup := by
          by_cases hp : parent = some ry
          · obtain ⟨kp, _, _, _, g4, g5⟩ := hpp ry hp
            exact ⟨(g5 c).2 ⟨hck, hlw⟩, g4.nodup⟩
          · rw [hhp ry hp]; exact ⟨hlw, (h.full y ry (.inl hry')).nodup⟩
        have hst : (findRef wp sid y.1 y.2).map (fun r => (wp.heap r).m) = some (wp.heap ry).m := by
          rw [hfp, show findRef w sid y.1 y.2 = some ry from hry']; rfl
        exact Reach.step (c := (c.1, c.2)) hry hst ((mem_childRefs hlp'.2 c.1 c.2).2 hlp'.1)
    intro k hb
    apply hgone
    apply hRm
    induction hb with
    | @child c hl => exact one k0 c .refl (by rw [hr]; simp) (hpres _ (.child hl)) hl
    | @step c c' hb hl ih => exact one c c' ih (hpres _ hb) (hpres _ (.step hb hl)) hl

/-- Removing a deleted object, alone or with what is below it. -/
theorem store_delete (hc : CEnv X.dst S D es) (h : J X.dst S D es sid T w) {e : Elem V} {k0 : Key} {r : Ref} {parent : Option Ref} {skip : Bool}
    (he : InTree e es) (hk : ElemKey X.dst e k0) (ha : e.action = some .delete) (hr : fr sid w k0 = some r) (hpar : Par X.dst es T parent e)
    (hTE : ∀ k, T k ≠ none → EK X.dst es k) (hT : skip = true → ∀ k, InK X.dst e k → T k = none)
    (hrl : ∀ (G : Key → Option (Model V)), (∀ k m, G k = some m → ∀ c ∈ childRefs m, UE S D k c) → ∀ j y, Path (fun t u => (t, u)) G j k0 y → j < X.rlimit) :
    ∃ w', applyStore X (some .delete) parent r skip w = (.ok (), w') ∧ J X.dst S D es sid T w' ∧
      Fme X.dst es sid (fun k => k = k0 ∨ (skip = true ∧ InK X.dst e k)) w w' ∧ fr sid w' k0 = none ∧
      (skip = true → (∀ k, InK X.dst e k → fr sid w k ≠ none) → ∀ k, InK X.dst e k → fr sid w' k = none) := by
  obtain ⟨w', h1, h2, h3, h4, h5, _⟩ := store_delete_full hA hc h he hk ha hr hpar hTE hT hrl
  exact ⟨w', h1, h2, h3, h4, h5⟩

/-- Storing a created object: nothing else changes. -/
theorem store_create_full (hc : CEnv X.dst S D es) (h : J X.dst S D es sid T w) {e : Elem V} {k0 : Key} {r : Ref} {parent : Option Ref} {skip : Bool} {c : ModelClass V}
    {w1 : World V E} (he : InTree e es) (hk : ElemKey X.dst e k0) (ha : e.action = some .create) (hpar : Par X.dst es T parent e) (hT : T k0 = none)
    (h0 : fr sid w k0 = none) (hcls : Dict.get? X.dst.classes e.type = some c) (hm : c.construct e.keys (e.plus.getD []) = .ok (w1.heap r).m)
    (hs : Still w w1) (hr1 : w.next ≤ r) (hr2 : r < w1.next) :
    ∃ w', applyStore X (some .create) parent r skip w1 = (.ok (), w') ∧ J X.dst S D es sid T w' ∧
      Fme X.dst es sid (fun k => k = k0) w w' ∧ fr sid w' k0 = some r ∧ ∀ k, k ≠ k0 → fr sid w' k = fr sid w k := by
  obtain ⟨hS0, hD0⟩ := hc.create e k0 he hk ha
  obtain ⟨c', u, hc', hcu, hkeq⟩ := hk
  have hk : ElemKey X.dst e k0 := ⟨c', u, hc', hcu, hkeq⟩
  cases hcls.symm.trans hc'
  have hkt : k0.1 = e.type := by rw [hkeq]
  have hku : k0.2 = u := by rw [hkeq]
  have hvc := hc.valid.valid _ _ hcls
  obtain ⟨hmc, _, hmk⟩ := construct_spec hm
  obtain ⟨hfull, hempty⟩ := construct_full hvc hm
  have hmu : (w1.heap r).m.uid = k0.2 := by rw [hku]; exact construct_uid hvc hm (hc.ids e he ha c hcls) hcu
  have hmt : (w1.heap r).m.type = k0.1 := by rw [hkt]; unfold Model.type; rw [hmc]; exact hc.valid.names _ _ hcls
  have h1 := h.still hs
  have step1 : ∃ wp, withParent parent (fun p => addChildRef p r) w1 = (.ok (), wp) ∧ SInv X.dst sid (fun _ _ => True) (fun _ => True) wp ∧ wp.next = w1.next ∧
      (∀ t u, findRef wp sid t u = findRef w1 sid t u) ∧ (∀ r', parent ≠ some r' → (wp.heap r').m = (w1.heap r').m) ∧
      (∀ p, parent = some p → p ≠ r ∧ ∃ kp, KE X.dst es kp k0 ∧ T kp = some p ∧ KidsOnly (w.heap p).m (wp.heap p).m ∧ FullKids (wp.heap p).m ∧
        ∀ c : Key, (wp.heap p).m.lists c.1 c.2 = true ↔ c = k0 ∨ (w.heap p).m.lists c.1 c.2 = true) := by
    cases hp : parent with
    | none => exact ⟨w1, rfl, h1.sinv, rfl, fun _ _ => rfl, fun _ _ => rfl, fun p hp' => by cases hp'⟩
    | some p =>
      obtain ⟨kp, hke, hTp⟩ := hpar.edge hk hp
      have htp := h.ofT hTp
      obtain ⟨hlt, _, hcp, _⟩ := h.trk _ _ hTp
      have hl : (w.heap p).m.lists k0.1 k0.2 = false := by
        cases hl : (w.heap p).m.lists k0.1 k0.2 with
        | false => rfl
        | true =>
          rcases (h.lists _ _ htp k0).1 hl with ⟨_, h2⟩ | ⟨h2, _⟩
          · exact absurd h0 h2
          · exact absurd hke h2
      obtain ⟨m', hm1, hm2, hm3⟩ := addChild_ok (h.full _ _ htp) (hc.valid.fields _ _ hcp) (hc.declared _ _ _ hke hcp) hl
      have hko := addChild_kidsOnly hm1
      have e1 := addChildRef_eq p r w1
      have hwp : (w1.heap p).m = (w.heap p).m := hs.heap_m p hlt
      rw [hmt, hmu, hwp, hm1] at e1
      have hh : ∀ r', ((w1.setObj p { w1.heap p with m := m' }).heap r').m = if r' = p then m' else (w1.heap r').m := by
        intro r'; simp only [World.setObj]; split <;> rfl
      refine ⟨w1.setObj p { w1.heap p with m := m' }, e1, (kids_sframe (A := X.dst) (sid := sid) (b := 0) (K := fun _ _ => True) (P := fun _ => True) (X := fun _ => True) (Ev := fun _ => True)
        (by rw [hwp]; exact hko) trivial h1.sinv (fun _ _ _ _ _ => trivial)).2, rfl, fun _ _ => rfl, ?_, ?_⟩
      · intro r' hr'
        rw [hh, if_neg (fun h => hr' (by rw [h]))]
      · intro p' hp'
        cases hp'
        rw [hh, if_pos rfl]
        exact ⟨fun hpr => Nat.lt_irrefl _ (Nat.lt_of_lt_of_le hlt (by rw [hpr]; exact hr1)), kp, hke, hTp, hko, hm2, hm3⟩
  obtain ⟨wp, e1, hip, hnp, hfp, hhp, hpp⟩ := step1
  have hrp : (wp.heap r).m = (w1.heap r).m := hhp r (fun hp => (hpp r hp).1 rfl)
  have hf1 : ∀ t u, findRef wp sid t u = findRef w sid t u := fun t u => (hfp t u).trans (hs.tbl_eq.findRef sid t u)
  obtain ⟨w', e2, f2, t2, _⟩ := add_local_none hA r wp (by rw [hrp, hmt, hmu, hf1]; exact h0)
  rw [hrp, hmt, hmu] at t2
  have hkeyr : (wp.heap r).m.key = (k0.1, k0.2) := by rw [hrp]; exact Prod.ext hmt hmu
  have hsinv : SInv X.dst sid (fun _ _ => True) (fun _ => True) w' :=
    (set_sframe (A := X.dst) (b := 0) (K := fun _ _ => True) (P := fun _ => True) (X := fun _ => True) (Ev := fun _ => True) f2 t2 hkeyr (by rw [hf1]; exact h0)
      (by rw [hnp]; exact hr2) (Nat.zero_le _) trivial ⟨e.keys, [], { result := .object, applied := true, status := none }, trivial, rfl, ⟨c, u, by rw [hkt]; exact hcls, hcu, by rw [hkt, hku]⟩⟩
      hip (by intro c2 hc2; rw [hkt] at hc2; rw [hrp, hmc]; exact Option.some.inj (hcls.symm.trans hc2)) (fun _ _ => trivial) (fun _ => trivial)).2
  have hnew : fr sid w' k0 = some r := by
    show findRef w' sid k0.1 k0.2 = _
    rw [t2.findRef, if_pos ⟨rfl, rfl, rfl⟩]
  have hst : ∀ k, k ≠ k0 → fr sid w' k = fr sid w k := by
    intro k hk'
    show findRef w' sid k.1 k.2 = _
    rw [t2.findRef, if_neg (fun h' => hk' (Prod.ext h'.2.1 h'.2.2)), hf1]; rfl
  have hheap : ∀ r', r' < w.next → parent ≠ some r' → (w'.heap r').m = (w.heap r').m := by
    intro r' hr' hp
    rw [f2.heap_m, hhp r' hp, hs.heap_m r' hr']
  have hpar' : ∀ p, parent = some p → ∃ kp, ParentStep X.dst es T p kp k0 w w' ∧
      ∀ c : Key, (w'.heap p).m.lists c.1 c.2 = true ↔ c = k0 ∨ (w.heap p).m.lists c.1 c.2 = true := by
    intro p hp
    obtain ⟨_, kp, h1, h2, h3, h4, h5⟩ := hpp p hp
    refine ⟨kp, ⟨h1, h2, ?_, ?_⟩, ?_⟩
    · rw [f2.heap_m]; exact h3
    · rw [f2.heap_m]; exact h4
    · rw [f2.heap_m]; exact h5
  have hrm : (w'.heap r).m = (w1.heap r).m := (f2.heap_m r).trans hrp
  refine ⟨w', ?_, ?_, ⟨fun k _ hk' => hst k hk', ?_⟩, hnew, hst⟩
  · unfold applyStore
    simp only
    rw [M.bind_ok e1]
    exact e2
  · exact h.create hc (parent := parent) hsinv (by rw [f2.next_eq, hnp]; exact hs.next_le) hnew hst h0 hD0 hT hr1
      ⟨e, c, he, hk, ha, by rw [hkt]; exact hcls, by rw [hrm]; exact hm⟩ (by rw [hrm]; exact hfull) (by rw [hrm]; exact hempty) hheap hpar' (fun hp => hpar.root hc hk hp)
  · intro k r' _ _ hr'
    by_cases hp : parent = some r'
    · obtain ⟨kp, hps, _⟩ := hpar' r' hp
      exact hps.kids.vals_eq
    · rw [hheap r' (h.lt (.inl hr')) hp]

/-- Storing a created object. -/
theorem store_create (hc : CEnv X.dst S D es) (h : J X.dst S D es sid T w) {e : Elem V} {k0 : Key} {r : Ref} {parent : Option Ref} {skip : Bool} {c : ModelClass V}
    {w1 : World V E} (he : InTree e es) (hk : ElemKey X.dst e k0) (ha : e.action = some .create) (hpar : Par X.dst es T parent e) (hT : T k0 = none)
    (h0 : fr sid w k0 = none) (hcls : Dict.get? X.dst.classes e.type = some c) (hm : c.construct e.keys (e.plus.getD []) = .ok (w1.heap r).m)
    (hs : Still w w1) (hr1 : w.next ≤ r) (hr2 : r < w1.next) :
    ∃ w', applyStore X (some .create) parent r skip w1 = (.ok (), w') ∧ J X.dst S D es sid T w' ∧
      Fme X.dst es sid (fun k => k = k0) w w' ∧ fr sid w' k0 = some r := by
  obtain ⟨w', h1, h2, h3, h4, _⟩ := store_create_full hA hc h (skip := skip) he hk ha hpar hT h0 hcls hm hs hr1 hr2
  exact ⟨w', h1, h2, h3, h4⟩
end

end DS
