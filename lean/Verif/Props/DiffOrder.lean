import Verif.Spec.DiffOrder
import Verif.Props.Validate
import Verif.Props.Differ
/-! # C93: the order of the elements of a diff -/
set_option linter.unusedSectionVars false

namespace DS
variable {V E : Type} [PyVal V]

theorem combine_eq_map (src dst : List (Model V)) : combine src dst =
    (src.map Model.uid ++ dst.map Model.uid).eraseDups.map (fun u => (u, Dict.get? (byUid src) u, Dict.get? (byUid dst) u)) := by
  rw [← keys_combine]
  unfold Dict.keys
  rw [List.map_map]
  refine (List.map_id (combine src dst)).symm.trans (List.map_congr_left ?_)
  rintro ⟨u, s, d⟩ h
  obtain ⟨h1, h2, _⟩ := mem_combine.1 h
  simp only [Function.comp, id]
  rw [h1, h2]

open Classical in
theorem level_order {C : DiffCtx V} {S D : Snap V} {n : Nat} {t : String} {R : Elem V → Pos V → Prop}
    {src dst : List (Model V)} {fs fd : String → Option (Model V)}
    (hfs : ∀ u, Dict.get? (byUid src) u = fs u) (hfd : ∀ u, Dict.get? (byUid dst) u = fd u)
    (hR : ∀ u e k, pPair C S D (pList C S D n) (fs u) (fd u) = .ok (some e, k) → R e ⟨t, u, fs u, fd u⟩)
    {es : List (Elem V)} {k : Nat} (h : pList C S D (n + 1) src dst = .ok (es, k)) :
    MatchAll R es (visible C.flags ((src.map Model.uid ++ dst.map Model.uid).eraseDups.map fun u => ⟨t, u, fs u, fd u⟩)) := by
  unfold pList at h
  obtain ⟨_, _, _, _, h, _⟩ := P.bind_eq_ok.1 h
  obtain ⟨_, _, _, hv, h, _⟩ := P.bind_eq_ok.1 h
  have hmem : ∀ x ∈ combine src dst, x.2.1 = fs x.1 ∧ x.2.2 = fd x.1 ∧ (x.2.1 ≠ none ∨ x.2.2 ≠ none) := by
    intro x hx
    obtain ⟨u, s, d⟩ := x
    obtain ⟨h1, h2, h3⟩ := mem_combine.1 hx
    exact ⟨h1.trans (hfs u), h2.trans (hfd u), h3⟩
  have h1 := pPairs_ok (t := t) (R := R) (combine src dst) (fun x hx => (hmem x hx).2.2)
    (fun x hx e k _ hp => by
      obtain ⟨u, s, d⟩ := x
      obtain ⟨h1, h2, h3⟩ := hmem _ hx
      simp only at h1 h2 hp
      subst h1; subst h2
      exact hR u e k hp) h
  have h2 : (src.map Model.uid ++ dst.map Model.uid).eraseDups.map (fun u => (⟨t, u, fs u, fd u⟩ : Pos V)) = (combine src dst).map (toPos t) := by
    rw [combine_eq_map, List.map_map]
    apply List.map_congr_left
    intro u _
    simp only [Function.comp, toPos, hfs, hfd]
  rw [h2]
  unfold visible
  rw [List.filter_map]
  rw [List.filter_congr (q := fun x => !skipPair C.flags x.2.1 x.2.2) (fun x hx => ?_)]
  · exact h1
  · have := skipPair_iff C.flags x.2.1 x.2.2 (hmem x hx).2.2
    have hv : (toPos t x).Visible C.flags ↔ ¬ Hidden C.flags x.2.1 x.2.2 := Iff.rfl
    simp only [Function.comp]
    rw [Bool.eq_iff_iff]
    refine (decide_eq_true_iff (p := (toPos t x).Visible C.flags)).trans ?_
    rw [hv, ← this]
    cases skipPair C.flags x.2.1 x.2.2 <;> simp

theorem MatchAll.visible_append {R : Elem V → Pos V → Prop} {flags : Nat} {es es' : List (Elem V)} {ps ps' : List (Pos V)}
    (h : MatchAll R es (visible flags ps)) (h' : MatchAll R es' (visible flags ps')) : MatchAll R (es ++ es') (visible flags (ps ++ ps')) := by
  unfold visible
  rw [List.filter_append]
  exact MatchAll.append h h'

theorem lookupAll_uids {S : Snap V} (hS : S.Consistent) {t : String} : ∀ {us : List String} {ms : List (Model V)}, lookupAll S t us = .ok ms →
    ms.map Model.uid = us := by
  intro us
  induction us with
  | nil => intro ms h; cases h; rfl
  | cons u us ih =>
    intro ms h
    unfold lookupAll at h
    split at h
    · cases h
    · rename_i m hm
      split at h
      · rename_i ms' hms
        cases h
        rw [List.map_cons, ih hms, (hS.key_ok _ _ _ hm).2]
      · cases h

theorem pChildModels_uids {S : Snap V} (hS : S.Consistent) {o : Option (Model V)} {ct f : String} {ms : List (Model V)} {k : Nat}
    (hf : ∀ m, o = some m → Dict.get? m.cls.children ct = some f) (h : pChildModels S o ct f = .ok (ms, k)) :
    ms.map Model.uid = kidIds o ct := by
  unfold pChildModels at h
  cases o with
  | none => cases h; rfl
  | some m =>
    simp only at h
    cases hk : m.kidList f with
    | none => rw [hk] at h; cases h
    | some us =>
      rw [hk] at h
      rw [lookupAll_uids hS (P.lift_eq_ok.1 h).1]
      simp [kidIds, hf m rfl, hk]

theorem below_eq_kidIds (S : Snap V) (o : Option (Model V)) (ct u : String) :
    below S o ct u = if u ∈ kidIds o ct then S.find ct u else none := by
  unfold below listsO kidIds
  cases o with
  | none => simp
  | some m =>
    unfold Model.lists
    cases hc : Dict.get? m.cls.children ct with
    | none => simp [hc]
    | some f => cases hk : m.kidList f <;> simp [hc, hk]

theorem childLoop_order {C : DiffCtx V} {S D : Snap V} (hS : S.Consistent) (hD : D.Consistent) {n : Nat}
    {R : Elem V → Pos V → Prop} {s d : Option (Model V)} (mapping : Dict String)
    (hms : ∀ ct f, (ct, f) ∈ mapping → ∀ m, s = some m → Dict.get? m.cls.children ct = some f)
    (hmd : ∀ ct f, (ct, f) ∈ mapping → ∀ m, d = some m → Dict.get? m.cls.children ct = some f)
    (hR : ∀ ct u e k, pPair C S D (pList C S D n) (below S s ct u) (below D d ct u) = .ok (some e, k) →
      R e ⟨ct, u, below S s ct u, below D d ct u⟩)
    {kids0 kids : List (Elem V)} {k : Nat}
    (h : pChildLoop S D (pList C S D (n + 1)) s d mapping kids0 = .ok (kids, k)) :
    ∃ es, kids = kids0 ++ es ∧ MatchAll R es (visible C.flags ((Dict.keys mapping).flatMap fun ct =>
      (kidIds s ct ++ kidIds d ct).eraseDups.map fun u => ⟨ct, u, below S s ct u, below D d ct u⟩)) := by
  induction mapping generalizing kids0 k with
  | nil =>
    cases h
    exact ⟨[], by simp, MatchAll.nil⟩
  | cons p rest ih =>
    obtain ⟨ct, f⟩ := p
    unfold pChildLoop at h
    obtain ⟨so, _, _, h1, h, _⟩ := P.bind_eq_ok.1 h
    obtain ⟨do', _, _, h2, h, _⟩ := P.bind_eq_ok.1 h
    obtain ⟨es, _, _, h3, h, _⟩ := P.bind_eq_ok.1 h
    obtain ⟨kids', _, _, h4, h, _⟩ := P.bind_eq_ok.1 h
    have h4 := addElems_ok (P.lift_eq_ok.1 h4).1
    subst h4
    have m1 := level_order (t := ct) (R := R)
      (pChildModels_ok hS (hms ct f (by simp)) h1) (pChildModels_ok hD (hmd ct f (by simp)) h2)
      (fun u e k d => hR ct u e k d) h3
    rw [pChildModels_uids hS (hms ct f (by simp)) h1, pChildModels_uids hD (hmd ct f (by simp)) h2] at m1
    obtain ⟨es2, rfl, m2⟩ := ih (fun ct' f' hm => hms ct' f' (List.mem_cons_of_mem _ hm))
      (fun ct' f' hm => hmd ct' f' (List.mem_cons_of_mem _ hm)) h
    refine ⟨es ++ es2, by simp, ?_⟩
    exact m1.visible_append m2

theorem keys_mappingOf (s d : Option (Model V)) : Dict.keys (mappingOf s d) = comparedTypes s d := by
  cases s with
  | none => cases d <;> rfl
  | some s =>
    cases d with
    | none => rfl
    | some d =>
      rw [mappingOf, Dict.keys_filter (fun k => Dict.has d.cls.children k), comparedTypes]
      apply List.filter_congr
      intro ct _
      rw [Bool.eq_iff_iff, Dict.has_iff]
      simp

theorem pPair_order {C : DiffCtx V} {S D : Snap V} (hS : S.Consistent) (hD : D.Consistent) (hF : SameFields S D) (n : Nat)
    {p : Pos V} (hp : Stored S D p) {e : Elem V} {k : Nat}
    (h : pPair C S D (pList C S D n) p.src p.dst = .ok (some e, k)) : InOrder C.src C.dst C.flags S D e p := by
  induction n generalizing p e k with
  | zero =>
    obtain ⟨m, mp, kids, k1, k2, hm, hmp, hl, _, _, rfl⟩ := pPair_some h
    have hnil : mp = [] := by
      cases mp with
      | nil => rfl
      | cons x rest =>
        obtain ⟨ct, f⟩ := x
        unfold pChildLoop at hl
        obtain ⟨so, _, _, h1, hl, _⟩ := P.bind_eq_ok.1 hl
        obtain ⟨do', _, _, h2, hl, _⟩ := P.bind_eq_ok.1 hl
        obtain ⟨es, _, _, h3, hl, _⟩ := P.bind_eq_ok.1 hl
        cases h3
    subst hnil
    cases hl
    have hc : childPlaces S D p = [] := by
      unfold childPlaces
      rw [← keys_mappingOf, ← (pMapping_ok hmp).1]
      rfl
    refine .mk ⟨Stored.type_or hS hD hp hm, rfl, rfl, ?_, rfl, rfl⟩ (by rw [hc]; rfl) (by simp)
    intro m' hm'; rw [hm] at hm'; cases hm'; exact ⟨rfl, rfl⟩
  | succ n ih =>
    obtain ⟨m, mp, kids, k1, k2, hm, hmp, hl, _, _, rfl⟩ := pPair_some h
    obtain ⟨w1, w2, w3, w4⟩ := mapping_spec hS hD hF hp hmp
    obtain ⟨es, hk, hM⟩ := childLoop_order hS hD (R := InOrder C.src C.dst C.flags S D) mp w2 w3
      (fun ct u e k hpp => ih (p := ⟨ct, u, below S p.src ct u, below D p.dst ct u⟩) Stored.below hpp) hl
    rw [List.nil_append] at hk
    subst hk
    have hc : childPlaces S D p = ((Dict.keys mp).flatMap fun ct =>
      (kidIds p.src ct ++ kidIds p.dst ct).eraseDups.map fun u => ⟨ct, u, below S p.src ct u, below D p.dst ct u⟩) := by
      rw [(pMapping_ok hmp).1, keys_mappingOf]
      simp only [below_eq_kidIds]
      rfl
    rw [← hc] at hM
    refine .mk ⟨Stored.type_or hS hD hp hm, rfl, rfl, ?_, rfl, rfl⟩ hM.1 hM.2
    intro m' hm'; rw [hm] at hm'; cases hm'; exact ⟨rfl, rfl⟩

theorem pTypes_order {C : DiffCtx V} {S D : Snap V} (hS : S.Consistent) (hD : D.Consistent) (hF : SameFields S D) (n : Nat)
    (ts : List String) {kids0 es : List (Elem V)} {k : Nat} (h : pTypes C S D n ts kids0 = .ok (es, k)) :
    ∃ es', es = kids0 ++ es' ∧ MatchAll (InOrder C.src C.dst C.flags S D) es' (visible C.flags (ts.flatMap fun t =>
      ((S.all t).map Model.uid ++ (D.all t).map Model.uid).eraseDups.map fun u => ⟨t, u, S.find t u, D.find t u⟩)) := by
  induction ts generalizing kids0 k with
  | nil => cases h; exact ⟨[], by simp, MatchAll.nil⟩
  | cons t ts ih =>
    unfold pTypes at h
    obtain ⟨es1, _, _, h1, h, _⟩ := P.bind_eq_ok.1 h
    obtain ⟨kids', _, _, h2, h, _⟩ := P.bind_eq_ok.1 h
    have h2 := addElems_ok (P.lift_eq_ok.1 h2).1
    subst h2
    obtain ⟨es2, rfl, m2⟩ := ih h
    cases n with
    | zero => cases h1
    | succ n =>
      have m1 := level_order (t := t) (R := InOrder C.src C.dst C.flags S D) (get?_byUid_all hS t) (get?_byUid_all hD t)
        (fun u e k hp => pPair_order hS hD hF n (p := ⟨t, u, S.find t u, D.find t u⟩) ⟨fun m hm => hm, fun m hm => hm⟩ hp) h1
      exact ⟨es1 ++ es2, by simp, m1.visible_append m2⟩

/-- **C93** The elements of a returned diff are in this order, at the top and below every element: by type, at the top as in the destination's `top_level`
and below an element as the (source's) class declares its children; of one type first what the source has, in the order in which it holds it or its object
lists it, and then what only the destination has, in its order; what flags exclude is left out. -/
theorem C93_diff_in_order {n : Nat} {src dst : Adapter V} {dc : DiffClass V} {flags : Nat} {w w' : World V E}
    {d : Diff V} (h : Comparable src dst w) (hr : diffFrom n dst src dc flags w = (.ok d, w')) :
    d.kids.length = (visible flags (topPlaces src dst (snap src w) (snap dst w))).length ∧
    ∀ x ∈ d.kids.zip (visible flags (topPlaces src dst (snap src w) (snap dst w))), InOrder src dst flags (snap src w) (snap dst w) x.1 x.2 := by
  obtain ⟨_, h2⟩ := diffFrom_spec n dst src dc flags w h.ok.refs_lt h.ok.tbl_wf h.src_types h.dst_types
  cases hp : pDiff ⟨src, dst, flags⟩ (snap src w) (snap dst w) n with
  | error e => rw [hp, hr] at h2; cases h2
  | ok r =>
    obtain ⟨es, k⟩ := r
    rw [hp, hr] at h2
    obtain ⟨h2, h3⟩ := h2
    cases h2
    unfold pDiff at hp
    obtain ⟨_, _, _, _, hp, _⟩ := P.bind_eq_ok.1 hp
    obtain ⟨es', he, hm⟩ := pTypes_order h.src_ok h.dst_ok h.fields n _ hp
    rw [List.nil_append] at he
    subst he
    have : intersection dst.topLevel src.topLevel = dst.topLevel.filter (fun t => decide (t ∈ src.topLevel)) := by
      unfold intersection
      apply List.filter_congr
      intro t _
      simp
    simp only [this] at hm
    exact hm

/-! ## What `get_children` yields -/

/-- Equal types stand together. -/
def Blocks : List String → Prop
  | [] => True
  | a :: l => (a ∈ l → l.head? = some a) ∧ Blocks l

theorem Blocks.append {A B : List String} {t : String} (hA : ∀ a ∈ A, a = t) (hB : t ∉ B) (h : Blocks B) : Blocks (A ++ B) := by
  induction A with
  | nil => exact h
  | cons a A ih =>
    obtain rfl := hA a (by simp)
    refine ⟨fun hm => ?_, ih (fun x hx => hA x (List.mem_cons_of_mem _ hx))⟩
    cases A with
    | nil => exact absurd hm hB
    | cons b A => simp [hA b (by simp)]

theorem blocks_flatMap {α : Type} {g : String → List α} {ty : α → String} (hg : ∀ t, ∀ x ∈ g t, ty x = t) : ∀ {ts : List String}, ts.Nodup →
    Blocks ((ts.flatMap g).map ty) := by
  intro ts
  induction ts with
  | nil => intro _; trivial
  | cons t ts ih =>
    intro hn
    rw [List.nodup_cons] at hn
    rw [List.flatMap_cons, List.map_append]
    refine Blocks.append (t := t) ?_ ?_ (ih hn.2)
    · intro a ha
      obtain ⟨x, hx, rfl⟩ := List.mem_map.1 ha
      exact hg t x hx
    · intro ht
      obtain ⟨x, hx, hxt⟩ := List.mem_map.1 ht
      obtain ⟨t', ht', hx⟩ := List.mem_flatMap.1 hx
      exact hn.1 ((hxt.symm.trans (hg t' x hx)) ▸ ht')

theorem grouped_of_blocks : ∀ {ks : List (Elem V)}, Blocks (ks.map Elem.type) → (groups ks).flatMap (group ks) = ks := by
  intro ks
  induction ks with
  | nil => intro _; rfl
  | cons e es ih =>
    rintro ⟨h1, h2⟩
    have ih := ih h2
    by_cases hm : e.type ∈ es.map Elem.type
    · have hh := h1 hm
      cases es with
      | nil => cases hm
      | cons x r =>
        simp only [List.map_cons, List.head?_cons, Option.some.injEq] at hh
        rw [groups, List.flatMap_cons]
        rw [groups, List.flatMap_cons] at ih
        have hf : (groups (x :: r)).filter (fun g => !(g == e.type)) = (groups r).filter (fun g => !(g == x.type)) := by
          rw [groups, List.filter_cons, hh, List.filter_filter]
          simp
        rw [hf, flatMap_group_cons_not_mem _ e _ (by simp [hh])]
        have hg : group (e :: x :: r) e.type = e :: group (x :: r) x.type := by
          unfold group
          rw [List.filter_cons, ← hh]
          simp
        rw [hg, List.cons_append, ih]
    · have hne : ∀ x ∈ es, x.type ≠ e.type := fun x hx hxe => hm (hxe ▸ List.mem_map_of_mem hx)
      have hg : e.type ∉ groups es := by
        rw [mem_groups]; rintro ⟨x, hx, hxe⟩; exact hne x hx hxe
      rw [groups, List.flatMap_cons, List.filter_eq_self.2 (fun g hg' => by simp; rintro rfl; exact hg hg')]
      rw [flatMap_group_cons_not_mem _ e _ hg, ih]
      have : group (e :: es) e.type = [e] := by
        unfold group
        rw [List.filter_cons, List.filter_eq_nil_iff.2 (fun x hx => by simpa using hne x hx)]
        simp
      rw [this]; rfl

theorem map_type_of_match {R : Elem V → Pos V → Prop} (hR : ∀ e p, R e p → e.type = p.type) {es : List (Elem V)} {ps : List (Pos V)}
    (h : MatchAll R es ps) : es.map Elem.type = ps.map Pos.type := by
  induction es generalizing ps with
  | nil => cases ps with
    | nil => rfl
    | cons p ps => cases h.1
  | cons e es ih =>
    cases ps with
    | nil => cases h.1
    | cons p ps =>
      rw [List.map_cons, List.map_cons, hR e p (h.2 (e, p) (by simp)), ih ⟨by simpa using h.1, fun x hx => h.2 x (by simp [hx])⟩]

theorem MatchAll.left_mem {R : Elem V → Pos V → Prop} {es : List (Elem V)} : ∀ {ps : List (Pos V)}, MatchAll R es ps → ∀ {e}, e ∈ es →
    ∃ p ∈ ps, R e p := by
  induction es with
  | nil => intro _ _ _ he; cases he
  | cons e es ih =>
    intro ps h x hx
    cases ps with
    | nil => cases h.1
    | cons p ps =>
      rcases List.mem_cons.1 hx with rfl | hx
      · exact ⟨p, by simp, h.2 (x, p) (by simp)⟩
      · obtain ⟨q, hq, hr⟩ := ih (ps := ps) ⟨by simpa using h.1, fun x hx => h.2 x (by simp [hx])⟩ hx
        exact ⟨q, List.mem_cons_of_mem _ hq, hr⟩

theorem InOrder.header {src dst : Adapter V} {flags : Nat} {S D : Snap V} {e : Elem V} {p : Pos V} (h : InOrder src dst flags S D e p) :
    Header src dst e p := by cases h; assumption

theorem InOrder.type {src dst : Adapter V} {flags : Nat} {S D : Snap V} {e : Elem V} {p : Pos V} (h : InOrder src dst flags S D e p) :
    e.type = p.type := h.header.type_eq

theorem visible_flatMap (flags : Nat) (ts : List String) (g : String → List (Pos V)) :
    visible flags (ts.flatMap g) = ts.flatMap (fun t => visible flags (g t)) := by
  unfold visible
  rw [List.filter_flatMap]

theorem comparedTypes_nodup {S D : Snap V} (hS : S.Consistent) (hD : D.Consistent) {p : Pos V} (hp : Stored S D p) :
    (comparedTypes p.src p.dst).Nodup := by
  obtain ⟨t, u, s, d⟩ := p
  cases s with
  | none =>
    cases d with
    | none => exact List.nodup_nil
    | some d => exact hD.children_nodup _ _ _ (hp.2 d rfl)
  | some s =>
    cases d with
    | none => exact hS.children_nodup _ _ _ (hp.1 s rfl)
    | some d => exact (hS.children_nodup _ _ _ (hp.1 s rfl)).filter _

theorem Stored.childPlaces {S D : Snap V} {p c : Pos V} (hc : c ∈ DS.childPlaces S D p) : Stored S D c := by
  unfold DS.childPlaces at hc
  obtain ⟨ct, _, hc⟩ := List.mem_flatMap.1 hc
  obtain ⟨u, _, rfl⟩ := List.mem_map.1 hc
  constructor
  · intro m hm
    simp only at hm
    split at hm
    · exact hm
    · cases hm
  · intro m hm
    simp only at hm
    split at hm
    · exact hm
    · cases hm

theorem InOrder.grouped {src dst : Adapter V} {flags : Nat} {S D : Snap V} (hS : S.Consistent) (hD : D.Consistent) {e : Elem V} {p : Pos V}
    (h : InOrder src dst flags S D e p) (hp : Stored S D p) : (groups e.kids).flatMap (group e.kids) = e.kids := by
  obtain ⟨_, h2, h3⟩ := h
  apply grouped_of_blocks
  rw [map_type_of_match (fun e p (h : InOrder src dst flags S D e p) => h.type) ⟨h2, h3⟩, childPlaces, visible_flatMap]
  refine blocks_flatMap ?_ (comparedTypes_nodup hS hD hp)
  intro t x hx
  obtain ⟨u, _, rfl⟩ := List.mem_map.1 (List.mem_filter.1 hx).1
  rfl

theorem InOrder.grouped_in {src dst : Adapter V} {flags : Nat} {S D : Snap V} (hS : S.Consistent) (hD : D.Consistent) {es : List (Elem V)} {x : Elem V}
    (hx : InTree x es) : ∀ {ps : List (Pos V)}, (∀ p ∈ ps, Stored S D p) → MatchAll (InOrder src dst flags S D) es ps →
    (groups x.kids).flatMap (group x.kids) = x.kids := by
  induction hx with
  | here hx =>
    intro ps hp hm
    obtain ⟨p, hp', h⟩ := MatchAll.left_mem hm hx
    exact h.grouped hS hD (hp p hp')
  | under hk hx ih =>
    intro ps hp hm
    obtain ⟨p, hp', h⟩ := MatchAll.left_mem hm hk
    obtain ⟨_, h2, h3⟩ := h
    exact ih (fun c hc => Stored.childPlaces (List.mem_filter.1 hc).1) ⟨h2, h3⟩

/-- **C93** A diff class that does not reorder its children yields them, at the top and below every element, in the order in which
the diff holds them: no type is taken up again once another type has begun. -/
theorem C93_get_children {n : Nat} {src dst : Adapter V} {dc : DiffClass V} {flags : Nat} {w w' : World V E}
    {d : Diff V} (h : Comparable src dst w) (hr : diffFrom n dst src dc flags w = (.ok d, w')) (hdc : ∀ g l, dc.order g l = l) :
    getChildren dc d.kids = d.kids ∧ ∀ x, InTree x d.kids → getChildren dc x.kids = x.kids := by
  obtain ⟨h1, h2⟩ := C93_diff_in_order h hr
  have hg : ∀ ks : List (Elem V), getChildren dc ks = (groups ks).flatMap (group ks) := by
    intro ks
    unfold getChildren
    simp only [hdc]
  rw [hg]
  refine ⟨grouped_of_blocks ?_, fun x hx => ?_⟩
  · rw [map_type_of_match (fun e p (h : InOrder src dst flags (snap src w) (snap dst w) e p) => h.type) ⟨h1, h2⟩, topPlaces, visible_flatMap]
    refine blocks_flatMap ?_ (h.top_nodup.filter _)
    intro t x hx
    obtain ⟨u, _, rfl⟩ := List.mem_map.1 (List.mem_filter.1 hx).1
    rfl
  · rw [hg]
    refine InOrder.grouped_in h.src_ok h.dst_ok hx (ps := visible flags (topPlaces src dst (snap src w) (snap dst w))) (fun p hp => ?_) ⟨h1, h2⟩
    obtain ⟨t, _, hp⟩ := List.mem_flatMap.1 (List.mem_filter.1 hp).1
    obtain ⟨u, _, rfl⟩ := List.mem_map.1 hp
    exact ⟨fun m hm => hm, fun m hm => hm⟩

end DS
