import Verif.Props.SameContents
import Verif.Props.ChainEx
import Verif.Props.HistoryEx
/-! # C69 on concrete adapters: local stores against Redis stores -/
set_option maxRecDepth 100000

namespace DS.Ex

theorem reachable_loadAll {A : Adapter String} (hA : Family famF A) (rs : List Ref) {w : World String (List Outcome)} (hw : Reachable famF False w)
    (h : ∀ r ∈ rs, r < w.next ∧ Dict.get? (ad 0).classes (w.heap r).m.type = some (w.heap r).m.cls) (hn : NewTo A rs w) (ok : w.OK) :
    Reachable famF False (loadAll A rs w).2 := by
  induction rs generalizing w with
  | nil => exact hw
  | cons r rs ih =>
    obtain ⟨w1, a1, a2, a3, a4, a5, _⟩ := add_new ok (hn.alloc r List.mem_cons_self) (hn.taken r List.mem_cons_self) hn.redis (hn.unused r List.mem_cons_self)
    obtain ⟨hd1, hd2⟩ := List.pairwise_cons.1 hn.distinct
    have hm : ∀ {x}, x ∈ rs → x ∈ r :: rs := List.mem_cons_of_mem _
    have hk : ∀ x ∈ r :: rs, keyOf w1 x = keyOf w x := fun x hx => by unfold keyOf; rw [a4 x (hn.alloc x hx)]
    have r1 : Reachable famF False (add A r w).2 :=
      .step hw ⟨_, .add hA ⟨(h r List.mem_cons_self).1, by rw [hA.classes]; exact (h r List.mem_cons_self).2⟩ (fun hf => hf.elim)⟩
    rw [a1] at r1
    show Reachable famF False ((do add A r; loadAll A rs : M String (List Outcome) Unit) w).2
    rw [M.bind_ok a1]
    refine ih r1 (fun x hx => ?_) ?_ a2
    · rw [a4 x (hn.alloc x (hm hx)), a3]; exact h x (hm hx)
    · exact
      { alloc := fun x hx => a3 ▸ hn.alloc x (hm hx)
        distinct := by
          refine List.Pairwise.imp_of_mem ?_ hd2
          intro x y hx hy hne
          rwa [hk x (hm hx), hk y (hm hy)]
        unused := fun x hx => by
          rw [hk x (hm hx), a5, if_neg (fun he => hd1 x hx he.symm)]
          exact hn.unused x (hm hx)
        taken := fun x hx => by rw [hk x (hm hx)]; exact hn.taken x (hm hx)
        redis := hn.redis }

/-- Some objects: a site with its devices, and a younger copy. -/
def wS : World String (List Outcome) :=
  addModels (ad 9) [site "nyc" ["a", "b"], device "a" "leaf" [], device "b" "spine" [], site "rio" []]
  (addModels (ad 8) [site "nyc" ["a", "c"], device "a" "core" [], device "c" "leaf" []] (world0 String _ []))
theorem wS_ok : wS.OK := addModels_ok _ _ _ (addModels_ok _ _ _ (world0_ok _))
theorem wS_reachable : Reachable famF False wS :=
  reachable_addModels (ad_family 9) _ (by decide +kernel) (reachable_addModels (ad_family 8) _ (by decide +kernel) reachable_world0)

/-- Loaded into two local stores. -/
def wSa := (loadAll (ad 1) [3, 4, 5, 6] wS).2
def wSb := (loadAll (ad 2) [0, 1, 2] wSa).2
/-- Loaded into two Redis stores, in other orders. -/
def wSc := (loadAll (adR 1 "one") [6, 4, 3, 5] wS).2
def wSd := (loadAll (adR 2 "two") [2, 0, 1] wSc).2

theorem newTo_of {A : Adapter String} {rs : List Ref} {w : World String (List Outcome)} (hr : ∀ sid, A.ref.store = .redis sid → Plain sid)
    (h1 : ∀ r ∈ rs, r < w.next) (h2 : (rs.map (keyOf w)).Nodup) (h3 : ∀ r ∈ rs, (snap A w).find (keyOf w r).1 (keyOf w r).2 = none)
    (h4 : ∀ r ∈ rs, Plain (keyOf w r).1) : NewTo A rs w where
  alloc := h1
  distinct := List.pairwise_map.1 h2
  unused := h3
  taken r hr := by unfold Adapter.Takes; split <;> first | trivial | exact h4 r hr
  redis := hr

theorem plain_ad {k sid} (h : (ad k).ref.store = .redis sid) : Plain sid := by cases h
theorem plain_adR {k s sid} (hs : Plain s) (h : (adR k s).ref.store = .redis sid) : Plain sid := by cases h; exact hs

theorem new_a : NewTo (ad 1) [3, 4, 5, 6] wS := newTo_of (fun _ => plain_ad) (by decide +kernel) (by decide +kernel) (by decide +kernel) (by decide +kernel)
theorem new_c : NewTo (adR 1 "one") [6, 4, 3, 5] wS :=
  newTo_of (fun _ => plain_adR (by decide)) (by decide +kernel) (by decide +kernel) (by decide +kernel) (by decide +kernel)
theorem new_b : NewTo (ad 2) [0, 1, 2] wSa := newTo_of (fun _ => plain_ad) (by decide +kernel) (by decide +kernel) (by decide +kernel) (by decide +kernel)
theorem new_d : NewTo (adR 2 "two") [2, 0, 1] wSc :=
  newTo_of (fun _ => plain_adR (by decide)) (by decide +kernel) (by decide +kernel) (by decide +kernel) (by decide +kernel)

theorem loaded {A : Adapter String} {rs : List Ref} {w : World String (List Outcome)} (ok : w.OK) (h : NewTo A rs w) :
    loadAll A rs w = (.ok (), (loadAll A rs w).2) ∧ (loadAll A rs w).2.OK ∧
      ∀ B : Adapter String, B.ref.store ≠ A.ref.store → (∀ sid, B.ref.store = .redis sid → Plain sid) →
        ∀ t u, (snap B (loadAll A rs w).2).find t u = (snap B w).find t u := by
  obtain ⟨w', h1, h2, _, _, _, h3⟩ := loadAll_spec A rs w ok h
  rw [h1]
  exact ⟨rfl, h2, h3⟩
theorem wSa_ok : wSa.OK := (loaded wS_ok new_a).2.1
theorem wSc_ok : wSc.OK := (loaded wS_ok new_c).2.1

theorem load_a : loadAll (ad 1) [3, 4, 5, 6] wS = (.ok (), wSa) := by unfold wSa; exact (loaded wS_ok new_a).1
theorem load_b : loadAll (ad 2) [0, 1, 2] wSa = (.ok (), wSb) := by unfold wSb; exact (loaded wSa_ok new_b).1
theorem load_c : loadAll (adR 1 "one") [6, 4, 3, 5] wS = (.ok (), wSc) := by unfold wSc; exact (loaded wS_ok new_c).1
theorem load_d : loadAll (adR 2 "two") [2, 0, 1] wSc = (.ok (), wSd) := by unfold wSd; exact (loaded wSc_ok new_d).1
theorem keep_a (t u : String) : (snap (ad 2) wSa).find t u = (snap (ad 2) wS).find t u := by
  unfold wSa; exact (loaded wS_ok new_a).2.2 (ad 2) (by decide) (fun _ => plain_ad) t u
theorem keep_b (t u : String) : (snap (ad 1) wSb).find t u = (snap (ad 1) wSa).find t u := by
  unfold wSb; exact (loaded wSa_ok new_b).2.2 (ad 1) (by decide) (fun _ => plain_ad) t u
theorem keep_c (t u : String) : (snap (adR 2 "two") wSc).find t u = (snap (adR 2 "two") wS).find t u := by
  unfold wSc; exact (loaded wS_ok new_c).2.2 (adR 2 "two") (by decide) (fun _ => plain_adR (by decide)) t u
theorem keep_d (t u : String) : (snap (adR 1 "one") wSd).find t u = (snap (adR 1 "one") wSc).find t u := by
  unfold wSd; exact (loaded wSc_ok new_d).2.2 (adR 1 "one") (by decide) (fun _ => plain_adR (by decide)) t u

theorem empty_find {k : Nat} {w : World String (List Outcome)} (h : objs k w = []) (t u : String) : (snap (ad k) w).find t u = none := by
  cases hf : (snap (ad k) w).find t u with
  | none => rfl
  | some m => have := mem_objs (k := (t, u)) hf; rw [h] at this; cases this
theorem emptyR_find {k : Nat} {s : String} {w : World String (List Outcome)} (h : w.redis = []) (t u : String) : (snap (adR k s) w).find t u = none := by
  simp only [snap, adR, h]
  split <;> rfl

/-- The sources hold the same once loaded. -/
theorem same_src : SameContents (snap (ad 1) wSb) (snap (adR 1 "one") wSd) := by
  have h := C69_load_order wS_ok wS_ok new_a new_c
    (fun t u => by rw [empty_find (by decide +kernel), emptyR_find (by decide +kernel)]; exact .absent) (by decide +kernel)
    load_a load_c
  intro t u
  rw [keep_b, keep_d]
  exact h t u
/-- And so do the targets. -/
theorem same_dst : SameContents (snap (ad 2) wSb) (snap (adR 2 "two") wSd) := by
  refine C69_load_order wSa_ok wSc_ok new_b new_d (fun t u => ?_) (by decide +kernel) load_b load_d
  rw [keep_a, keep_c, empty_find (by decide +kernel), emptyR_find (by decide +kernel)]
  exact .absent

theorem comparable_b : Comparable (ad 1) (ad 2) wSb :=
  C57_fit_for_diffs (reachable_loadAll (ad_family 2) _ (reachable_loadAll (ad_family 1) _ wS_reachable (by decide +kernel) new_a wS_ok) (by decide +kernel) new_b wSa_ok)
    (ad_family 1) (ad_family 2) (fields_famF rfl rfl) (by decide)
theorem comparable_d : Comparable (adR 1 "one") (adR 2 "two") wSd :=
  C57_fit_for_diffs (reachable_loadAll (adR_family 2 (by decide)) _
      (reachable_loadAll (adR_family 1 (by decide)) _ wS_reachable (by decide +kernel) new_c wS_ok) (by decide +kernel) new_d wSc_ok)
    (adR_family 1 (by decide)) (adR_family 2 (by decide)) (fields_famF rfl rfl) (by decide)

/-- C69 applies: the diff of the two local stores and that of the two Redis stores have the same elements and counts, and there are some. -/
example {d d' : Diff String} {wa wb} (h : diffFrom 10 (ad 2) (ad 1) (DiffClass.default _) 0 wSb = (.ok d, wa))
    (h' : diffFrom 10 (adR 2 "two") (adR 1 "one") (DiffClass.default _) 0 wSd = (.ok d', wb)) :
    SameElems d.kids d'.kids ∧ d'.len = d.len :=
  ⟨C69_same_diff comparable_b comparable_d (fun _ => Iff.rfl) (fun _ => Iff.rfl) same_src same_dst h h',
    (C69_same_counts comparable_b comparable_d (fun _ => Iff.rfl) (fun _ => Iff.rfl) same_src same_dst reorders_default reorders_default h h').2.1⟩
example : (∃ d, (diffFrom 10 (ad 2) (ad 1) (DiffClass.default _) 0 wSb).1 = .ok d) ↔
    ∃ d, (diffFrom 10 (adR 2 "two") (adR 1 "one") (DiffClass.default _) 0 wSd).1 = .ok d :=
  C69_returns_alike comparable_b comparable_d (fun _ => Iff.rfl) (fun _ => Iff.rfl) same_src same_dst
example : ((diffFrom 10 (ad 2) (ad 1) (DiffClass.default _) 0 wSb).1.toOption.map Diff.len) = some 5 ∧
    ((diffFrom 10 (adR 2 "two") (adR 1 "one") (DiffClass.default _) 0 wSd).1.toOption.map Diff.len) = some 5 := by decide +kernel
example := C69_load wS_ok new_c

end DS.Ex
