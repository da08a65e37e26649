import Verif.Props.BackRefs
import Verif.Props.HistoryConv
/-! # C74: work on one store leaves the others alone -/
set_option linter.unusedSectionVars false

namespace DS
variable {V E : Type} [PyVal V] {F : Decls V}

theorem entries_get? {sid k : String} (hk : (storeLabel sid ++ ":").toList.isPrefixOf k.toList = true) (d : Dict (Obj V)) :
    Dict.get? d k = Dict.get? (entriesOf sid d) k := by
  unfold entriesOf
  rw [Dict.get?_filter (fun k => (storeLabel sid ++ ":").toList.isPrefixOf k.toList), if_pos hk]

theorem entries_scan {sid t : String} (hs : Plain sid) (d : Dict (Obj V)) :
    scanKeys d (storeLabel sid ++ (":" ++ (t ++ ":"))) = scanKeys (entriesOf sid d) (storeLabel sid ++ (":" ++ (t ++ ":"))) := by
  have hk : Dict.keys (entriesOf sid d) = (Dict.keys d).filter (fun k => (storeLabel sid ++ ":").toList.isPrefixOf k.toList) := by
    unfold entriesOf Dict.keys
    rw [List.filter_map]; rfl
  unfold scanKeys
  rw [hk, List.filter_filter]
  refine List.filter_congr fun k hk => ?_
  cases hg : globMatch (storeLabel sid ++ (":" ++ (t ++ ":")) ++ "*") k with
  | false => rfl
  | true =>
    have := scan_store (d := d) hs (List.mem_filter.2 ⟨hk, hg⟩)
    rw [this]; rfl

theorem storeKey (sid t u : String) : (storeLabel sid ++ ":").toList.isPrefixOf (redisKey sid t u).toList = true := by
  rw [List.isPrefixOf_iff_prefix]
  exact ⟨(t ++ (":" ++ u)).toList, by unfold redisKey; simp [String.toList_append]⟩

theorem Aside.snap {S : StoreKind} {w w' : World V E} (hw : w.OK) (h : Aside S w w') {A : Adapter V} (hA : Family F A) (hne : S ≠ A.ref.store) :
    snap A w' = snap A w := by
  unfold DS.snap
  cases hs : A.ref.store with
  | «local» sid =>
    have hS : S ≠ .local sid := fun he => hne (he.trans hs.symm)
    dsimp only
    congr 1
    · funext t
      rw [h.tbl sid hS t]
      refine List.map_congr_left fun r hr => ?_
      obtain ⟨u, hu⟩ := mem_values_findRef hw.tbl_wf hr
      exact h.same sid hS t u r hu
    · funext t u
      have he : findRef w' sid t u = findRef w sid t u := by unfold findRef; rw [h.tbl sid hS t]
      rw [he]
      cases hf : findRef w sid t u with
      | none => rfl
      | some r => simp only [Option.map_some]; rw [h.same sid hS t u r hf]
  | redis sid =>
    have hS : S ≠ .redis sid := fun he => hne (he.trans hs.symm)
    have hp := (hA.plain sid hs).1
    have he := h.redis sid hS hp
    dsimp only
    congr 1
    · funext t
      rw [entries_scan hp w'.redis, he, ← entries_scan hp]
      by_cases ht : Plain t
      · rw [if_pos ht, if_pos ht]
        refine filterMap_congr_in fun k hk => ?_
        rw [entries_get? (scan_store hp hk) w'.redis, he, ← entries_get? (scan_store hp hk)]
      · rw [if_neg ht, if_neg ht]
    · funext t u
      rw [entries_get? (storeKey sid t u) w'.redis, he, ← entries_get? (storeKey sid t u)]

theorem StepOn.aside {w w' : World V E} {S : StoreKind} (h : Reachable F True w) (hs : StepOn F True w S w') : Aside S w w' :=
  (hs.evo (O := some S) (h.invO (fun _ => trivial)) (fun _ => trivial)).2.aside S rfl

theorem Elsewhere.reachable {w w' : World V E} {S : StoreKind} (h : Reachable F True w) (hs : Elsewhere F S w w') : Reachable F True w' := by
  induction hs with
  | refl => exact h
  | step _ h2 _ ih => exact .step ih ⟨_, h2⟩

/-- **C74** Whatever a program does with other stores, in any order, any number of times and with any failures, an adapter holds what it held. -/
theorem C74_isolated {w w' : World V E} (h : Reachable F True w) {B : Adapter V} (hB : Family F B) (hs : Elsewhere F B.ref.store w w') :
    snap B w' = snap B w := by
  induction hs with
  | refl => rfl
  | step h1 h2 hne ih => exact ((h2.aside (h1.reachable h)).snap (h1.reachable h).inv.ok hB hne).trans ih

/-- **C74** Meanwhile a local store holds the very same objects. -/
theorem C74_same_objects {w w' : World V E} (h : Reachable F True w) {sid : Nat} (hs : Elsewhere F (.local sid) w w') (t u : String) :
    findRef w' sid t u = findRef w sid t u := by
  induction hs with
  | refl => rfl
  | step h1 h2 hne ih =>
    refine Eq.trans ?_ ih
    unfold findRef
    rw [(h2.aside (h1.reachable h)).tbl sid hne t]

/-- **C74** Two adapters with different stores never come to hold the same object. -/
theorem C74_separate {w : World V E} (h : Reachable F True w) {A B : Adapter V} (hA : Family F A) (hne : A.ref.store ≠ B.ref.store) : Separate A B w := by
  unfold Separate
  cases ha : A.ref.store with
  | «local» s =>
    cases hb : B.ref.store with
    | «local» sid =>
      rw [ha, hb] at hne
      refine ⟨fun he => hne (by rw [he]), fun t u t' u' r h1 h2 => ?_⟩
      obtain ⟨x, hx, hxs⟩ := C62_stored_objects_refer_back h A s ha t u r h1
      obtain ⟨y, hy, hys⟩ := C62_stored_objects_refer_back h B sid hb t' u' r h2
      rw [hx] at hy
      cases hy
      exact hne (hxs.symm.trans hys)
    | redis sid => trivial
  | redis s =>
    cases hb : B.ref.store with
    | «local» sid => trivial
    | redis sid =>
      rw [ha, hb] at hne
      exact ⟨fun he => hne (by rw [he]), (hA.plain s ha).1⟩

/-- **C74** No sync changes its source, or any adapter but the destination: whatever diff is supplied, if any, and whatever fails. -/
theorem C74_sync {w : World V E} (h : Reachable F True w) {dst src B : Adapter V} (hd : Family F dst) (hs : Family F src) (hB : Family F B)
    (hne : dst.ref.store ≠ B.ref.store) (n rl : Nat) (hooks : Hooks V E) (dc : DiffClass V) (flags : Nat) {diff : Option (Diff V)}
    (hi : ∀ d, diff = some d → SparesIds dst d.kids) : snap B (syncFrom n rl hooks dst src dc flags diff w).2 = snap B w :=
  C74_isolated h hB (.step .refl (.sync hd hs hi) hne)

/-- **C74** So after any history two adapters with different stores, which declare the same models and hold alike forests, converge. -/
theorem C74_converges {w : World V E} (h : Reachable F True w) {src dst : Adapter V} (hs : Family F src) (hd : Family F dst) {sid : Nat}
    (hl : dst.ref.store = .local sid) (hne : src.ref.store ≠ dst.ref.store) (ht : dst.topLevel.Nodup) (hm : SameModels src dst) {n : Nat}
    (ha : Alike src dst n (snap src w) (snap dst w)) {rl : Nat} (hrl : n ≤ rl) {hooks : Hooks V E} {dc : DiffClass V} (hR : dc.Reorders) {flags : Nat}
    {res : Except Err (Diff V)} {w' : World V E} (hr : syncFrom n rl hooks dst src dc flags none w = (res, w')) (hall : AllSucceed (newEvents w w')) :
    (∃ d, res = .ok d) ∧ snap src w' = snap src w ∧ (∀ p, Compared src dst flags (snap src w') (snap dst w') p → p.Visible flags → p.Agrees) ∧
      ∀ dc', ∃ d' w'', diffFrom n dst src dc' flags w' = (.ok d', w'') ∧ d'.hasDiffs = false :=
  C21_after_any_history h hs hd hl ht hm (C74_separate h hs hne) ha hrl hR hr hall

end DS
