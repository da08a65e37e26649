import Verif.Lemmas.DiffRef
/-! # C85: diffs made by hand -/
set_option linter.unusedSectionVars false

namespace DS
variable {V : Type} [PyVal V]

/-! ## One diff -/

theorem pairwise_of_ne {R : Nat → Nat → Prop} (hs : ∀ a b, R a b → R b a) {l : List Nat} (h : l.Pairwise R) {x y : Nat} (hx : x ∈ l) (hy : y ∈ l) (hne : x ≠ y) : R x y := by
  induction l with
  | nil => cases hx
  | cons a l ih =>
    rw [List.pairwise_cons] at h
    rcases List.mem_cons.1 hx with hxa | hx'
    · rcases List.mem_cons.1 hy with hya | hy'
      · exact absurd (hxa.trans hya.symm) hne
      · exact hxa ▸ h.1 _ hy'
    · rcases List.mem_cons.1 hy with hya | hy'
      · exact hya ▸ hs _ _ (h.1 _ hx')
      · exact ih h.2 hx' hy'

/-- **C85** `get_children()` yields the elements that were added, group by group: the groups in the order in which their first element was added, the elements of a group
in the order in which they were added.  `groups()` are the types of these elements. -/
theorem C85_children {h : DiffHeap V} {log : Nat → List Nat} (H : ByHand h log) (d : Nat) :
    h.groups d = typesOf h (log d) ∧ h.children d = (typesOf h (log d)).flatMap fun t => (log d).filter fun e => (h.elem e).type == t :=
  ⟨H.inv.keys d, H.inv.children d⟩

/-- **C85** `add` raises `ObjectAlreadyExists` exactly if an element with the same type and name was added before, and then changes nothing; otherwise it changes no other
diff and no element. -/
theorem C85_add {h : DiffHeap V} {log : Nat → List Nat} (H : ByHand h log) (d e : Nat) :
    ((∃ x ∈ log d, (h.elem x).type = (h.elem e).type ∧ (h.elem x).name = (h.elem e).name) → h.add d e = (.error .objectAlreadyExists, h)) ∧
    ((∀ x ∈ log d, ¬ ((h.elem x).type = (h.elem e).type ∧ (h.elem x).name = (h.elem e).name)) →
      (h.add d e).1 = .ok () ∧ (h.add d e).2.elem = h.elem ∧ ∀ d', d' ≠ d → (h.add d e).2.diff d' = h.diff d') := by
  refine ⟨H.inv.refused, fun ht => ?_⟩
  rw [H.inv.accepted (fun ⟨x, h1, h2⟩ => ht x h1 h2)]
  exact ⟨rfl, rfl, fun d' hd => assign_ne _ _ hd⟩

/-- **C85** So no two elements of a diff have the same type and name, and the one that was there first stays. -/
theorem C85_distinct {h : DiffHeap V} {log : Nat → List Nat} (H : ByHand h log) (d : Nat) :
    (h.children d).Nodup ∧ ∀ x ∈ h.children d, ∀ y ∈ h.children d, (h.elem x).type = (h.elem y).type → (h.elem x).name = (h.elem y).name → x = y := by
  have hp := H.inv.distinct d
  have hn : (log d).Nodup := hp.imp fun {a b} hab he => hab (by rw [he]; exact ⟨rfl, rfl⟩)
  refine ⟨?_, fun x hx y hy ht hnm => ?_⟩
  · rw [H.inv.children]
    refine List.pairwise_flatMap.2 ⟨fun t _ => hn.filter _, (typesOf_nodup h (log d)).imp fun {a b} hab x hx y hy hxy => ?_⟩
    subst hxy
    exact hab ((by simpa using (List.mem_filter.1 hx).2 : (h.elem x).type = a).symm.trans (by simpa using (List.mem_filter.1 hy).2))
  · rw [H.inv.mem_children] at hx hy
    exact Decidable.byContradiction fun hne => pairwise_of_ne (fun _ _ hab hc => hab ⟨hc.1.symm, hc.2.symm⟩) hp hx hy hne ⟨ht, hnm⟩

/-- **C85** `add_attrs` replaces the sides that are given and keeps the others; everything else of the element, all other elements and all diffs stay. -/
theorem C85_add_attrs (h : DiffHeap V) (e : Nat) (s d : Option (Dict V)) :
    ((h.addAttrs e s d).elem e).bare = { (h.elem e).bare with src := s.or (h.elem e).src, dst := d.or (h.elem e).dst } ∧
    ((h.addAttrs e s d).elem e).diff = (h.elem e).diff ∧ (∀ x, x ≠ e → (h.addAttrs e s d).elem x = h.elem x) ∧ (h.addAttrs e s d).diff = h.diff := by
  unfold DiffHeap.addAttrs
  refine ⟨?_, ?_, fun x hx => assign_ne _ _ hx, rfl⟩
  · simp only [assign_self, ElemObj.bare]
  · simp only [assign_self]

/-! ## Trees -/

theorem default_class_reorders : (DiffClass.default V).Reorders := fun _ l => List.Perm.refl l

theorem HeapInv.kids_perm {h : DiffHeap V} {log : Nat → List Nat} (I : HeapInv h log) {d : Nat} {f : Nat → Elem V} (H : ∀ c ∈ log d, (f c).type = (h.elem c).type) :
    ((h.children d).map f).Perm ((log d).map f) := by
  rw [← I.getChildren_map H]
  exact getChildren_perm default_class_reorders _

/-- What a recursion over the children gives, if it raises only `RecursionError`. -/
theorem HeapInv.rec_spec {h : DiffHeap V} {log : Nat → List Nat} (I : HeapInv h log) {α : Type} {F : Nat → Except Err α} {G : Elem V → α} {n d : Nat} {f : Nat → Elem V}
    (H : ∀ c ∈ log d, F c = if (f c).depth ≤ n then .ok (G (f c)) else .error .recursionError) :
    DiffHeap.each F (h.children d) = if Elem.depthL ((log d).map f) ≤ n then .ok ((h.children d).map fun c => G (f c)) else .error .recursionError := by
  have H' : ∀ c ∈ h.children d, F c = if (f c).depth ≤ n then .ok (G (f c)) else .error .recursionError := fun c hc => H c (I.mem_children.1 hc)
  split
  · rename_i hn
    rw [depthL_le] at hn
    refine each_ok fun c hc => ?_
    rw [H' c hc, if_pos (hn _ (List.mem_map_of_mem (I.mem_children.1 hc)))]
  · rename_i hn
    rw [depthL_le] at hn
    have : ∃ c ∈ log d, ¬ (f c).depth ≤ n := by
      refine Classical.byContradiction fun hc => hn fun k hk => ?_
      obtain ⟨c, h1, rfl⟩ := List.mem_map.1 hk
      exact Classical.byContradiction fun h2 => hc ⟨c, h1, h2⟩
    obtain ⟨c, h1, h2⟩ := this
    refine each_error (fun x hx e he => ?_) (I.mem_children.2 h1) (by rw [H c h1, if_neg h2])
    rw [H' x hx] at he
    split at he
    · cases he
    · cases he; rfl

/-- **C85** `len` and `summary` of an element that is a tree are those of the tree, if the recursion limit permits its depth; otherwise they raise `RecursionError`. -/
theorem C85_len_summary {h : DiffHeap V} {log : Nat → List Nat} (H : ByHand h log) {e : Nat} {T : Elem V} (ht : IsTree h log e T) (n : Nat) :
    h.len n e = (if T.depth ≤ n then .ok (T.len (DiffClass.default V)) else .error .recursionError) ∧
    h.summary n e = (if T.depth ≤ n then .ok (T.summary (DiffClass.default V)) else .error .recursionError) := by
  have I := H.inv
  induction ht generalizing n with
  | @mk e f hk ih =>
    have hty : ∀ c ∈ log (h.elem e).diff, (f c).type = (h.elem c).type := fun c hc => (hk c hc).header.1
    cases n with
    | zero =>
      rw [Elem.depth_eq, if_neg (by omega), if_neg (by omega)]
      exact ⟨rfl, rfl⟩
    | succ n =>
      have hd : Elem.depth { (h.elem e).bare with kids := (log (h.elem e).diff).map f } ≤ n + 1 ↔ Elem.depthL ((log (h.elem e).diff).map f) ≤ n := by
        rw [Elem.depth_eq]
        change 1 + Elem.depthL ((log (h.elem e).diff).map f) ≤ n + 1 ↔ _
        omega
      have h1 := I.rec_spec (d := (h.elem e).diff) (f := f) (G := Elem.len (DiffClass.default V)) fun c hc => (ih c hc n).1
      have h2 := I.rec_spec (d := (h.elem e).diff) (f := f) (G := Elem.summary (DiffClass.default V)) fun c hc => (ih c hc n).2
      unfold DiffHeap.len DiffHeap.summary DiffHeap.kids
      rw [h1, h2]
      by_cases hn : Elem.depthL ((log (h.elem e).diff).map f) ≤ n
      · simp only [if_pos hn, if_pos (hd.2 hn)]
        rw [Elem.len_eq, Elem.summary_eq, I.getChildren_map hty, List.map_map, List.map_map]
        exact ⟨rfl, rfl⟩
      · simp only [if_neg hn, if_neg fun hx => hn (hd.1 hx)]
        exact ⟨trivial, trivial⟩

theorem hasDiffs_eq_own (e : Elem V) : e.hasDiffs = (Elem.hasDiffsOwn { e with kids := [] } || Elem.hasDiffsL e.kids) := by
  cases e; rfl

/-- **C85** `has_diffs()` of an element that is a tree is that of the tree, if the recursion limit permits its depth. -/
theorem C85_has_diffs {h : DiffHeap V} {log : Nat → List Nat} (H : ByHand h log) {e : Nat} {T : Elem V} (ht : IsTree h log e T) {n : Nat} (hn : T.depth ≤ n) :
    h.hasDiffs n e = .ok T.hasDiffs := by
  have I := H.inv
  induction ht generalizing n with
  | @mk e f hk ih =>
    have hty : ∀ c ∈ log (h.elem e).diff, (f c).type = (h.elem c).type := fun c hc => (hk c hc).header.1
    rw [Elem.depth_eq] at hn
    cases n with
    | zero => omega
    | succ n =>
      have hn' := depthL_le.1 (show Elem.depthL ((log (h.elem e).diff).map f) ≤ n by change 1 + Elem.depthL ((log (h.elem e).diff).map f) ≤ n + 1 at hn; omega)
      unfold DiffHeap.hasDiffs DiffHeap.kids
      rw [anyOf_ok (g := fun c => (f c).hasDiffs) fun c hc => ih c (I.mem_children.1 hc) (hn' _ (List.mem_map_of_mem (I.mem_children.1 hc)))]
      have e1 : (h.children (h.elem e).diff).any (fun c => (f c).hasDiffs) = Elem.hasDiffsL ((log (h.elem e).diff).map f) := by
        rw [hasDiffsL_any, ← any_perm (I.kids_perm hty), List.any_map]
        rfl
      rw [e1, hasDiffs_eq_own]
      change (if (h.elem e).bare.hasDiffsOwn then _ else _) = Except.ok ((h.elem e).bare.hasDiffsOwn || _)
      cases (h.elem e).bare.hasDiffsOwn with
      | true => rfl
      | false => rfl


theorem lines_ok {F : Nat → Except Err String} {P : Nat → Except Err Bool} {G : Nat → String} {Q : Nat → Bool} {i : Nat} {D : Dict (Dict Nat)}
    (H : ∀ p ∈ D, ∀ c ∈ Dict.values p.2, F c = .ok (G c) ∧ P c = .ok (Q c)) :
    DiffHeap.lines F P i D = .ok (D.flatMap fun p => match (Dict.values p.2).filter Q with
      | [] => []
      | c :: cs => (margin i ++ p.1) :: G c :: cs.map G) := by
  induction D with
  | nil => rfl
  | cons p D ih =>
    obtain ⟨g, cs⟩ := p
    unfold DiffHeap.lines
    have hc := H (g, cs) (by simp)
    simp only [those_ok (g := Q) fun c h1 => (hc c h1).2, each_ok (g := G) (l := (Dict.values cs).filter Q) fun c h1 => (hc c (List.mem_filter.1 h1).1).1,
      ih fun p hp => H p (by simp [hp]), List.flatMap_cons]
    congr 2
    cases (Dict.values cs).filter Q with
    | nil => rfl
    | cons x xs => rfl

theorem HeapInv.diffLines_map {h : DiffHeap V} {log : Nat → List Nat} (I : HeapInv h log) {d i : Nat} {f : Nat → Elem V} (H : ∀ c ∈ log d, (f c).type = (h.elem c).type)
    (G : Elem V → String) :
    diffLines G i ((log d).map f) = (h.diff d).flatMap fun p => match (Dict.values p.2).filter (fun c => (f c).hasDiffs) with
      | [] => []
      | c :: cs => (margin i ++ p.1) :: G (f c) :: cs.map fun c => G (f c) := by
  have key : ∀ D : Dict (Dict Nat), (∀ p ∈ D, Dict.values p.2 = (log d).filter fun e => (h.elem e).type == p.1) →
      ((Dict.keys D).flatMap fun g => match (DS.group ((log d).map f) g).filter Elem.hasDiffs with
        | [] => []
        | c :: cs => (margin i ++ g) :: G c :: cs.map G) = D.flatMap fun p => match (Dict.values p.2).filter (fun c => (f c).hasDiffs) with
        | [] => []
        | c :: cs => (margin i ++ p.1) :: G (f c) :: cs.map fun c => G (f c) := by
    intro D hD
    induction D with
    | nil => rfl
    | cons p D ih =>
      rw [Dict.keys_cons, List.flatMap_cons, List.flatMap_cons, ih fun q hq => hD q (by simp [hq])]
      congr 1
      rw [group_map H, hD p (by simp), List.filter_map]
      have : (Elem.hasDiffs ∘ f) = fun c => (f c).hasDiffs := rfl
      rw [this]
      cases ((log d).filter fun e => (h.elem e).type == p.1).filter (fun c => (f c).hasDiffs) with
      | nil => rfl
      | cons x xs => simp only [List.map_cons, List.map_map]; rfl
  unfold diffLines
  rw [typesOf_map H, ← I.keys]
  exact key _ fun p hp => by rw [I.group d p.1 p.2 (Dict.get?_of_mem (I.wf d) hp), values_entries]

/-- `str()` of an element that is a tree, if the recursion limit permits its depth. -/
theorem str_of_tree {h : DiffHeap V} {log : Nat → List Nat} (H : ByHand h log) {e : Nat} {T : Elem V} (ht : IsTree h log e T) {n : Nat} (hn : T.depth ≤ n) (i : Nat) :
    h.str n i e = .ok (T.str i) := by
  have I := H.inv
  induction ht generalizing n i with
  | @mk e f hk ih =>
    have hty : ∀ c ∈ log (h.elem e).diff, (f c).type = (h.elem c).type := fun c hc => (hk c hc).header.1
    rw [Elem.depth_eq] at hn
    cases n with
    | zero => omega
    | succ n =>
      have hn' := depthL_le.1 (show Elem.depthL ((log (h.elem e).diff).map f) ≤ n by change 1 + Elem.depthL ((log (h.elem e).diff).map f) ≤ n + 1 at hn; omega)
      have hm : ∀ c ∈ log (h.elem e).diff, (f c).depth ≤ n := fun c hc => hn' _ (List.mem_map_of_mem hc)
      have hh : ∀ c ∈ log (h.elem e).diff, h.hasDiffs n c = .ok (f c).hasDiffs := fun c hc => C85_has_diffs H (hk c hc) (hm c hc)
      have e1 : (h.children (h.elem e).diff).any (fun c => (f c).hasDiffs) = Elem.hasDiffsL ((log (h.elem e).diff).map f) := by
        rw [hasDiffsL_any, ← any_perm (I.kids_perm hty), List.any_map]
        rfl
      have hown : ∀ ks : List (Elem V), ownText { (h.elem e).bare with kids := ks } i = ownText (h.elem e).bare i := fun _ => rfl
      rw [Elem.str_eq]
      unfold DiffHeap.str DiffHeap.kids
      rw [anyOf_ok (g := fun c => (f c).hasDiffs) fun c hc => hh c (I.mem_children.1 hc), e1]
      change _ = Except.ok (ownText (h.elem e).bare i ++ if Elem.hasDiffsL ((log (h.elem e).diff).map f) = true then "\n" ++ diffText (fun c => c.str (i + 4)) (i + 2) ((log (h.elem e).diff).map f)
        else if ((h.elem e).src.isNone && (h.elem e).dst.isNone) = true then " (no diffs)" else "")
      cases Elem.hasDiffsL ((log (h.elem e).diff).map f) with
      | false => rfl
      | true =>
        unfold DiffHeap.text
        rw [lines_ok (G := fun c => (f c).str (i + 4)) (Q := fun c => (f c).hasDiffs) fun p hp c hc => ?_, if_pos rfl]
        · unfold diffText
          rw [I.diffLines_map hty fun c => c.str (i + 4)]
        · have hc' : c ∈ log (h.elem e).diff := by
            rw [I.group _ p.1 p.2 (Dict.get?_of_mem (I.wf _) hp), values_entries] at hc
            exact (List.mem_filter.1 hc).1
          exact ⟨ih c hc' (hm c hc') (i + 4), hh c hc'⟩

/-! ## Cycles -/

theorem len_error {h : DiffHeap V} (n e : Nat) (err : Err) (H : h.len n e = .error err) : err = .recursionError := by
  induction n generalizing e err with
  | zero => cases H; rfl
  | succ n ih =>
    unfold DiffHeap.len at H
    cases he : DiffHeap.each (h.len n) (h.kids e) with
    | error e' =>
      rw [he] at H
      cases H
      obtain ⟨x, _, hx⟩ := each_err_mem he
      exact ih x _ hx
    | ok l => rw [he] at H; cases H

theorem tree_of_len {h : DiffHeap V} {log : Nat → List Nat} (I : HeapInv h log) (n e v : Nat) (H : h.len n e = .ok v) : ∃ T, IsTree h log e T := by
  induction n generalizing e v with
  | zero => cases H
  | succ n ih =>
    unfold DiffHeap.len at H
    cases he : DiffHeap.each (h.len n) (h.kids e) with
    | error e' => rw [he] at H; cases H
    | ok l =>
      have h1 : ∀ c, ∃ T, c ∈ log (h.elem e).diff → IsTree h log c T := fun c => by
        by_cases hc : c ∈ log (h.elem e).diff
        · obtain ⟨y, hy⟩ := each_mem he c (I.mem_children.2 hc)
          obtain ⟨T, hT⟩ := ih c y hy
          exact ⟨T, fun _ => hT⟩
        · exact ⟨(h.elem e).bare, fun h' => absurd h' hc⟩
      exact ⟨_, .mk (fun c => (h1 c).choose) fun c hc => (h1 c).choose_spec hc⟩

theorem summary_error {h : DiffHeap V} (n e : Nat) (err : Err) (H : h.summary n e = .error err) : err = .recursionError := by
  induction n generalizing e err with
  | zero => cases H; rfl
  | succ n ih =>
    unfold DiffHeap.summary at H
    cases he : DiffHeap.each (h.summary n) (h.kids e) with
    | error e' =>
      rw [he] at H
      cases H
      obtain ⟨x, _, hx⟩ := each_err_mem he
      exact ih x _ hx
    | ok l => rw [he] at H; cases H

theorem tree_of_summary {h : DiffHeap V} {log : Nat → List Nat} (I : HeapInv h log) (n e : Nat) (v : Summary) (H : h.summary n e = .ok v) : ∃ T, IsTree h log e T := by
  induction n generalizing e v with
  | zero => cases H
  | succ n ih =>
    unfold DiffHeap.summary at H
    cases he : DiffHeap.each (h.summary n) (h.kids e) with
    | error e' => rw [he] at H; cases H
    | ok l =>
      have h1 : ∀ c, ∃ T, c ∈ log (h.elem e).diff → IsTree h log c T := fun c => by
        by_cases hc : c ∈ log (h.elem e).diff
        · obtain ⟨y, hy⟩ := each_mem he c (I.mem_children.2 hc)
          obtain ⟨T, hT⟩ := ih c y hy
          exact ⟨T, fun _ => hT⟩
        · exact ⟨(h.elem e).bare, fun h' => absurd h' hc⟩
      exact ⟨_, .mk (fun c => (h1 c).choose) fun c hc => (h1 c).choose_spec hc⟩

theorem anyOf_err_mem {f : Nat → Except Err Bool} {l : List Nat} {err : Err} (H : DiffHeap.anyOf f l = .error err) : ∃ x ∈ l, f x = .error err := by
  induction l with
  | nil => cases H
  | cons a l ih =>
    unfold DiffHeap.anyOf at H
    cases ha : f a with
    | error e => rw [ha] at H; cases H; exact ⟨a, by simp, ha⟩
    | ok b =>
      rw [ha] at H
      cases b with
      | true => cases H
      | false =>
        obtain ⟨x, hx, hf⟩ := ih H
        exact ⟨x, by simp [hx], hf⟩

theorem anyOf_false {f : Nat → Except Err Bool} {l : List Nat} (H : DiffHeap.anyOf f l = .ok false) : ∀ x ∈ l, f x = .ok false := by
  induction l with
  | nil => intro x hx; cases hx
  | cons a l ih =>
    unfold DiffHeap.anyOf at H
    cases ha : f a with
    | error e => rw [ha] at H; cases H
    | ok b =>
      rw [ha] at H
      cases b with
      | true => cases H
      | false =>
        intro x hx
        rcases List.mem_cons.1 hx with rfl | hx
        · exact ha
        · exact ih H x hx

theorem anyOf_true {f : Nat → Except Err Bool} {l : List Nat} (H : DiffHeap.anyOf f l = .ok true) : ∃ x ∈ l, f x = .ok true := by
  induction l with
  | nil => cases H
  | cons a l ih =>
    unfold DiffHeap.anyOf at H
    cases ha : f a with
    | error e => rw [ha] at H; cases H
    | ok b =>
      rw [ha] at H
      cases b with
      | true => exact ⟨a, by simp, ha⟩
      | false =>
        obtain ⟨x, hx, hf⟩ := ih H
        exact ⟨x, by simp [hx], hf⟩

theorem those_err_mem {f : Nat → Except Err Bool} {l : List Nat} {err : Err} (H : DiffHeap.those f l = .error err) : ∃ x ∈ l, f x = .error err := by
  induction l with
  | nil => cases H
  | cons a l ih =>
    unfold DiffHeap.those at H
    cases ha : f a with
    | error e => rw [ha] at H; cases H; exact ⟨a, by simp, ha⟩
    | ok b =>
      rw [ha] at H
      cases hl : DiffHeap.those f l with
      | error e =>
        simp only [hl] at H
        cases H
        obtain ⟨x, hx, hf⟩ := ih hl
        exact ⟨x, by simp [hx], hf⟩
      | ok ys => simp only [hl] at H; cases H

theorem those_mem {f : Nat → Except Err Bool} {l ys : List Nat} (H : DiffHeap.those f l = .ok ys) : ∀ x ∈ l, (f x = .ok true ∧ x ∈ ys) ∨ f x = .ok false := by
  induction l generalizing ys with
  | nil => intro x hx; cases hx
  | cons a l ih =>
    unfold DiffHeap.those at H
    cases ha : f a with
    | error e => rw [ha] at H; cases H
    | ok b =>
      rw [ha] at H
      cases hl : DiffHeap.those f l with
      | error e => simp only [hl] at H; cases H
      | ok zs =>
        simp only [hl] at H
        cases H
        intro x hx
        rcases List.mem_cons.1 hx with rfl | hx
        · cases b with
          | true => exact .inl ⟨ha, by simp⟩
          | false => exact .inr ha
        · rcases ih hl x hx with ⟨h1, h2⟩ | h1
          · refine .inl ⟨h1, ?_⟩
            cases b with
            | true => simp [h2]
            | false => exact h2
          · exact .inr h1

theorem lines_err_mem {f : Nat → Except Err String} {p : Nat → Except Err Bool} {i : Nat} {D : Dict (Dict Nat)} {err : Err} (H : DiffHeap.lines f p i D = .error err) :
    ∃ x, f x = .error err ∨ p x = .error err := by
  induction D with
  | nil => cases H
  | cons q D ih =>
    obtain ⟨g, cs⟩ := q
    unfold DiffHeap.lines at H
    cases ht : DiffHeap.those p (Dict.values cs) with
    | error e =>
      rw [ht] at H; cases H
      obtain ⟨x, _, hx⟩ := those_err_mem ht
      exact ⟨x, .inr hx⟩
    | ok xs =>
      simp only [ht] at H
      cases hs : DiffHeap.each f xs with
      | error e =>
        simp only [hs] at H; cases H
        obtain ⟨x, _, hx⟩ := each_err_mem hs
        exact ⟨x, .inl hx⟩
      | ok ss =>
        simp only [hs] at H
        cases hl : DiffHeap.lines f p i D with
        | error e => simp only [hl] at H; cases H; exact ih hl
        | ok ls => simp only [hl] at H; cases H

theorem lines_mem {f : Nat → Except Err String} {p : Nat → Except Err Bool} {i : Nat} {D : Dict (Dict Nat)} {ls : List String} (H : DiffHeap.lines f p i D = .ok ls) :
    ∀ q ∈ D, ∀ c ∈ Dict.values q.2, (∃ s, f c = .ok s) ∨ p c = .ok false := by
  induction D generalizing ls with
  | nil => intro q hq; cases hq
  | cons q D ih =>
    obtain ⟨g, cs⟩ := q
    unfold DiffHeap.lines at H
    cases ht : DiffHeap.those p (Dict.values cs) with
    | error e => rw [ht] at H; cases H
    | ok xs =>
      simp only [ht] at H
      cases hs : DiffHeap.each f xs with
      | error e => simp only [hs] at H; cases H
      | ok ss =>
        simp only [hs] at H
        cases hl : DiffHeap.lines f p i D with
        | error e => simp only [hl] at H; cases H
        | ok ls' =>
          intro q hq c hc
          rcases List.mem_cons.1 hq with rfl | hq
          · rcases those_mem ht c hc with ⟨_, h2⟩ | h1
            · exact .inl (each_mem hs c h2)
            · exact .inr h1
          · exact ih hl q hq c hc

theorem hasDiffs_error {h : DiffHeap V} (n e : Nat) (err : Err) (H : h.hasDiffs n e = .error err) : err = .recursionError := by
  induction n generalizing e err with
  | zero => cases H; rfl
  | succ n ih =>
    unfold DiffHeap.hasDiffs at H
    split at H
    · cases H
    · obtain ⟨x, _, hx⟩ := anyOf_err_mem H
      exact ih x _ hx

theorem text_error {h : DiffHeap V} {f : Nat → Except Err String} {n i d : Nat} {err : Err} (hf : ∀ x e, f x = .error e → e = .recursionError)
    (H : h.text f n i d = .error err) : err = .recursionError := by
  unfold DiffHeap.text at H
  cases hl : DiffHeap.lines f (h.hasDiffs n) i (h.diff d) with
  | ok ls => rw [hl] at H; cases H
  | error e =>
    rw [hl] at H; cases H
    obtain ⟨x, hx | hx⟩ := lines_err_mem hl
    · exact hf x _ hx
    · exact hasDiffs_error n x _ hx

theorem str_error {h : DiffHeap V} (n i e : Nat) (err : Err) (H : h.str n i e = .error err) : err = .recursionError := by
  induction n generalizing i e err with
  | zero => cases H; rfl
  | succ n ih =>
    unfold DiffHeap.str at H
    cases ha : DiffHeap.anyOf (h.hasDiffs n) (h.kids e) with
    | error e' =>
      rw [ha] at H; cases H
      obtain ⟨x, _, hx⟩ := anyOf_err_mem ha
      exact hasDiffs_error n x _ hx
    | ok b =>
      rw [ha] at H
      cases b with
      | false => cases H
      | true =>
        cases ht : h.text (h.str n (i + 4)) n (i + 2) (h.elem e).diff with
        | ok t => simp only [ht] at H; cases H
        | error e' =>
          simp only [ht] at H; cases H
          exact text_error (fun x e' hx => ih (i + 4) x e' hx) ht

/-- The children are trees of depth at most `n`, so the element is one of depth at most `n + 1`. -/
theorem tree_of_kids {h : DiffHeap V} {log : Nat → List Nat} {n e : Nat} (H : ∀ c ∈ log (h.elem e).diff, ∃ T, IsTree h log c T ∧ T.depth ≤ n) :
    ∃ T, IsTree h log e T ∧ T.depth ≤ n + 1 := by
  have h1 : ∀ c, ∃ T, c ∈ log (h.elem e).diff → IsTree h log c T ∧ T.depth ≤ n := fun c => by
    by_cases hc : c ∈ log (h.elem e).diff
    · obtain ⟨T, hT⟩ := H c hc
      exact ⟨T, fun _ => hT⟩
    · exact ⟨(h.elem e).bare, fun h' => absurd h' hc⟩
  refine ⟨_, .mk (fun c => (h1 c).choose) fun c hc => ((h1 c).choose_spec hc).1, ?_⟩
  rw [Elem.depth_eq]
  have : Elem.depthL ((log (h.elem e).diff).map fun c => (h1 c).choose) ≤ n := depthL_le.2 fun k hk => by
    obtain ⟨c, hc, rfl⟩ := List.mem_map.1 hk
    exact ((h1 c).choose_spec hc).2
  change 1 + Elem.depthL ((log (h.elem e).diff).map fun c => (h1 c).choose) ≤ n + 1
  omega

theorem tree_of_no_diffs {h : DiffHeap V} {log : Nat → List Nat} (I : HeapInv h log) (n e : Nat) (H : h.hasDiffs n e = .ok false) :
    ∃ T, IsTree h log e T ∧ T.depth ≤ n := by
  induction n generalizing e with
  | zero => cases H
  | succ n ih =>
    unfold DiffHeap.hasDiffs at H
    split at H
    · cases H
    · exact tree_of_kids fun c hc => ih c (anyOf_false H c (I.mem_children.2 hc))

theorem tree_of_str {h : DiffHeap V} {log : Nat → List Nat} (I : HeapInv h log) (n i e : Nat) (s : String) (H : h.str n i e = .ok s) :
    ∃ T, IsTree h log e T ∧ T.depth ≤ n := by
  induction n generalizing i e s with
  | zero => cases H
  | succ n ih =>
    unfold DiffHeap.str at H
    cases ha : DiffHeap.anyOf (h.hasDiffs n) (h.kids e) with
    | error e' => rw [ha] at H; cases H
    | ok b =>
      rw [ha] at H
      cases b with
      | false => exact tree_of_kids fun c hc => tree_of_no_diffs I n c (anyOf_false ha c (I.mem_children.2 hc))
      | true =>
        cases ht : h.text (h.str n (i + 4)) n (i + 2) (h.elem e).diff with
        | error e' => simp only [ht] at H; cases H
        | ok t =>
          unfold DiffHeap.text at ht
          cases hl : DiffHeap.lines (h.str n (i + 4)) (h.hasDiffs n) (i + 2) (h.diff (h.elem e).diff) with
          | error e' => rw [hl] at ht; cases ht
          | ok ls =>
            refine tree_of_kids fun c hc => ?_
            have hm : c ∈ h.children (h.elem e).diff := I.mem_children.2 hc
            obtain ⟨q, hq, hcq⟩ := List.mem_flatMap.1 hm
            rcases lines_mem hl q hq c hcq with ⟨s', hs'⟩ | hf
            · exact ih (i + 4) c s' hs'
            · exact tree_of_no_diffs I n c hf

theorem IsTree.unique {h : DiffHeap V} {log : Nat → List Nat} {e : Nat} {T T' : Elem V} (H : IsTree h log e T) (H' : IsTree h log e T') : T = T' := by
  induction H generalizing T' with
  | @mk e f hk ih =>
    cases H' with
    | mk f' hk' =>
      have : (log (h.elem e).diff).map f = (log (h.elem e).diff).map f' := List.map_congr_left fun c hc => ih c hc (hk' c hc)
      rw [this]

theorem IsBelow.trans {h : DiffHeap V} {log : Nat → List Nat} {a b c : Nat} (h1 : IsBelow h log a b) (h2 : IsBelow h log b c) : IsBelow h log a c := by
  induction h1 with
  | child hm => exact .deeper hm h2
  | deeper hm _ ih => exact .deeper hm (ih h2)

theorem IsTree.acyclic {h : DiffHeap V} {log : Nat → List Nat} {e : Nat} {T : Elem V} (H : IsTree h log e T) : ∀ x, (x = e ∨ IsBelow h log e x) → ¬ IsBelow h log x x := by
  induction H with
  | @mk e f hk ih =>
    have sub : ∀ y, IsBelow h log e y → ¬ IsBelow h log y y := by
      intro y hy
      cases hy with
      | child hm => exact ih y hm y (.inl rfl)
      | deeper hm hb => exact ih _ hm y (.inr hb)
    rintro x (rfl | hx)
    · exact fun hxx => sub x hxx hxx
    · exact sub x hx

theorem HeapInv.beneath_lt {h : DiffHeap V} {log : Nat → List Nat} (I : HeapInv h log) {e x : Nat} (H : IsBelow h log e x) : x < h.nElem := by
  induction H with
  | child hm => exact I.refs _ _ hm
  | deeper _ _ ih => exact ih

open Classical in
/-- How many elements are beneath. -/
noncomputable def countBeneath (h : DiffHeap V) (log : Nat → List Nat) (e : Nat) : Nat := ((List.range h.nElem).filter fun x => decide (IsBelow h log e x)).length

theorem filter_length_lt {l : List Nat} {p q : Nat → Bool} (h : ∀ x ∈ l, p x = true → q x = true) {a : Nat} (ha : a ∈ l) (hp : p a = false) (hq : q a = true) :
    (l.filter p).length < (l.filter q).length := by
  have hle : ∀ l : List Nat, (∀ x ∈ l, p x = true → q x = true) → (l.filter p).length ≤ (l.filter q).length := by
    intro l hl
    induction l with
    | nil => exact Nat.le_refl _
    | cons x xs ih =>
      have := ih fun y hy => hl y (by simp [hy])
      rw [List.filter_cons, List.filter_cons]
      cases hpx : p x with
      | true => simp only [hl x (by simp) hpx, if_true, List.length_cons]; omega
      | false =>
        cases q x with
        | true => simp only [Bool.false_eq_true, if_false, if_true, List.length_cons]; omega
        | false => simpa using this
  induction l with
  | nil => cases ha
  | cons x xs ih =>
    have hxs : ∀ y ∈ xs, p y = true → q y = true := fun y hy => h y (by simp [hy])
    rw [List.filter_cons, List.filter_cons]
    rcases List.mem_cons.1 ha with hax | ha
    · subst hax
      have := hle xs hxs
      simp only [hp, hq, Bool.false_eq_true, if_false, if_true, List.length_cons]
      omega
    · have := ih hxs ha
      cases hpx : p x with
      | true => simp only [h x (by simp) hpx, if_true, List.length_cons]; omega
      | false =>
        cases q x with
        | true => simp only [Bool.false_eq_true, if_false, if_true, List.length_cons]; omega
        | false => simpa using this

theorem HeapInv.tree_of_acyclic {h : DiffHeap V} {log : Nat → List Nat} (I : HeapInv h log) (e : Nat) (H : ∀ x, (x = e ∨ IsBelow h log e x) → ¬ IsBelow h log x x) :
    ∃ T, IsTree h log e T := by
  generalize hm : countBeneath h log e = m
  induction m using Nat.strongRecOn generalizing e with
  | ind m ih =>
    have h1 : ∀ c, ∃ T, c ∈ log (h.elem e).diff → IsTree h log c T := fun c => by
      by_cases hc : c ∈ log (h.elem e).diff
      · have hlt : countBeneath h log c < m := by
          rw [← hm]
          unfold countBeneath
          refine filter_length_lt (a := c) (fun x _ hx => ?_) (List.mem_range.2 (I.refs _ _ hc)) ?_ ?_
          · simp only [decide_eq_true_eq] at hx ⊢
            exact .deeper hc hx
          · simpa using H c (.inr (.child hc))
          · simpa using IsBelow.child hc
        obtain ⟨T, hT⟩ := ih _ hlt c (fun x hx => H x (.inr (hx.elim (fun e' => e' ▸ .child hc) fun hb => .deeper hc hb))) rfl
        exact ⟨T, fun _ => hT⟩
      · exact ⟨(h.elem e).bare, fun h' => absurd h' hc⟩
    exact ⟨_, .mk (fun c => (h1 c).choose) fun c hc => (h1 c).choose_spec hc⟩

/-- **C85** An element is a tree exactly if neither it nor an element beneath it was put beneath itself. -/
theorem C85_tree_iff {h : DiffHeap V} {log : Nat → List Nat} (H : ByHand h log) (e : Nat) :
    (∃ T, IsTree h log e T) ↔ ∀ x, (x = e ∨ IsBelow h log e x) → ¬ IsBelow h log x x :=
  ⟨fun ⟨_, hT⟩ => hT.acyclic, H.inv.tree_of_acyclic e⟩

/-- **C85** If one was, `len`, `summary` and `str` raise `RecursionError`, whatever the limit. -/
theorem C85_cycle {h : DiffHeap V} {log : Nat → List Nat} (H : ByHand h log) {e x : Nat} (hx : x = e ∨ IsBelow h log e x) (hc : IsBelow h log x x) (n : Nat) :
    h.len n e = .error .recursionError ∧ h.summary n e = .error .recursionError ∧ ∀ i, h.str n i e = .error .recursionError := by
  refine ⟨?_, ?_, fun i => ?_⟩
  · cases hl : h.len n e with
    | error err => rw [len_error n e err hl]
    | ok v =>
      obtain ⟨T, hT⟩ := tree_of_len H.inv n e v hl
      exact absurd hc (hT.acyclic x hx)
  · cases hl : h.summary n e with
    | error err => rw [summary_error n e err hl]
    | ok v =>
      obtain ⟨T, hT⟩ := tree_of_summary H.inv n e v hl
      exact absurd hc (hT.acyclic x hx)
  · cases hl : h.str n i e with
    | error err => rw [str_error n i e err hl]
    | ok v =>
      obtain ⟨T, hT, _⟩ := tree_of_str H.inv n i e v hl
      exact absurd hc (hT.acyclic x hx)

/-- **C85** `has_diffs()` of any element, a tree or not: `True` only if the element or one beneath it differs itself, `False` exactly if it is a tree that the recursion limit
permits and in which none differs; otherwise it raises `RecursionError`. -/
theorem C85_has_diffs_any {h : DiffHeap V} {log : Nat → List Nat} (H : ByHand h log) (e n : Nat) :
    (h.hasDiffs n e = .ok true → ∃ x, (x = e ∨ IsBelow h log e x) ∧ (h.elem x).bare.hasDiffsOwn = true) ∧
    (h.hasDiffs n e = .ok false ↔ ∃ T, IsTree h log e T ∧ T.depth ≤ n ∧ T.hasDiffs = false) ∧
    (∀ err, h.hasDiffs n e = .error err → err = .recursionError) := by
  refine ⟨fun ht => ?_, ⟨fun hf => ?_, fun ⟨T, hT, hd, hf⟩ => ?_⟩, hasDiffs_error n e⟩
  · induction n generalizing e with
    | zero => cases ht
    | succ n ih =>
      unfold DiffHeap.hasDiffs at ht
      split at ht
      · rename_i ho; exact ⟨e, .inl rfl, ho⟩
      · obtain ⟨c, hc, hct⟩ := anyOf_true ht
        have hb := IsBelow.child (H.inv.mem_children.1 hc)
        obtain ⟨x, hx | hx, ho⟩ := ih c hct
        · exact ⟨x, .inr (hx ▸ hb), ho⟩
        · exact ⟨x, .inr (hb.trans hx), ho⟩
  · obtain ⟨T, hT, hd⟩ := tree_of_no_diffs H.inv n e hf
    refine ⟨T, hT, hd, ?_⟩
    rw [C85_has_diffs H hT hd] at hf
    exact Except.ok.inj hf
  · rw [C85_has_diffs H hT hd, hf]

/-- **C85** `str()` of an element that is a tree is that of the tree, if the recursion limit permits its depth; otherwise it raises `RecursionError`. -/
theorem C85_str {h : DiffHeap V} {log : Nat → List Nat} (H : ByHand h log) {e : Nat} {T : Elem V} (ht : IsTree h log e T) (n i : Nat) :
    h.str n i e = if T.depth ≤ n then .ok (T.str i) else .error .recursionError := by
  split
  · rename_i hn; exact str_of_tree H ht hn i
  · rename_i hn
    cases hl : h.str n i e with
    | error err => rw [str_error n i e err hl]
    | ok v =>
      obtain ⟨T', hT', hd⟩ := tree_of_str H.inv n i e v hl
      exact absurd (ht.unique hT' ▸ hd) hn

/-- **C85** A new element has the type, name and keys that are given and the names that are given for the sides, otherwise `"source"` and `"dest"`; it has neither side, and
a `child_diff` of its own, which is empty. -/
theorem C85_new {h : DiffHeap V} {log : Nat → List Nat} (H : ByHand h log) (type name : String) (keys : Dict V) (s d : String) :
    ((h.newElem type name keys s d).elem h.nElem).bare = ⟨type, name, keys, s, d, none, none, []⟩ ∧
    ((h.newElem type name keys).elem h.nElem).bare = ⟨type, name, keys, "source", "dest", none, none, []⟩ ∧
    (h.newElem type name keys s d).kids h.nElem = [] ∧
    (∀ x, x < h.nElem → (h.newElem type name keys s d).elem x = h.elem x ∧ ((h.newElem type name keys s d).elem x).diff ≠ ((h.newElem type name keys s d).elem h.nElem).diff) := by
  refine ⟨?_, ?_, ?_, fun x hx => ?_⟩
  · simp only [DiffHeap.newElem, assign_self, ElemObj.bare]
  · simp only [DiffHeap.newElem, assign_self, ElemObj.bare]
  · simp only [DiffHeap.kids, DiffHeap.children, DiffHeap.newElem, assign_self, List.flatMap_nil]
  · have h1 : (h.newElem type name keys s d).elem x = h.elem x := assign_ne _ _ (Nat.ne_of_lt hx)
    refine ⟨h1, ?_⟩
    rw [h1]
    simp only [DiffHeap.newElem, assign_self]
    exact Nat.ne_of_lt (H.inv.diffs x hx)

/-! ## Every diff can be made by hand -/

/-- There may be more objects, but those of before are as before. -/
structure Extends (h : DiffHeap V) (log : Nat → List Nat) (h' : DiffHeap V) (log' : Nat → List Nat) : Prop where
  elems : h.nElem ≤ h'.nElem
  diffs : h.nDiff ≤ h'.nDiff
  elem : ∀ e, e < h.nElem → h'.elem e = h.elem e
  log : ∀ d, d < h.nDiff → log' d = log d

theorem Extends.refl (h : DiffHeap V) (log : Nat → List Nat) : Extends h log h log := ⟨Nat.le_refl _, Nat.le_refl _, fun _ _ => rfl, fun _ _ => rfl⟩

theorem Extends.trans {h h' h'' : DiffHeap V} {log log' log'' : Nat → List Nat} (a : Extends h log h' log') (b : Extends h' log' h'' log'') : Extends h log h'' log'' :=
  ⟨Nat.le_trans a.elems b.elems, Nat.le_trans a.diffs b.diffs, fun e he => (b.elem e (Nat.lt_of_lt_of_le he a.elems)).trans (a.elem e he),
    fun d hd => (b.log d (Nat.lt_of_lt_of_le hd a.diffs)).trans (a.log d hd)⟩

theorem IsTree.mk' {h : DiffHeap V} {log : Nat → List Nat} {e : Nat} {T : Elem V} (f : Nat → Elem V) (hk : ∀ c ∈ log (h.elem e).diff, IsTree h log c (f c))
    (hT : T = { (h.elem e).bare with kids := (log (h.elem e).diff).map f }) : IsTree h log e T := hT ▸ .mk f hk

theorem IsTree.extend {h h' : DiffHeap V} {log log' : Nat → List Nat} (I : HeapInv h log) (X : Extends h log h' log') {e : Nat} {T : Elem V} (H : IsTree h log e T)
    (he : e < h.nElem) : IsTree h' log' e T := by
  induction H with
  | @mk e f hk ih =>
    have h1 := X.elem e he
    have h2 : log' (h'.elem e).diff = log (h.elem e).diff := by rw [h1]; exact X.log _ (I.diffs e he)
    refine .mk' f (fun c hc => ?_) (by rw [h2, h1])
    rw [h2] at hc
    exact ih c hc (I.refs _ _ hc)

/-- An element is not two trees. -/
theorem add_all (L : List Nat) {h : DiffHeap V} {log : Nat → List Nat} (H : ByHand h log) {d : Nat} (hd : d < h.nDiff) (hL : ∀ e ∈ L, e < h.nElem)
    (hp : (log d ++ L).Pairwise fun a b => ¬ ((h.elem a).type = (h.elem b).type ∧ (h.elem a).name = (h.elem b).name)) :
    ∃ h', ByHand h' (assign log d (log d ++ L)) ∧ h'.elem = h.elem ∧ h'.nElem = h.nElem ∧ h'.nDiff = h.nDiff := by
  induction L generalizing h log with
  | nil => exact ⟨h, by rw [List.append_nil, assign_same]; exact H, rfl, rfl, rfl⟩
  | cons e L ih =>
    have hne : ¬ ∃ x ∈ log d, (h.elem x).type = (h.elem e).type ∧ (h.elem x).name = (h.elem e).name := by
      rintro ⟨x, hx, hh⟩
      exact (List.pairwise_append.1 hp).2.2 x hx e (by simp) hh
    have ha := H.inv.accepted hne
    have hm := ByHand.added H hd (hL e (by simp)) (by rw [ha])
    have h1 : ((h.add d e).2).elem = h.elem := by rw [ha]
    have h2 : ((h.add d e).2).nElem = h.nElem := by rw [ha]
    have h3 : ((h.add d e).2).nDiff = h.nDiff := by rw [ha]
    obtain ⟨h', m', a, b, c⟩ := ih hm (by rw [h3]; exact hd) (fun x hx => by rw [h2]; exact hL x (by simp [hx]))
      (by rw [assign_self, h1, List.append_assoc]; exact hp)
    refine ⟨h', ?_, a.trans h1, b.trans h2, c.trans h3⟩
    rw [assign_self, List.append_assoc] at m'
    have : assign (assign log d (log d ++ [e])) d (log d ++ ([e] ++ L)) = assign log d (log d ++ e :: L) := by
      funext x
      by_cases hx : x = d
      · subst hx; rw [assign_self, assign_self]; rfl
      · rw [assign_ne _ _ hx, assign_ne _ _ hx, assign_ne _ _ hx]
    rwa [this] at m'

/-- What is to be shown of a tree: it can be made, wherever one starts. -/
def CanMake (T : Elem V) : Prop := ∀ {h : DiffHeap V} {log : Nat → List Nat}, ByHand h log → ∃ h' log' e, ByHand h' log' ∧ Extends h log h' log' ∧ e < h'.nElem ∧ IsTree h' log' e T

theorem make_all {ks : List (Elem V)} (hk : ∀ k ∈ ks, CanMake k) {h : DiffHeap V} {log : Nat → List Nat} (H : ByHand h log) :
    ∃ h' log', ∃ ps : List (Nat × Elem V), ByHand h' log' ∧ Extends h log h' log' ∧ ps.map (·.2) = ks ∧ ∀ p ∈ ps, p.1 < h'.nElem ∧ IsTree h' log' p.1 p.2 := by
  induction ks generalizing h log with
  | nil => exact ⟨h, log, [], H, .refl _ _, rfl, fun p hp => by cases hp⟩
  | cons k ks ih =>
    obtain ⟨h1, l1, e, m1, x1, he, ht⟩ := hk k (by simp) H
    obtain ⟨h2, l2, ps, m2, x2, hps, hall⟩ := ih (fun k' hk' => hk k' (by simp [hk'])) m1
    refine ⟨h2, l2, (e, k) :: ps, m2, x1.trans x2, by rw [List.map_cons, hps], fun p hp => ?_⟩
    rcases List.mem_cons.1 hp with rfl | hp
    · exact ⟨Nat.lt_of_lt_of_le he x2.elems, ht.extend m1.inv x2 he⟩
    · exact hall p hp

theorem Elem.eta (T : Elem V) : T = ⟨T.type, T.name, T.keys, T.srcName, T.dstName, T.src, T.dst, T.kids⟩ := by cases T; rfl

theorem canMake {T : Elem V} (hT : DistinctSiblings T) : CanMake T := by
  induction hT with
  | @mk T hd _ ih =>
    intro h log H
    obtain ⟨h1, l1, ps, m1, x1, hps, hall⟩ := make_all ih H
    have I1 := m1.inv
    have m2 := ByHand.attrs h1.nElem T.src T.dst (ByHand.elem T.type T.name T.keys T.srcName T.dstName m1) (Nat.lt_succ_self _)
    have hel : ∀ x, x < h1.nElem → (((h1.newElem T.type T.name T.keys T.srcName T.dstName).addAttrs h1.nElem T.src T.dst).elem x) = h1.elem x := fun x hx => by
      have hne : x ≠ h1.nElem := Nat.ne_of_lt hx
      unfold DiffHeap.addAttrs DiffHeap.newElem
      simp only [assign_ne _ _ hne]
    have hself : (((h1.newElem T.type T.name T.keys T.srcName T.dstName).addAttrs h1.nElem T.src T.dst).elem h1.nElem) =
        ⟨T.type, T.name, T.keys, T.srcName, T.dstName, T.src, T.dst, h1.nDiff⟩ := by
      unfold DiffHeap.addAttrs DiffHeap.newElem
      simp only [assign_self, Option.or_none]
    have hlog : l1 h1.nDiff = [] := I1.fresh _ (Nat.le_refl _)
    have hmem : ∀ x ∈ ps.map (·.1), x < h1.nElem := fun x hx => by
      obtain ⟨p, hp, rfl⟩ := List.mem_map.1 hx
      exact (hall p hp).1
    obtain ⟨h3, m3, a, b, c⟩ := add_all (ps.map (·.1)) m2 (d := h1.nDiff) (Nat.lt_succ_self _) (fun x hx => Nat.lt_succ_of_lt (hmem x hx)) (by
      rw [hlog, List.nil_append, List.pairwise_map]
      rw [← hps, List.pairwise_map] at hd
      refine hd.imp_of_mem fun {p q} hp hq hpq hh => hpq ?_
      rw [hel _ (hall p hp).1, hel _ (hall q hq).1] at hh
      rw [((hall p hp).2.header).1, ((hall p hp).2.header).2, ((hall q hq).2.header).1, ((hall q hq).2.header).2]
      exact hh)
    rw [hlog, List.nil_append] at m3
    have x3 : Extends h1 l1 h3 (assign l1 h1.nDiff (ps.map (·.1))) := by
      refine ⟨by rw [b]; exact Nat.le_succ _, by rw [c]; exact Nat.le_succ _, fun e he => by rw [a]; exact hel e he, fun d hd => ?_⟩
      exact assign_ne _ _ (Nat.ne_of_lt hd)
    have htr : ∀ p ∈ ps, IsTree h3 (assign l1 h1.nDiff (ps.map (·.1))) p.1 p.2 := fun p hp => (hall p hp).2.extend I1 x3 (hall p hp).1
    have hex : ∀ x, ∃ S, ∀ p ∈ ps, p.1 = x → p.2 = S := fun x => by
      by_cases hx : ∃ p ∈ ps, p.1 = x
      · obtain ⟨p, hp, rfl⟩ := hx
        exact ⟨p.2, fun q hq he => IsTree.unique (he ▸ htr q hq) (htr p hp)⟩
      · exact ⟨T, fun p hp he => absurd ⟨p, hp, he⟩ hx⟩
    refine ⟨h3, _, h1.nElem, m3, x1.trans x3, by rw [b]; exact Nat.lt_succ_self _, .mk' (fun x => (hex x).choose) ?_ ?_⟩
    · rw [a, hself]
      change ∀ c ∈ assign l1 h1.nDiff (ps.map (·.1)) h1.nDiff, _
      rw [assign_self]
      intro c hc
      obtain ⟨p, hp, rfl⟩ := List.mem_map.1 hc
      rw [← (hex p.1).choose_spec p hp rfl]
      exact htr p hp
    · rw [a, hself]
      change T = { T with kids := (assign l1 h1.nDiff (ps.map (·.1)) h1.nDiff).map _ }
      rw [assign_self, List.map_map]
      have : ps.map ((fun x => (hex x).choose) ∘ fun p => p.1) = T.kids := by
        rw [← hps]
        exact List.map_congr_left fun p hp => ((hex p.1).choose_spec p hp rfl).symm
      rw [this]
      exact Elem.eta T

theorem IsTree.distinct {h : DiffHeap V} {log : Nat → List Nat} (I : HeapInv h log) {e : Nat} {T : Elem V} (ht : IsTree h log e T) : DistinctSiblings T := by
  induction ht with
  | @mk e f hk ih =>
    refine .mk ?_ fun k hk' => ?_
    · change ((log (h.elem e).diff).map f).Pairwise _
      rw [List.pairwise_map]
      refine (I.distinct _).imp_of_mem fun {a b} ha hb hab hh => hab ?_
      rw [← (hk a ha).header.1, ← (hk a ha).header.2, ← (hk b hb).header.1, ← (hk b hb).header.2]
      exact hh
    · obtain ⟨c, hc, rfl⟩ := List.mem_map.1 (show k ∈ (log (h.elem e).diff).map f from hk')
      exact ih c hc

/-- **C85** Every tree in which no two siblings have the same type and name can be made by hand, next to whatever objects there are, which do not change; and an element
that was made is a tree of this kind or no tree at all. -/
theorem C85_every_tree {T : Elem V} :
    (DistinctSiblings T ↔ ∃ h log e, ByHand h log ∧ IsTree h log e T) ∧
    (DistinctSiblings T → ∀ {h log}, ByHand h log → ∃ h' log' e, ByHand h' log' ∧ IsTree h' log' e T ∧ ∀ x S, x < h.nElem → IsTree h log x S → IsTree h' log' x S) := by
  refine ⟨⟨fun hT => ?_, fun ⟨h, log, e, m, ht⟩ => ?_⟩, fun hT h log m => ?_⟩
  · obtain ⟨h', l', e, m', _, _, ht⟩ := canMake hT .start
    exact ⟨h', l', e, m', ht⟩
  · exact ht.distinct m.inv
  · obtain ⟨h', l', e, m', x, _, ht⟩ := canMake hT m
    exact ⟨h', l', e, m', ht, fun y S hy hS => hS.extend m.inv x hy⟩

/-- **C85** `add` to a diff of trees is `add` of the tree. -/
theorem C85_add_tree {h : DiffHeap V} {log : Nat → List Nat} (H : ByHand h log) {d e : Nat} {f : Nat → Elem V} (hk : ∀ c ∈ log d, IsTree h log c (f c))
    (he : IsTree h log e (f e)) :
    addElem ((log d).map f) (f e) = match (h.add d e).1 with
      | .ok _ => .ok ((log d ++ [e]).map f)
      | .error err => .error err := by
  unfold addElem
  by_cases ht : ∃ x ∈ log d, (h.elem x).type = (h.elem e).type ∧ (h.elem x).name = (h.elem e).name
  · rw [H.inv.refused ht, if_pos]
    obtain ⟨x, hx, hh⟩ := ht
    rw [List.any_map, List.any_eq_true]
    refine ⟨x, hx, ?_⟩
    simp [(hk x hx).header.1, (hk x hx).header.2, he.header.1, he.header.2, hh.1, hh.2]
  · rw [H.inv.accepted ht, if_neg]
    · rw [List.map_append]; rfl
    · intro hany
      rw [List.any_map, List.any_eq_true] at hany
      obtain ⟨x, hx, hh⟩ := hany
      refine ht ⟨x, hx, ?_⟩
      simpa [(hk x hx).header.1, (hk x hx).header.2, he.header.1, he.header.2] using hh

end DS
