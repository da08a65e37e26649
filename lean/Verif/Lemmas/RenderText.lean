import Verif.Lemmas.RenderAdapter
/-! What the text of an adapter contains. -/

namespace DS
set_option linter.unusedSectionVars false
variable {V E : Type} [PyVal V]
variable {α β : Type}

theorem bind_ok_inv {p : Except Err α} {f : α → β} {b : β} (h : p.bind (fun a => .ok (f a)) = .ok b) : ∃ a, p = .ok a ∧ b = f a := by
  cases p with
  | error e => cases h
  | ok a => cases h; exact ⟨a, rfl, rfl⟩

theorem bind_error_inv {p : Except Err α} {f : α → β} {e : Err} (h : p.bind (fun a => .ok (f a)) = .error e) : p = .error e := by
  cases p with
  | error e' => cases h; rfl
  | ok a => cases h

theorem eachE_mem {f : α → Except Err β} {l : List α} {bs : List β} (h : eachE f l = .ok bs) {a : α} (ha : a ∈ l) :
    ∃ b ∈ bs, f a = .ok b := by
  induction l generalizing bs with
  | nil => cases ha
  | cons x l ih =>
    unfold eachE at h
    cases hx : f x with
    | error e => rw [hx] at h; cases h
    | ok b =>
      rw [hx] at h
      cases hl : eachE f l with
      | error e => rw [hl] at h; cases h
      | ok bs' =>
        rw [hl] at h; cases h
        rcases List.mem_cons.1 ha with rfl | ha
        · exact ⟨b, by simp, hx⟩
        · obtain ⟨b', hb', hf⟩ := ih hl ha
          exact ⟨b', by simp [hb'], hf⟩

theorem eachE_error {f : α → Except Err β} {l : List α} {e : Err} (h : eachE f l = .error e) : ∃ a ∈ l, f a = .error e := by
  induction l with
  | nil => cases h
  | cons x l ih =>
    unfold eachE at h
    cases hx : f x with
    | error e' => rw [hx] at h; cases h; exact ⟨x, by simp, hx⟩
    | ok b =>
      rw [hx] at h
      cases hl : eachE f l with
      | error e' =>
        rw [hl] at h; cases h
        obtain ⟨a, ha, hf⟩ := ih hl
        exact ⟨a, by simp [ha], hf⟩
      | ok bs => rw [hl] at h; cases h

theorem eachE_congr {f g : α → Except Err β} {l : List α} (h : ∀ a ∈ l, f a = g a) : eachE f l = eachE g l := by
  induction l with
  | nil => rfl
  | cons a l ih => unfold eachE; rw [h a (by simp), ih (fun b hb => h b (by simp [hb]))]

theorem occurs_foldl (l : List String) (acc : String) {s : String} (h : s ∈ l) : Appears s (l.foldl (fun r s => r ++ s) acc) := by
  induction l generalizing acc with
  | nil => cases h
  | cons a l ih =>
    simp only [List.foldl_cons]
    rcases List.mem_cons.1 h with rfl | h
    · rw [join_append_foldl]
      exact ((Appears.refl _).right _).left _
    · exact ih _ h

theorem occurs_join {l : List String} {s : String} (h : s ∈ l) : Appears s (String.join l) := occurs_foldl l "" h

theorem foldl_out_right (l : List String) : ∀ (acc : String), Appears acc (l.foldl (fun output b => (if output = "" then "" else output ++ "\n") ++ b) acc) := by
  induction l with
  | nil => intro acc; exact Appears.refl _
  | cons a l ih =>
    intro acc
    simp only [List.foldl_cons]
    refine Appears.trans ?_ (ih _)
    by_cases h : acc = ""
    · subst h; exact ⟨"", "" ++ a, by simp⟩
    · rw [if_neg h]; exact ((Appears.refl _).left _).left _

theorem occurs_out {l : List String} {s : String} (h : s ∈ l) : ∀ (acc : String),
    Appears s (l.foldl (fun output b => (if output = "" then "" else output ++ "\n") ++ b) acc) := by
  induction l with
  | nil => cases h
  | cons a l ih =>
    intro acc
    simp only [List.foldl_cons]
    rcases List.mem_cons.1 h with rfl | h
    · exact Appears.trans ((Appears.refl _).right _) (foldl_out_right l _)
    · exact ih h _

/-! ## Errors -/

theorem pModel_error {R : Reprs V} {S : Snap V} {n : Nat} : ∀ {i : Nat} {m : Model V} {e : Err}, pModel R S n i m = .error e → e = .recursionError := by
  induction n with
  | zero => intro i m e h; cases h; rfl
  | succ n ih =>
    intro i m e h
    unfold pModel at h
    obtain ⟨p, _, hp⟩ := eachE_error (bind_error_inv h)
    unfold pField at hp
    split at hp
    · cases hp
    · obtain ⟨u, _, hu⟩ := eachE_error (bind_error_inv hp)
      unfold pChild at hu
      split at hu
      · cases hu
      · split at hu
        · cases hu
        · rename_i e' he'
          have := ih he'
          subst this
          simp only [Err.isNotFound] at hu
          cases hu; rfl

theorem pAdapter_error {R : Reprs V} {S : Snap V} {top : List String} {n i : Nat} {e : Err} (h : pAdapter R S top n i = .error e) :
    e = .recursionError := by
  unfold pAdapter at h
  obtain ⟨t, _, ht⟩ := eachE_error (bind_error_inv h)
  unfold pTop at ht
  split at ht
  · cases ht
  · obtain ⟨m, _, hm⟩ := eachE_error (bind_error_inv ht)
    exact pModel_error (bind_error_inv hm)

/-! ## Contents -/

theorem head_occurs {R : Reprs V} {S : Snap V} {n i : Nat} {m : Model V} {s : String} (h : pModel R S n i m = .ok s) :
    Appears (m.type ++ ": " ++ m.uid ++ ": " ++ R.attrs m.attrs) s := by
  cases n with
  | zero => cases h
  | succ n =>
    unfold pModel at h
    obtain ⟨ps, _, rfl⟩ := bind_ok_inv h
    refine Appears.left _ ?_
    unfold headText
    exact ⟨margin i, "", by simp [String.append_assoc]⟩

theorem child_text {R : Reprs V} {S : Snap V} {n i : Nat} {m : Model V} {s : String} (h : pModel R S (n + 1) i m = .ok s)
    {ct u : String} (hl : Lists m ct u) : ∃ b, pChild S (pModel R S n (i + 4)) i ct u = .ok b ∧ Appears b s := by
  obtain ⟨f, hf, hu⟩ := hl
  unfold pModel at h
  obtain ⟨ps, hps, rfl⟩ := bind_ok_inv h
  obtain ⟨b, hb, hfb⟩ := eachE_mem hps hf
  unfold pField at hfb
  split at hfb
  · rename_i he; rw [List.isEmpty_iff.1 he] at hu; cases hu
  · obtain ⟨ls, hls, rfl⟩ := bind_ok_inv hfb
    obtain ⟨c, hc, hcu⟩ := eachE_mem hls hu
    exact ⟨c, hcu, Appears.trans (Appears.trans (occurs_join hc) ((Appears.refl _).right _)) (Appears.trans (occurs_join hb) ((Appears.refl _).right _))⟩

theorem beneath_text {R : Reprs V} {S : Snap V} {m x : Model V} (hx : Beneath S m x) {n i : Nat} {s : String} (h : pModel R S n i m = .ok s) :
    ∃ n' i' s', pModel R S n' i' x = .ok s' ∧ Appears s' s := by
  induction hx with
  | self => exact ⟨n, i, s, h, Appears.refl _⟩
  | @child k ct u x _ hl hf ih =>
    obtain ⟨n', i', s', h1, h2⟩ := ih
    cases n' with
    | zero => cases h1
    | succ n' =>
      obtain ⟨b, hb, ho⟩ := child_text h1 hl
      unfold pChild at hb
      rw [hf] at hb
      simp only at hb
      split at hb
      · rename_i s'' hs''
        cases hb
        exact ⟨n', i' + 4, s'', hs'', Appears.trans ((Appears.refl _).right _) (ho.trans h2)⟩
      · rename_i e he
        have := pModel_error he
        subst this
        simp [Err.isNotFound] at hb

theorem top_text {R : Reprs V} {S : Snap V} {top : List String} {n i : Nat} {s : String} (h : pAdapter R S top n i = .ok s)
    {t : String} (ht : t ∈ top) {m : Model V} (hm : m ∈ S.all t) : ∃ s', pModel R S n (i + 2) m = .ok s' ∧ Appears s' s := by
  unfold pAdapter at h
  obtain ⟨bs, hbs, rfl⟩ := bind_ok_inv h
  obtain ⟨b, hb, hbt⟩ := eachE_mem hbs ht
  unfold pTop at hbt
  split at hbt
  · rename_i he; rw [List.isEmpty_iff.1 he] at hm; cases hm
  · obtain ⟨ls, hls, rfl⟩ := bind_ok_inv hbt
    obtain ⟨c, hc, hcm⟩ := eachE_mem hls hm
    obtain ⟨s', hs', rfl⟩ := bind_ok_inv hcm
    exact ⟨s', hs', Appears.trans ((Appears.refl _).right _) (Appears.trans (occurs_join hc) (Appears.trans ((Appears.refl _).right _) (occurs_out hb _)))⟩

/-! ## Termination -/

theorem pModel_ok {R : Reprs V} {S : Snap V} {rank : Model V → Nat}
    (hr : ∀ m ct u x, Held S m → Lists m ct u → S.find ct u = some x → rank x < rank m) (n : Nat) :
    ∀ (i : Nat) (m : Model V), Held S m → rank m < n → ∃ s, pModel R S n i m = .ok s := by
  induction n with
  | zero => intro i m _ h; omega
  | succ n ih =>
    intro i m hm h
    cases hp : pModel R S (n + 1) i m with
    | ok s => exact ⟨s, rfl⟩
    | error e =>
      exfalso
      unfold pModel at hp
      obtain ⟨p, hpm, hp⟩ := eachE_error (bind_error_inv hp)
      unfold pField at hp
      split at hp
      · cases hp
      · obtain ⟨u, hu, hc⟩ := eachE_error (bind_error_inv hp)
        unfold pChild at hc
        split at hc
        · cases hc
        · rename_i c hf
          have := hr m p.1 u c hm ⟨p.2, hpm, hu⟩ hf
          obtain ⟨s, hs⟩ := ih (i + 4) c (.inl ⟨_, _, hf⟩) (by omega)
          rw [hs] at hc
          cases hc

/-! ## Dependence on the contents -/

theorem pModel_congr {R : Reprs V} {S S' : Snap V} (h : ∀ m, Held S' m → ∀ ct ∈ Dict.keys m.cls.children, ∀ u, S.find ct u = S'.find ct u)
    (n : Nat) : ∀ (i : Nat) (m : Model V), Held S' m → pModel R S n i m = pModel R S' n i m := by
  induction n with
  | zero => intro i m _; rfl
  | succ n ih =>
    intro i m hm
    unfold pModel
    congr 1
    apply eachE_congr
    intro p hp
    unfold pField
    congr 1
    congr 1
    apply eachE_congr
    intro u _
    unfold pChild
    rw [h m hm p.1 (List.mem_map_of_mem (f := Prod.fst) hp) u]
    cases hf : S'.find p.1 u with
    | none => rfl
    | some c => simp only [ih (i + 4) c (.inl ⟨p.1, u, hf⟩)]

theorem pAdapter_congr {R : Reprs V} {S S' : Snap V} (h : ∀ m, Held S' m → ∀ ct ∈ Dict.keys m.cls.children, ∀ u, S.find ct u = S'.find ct u)
    {top : List String} (ht : ∀ t ∈ top, S.all t = S'.all t) (n i : Nat) : pAdapter R S top n i = pAdapter R S' top n i := by
  unfold pAdapter
  congr 1
  apply eachE_congr
  intro t htt
  unfold pTop
  rw [ht t htt]
  congr 1
  congr 1
  apply eachE_congr
  intro m hm
  rw [pModel_congr h n (i + 2) m (.inr ⟨t, hm⟩)]

/-- `str()` of an adapter reads its contents and gives the text of them. -/
theorem adapterStr_eq (R : Reprs V) (A : Adapter V) (n i : Nat) {w : World V E} (hw : w.OK) (hs : Serves A (snap A w))
    (ho : Owned A w) (hp : A.PlainStore) :
    RRel w (adapterStr R A n i w).2 ∧ (adapterStr R A n i w).1 = pAdapter R (snap A w) A.topLevel n i := by
  obtain ⟨h1, h2⟩ := Rd.adapter (A := A) (S := rawSnap A w) R n i w ⟨hw.refs_lt, hw.tbl_wf, rfl, ho, hp⟩
  refine ⟨h1, h2.trans (pAdapter_congr ?_ (fun t ht => (snap_all (hs.top t ht) w).symm) n i)⟩
  intro m hm ct hct u
  rcases hm with ⟨t, v, hm⟩ | ⟨t, hm⟩
  · exact (snap_find (hs.find t v m hm ct hct) w u).symm
  · exact (snap_find (hs.all t m hm ct hct) w u).symm

end DS
