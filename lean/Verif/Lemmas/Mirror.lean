import Verif.Lemmas.Prune
/-! Diffs in the two directions mirror each other. -/
set_option linter.unusedSectionVars false

namespace DS
variable {V E : Type} [PyVal V]

theorem perm_of_nodup {α : Type} {l1 l2 : List α} (h1 : l1.Nodup) (h2 : l2.Nodup) (h : ∀ x, x ∈ l1 ↔ x ∈ l2) : l1.Perm l2 := by
  induction l1 generalizing l2 with
  | nil =>
    cases l2 with
    | nil => exact .nil
    | cons a l => exact absurd ((h a).2 (by simp)) (by simp)
  | cons a l ih =>
    have ha : a ∈ l2 := (h a).1 (by simp)
    obtain ⟨x, y, rfl⟩ := List.append_of_mem ha
    obtain ⟨n1, n2⟩ := List.nodup_cons.1 h1
    have hp : (x ++ a :: y).Perm (a :: (x ++ y)) := List.perm_middle
    have hn := hp.nodup_iff.1 h2
    obtain ⟨n3, n4⟩ := List.nodup_cons.1 hn
    refine ((ih n2 n4 ?_).cons a).trans hp.symm
    intro z
    constructor
    · intro hz
      have := hp.mem_iff.1 ((h z).1 (List.mem_cons_of_mem _ hz))
      rcases List.mem_cons.1 this with rfl | h'
      · exact absurd hz n1
      · exact h'
    · intro hz
      have := (h z).2 (hp.mem_iff.2 (List.mem_cons_of_mem _ hz))
      rcases List.mem_cons.1 this with rfl | h'
      · exact absurd hz n3
      · exact h'

theorem nodup_length_le {α : Type} [DecidableEq α] {l m : List α} (hl : l.Nodup) (h : ∀ x ∈ l, x ∈ m) : l.length ≤ m.length := by
  induction l generalizing m with
  | nil => simp
  | cons a l ih =>
    obtain ⟨ha, hl⟩ := List.nodup_cons.1 hl
    have hm : a ∈ m := h a (by simp)
    have := ih hl (m := m.erase a) (fun x hx => (List.mem_erase_of_ne (fun e => ha (by rw [← e]; exact hx))).2 (h x (List.mem_cons_of_mem _ hx)))
    rw [List.length_erase_of_mem hm] at this
    have : 0 < m.length := List.length_pos_of_mem hm
    simp only [List.length_cons]
    omega

theorem pyEq_symm [PyVal.Equiv V] {d e : Dict V} (hd : Dict.WF d) (he : Dict.WF e) (h : Dict.pyEq d e = true) :
    Dict.pyEq e d = true := by
  unfold Dict.pyEq Dict.pyEqBy at h ⊢
  rw [Bool.and_eq_true, List.all_eq_true] at h ⊢
  obtain ⟨hl, ha⟩ := h
  simp only [beq_iff_eq] at hl ⊢
  have hsub : ∀ k ∈ Dict.keys d, k ∈ Dict.keys e := by
    intro k hk
    obtain ⟨v, hv⟩ := Dict.mem_keys_iff.1 hk
    have := ha (k, v) (Dict.mem_of_get? hv)
    simp only at this
    split at this
    · rename_i w hw; exact Dict.mem_keys_iff.2 ⟨w, hw⟩
    · cases this
  refine ⟨hl.symm, ?_⟩
  rintro ⟨k, w⟩ hkw
  have hk : k ∈ Dict.keys d := by
    apply Classical.byContradiction
    intro hn
    have := nodup_length_le (l := k :: Dict.keys d) (m := Dict.keys e) (List.nodup_cons.2 ⟨hn, hd⟩) (by
      intro x hx
      rcases List.mem_cons.1 hx with rfl | hx
      · exact Dict.mem_keys_of_mem hkw
      · exact hsub x hx)
    simp only [List.length_cons, Dict.keys, List.length_map] at this
    omega
  obtain ⟨v, hv⟩ := Dict.mem_keys_iff.1 hk
  have := ha (k, v) (Dict.mem_of_get? hv)
  simp only [Dict.get?_of_mem he hkw] at this
  simp only [hv]
  exact PyVal.Equiv.eq_symm _ _ this

theorem zip_perm {α β : Type} {ps qs : List β} (h : ps.Perm qs) : ∀ (es : List α), es.length = ps.length →
    ∃ l : List α, l.Perm es ∧ l.length = qs.length ∧ ∀ x ∈ l.zip qs, x ∈ es.zip ps := by
  induction h with
  | nil => intro es he; exact ⟨[], by cases es <;> simp_all, rfl, by simp⟩
  | cons a _ ih =>
    intro es he
    cases es with
    | nil => simp at he
    | cons e es =>
      obtain ⟨l, h1, h2, h3⟩ := ih es (by simpa using he)
      refine ⟨e :: l, h1.cons e, by simp [h2], ?_⟩
      intro x hx
      rw [List.zip_cons_cons] at hx ⊢
      rcases List.mem_cons.1 hx with rfl | hx
      · simp
      · exact List.mem_cons_of_mem _ (h3 x hx)
  | swap a b l =>
    intro es he
    match es, he with
    | e1 :: e2 :: es, he =>
      refine ⟨e2 :: e1 :: es, List.Perm.swap _ _ _, by simpa using he, ?_⟩
      intro x hx
      simp only [List.zip_cons_cons, List.mem_cons] at hx ⊢
      rcases hx with h | h | h
      · exact .inr (.inl h)
      · exact .inl h
      · exact .inr (.inr h)
  | trans _ _ ih1 ih2 =>
    intro es he
    obtain ⟨l, h1, h2, h3⟩ := ih1 es he
    obtain ⟨l', g1, g2, g3⟩ := ih2 l h2
    exact ⟨l', g1.trans h1, g2, fun x hx => h3 x (g3 x hx)⟩

/-- The place seen from the other side. -/
def Pos.swap (p : Pos V) : Pos V := ⟨p.type, p.uid, p.dst, p.src⟩

theorem IsChild.swap {S D : Snap V} {p c : Pos V} (h : IsChild S D p c) : IsChild D S p.swap c.swap :=
  ⟨⟨h.compared.2, h.compared.1⟩, h.listed.symm, h.dst_eq, h.src_eq⟩
theorem IsTop.swap {src dst : Adapter V} {S D : Snap V} {c : Pos V} (h : IsTop src dst S D c) : IsTop dst src D S c.swap :=
  ⟨h.dst_top, h.src_top, h.dst_eq, h.src_eq, h.some_side.symm⟩

theorem Hidden.swap {flags flags' : Nat} (hf : FlagsSwapped flags flags') {s d : Option (Model V)}
    (hs : ∀ m, s = some m ∨ d = some m → flagOn m.flags MF.SKIP_UNMATCHED_SRC = flagOn m.flags MF.SKIP_UNMATCHED_DST)
    (h : Hidden flags s d) : Hidden flags' d s := by
  cases h with
  | globalSrc s h => exact .globalDst s (hf.2.trans h)
  | globalDst s h => exact .globalSrc s (hf.1.trans h)
  | modelSrc s h => exact .modelDst s ((hs s (.inl rfl)).symm.trans h)
  | modelDst s h => exact .modelSrc s ((hs s (.inr rfl)).trans h)
  | ignoreSrc s _ h => exact .ignoreDst _ s h
  | ignoreDst _ s h => exact .ignoreSrc s _ h

section
variable {src dst : Adapter V} {flags flags' : Nat} {S D : Snap V} (hf : FlagsSwapped flags flags')
variable (hS : S.SymmetricFlags) (hD : D.SymmetricFlags)
include hf hS hD

theorem visible_swap {p : Pos V} (hp : Stored S D p) : p.Visible flags ↔ p.swap.Visible flags' := by
  have hs : ∀ m, p.src = some m ∨ p.dst = some m → flagOn m.flags MF.SKIP_UNMATCHED_SRC = flagOn m.flags MF.SKIP_UNMATCHED_DST := by
    rintro m (h | h)
    · exact hS _ _ m (hp.src m h)
    · exact hD _ _ m (hp.dst m h)
  constructor
  · intro hv hh
    exact hv (Hidden.swap (s := p.dst) (d := p.src) ⟨hf.2.symm, hf.1.symm⟩ (fun m hm => hs m hm.symm) hh)
  · intro hv hh
    exact hv (Hidden.swap hf hs hh)

omit hf hS hD in
theorem isChild_stored {p c : Pos V} (h : IsChild S D p c) : Stored S D c := by
  constructor
  · intro m hm
    have := h.src_eq.symm.trans hm
    split at this
    · exact this
    · cases this
  · intro m hm
    have := h.dst_eq.symm.trans hm
    split at this
    · exact this
    · cases this

omit hf hS hD in
theorem isTop_stored {c : Pos V} (h : IsTop src dst S D c) : Stored S D c :=
  ⟨fun m hm => h.src_eq.symm.trans hm, fun m hm => h.dst_eq.symm.trans hm⟩

omit hf hS hD in
theorem distinct_nodup {ps : List (Pos V)} (h : DistinctPos ps) : ps.Nodup :=
  h.imp (fun hab he => hab ⟨by rw [he], by rw [he]⟩)

omit hf hS hD in
theorem swap_perm {ps ps' : List (Pos V)} (h1 : DistinctPos ps) (h2 : DistinctPos ps') (h : ∀ c, c ∈ ps ↔ c.swap ∈ ps') :
    ps'.Perm (ps.map Pos.swap) := by
  apply perm_of_nodup (distinct_nodup h2)
  · unfold List.Nodup
    rw [List.pairwise_map]
    refine (distinct_nodup h1).imp ?_
    intro a b hab he
    apply hab
    have : a.swap.swap = b.swap.swap := by rw [he]
    exact this
  · intro c
    rw [List.mem_map]
    constructor
    · intro hc
      exact ⟨c.swap, (h c.swap).2 hc, rfl⟩
    · rintro ⟨a, ha, rfl⟩
      exact (h a).1 ha

omit hf hS hD in
theorem mirror_kids {es es' : List (Elem V)} {ps ps' : List (Pos V)} {R R' : Elem V → Pos V → Prop}
    (hl : es.length = ps.length) (hl' : es'.length = ps'.length) (hp : ps'.Perm (ps.map Pos.swap))
    (hz : ∀ x ∈ es.zip ps, R x.1 x.2) (hz' : ∀ x ∈ es'.zip ps', R' x.1 x.2)
    (hm : ∀ e p e', e ∈ es → R e p → R' e' p.swap → Mirror e e') : MirrorL es es' := by
  obtain ⟨l, g1, g2, g3⟩ := zip_perm hp es' hl'
  refine ⟨l, g1, by rw [g2, List.length_map, hl], ?_⟩
  clear g1
  have key : ∀ (es : List (Elem V)) (ps : List (Pos V)) (l : List (Elem V)), es.length = ps.length → l.length = ps.length →
      (∀ x ∈ es.zip ps, R x.1 x.2) → (∀ x ∈ l.zip (ps.map Pos.swap), R' x.1 x.2) →
      (∀ e p e', e ∈ es → R e p → R' e' p.swap → Mirror e e') → ∀ x ∈ es.zip l, Mirror x.1 x.2 := by
    intro es
    induction es with
    | nil => intro ps l _ _ _ _ _ x hx; simp at hx
    | cons e es ih =>
      intro ps l h1 h2 h3 h4 h5 x hx
      match ps, l with
      | [], _ => simp at h1
      | p :: ps, [] => simp at h2
      | p :: ps, a :: l =>
        rw [List.zip_cons_cons] at hx h3
        rw [List.map_cons, List.zip_cons_cons] at h4
        rcases List.mem_cons.1 hx with rfl | hx
        · exact h5 e p a (by simp) (h3 (e, p) (by simp)) (h4 (a, p.swap) (by simp))
        · exact ih ps l (by simpa using h1) (by simpa using h2) (fun x hx => h3 x (List.mem_cons_of_mem _ hx))
            (fun x hx => h4 x (List.mem_cons_of_mem _ hx)) (fun e p e' he => h5 e p e' (List.mem_cons_of_mem _ he)) x hx
  exact key es ps l hl (by rw [g2, List.length_map]) hz (fun x hx => hz' x (g3 x hx)) hm

theorem describes_mirror {e : Elem V} : ∀ {p : Pos V} {e' : Elem V}, DescribesG src dst flags S D e p →
    DescribesG dst src flags' D S e' p.swap → Mirror e e' := by
  induction e using Elem.ind with
  | h e ih =>
    intro p e' h h'
    cases h with
    | mk ps hg hh hd hps _ _ hl hz =>
      cases h' with
      | mk ps' hg' hh' hd' hps' _ _ hl' hz' =>
        have hperm : ps'.Perm (ps.map Pos.swap) := by
          apply swap_perm hd hd'
          intro c
          rw [hps, hps']
          constructor
          · rintro ⟨h1, h2⟩
            exact ⟨h1.swap, (visible_swap hf hS hD (isChild_stored h1)).1 h2⟩
          · rintro ⟨h1, h2⟩
            have h1' : IsChild S D p c := h1.swap
            exact ⟨h1', (visible_swap hf hS hD (isChild_stored h1')).2 h2⟩
        obtain ⟨l, g1, g2, g3⟩ := mirror_kids hl hl' hperm hz hz' (fun e p e' he h1 h2 => ih e he h1 h2)
        have hname : e'.name = e.name ∧ (e'.keys = e.keys ∨ Dict.pyEq e.keys e'.keys = true) := by
          have hval := hg.validated
          cases hs : p.src with
          | none =>
            cases hdd : p.dst with
            | none => have := hg.some_side; rw [hs, hdd] at this; simp at this
            | some d =>
              have n1 := hh.name_eq d (by rw [hs, hdd]; rfl)
              have n2 := hh'.name_eq d (by simp only [Pos.swap]; rw [hs, hdd]; rfl)
              exact ⟨n2.1.trans n1.1.symm, .inl (n2.2.trans n1.2.symm)⟩
          | some s =>
            have n1 := hh.name_eq s (by rw [hs]; rfl)
            cases hdd : p.dst with
            | none =>
              have n2 := hh'.name_eq s (by simp only [Pos.swap]; rw [hs, hdd]; rfl)
              exact ⟨n2.1.trans n1.1.symm, .inl (n2.2.trans n1.2.symm)⟩
            | some d =>
              have n2 := hh'.name_eq d (by simp only [Pos.swap]; rw [hdd]; rfl)
              rw [hs, hdd] at hval
              unfold validatePair at hval
              simp only at hval
              split at hval
              · cases hval
              · split at hval
                · cases hval
                · split at hval
                  · rename_i h1 h2 h3
                    refine ⟨n2.1.trans (Eq.trans ?_ n1.1.symm), .inr ?_⟩
                    · exact (by simpa using h2 : s.shortname = d.shortname).symm
                    · rw [n1.2, n2.2]; exact h3
                  · cases hval
        exact Mirror.mk l (hh'.type_eq.trans hh.type_eq.symm) hname.1 hname.2 (hh'.srcName_eq.trans hh.dstName_eq.symm)
          (hh'.dstName_eq.trans hh.srcName_eq.symm) (hh'.src_eq.trans hh.dst_eq.symm) (hh'.dst_eq.trans hh.src_eq.symm) g1 g2 g3

theorem describesTop_mirror {es es' : List (Elem V)} (h : DescribesTopG src dst flags S D es)
    (h' : DescribesTopG dst src flags' D S es') : MirrorL es es' := by
  obtain ⟨_, _, ps, hd, hps, hl, hz⟩ := h
  obtain ⟨_, _, ps', hd', hps', hl', hz'⟩ := h'
  have hperm : ps'.Perm (ps.map Pos.swap) := by
    apply swap_perm hd hd'
    intro c
    rw [hps, hps']
    constructor
    · rintro ⟨h1, h2⟩
      exact ⟨h1.swap, (visible_swap hf hS hD (isTop_stored h1)).1 h2⟩
    · rintro ⟨h1, h2⟩
      have h1' : IsTop src dst S D c := h1.swap
      exact ⟨h1', (visible_swap hf hS hD (isTop_stored h1')).2 h2⟩
  exact mirror_kids hl hl' hperm hz hz' (fun e p e' he h1 h2 => describes_mirror hf hS hD h1 h2)
end

/-! ## actions and counts of mirrored diffs -/

/-- The action seen from the other side. -/
def swapAction : Option Action → Option Action
  | some .create => some .delete
  | some .delete => some .create
  | a => a

theorem Mirror.action [PyVal.Equiv V] {e e' : Elem V} (h : Mirror e e') : e'.action = swapAction e.action := by
  cases h with
  | mk l _ _ _ _ _ hs hd _ _ _ =>
    have hu : (∃ k, e'.DiffersAt k) ↔ ∃ k, e.DiffersAt k := by
      have key : ∀ (a b : Elem V), b.src = a.dst → b.dst = a.src → (∃ k, a.DiffersAt k) → ∃ k, b.DiffersAt k := by
        rintro a b h1 h2 ⟨k, v, w, e1, e2, e3⟩
        refine ⟨k, w, v, ?_, ?_, ?_⟩
        · unfold Elem.srcVal; rw [h1]; exact e2
        · unfold Elem.dstVal; rw [h2]; exact e1
        · cases hb : PyVal.eq w v with
          | false => rfl
          | true => rw [PyVal.Equiv.eq_symm _ _ hb] at e3; cases e3
      exact ⟨key e' e hd.symm hs.symm, key e e' hs hd⟩
    rw [← action_update_iff, ← action_update_iff] at hu
    have hn : ∀ x : Elem V, x.src ≠ none → x.dst ≠ none → x.action = some .update ∨ x.action = none := by
      intro x h1 h2
      unfold Elem.action
      cases h3 : x.src with
      | none => exact absurd h3 h1
      | some s => cases h4 : x.dst with
        | none => exact absurd h4 h2
        | some d => simp only; split <;> simp
    cases h1 : e.src with
    | none =>
      cases h2 : e.dst with
      | none => unfold Elem.action; rw [hs, hd, h1, h2]; rfl
      | some d => unfold Elem.action; rw [hs, hd, h1, h2]; rfl
    | some s =>
      cases h2 : e.dst with
      | none => unfold Elem.action; rw [hs, hd, h1, h2]; rfl
      | some d =>
        have n1 := hn e (by simp [h1]) (by simp [h2])
        have n2 := hn e' (by simp [hs, h2]) (by simp [hd, h1])
        rcases n1 with n1 | n1
        · rw [n1, hu.2 n1]; rfl
        · rcases n2 with n2 | n2
          · rw [hu.1 n2] at n1; cases n1
          · rw [n1, n2]; rfl

theorem countP_nodesL_perm {l l' : List (Elem V)} (h : l.Perm l') (f : Elem V → Bool) :
    (nodesL l).countP f = (nodesL l').countP f := by
  rw [nodesL_eq, nodesL_eq]
  exact (h.flatMap_right _).countP_eq f

theorem Mirror.count [PyVal.Equiv V] {e : Elem V} : ∀ {e' : Elem V}, Mirror e e' → ∀ a : Option Action,
    e'.nodes.countP (fun x => decide (x.action = swapAction a)) = e.nodes.countP (fun x => decide (x.action = a)) := by
  induction e using Elem.ind with
  | h e ih =>
    intro e' h a
    have ha := h.action
    cases h with
    | mk l _ _ _ _ _ hs hd hp hl hz =>
      rw [Elem.nodes_eq, Elem.nodes_eq, List.countP_cons, List.countP_cons, ← countP_nodesL_perm hp]
      have h1 : (decide (e'.action = swapAction a)) = decide (e.action = a) := by
        rw [ha]
        cases h1 : e.action with
        | none => cases a with
          | none => rfl
          | some b => cases b <;> rfl
        | some x => cases a with
          | none => cases x <;> rfl
          | some b => cases x <;> cases b <;> rfl
      rw [h1]
      congr 1
      have key : ∀ (es l : List (Elem V)), l.length = es.length → (∀ x ∈ es, x ∈ e.kids) → (∀ x ∈ es.zip l, Mirror x.1 x.2) →
          (nodesL l).countP (fun x => decide (x.action = swapAction a)) = (nodesL es).countP (fun x => decide (x.action = a)) := by
        intro es
        induction es with
        | nil => intro l hl _ _; cases l <;> simp_all [nodesL]
        | cons x es ih' =>
          intro l hl hm hz
          cases l with
          | nil => simp at hl
          | cons y l =>
            rw [nodesL, nodesL, List.countP_append, List.countP_append]
            rw [ih x (hm x (by simp)) (hz (x, y) (by simp)) a,
              ih' l (by simpa using hl) (fun z hz' => hm z (List.mem_cons_of_mem _ hz'))
                (fun z hz' => hz z (by rw [List.zip_cons_cons]; exact List.mem_cons_of_mem _ hz'))]
      exact key e.kids l hl (fun _ h => h) hz

theorem MirrorL.count [PyVal.Equiv V] {es es' : List (Elem V)} (h : MirrorL es es') (a : Option Action) :
    countAction (swapAction a) es' = countAction a es := by
  obtain ⟨l, hp, hl, hz⟩ := h
  unfold countAction
  rw [← countP_nodesL_perm hp]
  clear hp
  induction es generalizing l with
  | nil => cases l <;> simp_all [nodesL]
  | cons x es ih =>
    cases l with
    | nil => simp at hl
    | cons y l =>
      rw [nodesL, nodesL, List.countP_append, List.countP_append, (hz (x, y) (by simp)).count a,
        ih l (by simpa using hl) (fun z hz' => hz z (by rw [List.zip_cons_cons]; exact List.mem_cons_of_mem _ hz'))]

end DS
