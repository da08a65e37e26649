import Verif.Lemmas.Ledger
import Verif.Lemmas.Transfer
import Verif.Lemmas.Redis
/-! The ledger of a run of the differ, whether it returns or raises. -/
set_option linter.unusedSectionVars false

namespace DS
variable {V E α β : Type} [PyVal V]

/-- The world holds the given contents. -/
structure AtS (C : DiffCtx V) (S D : Snap V) (w : World V E) : Prop where
  refs : RefsLt w
  wf : TblWF w
  src : snap C.src w = S
  dst : snap C.dst w = D

theorem AtS.mono {C : DiffCtx V} {S D : Snap V} {w w' : World V E} (h : AtS C S D w) (hr : DRel w w') : AtS C S D w' where
  refs := hr.refsLt h.refs
  wf := hr.tblWF h.wf
  src := by rw [hr.snap_eq h.refs h.wf, h.src]
  dst := by rw [hr.snap_eq h.refs h.wf, h.dst]

/-- Running `m` counts at most the visits of some ledgers starting from `rs` and `rd`, whether it returns or raises. -/
def Bd (C : DiffCtx V) (S D : Snap V) (m : M V E α) (post : α → Prop) (rs rd : List (String × String)) : Prop :=
  ∀ w, AtS C S D w → DRel w (m w).2 ∧ (∀ a, (m w).1 = .ok a → post a) ∧
    ∃ ls ld, Led S rs ls ∧ Led D rd ld ∧ (m w).2.dproc ≤ w.dproc + (ls.length + ld.length)

section
variable {C : DiffCtx V} {S D : Snap V}

theorem Bd.bind {m : M V E α} {f : α → M V E β} {p : α → Prop} {q : β → Prop} {rs rd rs' rd' : List (String × String)}
    (h : Bd C S D m p rs rd) (hf : ∀ a, p a → Bd C S D (f a) q rs' rd') : Bd C S D (m >>= f) q (rs ++ rs') (rd ++ rd') := by
  intro w hw
  obtain ⟨h1, h2, ls, ld, h3, h4, h5⟩ := h w hw
  cases hm : m w with
  | mk r w1 =>
    rw [hm] at h1 h2 h5
    dsimp only at h1 h2 h5
    cases r with
    | error e =>
      rw [M.bind_err hm]
      refine ⟨h1, fun a ha => (by cases ha), ls ++ [], ld ++ [], h3.append (.nil _), h4.append (.nil _), ?_⟩
      simpa using h5
    | ok a =>
      rw [M.bind_ok hm]
      obtain ⟨i1, i2, ls', ld', i3, i4, i5⟩ := hf a (h2 a rfl) w1 (hw.mono h1)
      refine ⟨h1.trans i1, i2, ls ++ ls', ld ++ ld', h3.append i3, h4.append i4, ?_⟩
      simp only [List.length_append]
      omega

theorem Bd.pure {q : α → Prop} (a : α) (h : q a) : Bd C S D (Pure.pure a : M V E α) q [] [] :=
  fun w _ => ⟨DRel.refl w, fun b hb => by cases hb; exact h, [], [], .nil _, .nil _, Nat.le_refl _⟩

theorem Bd.of_rrel {m : M V E α} {r : Except Err α} (h : ∀ w, AtS C S D w → RRel w (m w).2 ∧ (m w).1 = r) :
    Bd C S D m (fun a => r = .ok a) [] [] := by
  intro w hw
  obtain ⟨h1, h2⟩ := h w hw
  exact ⟨h1.toDRel, fun a ha => h2.symm.trans ha, [], [], .nil _, .nil _, by simp [h1.dproc_eq]⟩

theorem Bd.ofExcept (r : Except Err α) : Bd C S D (M.ofExcept r : M V E α) (fun a => r = .ok a) [] [] :=
  Bd.of_rrel fun w _ => by cases r <;> exact ⟨RRel.refl w, rfl⟩

theorem Bd.raise {q : α → Prop} (e : Err) : Bd C S D (M.raise e : M V E α) q [] [] :=
  fun w _ => ⟨DRel.refl w, fun b hb => (by cases hb), [], [], .nil _, .nil _, Nat.le_refl _⟩

theorem Bd.mono {m : M V E α} {p q : α → Prop} {rs rd rs' rd' : List (String × String)} (h : Bd C S D m p rs rd) (hpq : ∀ a, p a → q a)
    (h1 : ∀ x, rs.count x ≤ rs'.count x) (h2 : ∀ x, rd.count x ≤ rd'.count x) : Bd C S D m q rs' rd' := by
  intro w hw
  obtain ⟨a, b, ls, ld, c, d, e⟩ := h w hw
  exact ⟨a, fun x hx => hpq x (b x hx), ls, ld, c.mono h1, d.mono h2, e⟩

theorem Bd.cast {m : M V E α} {q : α → Prop} {rs rd rs' rd' : List (String × String)} (h : Bd C S D m q rs rd) (h1 : rs = rs') (h2 : rd = rd') :
    Bd C S D m q rs' rd' := h1 ▸ h2 ▸ h

theorem incrModels_run (k : Nat) {w : World V E} (hw : AtS C S D w) :
    DRel w (incrModels k w).2 ∧ (incrModels k w).1 = .ok () ∧ (incrModels k w).2.dproc = w.dproc + k := Sim.incr (C := C) (S := rawSnap C.src w) (D := rawSnap C.dst w) k w ⟨hw.refs, hw.wf, rfl, rfl⟩

theorem Bd.incr {k : Nat} {rs rd : List (String × String)} (h : k ≤ rs.length + rd.length) : Bd C S D (incrModels k : M V E Unit) (fun _ => True) rs rd := by
  intro w hw
  obtain ⟨h1, _, h3⟩ := incrModels_run k hw
  exact ⟨h1, fun _ _ => trivial, rs, rd, .roots _, .roots _, by rw [h3]; omega⟩

theorem Bd.forEach {f : β → M V E Unit} {gs gd : β → List (String × String)} (l : List β)
    (h : ∀ a ∈ l, Bd C S D (f a) (fun _ => True) (gs a) (gd a)) : Bd C S D (M.forEach f l) (fun _ => True) (l.flatMap gs) (l.flatMap gd) := by
  induction l with
  | nil => exact Bd.pure () trivial
  | cons a l ih =>
    rw [M.forEach_cons, List.flatMap_cons, List.flatMap_cons]
    exact Bd.bind (h a (by simp)) (fun _ _ => ih (fun x hx => h x (List.mem_cons_of_mem _ hx)))

/-! ## children -/

/-- The keys of the children in one child field. -/
def kidKeys (m : Model V) (p : String × String) : List (String × String) := ((m.kidList p.2).getD []).map (fun u => (p.1, u))
/-- The same for one side of a place. -/
def kidKeysO (o : Option (Model V)) (p : String × String) : List (String × String) :=
  match o with
  | none => []
  | some m => kidKeys m p

/-- The objects of type `t`, all stored and distinct. -/
structure ListOf (S : Snap V) (t : String) (ms : List (Model V)) : Prop where
  stored : ∀ m ∈ ms, S.find t m.uid = some m
  nodup : (ms.map Model.uid).Nodup

/-- The child lists of stored objects have no repetitions. -/
def NodupKids (S : Snap V) : Prop :=
  ∀ t u m ct f l, S.find t u = some m → Dict.get? m.cls.children ct = some f → m.kidList f = some l → l.Nodup

theorem kidKeys_count {m : Model V} (hn : ∀ ct f l, Dict.get? m.cls.children ct = some f → m.kidList f = some l → l.Nodup) (L : Dict String)
    (hL : Dict.WF L) (hm : ∀ p ∈ L, Dict.get? m.cls.children p.1 = some p.2) (x : String × String) :
    (L.flatMap (kidKeys m)).count x ≤ if x.1 ∈ Dict.keys L ∧ m.lists x.1 x.2 = true then 1 else 0 := by
  induction L with
  | nil => simp
  | cons p L ih =>
    obtain ⟨ct, f⟩ := p
    obtain ⟨hp, hL'⟩ : ct ∉ Dict.keys L ∧ Dict.WF L := by
      unfold Dict.WF Dict.keys at hL
      rw [List.map_cons, List.nodup_cons] at hL
      exact hL
    have ih := ih hL' (fun q hq => hm q (List.mem_cons_of_mem _ hq))
    have hcf := hm (ct, f) (by simp)
    rw [List.flatMap_cons, List.count_append]
    have hk : Dict.keys ((ct, f) :: L) = ct :: Dict.keys L := rfl
    rw [hk]
    by_cases hx : x.1 = ct
    · have h0 : (L.flatMap (kidKeys m)).count x = 0 := by
        have : ¬ (x.1 ∈ Dict.keys L ∧ m.lists x.1 x.2 = true) := fun h => hp (hx ▸ h.1)
        rw [if_neg this] at ih
        omega
      rw [h0, Nat.add_zero]
      unfold kidKeys
      have hl : m.lists x.1 x.2 = ((m.kidList f).getD []).contains x.2 := by
        unfold Model.lists
        rw [hx]
        dsimp only at hcf
        rw [hcf]
        dsimp only
        cases m.kidList f <;> rfl
      have hnd : (((m.kidList f).getD []).map (fun u => (ct, u))).Nodup := by
        have : ((m.kidList f).getD []).Nodup := by
          cases hk : m.kidList f with
          | none => exact List.nodup_nil
          | some l => exact hn ct f l hcf hk
        unfold List.Nodup at this ⊢
        rw [List.pairwise_map]
        exact this.imp (fun h he => h (by cases he; rfl))
      by_cases hc : x.2 ∈ (m.kidList f).getD []
      · rw [if_pos ⟨by simp [hx], by rw [hl]; simpa using hc⟩]
        exact List.nodup_iff_count.1 hnd x
      · rw [List.count_eq_zero.2]
        · exact Nat.zero_le _
        · intro hm'
          obtain ⟨u, hu, rfl⟩ := List.mem_map.1 hm'
          exact hc hu
    · have h0 : (kidKeys m (ct, f)).count x = 0 := by
        rw [List.count_eq_zero]
        intro hm'
        obtain ⟨u, hu, rfl⟩ := List.mem_map.1 hm'
        exact hx rfl
      rw [h0, Nat.zero_add]
      simpa [hx] using ih

theorem childModels_bd (A : Adapter V) (X : Snap V) (hX : ∀ w : World V E, AtS C S D w → snap A w = X) (hc : X.Consistent)
    {o : Option (Model V)} {ct f : String} (ht : o ≠ none → A.Takes ct) (hn : ∀ m l, o = some m → m.kidList f = some l → l.Nodup) :
    Bd C S D (childModels A o ct f : M V E _) (fun ms => ListOf X ct ms ∧ ms.map (fun m => (ct, m.uid)) = kidKeysO o (ct, f)) [] [] := by
  unfold childModels
  cases o with
  | none => exact Bd.pure [] ⟨⟨by simp, by simp⟩, rfl⟩
  | some m =>
    simp only
    cases hk : m.kidList f with
    | none => exact fun w _ => ⟨DRel.refl w, fun b hb => (by cases hb), [], [], .nil _, .nil _, Nat.le_refl _⟩
    | some us =>
      have h1 : Bd C S D (getModelsByUids A us ct : M V E _) (fun a => lookupAll X ct us = .ok a) [] [] :=
        Bd.of_rrel fun w hw => by
          obtain ⟨h1, h2⟩ := getModelsByUids_spec A ct us w hw.refs hw.wf
          rw [lookupAll_congr (agree_snap A w) (ht (by simp)), hX w hw] at h2
          exact ⟨h1, h2⟩
      refine Bd.mono (show Bd C S D (getModelsByUids A us ct : M V E _) _ [] [] from h1) ?_ (fun _ => Nat.le_refl _) (fun _ => Nat.le_refl _)
      intro ms hms
      have hl := lookupAll_ok hms
      have huid : us = ms.map Model.uid := by
        clear hk hms h1
        induction us generalizing ms with
        | nil => cases ms with
          | nil => rfl
          | cons a l => simp at hl
        | cons u us ih =>
          cases ms with
          | nil => simp at hl
          | cons a l =>
            simp only [List.map_cons, List.cons.injEq] at hl ⊢
            exact ⟨(hc.key_ok _ _ _ hl.1).2.symm, ih l hl.2⟩
      refine ⟨⟨?_, ?_⟩, ?_⟩
      · intro x hx
        have : some x ∈ us.map (X.find ct) := by rw [hl]; exact List.mem_map.2 ⟨x, hx, rfl⟩
        obtain ⟨u, _, hu⟩ := List.mem_map.1 this
        rw [(hc.key_ok _ _ _ hu).2]; exact hu
      · rw [← huid]; exact hn m us rfl hk
      · unfold kidKeysO kidKeys
        simp only [hk, Option.getD_some]
        rw [huid, List.map_map]; rfl

/-- What is known of `diff_object_list` on shorter recursion. -/
def RecBd (C : DiffCtx V) (S D : Snap V) (rec : List (Model V) → List (Model V) → M V E (List (Elem V))) : Prop :=
  ∀ t a b, ListOf S t a → ListOf D t b →
    Bd C S D (rec a b) (fun _ => True) (a.map (fun m => (t, m.uid))) (b.map (fun m => (t, m.uid)))

theorem childLoop_bd (hS : S.Consistent) (hD : D.Consistent) {rec : List (Model V) → List (Model V) → M V E (List (Elem V))} (hrec : RecBd C S D rec)
    {s d : Option (Model V)} (mapping : Dict String)
    (hs : ∀ p ∈ mapping, ∀ m l, s = some m → m.kidList p.2 = some l → l.Nodup)
    (hd : ∀ p ∈ mapping, ∀ m l, d = some m → m.kidList p.2 = some l → l.Nodup)
    (ts : ∀ p ∈ mapping, s ≠ none → C.src.Takes p.1) (td : ∀ p ∈ mapping, d ≠ none → C.dst.Takes p.1) (kids : List (Elem V)) :
    Bd C S D (diffChildLoop C rec s d mapping kids) (fun _ => True) (mapping.flatMap (kidKeysO s)) (mapping.flatMap (kidKeysO d)) := by
  induction mapping generalizing kids with
  | nil => exact Bd.pure _ trivial
  | cons p rest ih =>
    obtain ⟨ct, f⟩ := p
    unfold diffChildLoop
    rw [List.flatMap_cons, List.flatMap_cons]
    refine Bd.cast (Bd.bind (childModels_bd C.src S (fun w hw => hw.src) hS (ts (ct, f) (by simp)) (hs (ct, f) (by simp))) (fun a ha =>
      Bd.bind (childModels_bd C.dst D (fun w hw => hw.dst) hD (td (ct, f) (by simp)) (hd (ct, f) (by simp))) (fun b hb =>
      ?_))) (List.nil_append _) (List.nil_append _)
    rw [← ha.2, ← hb.2]
    refine Bd.bind (hrec ct a b ha.1 hb.1) (fun es _ => ?_)
    refine Bd.cast (Bd.bind (Bd.ofExcept _) (fun ks _ => ih (fun q hq => hs q (List.mem_cons_of_mem _ hq)) (fun q hq => hd q (List.mem_cons_of_mem _ hq))
      (fun q hq => ts q (List.mem_cons_of_mem _ hq)) (fun q hq => td q (List.mem_cons_of_mem _ hq)) ks))
      (List.nil_append _) (List.nil_append _)

/-- The child types only one side declares. -/
def soleTypes (s d : Option (Model V)) : Dict String :=
  match s, d with
  | some s, some d => s.cls.children.filter (fun p => !Dict.has d.cls.children p.1)
  | _, _ => []

theorem flatMap_filter_eq {γ : Type} (q : γ → Bool) (g : γ → List (String × String)) (l : List γ) :
    l.flatMap (fun a => if q a = true then [] else g a) = (l.filter (fun a => !q a)).flatMap g := by
  induction l with
  | nil => rfl
  | cons a l ih =>
    rw [List.flatMap_cons, ih, List.filter_cons]
    cases h : q a <;> simp

theorem flatMap_nil {γ : Type} (l : List γ) : l.flatMap (fun _ => ([] : List (String × String))) = [] := by
  induction l with
  | nil => rfl
  | cons a l ih => rw [List.flatMap_cons, ih]; rfl

theorem kidCount_eq (m : Model V) (p : String × String) : kidCount m p.2 = (kidKeys m p).length := by
  unfold kidCount kidKeys; rw [List.length_map]

theorem mapping_bd (s d : Option (Model V)) :
    Bd C S D (childrenMapping s d : M V E _) (fun mp => mp = mappingOf s d) ((soleTypes s d).flatMap (kidKeysO s)) ((soleTypes d s).flatMap (kidKeysO d)) := by
  unfold childrenMapping soleTypes mappingOf
  cases s with
  | none => cases d with
    | none => exact Bd.raise _
    | some d => exact Bd.pure _ rfl
  | some s => cases d with
    | none => exact Bd.pure _ rfl
    | some d =>
      simp only
      refine Bd.cast (Bd.bind (Bd.forEach (gs := fun p => if Dict.has d.cls.children p.1 = true then [] else kidKeys s p) (gd := fun _ => []) _ ?_) (fun _ _ =>
        Bd.bind (Bd.forEach (gs := fun _ => []) (gd := fun p => if Dict.has s.cls.children p.1 = true then [] else kidKeys d p) _ ?_) (fun _ _ => Bd.pure _ rfl))) ?_ ?_
      · intro p _
        by_cases h : Dict.has d.cls.children p.1 = true
        · simp only [if_pos h]; exact Bd.pure _ trivial
        · simp only [if_neg h]; exact Bd.incr (by rw [kidCount_eq]; simp)
      · intro p _
        by_cases h : Dict.has s.cls.children p.1 = true
        · simp only [if_pos h]; exact Bd.pure _ trivial
        · simp only [if_neg h]; exact Bd.incr (by rw [kidCount_eq]; simp)
      · rw [flatMap_nil, flatMap_filter_eq (fun p : String × String => Dict.has d.cls.children p.1), List.append_nil, List.append_nil]; rfl
      · rw [flatMap_nil, flatMap_filter_eq (fun p : String × String => Dict.has s.cls.children p.1), List.append_nil, List.nil_append]; rfl

/-! ## pairs -/

/-- The children of one side, those of shared and those of unshared types, are listed by it. -/
theorem side_count {X : Snap V} (hX : X.Consistent) (hN : NodupKids X) {t u : String} {m : Model V} (hm : X.find t u = some m) {o : Option (Model V)}
    {mp : Dict String} (hmp : Dict.WF mp) (hmm : ∀ p ∈ mp, Dict.get? m.cls.children p.1 = some p.2)
    (hdis : ∀ k ∈ Dict.keys mp, k ∉ Dict.keys (soleTypes (some m) o)) (x : String × String) :
    ((soleTypes (some m) o).flatMap (kidKeysO (some m)) ++ mp.flatMap (kidKeysO (some m))).count x ≤ occ X (t, u) x := by
  have hwf := hX.children_nodup _ _ _ hm
  have hsw : Dict.WF (soleTypes (some m) o) ∧ ∀ p ∈ soleTypes (some m) o, Dict.get? m.cls.children p.1 = some p.2 := by
    unfold soleTypes
    cases o with
    | none => exact ⟨List.nodup_nil, fun p hp => (by cases hp)⟩
    | some d => exact ⟨Dict.wf_filter hwf (fun k => !Dict.has d.cls.children k), fun p hp => Dict.get?_of_mem hwf (List.mem_filter.1 hp).1⟩
  have hn : ∀ ct f l, Dict.get? m.cls.children ct = some f → m.kidList f = some l → l.Nodup := fun ct f l => hN t u m ct f l hm
  have h1 := kidKeys_count hn _ hsw.1 hsw.2 x
  have h2 := kidKeys_count hn _ hmp hmm x
  rw [List.count_append]
  show ((soleTypes (some m) o).flatMap (kidKeys m)).count x + (mp.flatMap (kidKeys m)).count x ≤ _
  unfold occ
  simp only [hm, listsO]
  by_cases hl : m.lists x.1 x.2 = true
  · rw [if_pos hl]
    by_cases hk : x.1 ∈ Dict.keys mp
    · rw [if_neg (fun h => hdis _ hk h.1)] at h1
      rw [if_pos ⟨hk, hl⟩] at h2
      omega
    · rw [if_neg (fun h => hk h.1)] at h2
      split at h1 <;> omega
  · rw [if_neg (fun h => hl h.2)] at h1 h2
    omega

theorem keyO_length (k : String × String) (o : Option (Model V)) : (keyO k o).length = if o.isSome then 1 else 0 := by
  cases o <;> rfl

theorem pair_bd (hS : S.Consistent) (hD : D.Consistent) (hF : SameFields S D) (hNS : NodupKids S) (hND : NodupKids D) (vS : Serves C.src S) (vD : Serves C.dst D)
    {rec : List (Model V) → List (Model V) → M V E (List (Elem V))} (hrec : RecBd C S D rec) {p : Pos V} (hp : Stored S D p) :
    Bd C S D (diffPair C rec p.src p.dst) (fun _ => True) (keyO (p.type, p.uid) p.src) (keyO (p.type, p.uid) p.dst) := by
  obtain ⟨t, u, s, d⟩ := p
  simp only at *
  unfold diffPair
  cases hor : s.or d with
  | none => exact Bd.mono (Bd.raise (q := fun _ => True) _) (fun _ h => h) (fun _ => by simp) (fun _ => by simp)
  | some m =>
    simp only
    split
    · refine Bd.cast (Bd.bind (Bd.incr (rs := keyO (t, u) s) (rd := keyO (t, u) d) ?_) (fun _ _ => Bd.pure _ trivial)) (List.append_nil _) (List.append_nil _)
      rw [keyO_length, keyO_length]
      cases s with
      | some _ => simp
      | none => cases d with
        | none => cases hor
        | some _ => simp
    · -- the mapping, as in the pure differ
      have hmap : pMapping s d = .ok (mappingOf s d, (pMapping s d).toOption.elim 0 (·.2)) := by
        cases hpm : pMapping s d with
        | error e =>
          exfalso
          unfold pMapping at hpm
          cases s with
          | none => cases d with
            | none => cases hor
            | some d => cases hpm
          | some s => cases d with
            | none => cases hpm
            | some d =>
              have hfe : ∀ (g : String × String → P Unit) (l : List (String × String)), (∀ p, ∃ k, g p = .ok ((), k)) → ∃ k, P.forEach g l = .ok ((), k) := by
                intro g l hg
                induction l with
                | nil => exact ⟨0, rfl⟩
                | cons a l ih =>
                  obtain ⟨k1, h1⟩ := hg a
                  obtain ⟨k2, h2⟩ := ih
                  exact ⟨k1 + k2, by unfold P.forEach; unfold P.bind; rw [h1]; simp only [h2]⟩
              simp only at hpm
              obtain ⟨k1, h1⟩ := hfe (fun p => if Dict.has d.cls.children p.1 then P.ret () else P.tick (kidCount s p.2)) s.cls.children (fun p => by
                split <;> exact ⟨_, rfl⟩)
              obtain ⟨k2, h2⟩ := hfe (fun p => if Dict.has s.cls.children p.1 then P.ret () else P.tick (kidCount d p.2)) d.cls.children (fun p => by
                split <;> exact ⟨_, rfl⟩)
              unfold P.bind at hpm
              rw [h1] at hpm
              simp only [h2] at hpm
              cases hpm
        | ok r =>
          obtain ⟨mp, k⟩ := r
          rw [(pMapping_ok hpm).1]; rfl
      obtain ⟨m1, m2, m3, m4⟩ := mapping_spec (p := ⟨t, u, s, d⟩) hS hD hF hp hmap
      simp only at m2 m3 m4
      have hinner : Bd C S D (childrenMapping s d >>= fun mapping => diffChildLoop C rec s d mapping [] >>= fun kids =>
          pure (some { type := m.type, name := m.shortname, keys := m.identifiers, srcName := C.src.name, dstName := C.dst.name,
                       src := s.map Model.attrs, dst := d.map Model.attrs, kids := kids } : Option (Elem V))) (fun _ => True)
          ((soleTypes s d).flatMap (kidKeysO s) ++ (mappingOf s d).flatMap (kidKeysO s))
          ((soleTypes d s).flatMap (kidKeysO d) ++ (mappingOf s d).flatMap (kidKeysO d)) := by
        refine Bd.bind (mapping_bd s d) (fun mp hmp => ?_)
        subst hmp
        refine Bd.cast (Bd.bind (childLoop_bd hS hD hrec _ ?_ ?_ ?_ ?_ _) (fun _ _ => Bd.pure _ trivial)) (List.append_nil _) (List.append_nil _)
        · intro p hpm x l hx hl
          subst hx
          exact hNS _ _ _ _ _ _ (hp.src x rfl) (m2 p.1 p.2 hpm x rfl) hl
        · intro p hpm x l hx hl
          subst hx
          exact hND _ _ _ _ _ _ (hp.dst x rfl) (m3 p.1 p.2 hpm x rfl) hl
        · intro p hpm hx
          cases s with
          | none => exact absurd rfl hx
          | some x => exact vS.find _ _ _ (hp.src x rfl) p.1 (Dict.mem_keys_iff.2 ⟨_, m2 p.1 p.2 hpm x rfl⟩)
        · intro p hpm hx
          cases d with
          | none => exact absurd rfl hx
          | some x => exact vD.find _ _ _ (hp.dst x rfl) p.1 (Dict.mem_keys_iff.2 ⟨_, m3 p.1 p.2 hpm x rfl⟩)
      have hnone : ∀ L : Dict String, L.flatMap (kidKeysO (none : Option (Model V))) = [] := fun L => flatMap_nil L
      have hdis : ∀ k ∈ Dict.keys (mappingOf s d), k ∉ Dict.keys (soleTypes s d) ∧ k ∉ Dict.keys (soleTypes d s) := by
        intro k hk
        rw [m4] at hk
        unfold soleTypes
        cases s with
        | none => exact ⟨(by cases d <;> simp [Dict.keys]), (by cases d <;> simp [Dict.keys])⟩
        | some s => cases d with
          | none => exact ⟨by simp [Dict.keys], by simp [Dict.keys]⟩
          | some d =>
            have a := Dict.has_iff.2 (hk.1 s rfl)
            have b := Dict.has_iff.2 (hk.2 d rfl)
            refine ⟨?_, ?_⟩
            · simp only
              rw [Dict.keys_filter (fun k => !Dict.has d.cls.children k), List.mem_filter, b]; simp
            · simp only
              rw [Dict.keys_filter (fun k => !Dict.has s.cls.children k), List.mem_filter, a]; simp
      intro w hw
      obtain ⟨r1, r2, r3⟩ := incrModels_run (E := E) ((if s.isSome then 1 else 0) + (if d.isSome then 1 else 0)) hw
      rw [M.bind_ok (Prod.ext r2 rfl : incrModels _ w = (.ok (), _))]
      obtain ⟨i1, i2, ls, ld, i3, i4, i5⟩ := hinner _ (hw.mono r1)
      refine ⟨r1.trans i1, i2, _, _, i3.place (k := (t, u)) (o := s) ?_ ?_, i4.place (k := (t, u)) (o := d) ?_ ?_, ?_⟩
      · rintro rfl; rw [hnone, hnone]; rfl
      · intro hs
        cases s with
        | none => exact absurd rfl hs
        | some s => exact side_count hS hNS (hp.src s rfl) m1 (fun p hpm => m2 p.1 p.2 hpm s rfl) (fun k hk => (hdis k hk).1)
      · rintro rfl; rw [hnone, hnone]; rfl
      · intro hs
        cases d with
        | none => exact absurd rfl hs
        | some d => exact side_count hD hND (hp.dst d rfl) m1 (fun p hpm => m3 p.1 p.2 hpm d rfl) (fun k hk => (hdis k hk).2)
      · rw [List.length_append, List.length_append, keyO_length, keyO_length]
        rw [r3] at i5
        refine Nat.le_trans i5 ?_
        omega

/-! ## lists and types -/

theorem count_le_of_nodup {l m : List (String × String)} (hl : l.Nodup) (h : ∀ x ∈ l, x ∈ m) (x : String × String) : l.count x ≤ m.count x := by
  by_cases hx : x ∈ l
  · exact Nat.le_trans (List.nodup_iff_count.1 hl x) (List.count_pos_iff.2 (h x hx))
  · rw [List.count_eq_zero.2 hx]; exact Nat.zero_le _

/-- The keys of the entries that have an object on the given side. -/
theorem entries_count {γ : Type} (t : String) (side : γ → Option (Model V)) (L : Dict γ) (hL : Dict.WF L) {a : List (Model V)}
    (hside : ∀ e ∈ L, ∀ m, side e.2 = some m → m ∈ a ∧ m.uid = e.1) (x : String × String) :
    (L.flatMap (fun e => keyO (t, e.1) (side e.2))).count x ≤ (a.map (fun m => (t, m.uid))).count x := by
  apply count_le_of_nodup
  · induction L with
    | nil => exact List.nodup_nil
    | cons e L ih =>
      obtain ⟨he, hL'⟩ : e.1 ∉ Dict.keys L ∧ Dict.WF L := by
        unfold Dict.WF Dict.keys at hL
        rw [List.map_cons, List.nodup_cons] at hL
        exact hL
      rw [List.flatMap_cons, List.nodup_append]
      refine ⟨by unfold keyO; split <;> simp, ih hL' (fun y hy => hside y (List.mem_cons_of_mem _ hy)), ?_⟩
      rintro y hy z hz rfl
      obtain ⟨e', he', hz⟩ := List.mem_flatMap.1 hz
      have h1 : y = (t, e.1) := by unfold keyO at hy; split at hy <;> simp_all
      have h2 : y = (t, e'.1) := by unfold keyO at hz; split at hz <;> simp_all
      rw [h1] at h2
      injection h2 with _ h2
      exact he (h2 ▸ List.mem_map.2 ⟨e', he', rfl⟩)
  · intro y hy
    obtain ⟨e, he, hy⟩ := List.mem_flatMap.1 hy
    cases hm : side e.2 with
    | none => rw [hm] at hy; cases hy
    | some m =>
      rw [hm] at hy
      obtain ⟨h1, h2⟩ := hside e he m hm
      have : y = (t, e.1) := by simpa [keyO] using hy
      rw [this, ← h2]
      exact List.mem_map.2 ⟨m, h1, rfl⟩

theorem pairs_bd {f : Option (Model V) → Option (Model V) → M V E (Option (Elem V))} (t : String)
    (L : Dict (Option (Model V) × Option (Model V)))
    (h : ∀ e ∈ L, Bd C S D (f e.2.1 e.2.2) (fun _ => True) (keyO (t, e.1) e.2.1) (keyO (t, e.1) e.2.2)) :
    Bd C S D (diffPairs f (Dict.values L)) (fun _ => True) (L.flatMap (fun e => keyO (t, e.1) e.2.1)) (L.flatMap (fun e => keyO (t, e.1) e.2.2)) := by
  induction L with
  | nil => exact Bd.pure _ trivial
  | cons e L ih =>
    obtain ⟨u, s, d⟩ := e
    show Bd C S D (diffPairs f ((s, d) :: Dict.values L)) _ _ _
    unfold diffPairs
    rw [List.flatMap_cons, List.flatMap_cons]
    refine Bd.bind (h (u, s, d) (by simp)) (fun _ _ => ?_)
    exact Bd.cast (Bd.bind (ih (fun x hx => h x (List.mem_cons_of_mem _ hx))) (fun _ _ => Bd.pure _ trivial)) (List.append_nil _) (List.append_nil _)

theorem combine_length_src {a b : List (Model V)} (ha : (a.map Model.uid).Nodup) : a.length ≤ (combine a b).length := by
  have := nodup_length_le ha (m := Dict.keys (combine a b)) (fun u hu => by
    obtain ⟨m, hm, rfl⟩ := List.mem_map.1 hu
    obtain ⟨x, hx⟩ := Dict.mem_keys_iff.1 (mem_keys_byUid.2 ⟨m, hm, rfl⟩)
    exact Dict.mem_keys_iff.2 ⟨_, by rw [get?_combine, if_pos (.inl (mem_keys_byUid.2 ⟨m, hm, rfl⟩))]⟩)
  simpa [Dict.keys] using this
theorem combine_length_dst {a b : List (Model V)} (hb : (b.map Model.uid).Nodup) : b.length ≤ (combine a b).length := by
  have := nodup_length_le hb (m := Dict.keys (combine a b)) (fun u hu => by
    obtain ⟨m, hm, rfl⟩ := List.mem_map.1 hu
    exact Dict.mem_keys_iff.2 ⟨_, by rw [get?_combine, if_pos (.inr (mem_keys_byUid.2 ⟨m, hm, rfl⟩))]⟩)
  simpa [Dict.keys] using this

theorem list_bd (hS : S.Consistent) (hD : D.Consistent) (hF : SameFields S D) (hNS : NodupKids S) (hND : NodupKids D) (vS : Serves C.src S) (vD : Serves C.dst D) (n : Nat) :
    RecBd C S D (diffList C n : List (Model V) → List (Model V) → M V E (List (Elem V))) := by
  induction n with
  | zero => intro t a b _ _; exact Bd.mono (Bd.raise (q := fun _ => True) _) (fun _ h => h) (fun _ => by simp) (fun _ => by simp)
  | succ n ih =>
    intro t a b ha hb
    unfold diffList
    have h1 := combine_length_src (b := b) ha.nodup
    have h2 := combine_length_dst (a := a) hb.nodup
    have hside : ∀ e ∈ combine a b, (∀ m, e.2.1 = some m → m ∈ a ∧ m.uid = e.1) ∧ (∀ m, e.2.2 = some m → m ∈ b ∧ m.uid = e.1) := by
      rintro ⟨u, s, d⟩ he
      obtain ⟨h3, h4, _⟩ := mem_combine.1 he
      exact ⟨fun m hm => get?_byUid_some (h3.symm.trans hm), fun m hm => get?_byUid_some (h4.symm.trans hm)⟩
    refine Bd.mono (Bd.bind (Bd.incr (rs := []) (rd := []) (by simp only [List.length_nil]; omega)) (fun _ _ => Bd.bind (Bd.ofExcept _) (fun _ _ =>
      pairs_bd t (combine a b) (fun e he => ?_)))) (fun _ h => h) (fun x => ?_) (fun x => ?_)
    · refine pair_bd (p := ⟨t, e.1, e.2.1, e.2.2⟩) hS hD hF hNS hND vS vD ih ⟨?_, ?_⟩
      · intro m hm
        obtain ⟨h3, h4⟩ := (hside e he).1 m hm
        exact h4 ▸ ha.stored m h3
      · intro m hm
        obtain ⟨h3, h4⟩ := (hside e he).2 m hm
        exact h4 ▸ hb.stored m h3
    · rw [List.nil_append, List.nil_append]
      exact entries_count t Prod.fst _ (combine_wf a b) (fun e he => (hside e he).1) x
    · rw [List.nil_append, List.nil_append]
      exact entries_count t Prod.snd _ (combine_wf a b) (fun e he => (hside e he).2) x

/-- The keys of the stored objects of a type. -/
def allKeys (S : Snap V) (t : String) : List (String × String) := (S.all t).map (fun m => (t, m.uid))

theorem listOf_all (hS : S.Consistent) (t : String) : ListOf S t (S.all t) where
  stored m hm := by
    obtain ⟨u, hu⟩ := (hS.all_iff t m).1 hm
    rw [(hS.key_ok _ _ _ hu).2]; exact hu
  nodup := hS.all_nodup t

theorem types_bd (hS : S.Consistent) (hD : D.Consistent) (hF : SameFields S D) (hNS : NodupKids S) (hND : NodupKids D) (vS : Serves C.src S) (vD : Serves C.dst D) (n : Nat) (ts : List String)
    (hts : ∀ t ∈ ts, C.src.Takes t ∧ C.dst.Takes t) (kids : List (Elem V)) :
    Bd C S D (diffTypes C n ts kids : M V E _) (fun _ => True) (ts.flatMap (allKeys S)) (ts.flatMap (allKeys D)) := by
  induction ts generalizing kids with
  | nil => exact Bd.pure _ trivial
  | cons t ts ih =>
    unfold diffTypes
    rw [List.flatMap_cons, List.flatMap_cons]
    have g1 : Bd C S D (getAllModels C.src t : M V E _) (fun a => (.ok (S.all t) : Except Err _) = .ok a) [] [] := Bd.of_rrel fun w hw => by
      obtain ⟨h1, h2⟩ := getAllModels_spec C.src t w hw.refs hw.wf
      rw [← snap_all (hts t (by simp)).1, hw.src] at h2; exact ⟨h1, h2⟩
    have g2 : Bd C S D (getAllModels C.dst t : M V E _) (fun a => (.ok (D.all t) : Except Err _) = .ok a) [] [] := Bd.of_rrel fun w hw => by
      obtain ⟨h1, h2⟩ := getAllModels_spec C.dst t w hw.refs hw.wf
      rw [← snap_all (hts t (by simp)).2, hw.dst] at h2; exact ⟨h1, h2⟩
    refine Bd.cast (Bd.bind g1 (fun a ha => Bd.bind g2 (fun b hb => ?_))) (List.nil_append _) (List.nil_append _)
    cases ha; cases hb
    refine Bd.bind (list_bd hS hD hF hNS hND vS vD n t _ _ (listOf_all hS t) (listOf_all hD t)) (fun es _ => ?_)
    exact Bd.cast (Bd.bind (Bd.ofExcept _) (fun ks _ => ih (fun x hx => hts x (List.mem_cons_of_mem _ hx)) ks)) (List.nil_append _) (List.nil_append _)

theorem skipped_bd (vS : Serves C.src S) (vD : Serves C.dst D) (t : String) : Bd C S D (countSkippedType C t : M V E _) (fun _ => True)
    (if C.dst.topLevel.contains t then [] else if C.src.topLevel.contains t then allKeys S t else [])
    (if C.dst.topLevel.contains t then allKeys D t else []) := by
  have hg : ∀ (A : Adapter V) (X : Snap V), (∀ w : World V E, AtS C S D w → snap A w = X) → A.Takes t →
      Bd C S D (getAll A t : M V E _) (fun a => a.length = (X.all t).length) [] [] := by
    intro A X hX ht w hw
    obtain ⟨rs, h1, h2, h3⟩ := getAll_length A t w hw.refs hw.wf
    rw [← snap_all ht, hX w hw] at h3
    refine ⟨h2.toDRel, fun a ha => ?_, [], [], .nil _, .nil _, by simp [h2.dproc_eq]⟩
    rw [h1] at ha; cases ha; exact h3
  unfold countSkippedType
  by_cases h1 : C.dst.topLevel.contains t = true
  · simp only [h1, if_true]
    exact Bd.cast (Bd.bind (hg C.dst D (fun w hw => hw.dst) (vD.top t (by simpa using h1))) (fun a ha => Bd.incr (rs := []) (rd := allKeys D t) (by simp [ha, allKeys]))) (List.nil_append _) (List.nil_append _)
  · simp only [if_neg h1]
    by_cases h2 : C.src.topLevel.contains t = true
    · simp only [h2, if_true]
      exact Bd.cast (Bd.bind (hg C.src S (fun w hw => hw.src) (vS.top t (by simpa using h2))) (fun a ha => Bd.incr (rs := allKeys S t) (rd := []) (by simp [ha, allKeys]))) (List.nil_append _) (List.nil_append _)
    · simp only [if_neg h2]
      exact Bd.pure _ trivial

theorem insertSorted_perm (x : String) (l : List String) : (insertSorted x l).Perm (x :: l) := by
  induction l with
  | nil => exact .refl _
  | cons a l ih =>
    unfold insertSorted
    split
    · exact .refl _
    · exact (ih.cons a).trans (.swap _ _ _)
theorem sortStrings_perm (l : List String) : (sortStrings l).Perm l := by
  induction l with
  | nil => exact .refl _
  | cons a l ih => exact (insertSorted_perm a _).trans (ih.cons a)

theorem mem_dedup' {l : List String} {a : String} : a ∈ dedup l ↔ a ∈ l := by
  induction l with
  | nil => simp [dedup]
  | cons x l ih =>
    unfold dedup
    split
    · rename_i h
      rw [ih, List.mem_cons]
      constructor
      · exact .inr
      · rintro (rfl | h')
        · simpa using h
        · exact h'
    · rw [List.mem_cons, List.mem_cons, ih]
theorem nodup_dedup' (l : List String) : (dedup l).Nodup := by
  induction l with
  | nil => simp [dedup]
  | cons a l ih =>
    unfold dedup
    split
    · exact ih
    · rename_i h
      rw [List.nodup_cons, mem_dedup']
      exact ⟨by simpa using h, ih⟩

theorem symmDiff_nodup (l1 l2 : List String) : (symmetricDifference l1 l2).Nodup := by
  unfold symmetricDifference
  rw [(sortStrings_perm _).nodup_iff, List.nodup_append]
  refine ⟨nodup_dedup' _, nodup_dedup' _, ?_⟩
  rintro a ha b hb rfl
  rw [mem_dedup', List.mem_filter] at ha hb
  simp [ha.1] at hb
theorem mem_symmDiff {l1 l2 : List String} {t : String} : t ∈ symmetricDifference l1 l2 ↔ (t ∈ l1 ∧ t ∉ l2) ∨ (t ∈ l2 ∧ t ∉ l1) := by
  unfold symmetricDifference
  rw [(sortStrings_perm _).mem_iff, List.mem_append, mem_dedup', mem_dedup', List.mem_filter, List.mem_filter]
  simp

/-- Keys of objects of distinct types. -/
theorem allKeys_nodup (hS : S.Consistent) (ts : List String) (h : ts.Nodup) : (ts.flatMap (allKeys S)).Nodup := by
  induction ts with
  | nil => exact List.nodup_nil
  | cons t ts ih =>
    rw [List.nodup_cons] at h
    rw [List.flatMap_cons, List.nodup_append]
    refine ⟨?_, ih h.2, ?_⟩
    · have := hS.all_nodup t
      unfold allKeys
      unfold List.Nodup at this ⊢
      rw [List.pairwise_map] at this ⊢
      exact this.imp (fun hne he => hne (congrArg Prod.snd he))
    · rintro a ha b hb rfl
      obtain ⟨t', ht', hb⟩ := List.mem_flatMap.1 hb
      obtain ⟨m, _, rfl⟩ := List.mem_map.1 ha
      obtain ⟨m', _, he⟩ := List.mem_map.1 hb
      have : t' = t := congrArg Prod.fst he
      exact h.1 (this ▸ ht')

theorem mem_allKeys (hS : S.Consistent) {t : String} {x : String × String} (h : x ∈ allKeys S t) : x.1 = t ∧ S.find x.1 x.2 ≠ none := by
  obtain ⟨m, hm, rfl⟩ := List.mem_map.1 h
  exact ⟨rfl, by rw [(listOf_all hS t).stored m hm]; simp⟩

end

/-- A consistent store has no more distinct keys than `count()` says. -/
theorem stored_le_count {A : Adapter V} {w : World V E} (hp : ∀ sid, A.ref.store = .redis sid → Plain sid) (hS : (snap A w).Consistent) {ls : List (String × String)} (hn : ls.Nodup)
    (hs : ∀ x ∈ ls, (snap A w).find x.1 x.2 ≠ none) : ls.length ≤ countStore A.ref.store w := by
  cases hA : A.ref.store with
  | «local» sid =>
    have : countStore (.local sid) w = ((w.loc sid).flatMap (fun x => x.2.map (fun y => (x.1, y.1)))).length := by
      rw [List.length_flatMap]
      unfold countStore
      simp
    rw [this]
    apply nodup_length_le hn
    intro x hx
    have h1 := hs x hx
    simp only [snap, hA] at h1
    cases hf : findRef w sid x.1 x.2 with
    | none => rw [hf] at h1; exact absurd rfl h1
    | some r =>
      have := Dict.mem_of_get? hf
      unfold tbl at this
      cases ht : Dict.get? (w.loc sid) x.1 with
      | none => rw [ht] at this; cases this
      | some tb =>
        rw [ht] at this
        exact List.mem_flatMap.2 ⟨(x.1, tb), Dict.mem_of_get? ht, List.mem_map.2 ⟨(x.2, r), this, rfl⟩⟩
  | redis sid =>
    have hinj : (ls.map (fun x => redisKey sid x.1 x.2)).Nodup := by
      unfold List.Nodup at hn ⊢
      rw [List.pairwise_map]
      refine List.Pairwise.imp_of_mem ?_ hn
      intro a b ha hb hne he
      have h1 := hs a ha
      have g1 : Plain a.1 := by apply Decidable.byContradiction; intro hc; simp [snap, hA, hc] at h1
      have g2 : Plain b.1 := by apply Decidable.byContradiction; intro hc; have := hs b hb; simp [snap, hA, hc] at this
      have h2 : (snap A w).find a.1 a.2 = (snap A w).find b.1 b.2 := by simp only [snap, hA, he, if_pos g1, if_pos g2]
      cases hm : (snap A w).find a.1 a.2 with
      | none => exact h1 hm
      | some m =>
        rw [hm] at h2
        obtain ⟨e1, e2⟩ := hS.key_ok _ _ _ hm
        obtain ⟨e3, e4⟩ := hS.key_ok _ _ _ h2.symm
        exact hne (Prod.ext (e1.symm.trans e3) (e2.symm.trans e4))
    rw [← List.length_map (f := fun x => redisKey sid x.1 x.2)]
    apply nodup_length_le hinj
    intro k hk
    obtain ⟨x, hx, rfl⟩ := List.mem_map.1 hk
    have h1 := hs x hx
    have g1 : Plain x.1 := by apply Decidable.byContradiction; intro hc; simp [snap, hA, hc] at h1
    simp only [snap, hA, if_pos g1] at h1
    unfold scanKeys
    rw [List.mem_filter]
    refine ⟨?_, ?_⟩
    · cases hg : Dict.get? w.redis (redisKey sid x.1 x.2) with
      | none => rw [hg] at h1; exact absurd rfl h1
      | some o => exact Dict.mem_keys_iff.2 ⟨o, hg⟩
    · rw [globStore_eq (hp sid hA)]
      exact (prefixStore_iff (hp sid hA) (hp sid hA)).2 rfl

end DS
