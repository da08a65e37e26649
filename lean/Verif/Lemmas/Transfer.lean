import Verif.Lemmas.Differ
/-! The pure differ looks only at types that matter. -/
set_option linter.unusedSectionVars false

namespace DS
variable {V E α β : Type} [PyVal V]

/-- Two contents agree on the types an adapter takes. -/
structure AgreeOn (A : Adapter V) (S S' : Snap V) : Prop where
  all : ∀ t, A.Takes t → S.all t = S'.all t
  find : ∀ t, A.Takes t → ∀ u, S.find t u = S'.find t u

theorem agree_snap (A : Adapter V) (w : World V E) : AgreeOn A (rawSnap A w) (snap A w) :=
  ⟨fun _ h => (snap_all h w).symm, fun _ h u => (snap_find h w u).symm⟩

/-- The child types of an object are taken. -/
def KidsTaken (A : Adapter V) (m : Model V) : Prop := ∀ ct ∈ Dict.keys m.cls.children, A.Takes ct

theorem P.bind_congr {p p' : P α} {q q' : α → P β} (hp : p = p') (hq : ∀ a k, p' = .ok (a, k) → q a = q' a) : P.bind p q = P.bind p' q' := by
  subst hp
  unfold P.bind
  cases p with
  | error e => rfl
  | ok x => obtain ⟨a, k⟩ := x; simp only [hq a k rfl]

theorem lookupAll_mem {S : Snap V} {t : String} {us : List String} {ms : List (Model V)} (h : lookupAll S t us = .ok ms) :
    ∀ m ∈ ms, ∃ u, S.find t u = some m := by
  induction us generalizing ms with
  | nil => cases h; simp
  | cons u us ih =>
    simp only [lookupAll] at h
    cases hf : S.find t u with
    | none => rw [hf] at h; cases h
    | some m0 =>
      rw [hf] at h
      cases hl : lookupAll S t us with
      | error e => rw [hl] at h; cases h
      | ok ms' =>
        rw [hl] at h; cases h
        intro m hm
        rcases List.mem_cons.1 hm with rfl | hm
        · exact ⟨u, hf⟩
        · exact ih hl m hm

theorem lookupAll_congr {A : Adapter V} {S S' : Snap V} (h : AgreeOn A S S') {t : String} (ht : A.Takes t) (us : List String) :
    lookupAll S t us = lookupAll S' t us := by
  induction us with
  | nil => rfl
  | cons u us ih => simp only [lookupAll, h.find t ht, ih]

theorem pChildModels_congr {A : Adapter V} {S S' : Snap V} (h : AgreeOn A S S') {o : Option (Model V)} {ct f : String} (ht : o ≠ none → A.Takes ct) :
    pChildModels S o ct f = pChildModels S' o ct f := by
  unfold pChildModels
  cases o with
  | none => rfl
  | some m => simp only [lookupAll_congr h (ht (by simp))]

theorem pChildModels_kids {A : Adapter V} {S : Snap V} (hs : ∀ t u m, S.find t u = some m → KidsTaken A m) {o : Option (Model V)} {ct f : String}
    {ms : List (Model V)} {k : Nat} (h : pChildModels S o ct f = .ok (ms, k)) : ∀ m ∈ ms, KidsTaken A m := by
  unfold pChildModels at h
  cases o with
  | none => cases h; simp
  | some m0 =>
    simp only at h
    cases hk : m0.kidList f with
    | none => rw [hk] at h; cases h
    | some us =>
      rw [hk] at h
      obtain ⟨h, _⟩ := P.lift_eq_ok.1 h
      intro m hm
      obtain ⟨u, hu⟩ := lookupAll_mem h m hm
      exact hs _ _ _ hu

section
variable {C : DiffCtx V} {S S' D D' : Snap V}

/-- The same result for the objects whose child types are taken. -/
def SameRec (C : DiffCtx V) (r r' : List (Model V) → List (Model V) → P (List (Elem V))) : Prop :=
  ∀ a b, (∀ m ∈ a, KidsTaken C.src m) → (∀ m ∈ b, KidsTaken C.dst m) → r a b = r' a b

theorem pChildLoop_congr (hS : AgreeOn C.src S S') (hD : AgreeOn C.dst D D') (ks : ∀ t u m, S'.find t u = some m → KidsTaken C.src m)
    (kd : ∀ t u m, D'.find t u = some m → KidsTaken C.dst m) {r r' : List (Model V) → List (Model V) → P (List (Elem V))} (hr : SameRec C r r')
    (s d : Option (Model V)) (mp : Dict String) (h1 : ∀ p ∈ mp, s ≠ none → C.src.Takes p.1) (h2 : ∀ p ∈ mp, d ≠ none → C.dst.Takes p.1)
    (kids : List (Elem V)) : pChildLoop S D r s d mp kids = pChildLoop S' D' r' s d mp kids := by
  induction mp generalizing kids with
  | nil => rfl
  | cons p mp ih =>
    obtain ⟨ct, f⟩ := p
    unfold pChildLoop
    refine P.bind_congr (pChildModels_congr hS (h1 _ List.mem_cons_self)) (fun a k ha => ?_)
    refine P.bind_congr (pChildModels_congr hD (h2 _ List.mem_cons_self)) (fun b k hb => ?_)
    refine P.bind_congr (hr a b (pChildModels_kids ks ha) (pChildModels_kids kd hb)) (fun es _ _ => ?_)
    exact P.bind_congr rfl (fun ks _ _ => ih (fun p hp => h1 p (List.mem_cons_of_mem _ hp)) (fun p hp => h2 p (List.mem_cons_of_mem _ hp)) ks)

theorem pPair_congr (hS : AgreeOn C.src S S') (hD : AgreeOn C.dst D D') (ks : ∀ t u m, S'.find t u = some m → KidsTaken C.src m)
    (kd : ∀ t u m, D'.find t u = some m → KidsTaken C.dst m) {r r' : List (Model V) → List (Model V) → P (List (Elem V))} (hr : SameRec C r r')
    (s d : Option (Model V)) (h1 : ∀ m, s = some m → KidsTaken C.src m) (h2 : ∀ m, d = some m → KidsTaken C.dst m) :
    pPair C S D r s d = pPair C S' D' r' s d := by
  unfold pPair
  cases s.or d with
  | none => rfl
  | some m =>
    simp only
    split
    · rfl
    · refine P.bind_congr rfl (fun _ _ _ => P.bind_congr rfl (fun mp k hmp => ?_))
      refine P.bind_congr (pChildLoop_congr hS hD ks kd hr s d mp ?_ ?_ []) (fun _ _ _ => rfl)
      · intro p hp hs
        obtain ⟨rfl, _⟩ := pMapping_ok hmp
        cases s with
        | none => exact absurd rfl hs
        | some s =>
          refine h1 s rfl p.1 (List.mem_map.2 ⟨p, ?_, rfl⟩)
          cases d with
          | none => exact hp
          | some d => exact (List.mem_filter.1 hp).1
      · intro p hp hd
        obtain ⟨rfl, _⟩ := pMapping_ok hmp
        cases d with
        | none => exact absurd rfl hd
        | some d =>
          refine h2 d rfl p.1 ?_
          cases s with
          | none => exact List.mem_map.2 ⟨p, hp, rfl⟩
          | some s => exact Dict.has_iff.1 (List.mem_filter.1 hp).2

theorem pPairs_congr {f g : Option (Model V) → Option (Model V) → P (Option (Elem V))} (L : List (Option (Model V) × Option (Model V)))
    (h : ∀ e ∈ L, f e.1 e.2 = g e.1 e.2) : pPairs f L = pPairs g L := by
  induction L with
  | nil => rfl
  | cons e L ih =>
    obtain ⟨s, d⟩ := e
    rw [pPairs, pPairs, ih (fun e he => h e (List.mem_cons_of_mem _ he)), h (s, d) List.mem_cons_self]

theorem pList_congr (hS : AgreeOn C.src S S') (hD : AgreeOn C.dst D D') (ks : ∀ t u m, S'.find t u = some m → KidsTaken C.src m)
    (kd : ∀ t u m, D'.find t u = some m → KidsTaken C.dst m) (n : Nat) : SameRec C (pList C S D n) (pList C S' D' n) := by
  induction n with
  | zero => intro a b _ _; rfl
  | succ n ih =>
    intro a b ha hb
    have hk : ∀ e ∈ Dict.values (combine a b), (∀ m, e.1 = some m → KidsTaken C.src m) ∧ (∀ m, e.2 = some m → KidsTaken C.dst m) := by
      rintro ⟨s, d⟩ he
      obtain ⟨⟨u, s', d'⟩, he, hsd⟩ := List.mem_map.1 he
      cases hsd
      obtain ⟨h3, h4, _⟩ := mem_combine.1 he
      exact ⟨fun m hm => ha m (get?_byUid_some (h3.symm.trans hm)).1, fun m hm => hb m (get?_byUid_some (h4.symm.trans hm)).1⟩
    rw [pList, pList, pPairs_congr _ (fun e he => pPair_congr hS hD ks kd ih e.1 e.2 (hk e he).1 (hk e he).2)]

theorem pDiff_congr (hS : AgreeOn C.src S S') (hD : AgreeOn C.dst D D') (s1 : Serves C.src S') (s2 : Serves C.dst D') (n : Nat) :
    pDiff C S D n = pDiff C S' D' n := by
  unfold pDiff
  refine P.bind_congr ?_ (fun _ _ _ => ?_)
  · congr 1
    funext t
    unfold pSkipped
    split
    · rename_i h
      rw [hD.all t (s2.top t (by simpa using h))]
    · split
      · rename_i h
        rw [hS.all t (s1.top t (by simpa using h))]
      · rfl
  · have : ∀ t ∈ intersection C.dst.topLevel C.src.topLevel, t ∈ C.dst.topLevel ∧ t ∈ C.src.topLevel := by
      intro t ht
      obtain ⟨h1, h2⟩ := List.mem_filter.1 ht
      exact ⟨h1, by simpa using h2⟩
    generalize intersection C.dst.topLevel C.src.topLevel = ts at this
    generalize ([] : List (Elem V)) = kids
    induction ts generalizing kids with
    | nil => rfl
    | cons t ts ih =>
      obtain ⟨h1, h2⟩ := this t List.mem_cons_self
      unfold pTypes
      rw [hS.all t (s1.top t h2), hD.all t (s2.top t h1)]
      refine P.bind_congr (pList_congr hS hD s1.find s2.find n _ _ (s1.all t) (s2.all t)) (fun _ _ _ => ?_)
      exact P.bind_congr rfl (fun ks _ _ => ih (fun t ht => this t (List.mem_cons_of_mem _ ht)) ks)

end

/-- `diff_from` computes `pDiff` on the contents of the adapters, and moves the world along `DRel`. -/
theorem diffFrom_spec (n : Nat) (dst src : Adapter V) (dc : DiffClass V) (flags : Nat) (w : World V E)
    (hw : RefsLt w) (hwf : TblWF w) (hs : Serves src (snap src w)) (hd : Serves dst (snap dst w)) :
    DRel (startDiff dst src w) (diffFrom n dst src dc flags w).2 ∧
    match pDiff ⟨src, dst, flags⟩ (snap src w) (snap dst w) n with
    | .ok (es, k) => (diffFrom n dst src dc flags w).1 = .ok { cls := dc, kids := es, processed := k } ∧
        (diffFrom n dst src dc flags w).2.dproc = k
    | .error e => (diffFrom n dst src dc flags w).1 = .error e := by
  have := diffFrom_raw n dst src dc flags w hw hwf
  rw [pDiff_congr (C := ⟨src, dst, flags⟩) (agree_snap src w) (agree_snap dst w) hs hd] at this
  exact this

/-- What the world looks like afterwards, whatever the types. -/
theorem diffFrom_drel (n : Nat) (dst src : Adapter V) (dc : DiffClass V) (flags : Nat) (w : World V E) (hw : RefsLt w) (hwf : TblWF w) :
    DRel (startDiff dst src w) (diffFrom n dst src dc flags w).2 ∧
    ∀ d, (diffFrom n dst src dc flags w).1 = .ok d → d.cls = dc ∧ (diffFrom n dst src dc flags w).2.dproc = d.processed := by
  obtain ⟨h1, h2⟩ := diffFrom_raw n dst src dc flags w hw hwf
  refine ⟨h1, fun d hd => ?_⟩
  split at h2
  · rw [hd] at h2
    obtain ⟨h2, h3⟩ := h2
    cases h2
    exact ⟨rfl, h3⟩
  · rw [hd] at h2; cases h2

end DS
