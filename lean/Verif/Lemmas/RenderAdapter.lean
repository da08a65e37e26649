import Verif.Model.RenderAdapter
import Verif.Spec.RenderAdapter
import Verif.Lemmas.Render
import Verif.Lemmas.PDiff
import Verif.Lemmas.Redis
import Verif.Lemmas.SafeStore
/-! The text of an adapter is a function of its contents. -/

namespace DS
set_option linter.unusedSectionVars false
variable {V E : Type} [PyVal V]
variable {α β : Type}

/-- `[f(a) for a in l]` with exceptions. -/
def eachE (f : α → Except Err β) : List α → Except Err (List β)
  | [] => .ok []
  | a :: l =>
    match f a with
    | .error e => .error e
    | .ok b =>
      match eachE f l with
      | .error e => .error e
      | .ok bs => .ok (b :: bs)

/-- The text of a child id. -/
def pChild (S : Snap V) (rec : Model V → Except Err String) (i : Nat) (ct u : String) : Except Err String :=
  match S.find ct u with
  | none => .ok (missingText u i)
  | some c =>
    match rec c with
    | .ok s => .ok ("\n" ++ s)
    | .error e => if e.isNotFound then .ok (missingText u i) else .error e

/-- The text of a child field. -/
def pField (S : Snap V) (rec : Model V → Except Err String) (m : Model V) (i : Nat) (p : String × String) : Except Err String :=
  if ((m.kidList p.2).getD []).isEmpty then .ok (fieldText p.2 i ++ ": []")
  else (eachE (pChild S rec i p.1) ((m.kidList p.2).getD [])).bind (fun ls => .ok (fieldText p.2 i ++ String.join ls))

/-- The text of a stored model, from the contents of the store. -/
def pModel (R : Reprs V) (S : Snap V) : Nat → Nat → Model V → Except Err String
  | 0, _, _ => .error .recursionError
  | n + 1, i, m =>
    (eachE (pField S (pModel R S n (i + 4)) m i) m.cls.children).bind (fun ps => .ok (headText R m i ++ String.join ps))

/-- The text of a top-level type. -/
def pTop (R : Reprs V) (S : Snap V) (n i : Nat) (t : String) : Except Err String :=
  if (S.all t).isEmpty then .ok (margin i ++ t ++ ": []")
  else (eachE (fun m => (pModel R S n (i + 2) m).bind (fun s => .ok ("\n" ++ s))) (S.all t)).bind
    (fun ls => .ok (margin i ++ t ++ String.join ls))

/-- The text of an adapter. -/
def pAdapter (R : Reprs V) (S : Snap V) (top : List String) (n i : Nat) : Except Err String :=
  (eachE (pTop R S n i) top).bind
    (fun bs => .ok (bs.foldl (fun output b => (if output = "" then "" else output ++ "\n") ++ b) ""))

/-! ## Simulation -/

/-- The worlds in which the store of `A` holds `S`. -/
structure Shows (A : Adapter V) (S : Snap V) (w : World V E) : Prop where
  refs : RefsLt w
  tbls : TblWF w
  raw : rawSnap A w = S
  owned : Owned A w
  plain : A.PlainStore

theorem Shows.mono {A : Adapter V} {S : Snap V} {w w' : World V E} (h : Shows A S w) (hr : RRel w w') : Shows A S w' where
  refs := hr.refsLt h.refs
  tbls := hr.tblWF h.tbls
  raw := by rw [hr.rawSnap_eq h.refs h.tbls, h.raw]
  owned := by
    intro sid hs t u r hf
    rw [hr.findRef_eq] at hf
    rw [hr.heap_eq r (h.refs _ _ _ _ hf)]
    exact h.owned sid hs t u r hf
  plain := h.plain

/-- Run in a world that shows `S`, `m` only reads and gives `p`. -/
def Rd (A : Adapter V) (S : Snap V) (m : M V E α) (p : Except Err α) : Prop :=
  ∀ w, Shows A S w → RRel w (m w).2 ∧ (m w).1 = p

variable {A : Adapter V} {S : Snap V}

theorem Rd.mapEach {f : α → M V E β} {g : α → Except Err β} (l : List α) (h : ∀ a ∈ l, Rd A S (f a) (g a)) :
    Rd A S (M.mapEach f l) (eachE g l) := by
  induction l with
  | nil => intro w _; exact ⟨RRel.refl w, rfl⟩
  | cons a l ih =>
    intro w hw
    obtain ⟨h1, h2⟩ := h a (by simp) w hw
    show RRel w ((f a >>= fun b => (M.mapEach f l) >>= fun bs => Pure.pure (b :: bs)) w).2 ∧
      ((f a >>= fun b => (M.mapEach f l) >>= fun bs => Pure.pure (b :: bs)) w).1 = _
    simp only [eachE]
    cases hg : g a with
    | error e =>
      rw [hg] at h2
      rw [M.bind_err (Prod.ext h2 rfl : f a w = (.error e, _))]
      exact ⟨h1, rfl⟩
    | ok b =>
      rw [hg] at h2
      rw [M.bind_ok (Prod.ext h2 rfl : f a w = (.ok b, _))]
      obtain ⟨i1, i2⟩ := ih (fun x hx => h x (by simp [hx])) _ (hw.mono h1)
      cases hl : eachE g l with
      | error e =>
        rw [hl] at i2
        rw [M.bind_err (Prod.ext i2 rfl : M.mapEach f l (f a w).2 = (.error e, _))]
        exact ⟨h1.trans i1, rfl⟩
      | ok bs =>
        rw [hl] at i2
        rw [M.bind_ok (Prod.ext i2 rfl : M.mapEach f l (f a w).2 = (.ok bs, _))]
        exact ⟨h1.trans i1, rfl⟩

/-- Follow a reading computation by another one. -/
theorem Rd.bind {m : M V E α} {p : Except Err α} {f : α → M V E β} {q : α → Except Err β} (hm : Rd A S m p)
    (hf : ∀ a, Rd A S (f a) (q a)) :
    Rd A S (m >>= f) (p.bind q) := by
  intro w hw
  obtain ⟨h1, h2⟩ := hm w hw
  cases p with
  | error e =>
    rw [M.bind_err (Prod.ext h2 rfl : m w = (.error e, _))]
    exact ⟨h1, rfl⟩
  | ok a =>
    rw [M.bind_ok (Prod.ext h2 rfl : m w = (.ok a, _))]
    obtain ⟨i1, i2⟩ := hf a _ (hw.mono h1)
    exact ⟨h1.trans i1, i2⟩

theorem Rd.pure (a : α) : Rd A S (Pure.pure a : M V E α) (.ok a) := fun w _ => ⟨RRel.refl w, rfl⟩

/-- An instance that shows the stored model `m`. -/
def Inst (A : Adapter V) (o : Obj V) (m : Model V) : Prop := o.m = m ∧ ∃ a, o.adapter = some a ∧ a.store = A.ref.store

theorem rawSnap_store {B : Adapter V} (h : B.ref.store = A.ref.store) (w : World V E) : rawSnap B w = rawSnap A w := by
  unfold rawSnap; rw [h]

theorem le_sum_of_mem {l : List Nat} {x : Nat} (h : x ∈ l) : x ≤ l.sum := by
  induction l with
  | nil => cases h
  | cons a l ih =>
    simp only [List.sum_cons]
    rcases List.mem_cons.1 h with rfl | h
    · omega
    · have := ih h; omega

theorem count_of_find {w : World V E} (hw : Shows A S w) {t u : String} {m : Model V} (h : S.find t u = some m) :
    countStore A.ref.store w ≠ 0 := by
  rw [← hw.raw] at h
  unfold rawSnap at h
  cases hs : A.ref.store with
  | «local» sid =>
    rw [hs] at h
    simp only [Option.map_eq_some_iff] at h
    obtain ⟨r, hr, _⟩ := h
    unfold findRef tbl at hr
    simp only [countStore]
    cases hg : Dict.get? (w.loc sid) t with
    | none => rw [hg] at hr; simp at hr
    | some d =>
      rw [hg] at hr
      simp only [Option.getD_some] at hr
      have hm := Dict.mem_of_get? hg
      intro h0
      have : d.length ≤ ((w.loc sid).map (fun p => p.2.length)).sum := by
        exact le_sum_of_mem (List.mem_map_of_mem (f := fun p : String × Dict Ref => p.2.length) hm)
      rw [h0] at this
      have : d = [] := List.length_eq_zero_iff.1 (by omega)
      subst this; simp at hr
  | redis sid =>
    rw [hs] at h
    simp only [Option.map_eq_some_iff] at h
    obtain ⟨o, ho, _⟩ := h
    simp only [countStore]
    intro h0
    have hk : redisKey sid t u ∈ scanKeys w.redis (storeLabel sid ++ ":") := by
      refine List.mem_filter.2 ⟨Dict.mem_keys_iff.2 ⟨o, ho⟩, ?_⟩
      rw [globStore_eq (hw.plain sid hs)]
      rw [List.isPrefixOf_iff_prefix]
      refine ⟨(t ++ ":" ++ u).toList, ?_⟩
      simp [redisKey, String.toList_append]
    rw [List.length_eq_zero_iff.1 h0] at hk
    cases hk

/-- A store that holds an object is not empty. -/
theorem count_ne_zero {w : World V E} (hw : Shows A S w) {m : Model V} (h : Held S m) : countStore A.ref.store w ≠ 0 := by
  rcases h with ⟨t, u, h⟩ | ⟨t, h⟩
  · exact count_of_find hw h
  · cases hs : A.ref.store with
    | «local» sid =>
      rw [← hs]
      have hr := hw.raw
      rw [← hr] at h
      unfold rawSnap at h
      rw [hs] at h
      obtain ⟨r, hr', rfl⟩ := List.mem_map.1 h
      obtain ⟨u, hu⟩ := (Dict.mem_values_iff (hw.tbls sid t)).1 hr'
      refine count_of_find hw (t := t) (u := u) (m := (w.heap r).m) ?_
      rw [← hr]
      unfold rawSnap
      rw [hs]
      show (findRef w sid t u).map _ = _
      have : findRef w sid t u = some r := hu
      rw [this]; rfl
    | redis sid =>
      rw [← hw.raw] at h
      unfold rawSnap at h
      rw [hs] at h
      obtain ⟨k, hk, _⟩ := List.mem_filterMap.1 h
      simp only [countStore]
      intro h0
      have hk' : k ∈ scanKeys w.redis (storeLabel sid ++ ":") := by
        refine List.mem_filter.2 ⟨(List.mem_filter.1 hk).1, ?_⟩
        rw [globStore_eq (hw.plain sid hs)]
        exact scan_store (hw.plain sid hs) hk
      rw [List.length_eq_zero_iff.1 h0] at hk'
      cases hk'

theorem getRaw_inst {a : AdRef} (ha : a.store = A.ref.store) (t u : String) (w : World V E) (hw : Shows A S w) :
    RRel w (getRaw a.adapter t u w).2 ∧
    match S.find t u with
    | none => (getRaw a.adapter t u w).1 = .error .objectNotFound
    | some m => ∃ r, (getRaw a.adapter t u w).1 = .ok r ∧ Inst A ((getRaw a.adapter t u w).2.heap r) m := by
  obtain ⟨h1, h2⟩ := getRaw_spec (a.adapter : Adapter V) t u w hw.refs
  refine ⟨h1, ?_⟩
  rw [rawSnap_store (A := A) (B := a.adapter) ha, hw.raw] at h2
  cases hf : S.find t u with
  | none => rw [hf] at h2; exact h2
  | some m =>
    rw [hf] at h2
    obtain ⟨r, i1, i2, i3, i4⟩ := h2
    refine ⟨r, i1, i2, ?_⟩
    cases hs : a.store with
    | «local» sid =>
      have hr := i4 sid hs
      have hs' : A.ref.store = .local sid := ha ▸ hs
      rw [h1.heap_eq r (hw.refs _ _ _ _ hr), hs']
      exact hw.owned sid hs' t u r hr
    | redis sid =>
      refine ⟨a, ?_, ha⟩
      have hg : getRaw (a.adapter : Adapter V) t u w = redisLoad a.adapter (redisKey sid t u) w := by
        unfold getRaw
        have : (a.adapter : Adapter V).ref.store = .redis sid := hs
        rw [this]
      rw [hg] at i1 ⊢
      unfold redisLoad at i1 ⊢
      cases hd : Dict.get? w.redis (redisKey sid t u) with
      | none => rw [hd] at i1; cases i1
      | some o =>
        rw [hd] at i1
        simp only [alloc] at i1 ⊢
        cases i1
        simp [World.setObj, AdRef.adapter]

theorem Rd.child {rec : Obj V → M V E String} {prec : Model V → Except Err String}
    (hrec : ∀ o m, Held S m → Inst A o m → Rd A S (rec o) (prec m)) {a : AdRef} (hst : a.store = A.ref.store)
    (i : Nat) (ct u : String) : Rd A S (childStr rec a i ct u) (pChild S prec i ct u) := by
  intro w hw
  obtain ⟨g1, g2⟩ := getRaw_inst hst ct u w hw
  unfold childStr pChild M.tryCatch
  cases hf : S.find ct u with
  | none =>
    rw [hf] at g2
    rw [M.bind_err (Prod.ext g2 rfl : getRaw a.adapter ct u w = (.error .objectNotFound, _))]
    exact ⟨g1, rfl⟩
  | some c =>
    rw [hf] at g2
    obtain ⟨r, g3, g4⟩ := g2
    rw [M.bind_ok (Prod.ext g3 rfl : getRaw a.adapter ct u w = (.ok r, _))]
    obtain ⟨k1, k2⟩ := hrec _ c (.inl ⟨ct, u, hf⟩) g4 _ (hw.mono g1)
    rw [show ((deref r : M V E (Obj V)) >>= fun c => rec c >>= fun s => Pure.pure ("\n" ++ s))
      (getRaw a.adapter ct u w).2 = (rec ((getRaw a.adapter ct u w).2.heap r) >>=
        fun s => Pure.pure ("\n" ++ s)) (getRaw a.adapter ct u w).2 from rfl]
    cases hp : prec c with
    | ok s =>
      rw [hp] at k2
      rw [M.bind_ok (Prod.ext k2 rfl : rec _ _ = (.ok s, _))]
      exact ⟨g1.trans k1, by simp only [hp]; rfl⟩
    | error e =>
      rw [hp] at k2
      rw [M.bind_err (Prod.ext k2 rfl : rec _ _ = (.error e, _))]
      by_cases hn : e.isNotFound = true
      · simp only [hn, if_true]; exact ⟨g1.trans k1, by simp only [hp, hn]; rfl⟩
      · simp only [hn]; exact ⟨g1.trans k1, by simp only [hp, hn]; rfl⟩

theorem Rd.field (R : Reprs V) {rec : Obj V → M V E String} {prec : Model V → Except Err String}
    (hrec : ∀ o m, Held S m → Inst A o m → Rd A S (rec o) (prec m)) {o : Obj V} {m : Model V}
    (hfind : Held S m) (hI : Inst A o m) (i : Nat) (p : String × String) :
    Rd A S (fieldStr R rec o true i p) (pField S prec m i p) := by
  obtain ⟨rfl, a, ha, hst⟩ := hI
  unfold fieldStr pField
  by_cases he : ((o.m.kidList p.2).getD []).isEmpty = true
  · simp only [he, if_true]; exact Rd.pure _
  · simp only [he]
    intro w hw
    have htr : adapterTruthy (some a) w = true := by
      have := count_ne_zero hw hfind
      rw [← hst] at this
      simpa [adapterTruthy] using this
    simp only [Bool.false_eq_true, if_false]
    rw [M.read_bind, ha, htr]
    simp only [Bool.and_self]
    exact Rd.bind (Rd.mapEach (g := pChild S prec i p.1) _ (fun v _ => Rd.child hrec hst i p.1 v)) (fun ls => Rd.pure _) w hw

theorem Rd.model (R : Reprs V) (n : Nat) : ∀ (i : Nat) (o : Obj V) (m : Model V), Held S m → Inst A o m →
    Rd A S (modelStr R n o true i : M V E String) (pModel R S n i m) := by
  induction n with
  | zero => intro i o m _ _ w _; exact ⟨RRel.refl w, rfl⟩
  | succ n ih =>
    intro i o m hfind hI
    unfold modelStr pModel
    have hm := hI.1
    subst hm
    exact Rd.bind (Rd.mapEach _ (fun p _ => Rd.field R (fun o' m' h1 h2 => ih (i + 4) o' m' h1 h2) hfind hI i p))
      (fun ps => Rd.pure _)

theorem mapEach_redisLoad_heap (ks : List String) : ∀ (w : World V E) (rs : List Ref) (w' : World V E),
    M.mapEach (redisLoad A) ks w = (.ok rs, w') → ∀ r, r < w.next → w'.heap r = w.heap r := by
  induction ks with
  | nil => intro w rs w' h; cases h; simp
  | cons k ks ih =>
    intro w rs w' h
    rw [M.mapEach_cons] at h
    cases hk : Dict.get? w.redis k with
    | none =>
      rw [M.bind_err (e := .objectNotFound) (w' := w) (by unfold redisLoad; simp only [hk])] at h
      cases h
    | some o =>
      have hl : redisLoad A k w = alloc { o with adapter := some A.ref } w := by unfold redisLoad; simp only [hk]
      rw [M.bind_ok (a := w.next) (w' := (alloc { o with adapter := some A.ref } w).2) hl] at h
      cases hm : M.mapEach (redisLoad A) ks (alloc { o with adapter := some A.ref } w).2 with
      | mk res w2 =>
        cases res with
        | error e => rw [M.bind_err hm] at h; cases h
        | ok rs' =>
          rw [M.bind_ok hm] at h
          cases h
          intro r hr
          rw [ih _ _ _ hm r (Nat.lt_succ_of_lt hr)]
          exact (RRel.alloc w _).heap_eq r hr

theorem mapEach_redisLoad_ad (ks : List String) : ∀ (w : World V E) (rs : List Ref) (w' : World V E),
    M.mapEach (redisLoad A) ks w = (.ok rs, w') → ∀ r ∈ rs, (w'.heap r).adapter = some A.ref := by
  induction ks with
  | nil => intro w rs w' h; cases h; simp
  | cons k ks ih =>
    intro w rs w' h
    rw [M.mapEach_cons] at h
    cases hk : Dict.get? w.redis k with
    | none =>
      rw [M.bind_err (e := .objectNotFound) (w' := w) (by unfold redisLoad; simp only [hk])] at h
      cases h
    | some o =>
      have hl : redisLoad A k w = alloc { o with adapter := some A.ref } w := by unfold redisLoad; simp only [hk]
      rw [M.bind_ok (a := w.next) (w' := (alloc { o with adapter := some A.ref } w).2) hl] at h
      cases hm : M.mapEach (redisLoad A) ks (alloc { o with adapter := some A.ref } w).2 with
      | mk res w2 =>
        cases res with
        | error e => rw [M.bind_err hm] at h; cases h
        | ok rs' =>
          rw [M.bind_ok hm] at h
          cases h
          intro r hr
          rcases List.mem_cons.1 hr with rfl | hr
          · have hx : ∀ k' ∈ ks, True := fun _ _ => trivial
            rw [mapEach_redisLoad_heap ks _ _ _ hm w.next (Nat.lt_succ_self _)]
            simp [alloc, World.setObj]
          · exact ih _ _ _ hm r hr

/-- What `get_all` returns, as instances. -/
theorem getAll_inst (t : String) (w : World V E) (hw : Shows A S w) :
    ∃ rs, (getAll A t w).1 = .ok rs ∧ RRel w (getAll A t w).2 ∧ rs.map (fun r => ((getAll A t w).2.heap r).m) = S.all t ∧
      ∀ r ∈ rs, r < (getAll A t w).2.next ∧ Inst A ((getAll A t w).2.heap r) ((getAll A t w).2.heap r).m := by
  obtain ⟨h1, rs, h2, h3, h4⟩ := getAll_spec A t w hw.refs hw.tbls
  rw [hw.raw] at h3
  refine ⟨rs, h2, h1, h3, ?_⟩
  cases hs : A.ref.store with
  | «local» sid =>
    intro r hr
    rw [h4 sid hs] at hr
    obtain ⟨u, hu⟩ := (Dict.mem_values_iff (hw.tbls sid t)).1 hr
    have hf : findRef w sid t u = some r := hu
    refine ⟨Nat.lt_of_lt_of_le (hw.refs _ _ _ _ hf) h1.next_le, rfl, ?_⟩
    rw [h1.heap_eq r (hw.refs _ _ _ _ hf)]
    rw [hs]
    exact hw.owned sid hs t u r hf
  | redis sid =>
    unfold getAll at h2 ⊢
    simp only [hs] at h2 ⊢
    rw [M.read_bind] at h2 ⊢
    obtain ⟨rs', w', i1, _, _, i4⟩ := mapEach_redisLoad A (scanKeys w.redis (storeLabel sid ++ (":" ++ (t ++ ":")))) w
      (fun k hk => (List.mem_filter.1 hk).1)
    rw [i1] at h2 ⊢
    cases h2
    intro r hr
    exact ⟨i4 r hr, rfl, A.ref, mapEach_redisLoad_ad _ _ _ _ i1 r hr, hs ▸ rfl⟩

theorem Rd.line (R : Reprs V) (n i : Nat) (r : Ref) (w : World V E) (hw : Shows A S w) {m : Model V} (hm : Held S m)
    (hI : Inst A (w.heap r) m) :
    RRel w (modelLine R n i r w).2 ∧ (modelLine R n i r w).1 = (pModel R S n (i + 2) m).bind (fun s => .ok ("\n" ++ s)) :=
  Rd.bind (Rd.model R n (i + 2) _ m hm hI) (fun s => Rd.pure _) w hw

theorem Rd.lines (R : Reprs V) (n i : Nat) (rs : List Ref) : ∀ (w : World V E), Shows A S w →
    (∀ r ∈ rs, r < w.next ∧ Held S (w.heap r).m ∧ Inst A (w.heap r) (w.heap r).m) →
    RRel w (M.mapEach (modelLine R n i) rs w).2 ∧ (M.mapEach (modelLine R n i) rs w).1 =
      eachE (fun m => (pModel R S n (i + 2) m).bind (fun s => .ok ("\n" ++ s))) (rs.map (fun r => (w.heap r).m)) := by
  induction rs with
  | nil => intro w _ _; exact ⟨RRel.refl w, rfl⟩
  | cons r rs ih =>
    intro w hw h
    obtain ⟨h0, h1, h2⟩ := h r (by simp)
    obtain ⟨l1, l2⟩ := Rd.line R n i r w hw h1 h2
    rw [M.mapEach_cons]
    simp only [List.map_cons, eachE]
    cases hp : (pModel R S n (i + 2) (w.heap r).m).bind (fun s => Except.ok ("\n" ++ s)) with
    | error e =>
      rw [hp] at l2
      rw [M.bind_err (Prod.ext l2 rfl : modelLine R n i r w = (.error e, _))]
      exact ⟨l1, rfl⟩
    | ok b =>
      rw [hp] at l2
      rw [M.bind_ok (Prod.ext l2 rfl : modelLine R n i r w = (.ok b, _))]
      obtain ⟨i1, i2⟩ := ih _ (hw.mono l1) (by
        intro x hx
        obtain ⟨x0, x1, x2⟩ := h x (by simp [hx])
        rw [l1.heap_eq x x0]
        exact ⟨Nat.lt_of_lt_of_le x0 l1.next_le, x1, x2⟩)
      have he : rs.map (fun x => ((modelLine R n i r w).2.heap x).m) = rs.map (fun x => (w.heap x).m) := by
        apply List.map_congr_left
        intro x hx
        rw [l1.heap_eq x (h x (by simp [hx])).1]
      rw [he] at i2
      cases hl : eachE (fun m => (pModel R S n (i + 2) m).bind (fun s => Except.ok ("\n" ++ s))) (rs.map (fun x => (w.heap x).m)) with
      | error e =>
        rw [hl] at i2
        rw [M.bind_err (Prod.ext i2 rfl : M.mapEach (modelLine R n i) rs _ = (.error e, _))]
        exact ⟨l1.trans i1, rfl⟩
      | ok bs =>
        rw [hl] at i2
        rw [M.bind_ok (Prod.ext i2 rfl : M.mapEach (modelLine R n i) rs _ = (.ok bs, _))]
        exact ⟨l1.trans i1, rfl⟩

theorem Rd.top (R : Reprs V) (n i : Nat) (t : String) : Rd A S (topStr R A n i t : M V E String) (pTop R S n i t) := by
  intro w hw
  obtain ⟨rs, h1, h2, h3, h4⟩ := getAll_inst (S := S) t w hw
  unfold topStr pTop
  rw [M.bind_ok (Prod.ext h1 rfl : getAll A t w = (.ok rs, _)), ← h3, List.isEmpty_map]
  by_cases he : rs.isEmpty = true
  · simp only [he, if_true]
    exact ⟨h2, rfl⟩
  · simp only [he]
    obtain ⟨l1, l2⟩ := Rd.lines R n i rs _ (hw.mono h2) (by
      intro r hr
      refine ⟨(h4 r hr).1, .inr ⟨t, ?_⟩, (h4 r hr).2⟩
      rw [← h3]
      exact List.mem_map_of_mem (f := fun r => ((getAll A t w).2.heap r).m) hr)
    simp only [Bool.false_eq_true, if_false]
    cases hp : eachE (fun m => (pModel R S n (i + 2) m).bind (fun s => Except.ok ("\n" ++ s))) (rs.map (fun r => ((getAll A t w).2.heap r).m)) with
    | error e =>
      rw [hp] at l2
      rw [M.bind_err (Prod.ext l2 rfl : M.mapEach (modelLine R n i) rs _ = (.error e, _))]
      exact ⟨h2.trans l1, rfl⟩
    | ok ls =>
      rw [hp] at l2
      rw [M.bind_ok (Prod.ext l2 rfl : M.mapEach (modelLine R n i) rs _ = (.ok ls, _))]
      exact ⟨h2.trans l1, rfl⟩

theorem Rd.adapter (R : Reprs V) (n i : Nat) : Rd A S (adapterStr R A n i : M V E String) (pAdapter R S A.topLevel n i) :=
  Rd.bind (Rd.mapEach _ (fun t _ => Rd.top R n i t)) (fun _ => Rd.pure _)

end DS
