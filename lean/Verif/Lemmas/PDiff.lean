import Verif.Lemmas.Read
/-! The differ as a pure function of the contents of the two adapters, and the proof that the monadic differ
computes it. -/
set_option linter.unusedSectionVars false

namespace DS
variable {V E α β : Type} [PyVal V]

/-! ## Pure computations that count processed models -/

/-- A result and how many models were counted as processed, or an exception. -/
abbrev P (α : Type) := Except Err (α × Nat)

def P.ret (a : α) : P α := .ok (a, 0)
def P.err (e : Err) : P α := .error e
def P.tick (k : Nat) : P Unit := .ok ((), k)
def P.lift : Except Err α → P α
  | .ok a => .ok (a, 0)
  | .error e => .error e
def P.bind (x : P α) (f : α → P β) : P β :=
  match x with
  | .ok (a, k) => match f a with
    | .ok (b, l) => .ok (b, k + l)
    | .error e => .error e
  | .error e => .error e

theorem P.bind_eq_ok {x : P α} {f : α → P β} {b : β} {n : Nat} :
    P.bind x f = .ok (b, n) ↔ ∃ a k l, x = .ok (a, k) ∧ f a = .ok (b, l) ∧ n = k + l := by
  unfold P.bind
  constructor
  · intro h
    split at h
    · rename_i a k
      split at h
      · rename_i b' l hb
        cases h
        exact ⟨a, k, l, rfl, hb, rfl⟩
      · cases h
    · cases h
  · rintro ⟨a, k, l, rfl, h, rfl⟩
    simp only [h]

theorem P.bind_eq_error {x : P α} {f : α → P β} {e : Err} :
    P.bind x f = .error e ↔ x = .error e ∨ ∃ a k, x = .ok (a, k) ∧ f a = .error e := by
  unfold P.bind
  constructor
  · intro h
    split at h
    · rename_i a k
      split at h
      · cases h
      · rename_i e' he
        cases h
        exact .inr ⟨a, k, rfl, he⟩
    · cases h; exact .inl rfl
  · rintro (rfl | ⟨a, k, rfl, h⟩)
    · rfl
    · simp only [h]

theorem P.lift_eq_ok {r : Except Err α} {a : α} {n : Nat} : P.lift r = .ok (a, n) ↔ r = .ok a ∧ n = 0 := by
  unfold P.lift; cases r
  · simp
  · constructor
    · intro h; cases h; exact ⟨rfl, rfl⟩
    · rintro ⟨h, rfl⟩; cases h; rfl

theorem P.lift_eq_error {r : Except Err α} {e : Err} : (P.lift r : P α) = .error e ↔ r = .error e := by
  unfold P.lift; cases r
  · constructor <;> (intro h; cases h; rfl)
  · simp

/-! ## Simulation -/

/-- The two adapters have contents `S` and `D` in `w`. -/
structure At (C : DiffCtx V) (S D : Snap V) (w : World V E) : Prop where
  refs : RefsLt w
  wf : TblWF w
  src : rawSnap C.src w = S
  dst : rawSnap C.dst w = D

theorem At.mono {C : DiffCtx V} {S D : Snap V} {w w' : World V E} (h : At C S D w) (hr : DRel w w') : At C S D w' where
  refs := hr.refsLt h.refs
  wf := hr.tblWF h.wf
  src := by rw [hr.rawSnap_eq h.refs h.wf, h.src]
  dst := by rw [hr.rawSnap_eq h.refs h.wf, h.dst]

/-- In `w`, `m` gives the result of `p`. -/
def Gives (m : M V E α) (w : World V E) (p : P α) : Prop :=
  DRel w (m w).2 ∧
  match p with
  | .ok (a, k) => (m w).1 = .ok a ∧ (m w).2.dproc = w.dproc + k
  | .error e => (m w).1 = .error e

/-- Whenever the adapters have contents `S` and `D`, `m` gives the result of `p`. -/
def Sim (C : DiffCtx V) (S D : Snap V) (m : M V E α) (p : P α) : Prop := ∀ w, At C S D w → Gives m w p

section
variable {C : DiffCtx V} {S D : Snap V}

theorem Sim.pure (a : α) : Sim C S D (Pure.pure a : M V E α) (P.ret a) := fun w _ => ⟨DRel.refl w, rfl, rfl⟩
theorem Sim.raise (e : Err) : Sim C S D (M.raise e : M V E α) (P.err e) := fun w _ => ⟨DRel.refl w, rfl⟩
theorem Sim.ofExcept (r : Except Err α) : Sim C S D (M.ofExcept r : M V E α) (P.lift r) := by
  intro w _
  cases r with
  | ok a => exact ⟨DRel.refl w, rfl, rfl⟩
  | error e => exact ⟨DRel.refl w, rfl⟩

theorem Gives.bind {m : M V E α} {f : α → M V E β} {p : P α} {q : α → P β} {w : World V E} (hw : At C S D w)
    (hm : Gives m w p) (hf : ∀ a k, p = .ok (a, k) → ∀ w', At C S D w' → DRel w w' → w'.dproc = w.dproc + k → (m w).2 = w' → Gives (f a) w' (q a)) :
    Gives (m >>= f) w (P.bind p q) := by
  obtain ⟨h1, h2⟩ := hm
  unfold Gives
  cases hp : p with
  | error e =>
    rw [hp] at h2
    have hmw : m w = (.error e, (m w).2) := Prod.ext h2 rfl
    rw [M.bind_err hmw]
    exact ⟨h1, rfl⟩
  | ok a =>
    obtain ⟨a, k⟩ := a
    rw [hp] at h2
    obtain ⟨h2, h3⟩ := h2
    have hmw : m w = (.ok a, (m w).2) := Prod.ext h2 rfl
    rw [M.bind_ok hmw]
    obtain ⟨g1, g2⟩ := hf a k hp _ (hw.mono h1) h1 h3 rfl
    refine ⟨h1.trans g1, ?_⟩
    simp only [P.bind]
    cases hq : q a with
    | error e => rw [hq] at g2; exact g2
    | ok b =>
      obtain ⟨b, l⟩ := b
      rw [hq] at g2
      exact ⟨g2.1, by rw [g2.2, h3, Nat.add_assoc]⟩

theorem Sim.bind {m : M V E α} {f : α → M V E β} {p : P α} {q : α → P β}
    (hm : Sim C S D m p) (hf : ∀ a, Sim C S D (f a) (q a)) : Sim C S D (m >>= f) (P.bind p q) :=
  fun w hw => Gives.bind hw (hm w hw) (fun a _ _ w' hw' _ _ _ => hf a w' hw')

theorem Sim.incr (k : Nat) : Sim C S D (incrModels k : M V E Unit) (P.tick k) := by
  intro w _
  unfold incrModels
  split
  · rename_i h; subst h
    exact ⟨DRel.refl w, rfl, rfl⟩
  · rename_i h
    refine ⟨?_, rfl, rfl⟩
    exact ⟨Nat.le_refl _, fun _ _ => rfl, fun _ => .refl _, rfl, rfl, rfl,
      ⟨_, rfl, .step (Nat.lt_add_of_pos_right (Nat.pos_of_ne_zero h)) .nil⟩, rfl, rfl, rfl, rfl, rfl⟩

theorem Gives.of_rrel {m : M V E α} {w : World V E} {p : Except Err α} (h : RRel w (m w).2) (hv : (m w).1 = p) :
    Gives m w (P.lift p) := by
  refine ⟨h.toDRel, ?_⟩
  cases p with
  | ok a => exact ⟨hv, by rw [h.dproc_eq]; rfl⟩
  | error e => exact hv

/-! ### reads -/

/-- The objects with the given unique ids, in order; the first missing one is an error. -/
def lookupAll (S : Snap V) (t : String) : List String → Except Err (List (Model V))
  | [] => .ok []
  | u :: us =>
    match S.find t u with
    | none => .error .objectNotFound
    | some m => match lookupAll S t us with
      | .ok ms => .ok (m :: ms)
      | .error e => .error e

/-- Read a list of instances. -/
theorem mapEach_deref (rs : List Ref) (w : World V E) :
    M.mapEach (fun r => (do let o ← deref r; pure o.m : M V E (Model V))) rs w = (.ok (rs.map (fun r => (w.heap r).m)), w) := by
  induction rs with
  | nil => rfl
  | cons r rs ih =>
    rw [M.mapEach_cons, M.bind_assoc', deref_bind, M.pure_bind', M.bind_ok ih]
    rfl

theorem getByUids_spec (A : Adapter V) (t : String) (us : List String) (w : World V E) (hw : RefsLt w) (hwf : TblWF w) :
    RRel w (getByUids A us t w).2 ∧
    match lookupAll (rawSnap A w) t us with
    | .error e => (getByUids A us t w).1 = .error e
    | .ok ms => ∃ rs, (getByUids A us t w).1 = .ok rs ∧
        rs.map (fun r => ((getByUids A us t w).2.heap r).m) = ms ∧ (∀ r ∈ rs, r < (getByUids A us t w).2.next) ∧
        (∀ sid, A.ref.store = .local sid → rs.map some = us.map (findRef w sid t)) := by
  induction us generalizing w with
  | nil => exact ⟨RRel.refl w, [], rfl, rfl, by simp, fun _ _ => rfl⟩
  | cons u us ih =>
    obtain ⟨h1, h2⟩ := getRaw_spec A t u w hw
    unfold getByUids at ih ⊢
    simp only [lookupAll]
    rw [M.mapEach_cons]
    cases hf : (rawSnap A w).find t u with
    | none =>
      rw [hf] at h2
      rw [M.bind_err (Prod.ext h2 rfl : getRaw A t u w = (.error _, (getRaw A t u w).2))]
      exact ⟨h1, rfl⟩
    | some m =>
      rw [hf] at h2
      obtain ⟨r, hr, hm, hlt, hloc⟩ := h2
      rw [M.bind_ok (Prod.ext hr rfl : getRaw A t u w = (.ok r, (getRaw A t u w).2))]
      generalize (getRaw A t u w).2 = w1 at *
      have hw1 := h1.refsLt hw
      have hwf1 := h1.tblWF hwf
      obtain ⟨i1, i2⟩ := ih w1 hw1 hwf1
      rw [h1.rawSnap_eq hw hwf] at i2
      cases hl : lookupAll (rawSnap A w) t us with
      | error e =>
        rw [hl] at i2
        rw [M.bind_err (Prod.ext i2 rfl : M.mapEach (fun u => getRaw A t u) us w1 = (.error e, _))]
        exact ⟨h1.trans i1, rfl⟩
      | ok ms =>
        rw [hl] at i2
        obtain ⟨rs, j1, j2, j3, j4⟩ := i2
        have e1 : M.mapEach (fun u => getRaw A t u) us w1 = (.ok rs, (M.mapEach (fun u => getRaw A t u) us w1).2) :=
          Prod.ext j1 rfl
        rw [M.bind_ok e1]
        simp only [M.pure_def]
        clear ih
        generalize M.mapEach (fun u => getRaw A t u) us w1 = res at *
        obtain ⟨_, w2⟩ := res
        simp only at *
        refine ⟨h1.trans i1, r :: rs, rfl, ?_, ?_, ?_⟩
        · simp only [List.map_cons, j2, i1.heap_eq r hlt, hm]
        · intro r' hr'
          rcases List.mem_cons.1 hr' with rfl | hr'
          · exact Nat.lt_of_lt_of_le hlt i1.next_le
          · exact j3 _ hr'
        · intro sid hs
          simp only [List.map_cons, j4 sid hs, hloc sid hs]
          congr 1
          exact List.map_congr_left (fun x _ => h1.findRef_eq sid t x)

theorem getModelsByUids_spec (A : Adapter V) (t : String) (us : List String) (w : World V E) (hw : RefsLt w) (hwf : TblWF w) :
    RRel w (getModelsByUids A us t w).2 ∧ (getModelsByUids A us t w).1 = lookupAll (rawSnap A w) t us := by
  obtain ⟨h1, h2⟩ := getByUids_spec A t us w hw hwf
  unfold getModelsByUids
  cases hl : lookupAll (rawSnap A w) t us with
  | error e =>
    rw [hl] at h2
    rw [M.bind_err (Prod.ext h2 rfl : getByUids A us t w = (.error e, _))]
    exact ⟨h1, rfl⟩
  | ok ms =>
    rw [hl] at h2
    obtain ⟨rs, j1, j2, _⟩ := h2
    rw [M.bind_ok (Prod.ext j1 rfl : getByUids A us t w = (.ok rs, _)), mapEach_deref]
    exact ⟨h1, by rw [j2]⟩

theorem mapEach_redisLoad (A : Adapter V) (ks : List String) (w : World V E) (h : ∀ k ∈ ks, k ∈ Dict.keys w.redis) :
    ∃ rs w', M.mapEach (redisLoad A) ks w = (.ok rs, w') ∧ RRel w w' ∧
      rs.map (fun r => (w'.heap r).m) = ks.filterMap (fun k => (Dict.get? w.redis k).map Obj.m) ∧
      (∀ r ∈ rs, r < w'.next) := by
  induction ks generalizing w with
  | nil => exact ⟨[], w, rfl, RRel.refl w, rfl, by simp⟩
  | cons k ks ih =>
    obtain ⟨o, ho⟩ := Dict.mem_keys_iff.1 (h k (by simp))
    have hl : redisLoad A k w = alloc { o with adapter := some A.ref } w := by unfold redisLoad; simp only [ho]
    have hr := RRel.alloc w { o with adapter := some A.ref }
    rw [M.mapEach_cons, M.bind_ok (a := w.next) (w' := (alloc { o with adapter := some A.ref } w).2) hl]
    obtain ⟨rs, w', i1, i2, i3, i4⟩ := ih (alloc { o with adapter := some A.ref } w).2 (fun x hx => h x (List.mem_cons_of_mem _ hx))
    rw [M.bind_ok i1]
    refine ⟨w.next :: rs, w', rfl, hr.trans i2, ?_, ?_⟩
    · rw [List.filterMap_cons_some (b := o.m) (by rw [ho]; rfl)]
      simp only [List.map_cons]
      congr 1
      rw [i2.heap_eq w.next (Nat.lt_succ_self _)]
      simp [alloc, World.setObj]
    · intro r hr'
      rcases List.mem_cons.1 hr' with rfl | hr'
      · exact Nat.lt_of_lt_of_le (Nat.lt_succ_self _) i2.next_le
      · exact i4 _ hr'

theorem getAll_spec (A : Adapter V) (t : String) (w : World V E) (hw : RefsLt w) (hwf : TblWF w) :
    RRel w (getAll A t w).2 ∧ ∃ rs, (getAll A t w).1 = .ok rs ∧
      rs.map (fun r => ((getAll A t w).2.heap r).m) = (rawSnap A w).all t ∧
      (∀ sid, A.ref.store = .local sid → rs = Dict.values (tbl w sid t)) := by
  unfold getAll rawSnap
  cases hs : A.ref.store with
  | «local» sid =>
    simp only
    rw [M.bind_ok (localModel_eq sid t w)]
    refine ⟨RRel.setLoc_touch w sid t, _, rfl, rfl, ?_⟩
    intro s h; cases h; rfl
  | redis sid =>
    simp only
    rw [M.read_bind]
    obtain ⟨rs, w', i1, i2, i3, _⟩ := mapEach_redisLoad A (scanKeys w.redis (storeLabel sid ++ (":" ++ (t ++ ":")))) w
      (fun k hk => (List.mem_filter.1 hk).1)
    rw [i1]
    refine ⟨i2, rs, rfl, i3, ?_⟩
    intro s h; cases h

theorem getAllModels_spec (A : Adapter V) (t : String) (w : World V E) (hw : RefsLt w) (hwf : TblWF w) :
    RRel w (getAllModels A t w).2 ∧ (getAllModels A t w).1 = .ok ((rawSnap A w).all t) := by
  obtain ⟨h1, rs, h2, h3, _⟩ := getAll_spec A t w hw hwf
  unfold getAllModels
  rw [M.bind_ok (Prod.ext h2 rfl : getAll A t w = (.ok rs, _)), mapEach_deref]
  exact ⟨h1, by rw [h3]⟩

theorem Sim.getAllModels_src (t : String) : Sim C S D (getAllModels C.src t : M V E _) (P.ret (S.all t)) := by
  intro w hw
  obtain ⟨h1, h2⟩ := getAllModels_spec C.src t w hw.refs hw.wf
  rw [hw.src] at h2
  exact Gives.of_rrel h1 h2

theorem Sim.getAllModels_dst (t : String) : Sim C S D (getAllModels C.dst t : M V E _) (P.ret (D.all t)) := by
  intro w hw
  obtain ⟨h1, h2⟩ := getAllModels_spec C.dst t w hw.refs hw.wf
  rw [hw.dst] at h2
  exact Gives.of_rrel h1 h2

/-! ### the pure differ -/

def P.forEach (f : α → P Unit) : List α → P Unit
  | [] => P.ret ()
  | a :: l => P.bind (f a) (fun _ => P.forEach f l)

theorem Sim.forEach {f : α → M V E Unit} {g : α → P Unit} (l : List α) (h : ∀ a ∈ l, Sim C S D (f a) (g a)) :
    Sim C S D (M.forEach f l) (P.forEach g l) := by
  induction l with
  | nil => exact Sim.pure ()
  | cons a l ih =>
    rw [M.forEach_cons]
    exact Sim.bind (h a (by simp)) (fun _ => ih (fun x hx => h x (List.mem_cons_of_mem _ hx)))

/-- `childrenMapping`. -/
def pMapping (src dst : Option (Model V)) : P (Dict String) :=
  match src, dst with
  | some s, some d =>
    P.bind (P.forEach (fun p => if Dict.has d.cls.children p.1 then P.ret () else P.tick (kidCount s p.2)) s.cls.children) fun _ =>
    P.bind (P.forEach (fun p => if Dict.has s.cls.children p.1 then P.ret () else P.tick (kidCount d p.2)) d.cls.children) fun _ =>
    P.ret (s.cls.children.filter (fun p => Dict.has d.cls.children p.1))
  | some s, none => P.ret s.cls.children
  | none, some d => P.ret d.cls.children
  | none, none => P.err .runtimeError

theorem Sim.childrenMapping (s d : Option (Model V)) : Sim C S D (childrenMapping s d : M V E _) (pMapping s d) := by
  unfold DS.childrenMapping pMapping
  cases s with
  | none => cases d with
    | none => exact Sim.raise _
    | some d => exact Sim.pure _
  | some s => cases d with
    | none => exact Sim.pure _
    | some d =>
      refine Sim.bind (Sim.forEach _ fun p _ => ?_) fun _ => Sim.bind (Sim.forEach _ fun p _ => ?_) fun _ => Sim.pure _
      · split
        · exact Sim.pure _
        · exact Sim.incr _
      · split
        · exact Sim.pure _
        · exact Sim.incr _

/-- `childModels`. -/
def pChildModels (S : Snap V) (o : Option (Model V)) (ct f : String) : P (List (Model V)) :=
  match o with
  | none => P.ret []
  | some m =>
    match m.kidList f with
    | none => P.err .attributeError
    | some us => P.lift (lookupAll S ct us)

theorem Sim.childModels_aux (A : Adapter V) (X : Snap V) (hX : ∀ w : World V E, At C S D w → rawSnap A w = X)
    (o : Option (Model V)) (ct f : String) :
    Sim C S D (childModels A o ct f : M V E _) (pChildModels X o ct f) := by
  unfold childModels pChildModels
  cases o with
  | none => exact Sim.pure _
  | some m =>
    simp only
    cases m.kidList f with
    | none => intro w _; exact ⟨DRel.refl w, rfl⟩
    | some us =>
      intro w hw
      obtain ⟨h1, h2⟩ := getModelsByUids_spec A ct us w hw.refs hw.wf
      rw [hX w hw] at h2
      exact Gives.of_rrel h1 h2

/-- `diffChildLoop`. -/
def pChildLoop (S D : Snap V) (rec : List (Model V) → List (Model V) → P (List (Elem V)))
    (src dst : Option (Model V)) : Dict String → List (Elem V) → P (List (Elem V))
  | [], kids => P.ret kids
  | (ct, f) :: rest, kids =>
    P.bind (pChildModels S src ct f) fun so =>
    P.bind (pChildModels D dst ct f) fun d =>
    P.bind (rec so d) fun es =>
    P.bind (P.lift (addElems kids es)) fun kids' =>
    pChildLoop S D rec src dst rest kids'

/-- `diffPair`. -/
def pPair (C : DiffCtx V) (S D : Snap V) (rec : List (Model V) → List (Model V) → P (List (Elem V)))
    (src dst : Option (Model V)) : P (Option (Elem V)) :=
  match src.or dst with
  | none => P.err .runtimeError
  | some m =>
    if skipPair C.flags src dst then
      P.bind (P.tick 1) fun _ => P.ret none
    else
      P.bind (P.tick ((if src.isSome then 1 else 0) + (if dst.isSome then 1 else 0))) fun _ =>
      P.bind (pMapping src dst) fun mapping =>
      P.bind (pChildLoop S D rec src dst mapping []) fun kids =>
      P.ret (some { type := m.type, name := m.shortname, keys := m.identifiers,
                    srcName := C.src.name, dstName := C.dst.name,
                    src := src.map Model.attrs, dst := dst.map Model.attrs, kids := kids })

/-- `diffPairs`. -/
def pPairs (pair : Option (Model V) → Option (Model V) → P (Option (Elem V))) :
    List (Option (Model V) × Option (Model V)) → P (List (Elem V))
  | [] => P.ret []
  | (s, d) :: ps =>
    P.bind (pair s d) fun e? =>
    P.bind (pPairs pair ps) fun es =>
    P.ret (match e? with | some e => e :: es | none => es)

/-- `diffList`. -/
def pList (C : DiffCtx V) (S D : Snap V) : Nat → List (Model V) → List (Model V) → P (List (Elem V))
  | 0, _, _ => P.err .recursionError
  | n + 1, src, dst =>
    P.bind (P.tick ((src.length - (combine src dst).length) + (dst.length - (combine src dst).length))) fun _ =>
    P.bind (P.lift (validatePairs (Dict.values (combine src dst)))) fun _ =>
    pPairs (pPair C S D (pList C S D n)) (Dict.values (combine src dst))

theorem Sim.childLoop {rec : List (Model V) → List (Model V) → M V E (List (Elem V))}
    {rec' : List (Model V) → List (Model V) → P (List (Elem V))} (hrec : ∀ a b, Sim C S D (rec a b) (rec' a b))
    (s d : Option (Model V)) (mapping : Dict String) (kids : List (Elem V)) :
    Sim C S D (diffChildLoop C rec s d mapping kids) (pChildLoop S D rec' s d mapping kids) := by
  induction mapping generalizing kids with
  | nil => exact Sim.pure _
  | cons p rest ih =>
    obtain ⟨ct, f⟩ := p
    unfold diffChildLoop pChildLoop
    exact Sim.bind (Sim.childModels_aux _ _ (fun w hw => hw.src) _ _ _) fun _ =>
      Sim.bind (Sim.childModels_aux _ _ (fun w hw => hw.dst) _ _ _) fun _ =>
      Sim.bind (hrec _ _) fun _ => Sim.bind (Sim.ofExcept _) fun _ => ih _

theorem Sim.pair {rec : List (Model V) → List (Model V) → M V E (List (Elem V))}
    {rec' : List (Model V) → List (Model V) → P (List (Elem V))} (hrec : ∀ a b, Sim C S D (rec a b) (rec' a b))
    (s d : Option (Model V)) : Sim C S D (diffPair C rec s d) (pPair C S D rec' s d) := by
  unfold diffPair pPair
  cases s.or d with
  | none => exact Sim.raise _
  | some m =>
    simp only
    split
    · exact Sim.bind (Sim.incr _) fun _ => Sim.pure _
    · exact Sim.bind (Sim.incr _) fun _ => Sim.bind (Sim.childrenMapping _ _) fun _ =>
        Sim.bind (Sim.childLoop hrec _ _ _ _) fun _ => Sim.pure _

theorem Sim.pairs {f : Option (Model V) → Option (Model V) → M V E (Option (Elem V))}
    {g : Option (Model V) → Option (Model V) → P (Option (Elem V))} (h : ∀ a b, Sim C S D (f a b) (g a b))
    (ps : List (Option (Model V) × Option (Model V))) : Sim C S D (diffPairs f ps) (pPairs g ps) := by
  induction ps with
  | nil => exact Sim.pure _
  | cons p ps ih =>
    obtain ⟨s, d⟩ := p
    unfold diffPairs pPairs
    exact Sim.bind (h s d) fun _ => Sim.bind ih fun _ => Sim.pure _

theorem Sim.list (n : Nat) (s d : List (Model V)) : Sim C S D (diffList C n s d : M V E _) (pList C S D n s d) := by
  induction n generalizing s d with
  | zero => exact Sim.raise _
  | succ n ih =>
    unfold diffList pList
    exact Sim.bind (Sim.incr _) fun _ => Sim.bind (Sim.ofExcept _) fun _ => Sim.pairs (Sim.pair ih) _

/-- `countSkippedType`. -/
def pSkipped (C : DiffCtx V) (S D : Snap V) (t : String) : P Unit :=
  if C.dst.topLevel.contains t then P.tick (D.all t).length
  else if C.src.topLevel.contains t then P.tick (S.all t).length
  else P.ret ()

theorem getAll_length (A : Adapter V) (t : String) (w : World V E) (hw : RefsLt w) (hwf : TblWF w) :
    ∃ rs, getAll A t w = (.ok rs, (getAll A t w).2) ∧ RRel w (getAll A t w).2 ∧ rs.length = ((rawSnap A w).all t).length := by
  obtain ⟨h1, rs, h2, h3, _⟩ := getAll_spec A t w hw hwf
  exact ⟨rs, Prod.ext h2 rfl, h1, by rw [← h3, List.length_map]⟩

theorem Sim.skipped (t : String) : Sim C S D (countSkippedType C t : M V E _) (pSkipped C S D t) := by
  intro w hw
  unfold countSkippedType pSkipped
  split
  · obtain ⟨rs, h1, h2, h3⟩ := getAll_length C.dst t w hw.refs hw.wf
    unfold Gives
    rw [M.bind_ok h1, h3, hw.dst]
    obtain ⟨g1, g2⟩ := Sim.incr (C := C) (S := S) (D := D) (D.all t).length _ (hw.mono h2.toDRel)
    exact ⟨h2.toDRel.trans g1, g2.1, by rw [g2.2, h2.dproc_eq]⟩
  · split
    · obtain ⟨rs, h1, h2, h3⟩ := getAll_length C.src t w hw.refs hw.wf
      unfold Gives
      rw [M.bind_ok h1, h3, hw.src]
      obtain ⟨g1, g2⟩ := Sim.incr (C := C) (S := S) (D := D) (S.all t).length _ (hw.mono h2.toDRel)
      exact ⟨h2.toDRel.trans g1, g2.1, by rw [g2.2, h2.dproc_eq]⟩
    · exact Sim.pure (C := C) (S := S) (D := D) () w hw

/-- `diffTypes`. -/
def pTypes (C : DiffCtx V) (S D : Snap V) (n : Nat) : List String → List (Elem V) → P (List (Elem V))
  | [], kids => P.ret kids
  | t :: ts, kids =>
    P.bind (pList C S D n (S.all t) (D.all t)) fun es =>
    P.bind (P.lift (addElems kids es)) fun kids' =>
    pTypes C S D n ts kids'

theorem P.ret_bind (a : α) (f : α → P β) : P.bind (P.ret a) f = f a := by
  unfold P.bind P.ret
  cases h : f a with
  | error e => simp only [h]
  | ok b => obtain ⟨b, l⟩ := b; simp only [h, Nat.zero_add]

theorem Sim.types (n : Nat) (ts : List String) (kids : List (Elem V)) :
    Sim C S D (diffTypes C n ts kids : M V E _) (pTypes C S D n ts kids) := by
  induction ts generalizing kids with
  | nil => exact Sim.pure _
  | cons t ts ih =>
    unfold diffTypes pTypes
    rw [← P.ret_bind (S.all t) (fun s => P.bind (pList C S D n s (D.all t)) fun es =>
      P.bind (P.lift (addElems kids es)) fun kids' => pTypes C S D n ts kids')]
    refine Sim.bind (Sim.getAllModels_src t) fun s => ?_
    rw [← P.ret_bind (D.all t) (fun d => P.bind (pList C S D n s d) fun es =>
      P.bind (P.lift (addElems kids es)) fun kids' => pTypes C S D n ts kids')]
    exact Sim.bind (Sim.getAllModels_dst t) fun d => Sim.bind (Sim.list n s d) fun _ =>
      Sim.bind (Sim.ofExcept _) fun _ => ih _

/-- The whole of `calculate_diffs`. -/
def pDiff (C : DiffCtx V) (S D : Snap V) (n : Nat) : P (List (Elem V)) :=
  P.bind (P.forEach (pSkipped C S D) (symmetricDifference C.dst.topLevel C.src.topLevel)) fun _ =>
  pTypes C S D n (intersection C.dst.topLevel C.src.topLevel) []

end

/-- The world in which a diff starts. -/
def startDiff (dst src : Adapter V) (w : World V E) : World V E :=
  { w with dproc := 0, dtotal := countStore src.ref.store w + countStore dst.ref.store w }

/-- `diff_from` computes `pDiff` on the contents of the adapters, and moves the world along `DRel`. -/
theorem diffFrom_raw (n : Nat) (dst src : Adapter V) (dc : DiffClass V) (flags : Nat) (w : World V E)
    (hw : RefsLt w) (hwf : TblWF w) :
    DRel (startDiff dst src w) (diffFrom n dst src dc flags w).2 ∧
    match pDiff ⟨src, dst, flags⟩ (rawSnap src w) (rawSnap dst w) n with
    | .ok (es, k) => (diffFrom n dst src dc flags w).1 = .ok { cls := dc, kids := es, processed := k } ∧
        (diffFrom n dst src dc flags w).2.dproc = k
    | .error e => (diffFrom n dst src dc flags w).1 = .error e := by
  have hAt : At ⟨src, dst, flags⟩ (rawSnap src w) (rawSnap dst w) (startDiff dst src w) :=
    ⟨hw, hwf, rfl, rfl⟩
  have hs : Sim ⟨src, dst, flags⟩ (rawSnap src w) (rawSnap dst w)
      (M.forEach (countSkippedType ⟨src, dst, flags⟩) (symmetricDifference dst.topLevel src.topLevel) >>= fun _ =>
        (diffTypes ⟨src, dst, flags⟩ n (intersection dst.topLevel src.topLevel) [] : M V E _))
      (pDiff ⟨src, dst, flags⟩ (rawSnap src w) (rawSnap dst w) n) :=
    Sim.bind (Sim.forEach _ fun _ _ => Sim.skipped _) fun _ => Sim.types _ _ _
  have hd : diffFrom n dst src dc flags w =
      ((M.forEach (countSkippedType ⟨src, dst, flags⟩) (symmetricDifference dst.topLevel src.topLevel) >>= fun _ =>
        (diffTypes ⟨src, dst, flags⟩ n (intersection dst.topLevel src.topLevel) [] : M V E _)) >>= fun kids => do
        let w ← M.read
        pure { cls := dc, kids := kids, processed := w.dproc }) (startDiff dst src w) := by
    unfold diffFrom
    rw [M.bind_assoc']
    rfl
  obtain ⟨g1, g2⟩ := hs _ hAt
  rw [hd]
  cases hp : pDiff ⟨src, dst, flags⟩ (rawSnap src w) (rawSnap dst w) n with
  | error e =>
    rw [hp] at g2
    rw [M.bind_err (Prod.ext g2 rfl)]
    exact ⟨g1, rfl⟩
  | ok r =>
    obtain ⟨es, k⟩ := r
    rw [hp] at g2
    rw [M.bind_ok (Prod.ext g2.1 rfl)]
    have hk : ((M.forEach (countSkippedType ⟨src, dst, flags⟩) (symmetricDifference dst.topLevel src.topLevel) >>= fun _ =>
        (diffTypes ⟨src, dst, flags⟩ n (intersection dst.topLevel src.topLevel) [] : M V E _)) (startDiff dst src w)).2.dproc = k := by
      rw [g2.2]; simp [startDiff]
    refine ⟨g1, ?_, hk⟩
    rw [M.read_bind, hk]
    rfl

end DS
