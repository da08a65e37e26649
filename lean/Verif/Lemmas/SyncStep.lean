import Verif.Lemmas.SyncStore
/-! One level of `sync_diff_element`, split into its cases. -/
set_option linter.unusedSectionVars false

namespace DS
variable {V E α β : Type} [PyVal V]

/-- `for child in ...: changed |= ...`, as a relation. -/
inductive KidsRun (K : Elem V → World V E → World V E → Except Err Bool → Prop) :
    List (Elem V) → Bool → World V E → World V E → Except Err Bool → Prop where
  | nil {acc w} : KidsRun K [] acc w w (.ok acc)
  | err {e l acc w w' x} : K e w w' (.error x) → KidsRun K (e :: l) acc w w' (.error x)
  | cons {e l acc w w1 w' b res} : K e w w1 (.ok b) → KidsRun K l (acc || b) w1 w' res → KidsRun K (e :: l) acc w w' res

theorem orEach_kidsRun {f : Elem V → M V E Bool} {I : World V E → Prop} {K : Elem V → World V E → World V E → Except Err Bool → Prop}
    (hK : ∀ e w, I w → K e w (f e w).2 (f e w).1 ∧ I (f e w).2) (l : List (Elem V)) :
    ∀ acc w, I w → KidsRun K l acc w (M.orEach f l acc w).2 (M.orEach f l acc w).1 ∧ I (M.orEach f l acc w).2 := by
  induction l with
  | nil => intro acc w hw; exact ⟨.nil, hw⟩
  | cons e l ih =>
    intro acc w hw
    obtain ⟨h1, h2⟩ := hK e w hw
    rw [M.orEach_cons, M.bind_def]
    generalize f e w = p at h1 h2
    obtain ⟨x, w1⟩ := p
    cases x with
    | error x => exact ⟨.err h1, h2⟩
    | ok b =>
      obtain ⟨h3, h4⟩ := ih (acc || b) w1 h2
      exact ⟨.cons h1 h3, h4⟩

/-- The state when an element has been entered and its destination object looked up. -/
structure Entered (S : SyncCtx V E) (sid : Nat) (e : Elem V) (c : ModelClass V) (u : String) (dst : Option Ref) (w w1 : World V E) : Prop where
  cls : Dict.get? S.dst.classes e.type = some c
  uid : c.createUniqueId e.keys = some u
  still : Still w w1
  trace : w1.trace = w.trace
  env_eq : w1.env = w.env
  sproc_eq : w1.sproc = w.sproc
  stotal_eq : w1.stotal = w.stotal
  sact : w1.sact = e.action
  scls : w1.scls = some c
  slog : w1.slog = ⟨e.action, e.type, u⟩
  dst : dst = findRef w sid c.name u

/-- The two model flags of the destination object that matter. -/
def natOf (dst : Option Ref) (w : World V E) : Bool := dst.elim false (fun r => flagOn (w.heap r).m.flags MF.NATURAL_DELETION_ORDER)
def skipOf (dst : Option Ref) (w : World V E) : Bool := dst.elim false (fun r => flagOn (w.heap r).m.flags MF.SKIP_CHILDREN_ON_DELETE)

/-- The world after a progress report. -/
def World.tick (w : World V E) : World V E :=
  { w with sproc := w.sproc + 1, trace := w.trace ++ [.syncProgress (w.sproc + 1) w.stotal] }

theorem tick_still (w : World V E) : Still w w.tick := Still.of_eq (w := w) (w' := w.tick) rfl rfl rfl rfl

/-- The part of `sync_diff_element` from `sync_model` on. -/
inductive Body (S : SyncCtx V E) (K : Option Ref → Elem V → World V E → World V E → Except Err Bool → Prop)
    (e : Elem V) (c : ModelClass V) (parent dst : Option Ref) (natural skip : Bool) (w w' : World V E) : Except Err Bool → Prop where
  | raised {evs x} : Own S (w.scls.getD c) e.keys (e.plus.getD []) w w' w.sact dst evs (.error x) → Regs w w' →
      w'.trace = w.trace ++ evs → syncModel S (w.scls.getD c) w.sact dst e.keys (e.plus.getD []) w = (.error x, w') → Body S K e c parent dst natural skip w w' (.error x)
  | noObject {evs w1 ch} : Own S (w.scls.getD c) e.keys (e.plus.getD []) w w1 w.sact dst evs (.ok (ch, none)) → Regs w w1 →
      w1.trace = w.trace ++ evs → w' = { w1 with trace := w1.trace ++ [.noObject w1.slog] } → syncModel S (w.scls.getD c) w.sact dst e.keys (e.plus.getD []) w = (.ok (ch, none), w1) →
      Body S K e c parent dst natural skip w w' (.ok ch)
  | storeFail {evs w1 ch r x} : Own S (w.scls.getD c) e.keys (e.plus.getD []) w w1 w.sact dst evs (.ok (ch, some r)) → Regs w w1 →
      w1.trace = w.trace ++ evs → applyStore S w.sact parent r skip w1 = (.error x, w') → syncModel S (w.scls.getD c) w.sact dst e.keys (e.plus.getD []) w = (.ok (ch, some r), w1) → 
      Body S K e c parent dst natural skip w w' (.error x)
  | shortcut {evs w1 ch r} : Own S (w.scls.getD c) e.keys (e.plus.getD []) w w1 w.sact dst evs (.ok (ch, some r)) → Regs w w1 →
      w1.trace = w.trace ++ evs → applyStore S w.sact parent r skip w1 = (.ok (), w') → w.sact = some .delete → skip = true → syncModel S (w.scls.getD c) w.sact dst e.keys (e.plus.getD []) w = (.ok (ch, some r), w1) → 
      Body S K e c parent dst natural skip w w' (.ok ch)
  | leaf {evs w1 w2 ch r} : Own S (w.scls.getD c) e.keys (e.plus.getD []) w w1 w.sact dst evs (.ok (ch, some r)) → Regs w w1 →
      w1.trace = w.trace ++ evs → applyStore S w.sact parent r skip w1 = (.ok (), w2) → w.sact = some .delete → skip = false → natural = true →
      w' = w2.tick → syncModel S (w.scls.getD c) w.sact dst e.keys (e.plus.getD []) w = (.ok (ch, some r), w1) → Body S K e c parent dst natural skip w w' (.ok ch)
  | kids {evs w1 w2 ch r res} : Own S (w.scls.getD c) e.keys (e.plus.getD []) w w1 w.sact dst evs (.ok (ch, some r)) → Regs w w1 →
      w1.trace = w.trace ++ evs → applyStore S w.sact parent r skip w1 = (.ok (), w2) → (w.sact = some .delete → natural = false ∧ skip = false) →
      KidsRun (K (some r)) (getChildren S.dc e.kids) ch w2.tick w' res → syncModel S (w.scls.getD c) w.sact dst e.keys (e.plus.getD []) w = (.ok (ch, some r), w1) → Body S K e c parent dst natural skip w w' res

/-- One level of `sync_diff_element`; `K` describes the recursive calls. -/
inductive Step (S : SyncCtx V E) (sid : Nat) (K : Option Ref → Elem V → World V E → World V E → Except Err Bool → Prop)
    (e : Elem V) (parent : Option Ref) (w w' : World V E) : Except Err Bool → Prop where
  | noClass : Dict.get? S.dst.classes e.type = none → w' = w → Step S sid K e parent w w' (.error .attributeError)
  | noKey {c} : Dict.get? S.dst.classes e.type = some c → c.createUniqueId e.keys = none → w' = w → Step S sid K e parent w w' (.error .keyError)
  | natFail {c u dst w1 x} : Entered S sid e c u dst w w1 → natOf dst w = true → skipOf dst w = false → e.action = some .delete →
      KidsRun (K dst) (getChildren S.dc e.kids) false w1 w' (.error x) → Step S sid K e parent w w' (.error x)
  | natural {c u dst w1 w2 b res} : Entered S sid e c u dst w w1 → natOf dst w = true → skipOf dst w = false → e.action = some .delete →
      KidsRun (K dst) (getChildren S.dc e.kids) false w1 w2 (.ok b) →
      Body S K e c parent dst true false w2 w' res → Step S sid K e parent w w' res
  | plain {c u dst w1 res} : Entered S sid e c u dst w w1 → ¬ (natOf dst w = true ∧ skipOf dst w = false ∧ e.action = some .delete) →
      Body S K e c parent dst (natOf dst w) (skipOf dst w) w1 w' res → Step S sid K e parent w w' res

/-- What the lookup of the destination object gives: the stored object itself for a local store, a fresh copy of it for a Redis
store. -/
def DstAt (S : SyncCtx V E) (c : ModelClass V) (u : String) (dst : Option Ref) (w w1 : World V E) : Prop :=
  match S.dst.ref.store with
  | .local sid => dst = findRef w sid c.name u
  | .redis sid => (Dict.get? w.redis (redisKey sid c.name u) = none ∧ dst = none) ∨
      ∃ o r, Dict.get? w.redis (redisKey sid c.name u) = some o ∧ dst = some r ∧ w.next ≤ r ∧ r < w1.next ∧ (w1.heap r).m = o.m

/-- The lookup of the destination object sets its status to UNKNOWN, and no other status. -/
def StatAt (dst : Option Ref) (w w1 : World V E) : Prop :=
  (∀ r, r < w.next → dst ≠ some r → w1.stat r = w.stat r) ∧ ∀ r, dst = some r → w1.stat r = (.unknown, "")

/-- The state when an element has been entered and its destination object looked up, for either kind of store. -/
structure GEntered (S : SyncCtx V E) (e : Elem V) (c : ModelClass V) (u : String) (dst : Option Ref) (w w1 : World V E) : Prop where
  cls : Dict.get? S.dst.classes e.type = some c
  uid : c.createUniqueId e.keys = some u
  still : Still w w1
  trace : w1.trace = w.trace
  env_eq : w1.env = w.env
  sproc_eq : w1.sproc = w.sproc
  stotal_eq : w1.stotal = w.stotal
  sact : w1.sact = e.action
  scls : w1.scls = some c
  slog : w1.slog = ⟨e.action, e.type, u⟩
  lt : ∀ r, dst = some r → r < w1.next
  stat : StatAt dst w w1
  dst : DstAt S c u dst w w1

/-- One level of `sync_diff_element`, for either kind of store; `K` describes the recursive calls. -/
inductive GStep (S : SyncCtx V E) (K : Option Ref → Elem V → World V E → World V E → Except Err Bool → Prop)
    (e : Elem V) (parent : Option Ref) (w w' : World V E) : Except Err Bool → Prop where
  | noClass : Dict.get? S.dst.classes e.type = none → w' = w → GStep S K e parent w w' (.error .attributeError)
  | noKey {c} : Dict.get? S.dst.classes e.type = some c → c.createUniqueId e.keys = none → w' = w → GStep S K e parent w w' (.error .keyError)
  | natFail {c u dst w1 x} : GEntered S e c u dst w w1 → natOf dst w1 = true → skipOf dst w1 = false → e.action = some .delete →
      KidsRun (K dst) (getChildren S.dc e.kids) false w1 w' (.error x) → GStep S K e parent w w' (.error x)
  | natural {c u dst w1 w2 b res} : GEntered S e c u dst w w1 → natOf dst w1 = true → skipOf dst w1 = false → e.action = some .delete →
      KidsRun (K dst) (getChildren S.dc e.kids) false w1 w2 (.ok b) →
      Body S K e c parent dst true false w2 w' res → GStep S K e parent w w' res
  | plain {c u dst w1 res} : GEntered S e c u dst w w1 → ¬ (natOf dst w1 = true ∧ skipOf dst w1 = false ∧ e.action = some .delete) →
      Body S K e c parent dst (natOf dst w1) (skipOf dst w1) w1 w' res → GStep S K e parent w w' res

/-- Allocation only grows and stored references stay allocated. -/
structure Grows (w w' : World V E) : Prop where
  next_le : w.next ≤ w'.next
  refs : RefsLt w → RefsLt w'

theorem Grows.refl (w : World V E) : Grows w w := ⟨Nat.le_refl _, id⟩
theorem Grows.trans {a b c : World V E} (h1 : Grows a b) (h2 : Grows b c) : Grows a c :=
  ⟨Nat.le_trans h1.next_le h2.next_le, fun h => h2.refs (h1.refs h)⟩
theorem Still.grows {w w' : World V E} (h : Still w w') : Grows w w' :=
  ⟨h.next_le, fun hr s t u r hf => by rw [h.tbl_eq.findRef] at hf; exact Nat.lt_of_lt_of_le (hr _ _ _ _ hf) h.next_le⟩
theorem Upd.grows {r : Ref} {attrs : Dict V} {w w' : World V E} (h : Upd r attrs w w') : Grows w w' :=
  ⟨h.next_le, fun hr s t u r hf => by rw [h.tbl_eq.findRef] at hf; exact Nat.lt_of_lt_of_le (hr _ _ _ _ hf) h.next_le⟩
theorem CallEff.grows {a : Action} {dst : Option Ref} {attrs : Dict V} {out : Outcome} {w w' : World V E} (h : CallEff a dst attrs out w w') :
    Grows w w' := by
  unfold CallEff at h
  split at h
  · split at h
    · exact h.grows
    · exact h.grows
  · exact h.grows
theorem Own.grows {S : SyncCtx V E} {c : ModelClass V} {ids attrs : Dict V} {w w' : World V E} {a dst evs res}
    (h : Own S c ids attrs w w' a dst evs res) : Grows w w' := by
  cases h
  case idle h _ => exact h.grows
  case stale h _ _ => exact h.grows
  case crud h => exact h.grows
  case fatal h => exact h.grows
  case failed h => exact h.grows
  case created h _ _ _ _ => exact h.grows
  case kept h _ => exact h.grows
theorem Own.ref_lt {S : SyncCtx V E} {c : ModelClass V} {ids attrs : Dict V} {w w' : World V E} {a dst evs ch r}
    (h : Own S c ids attrs w w' a dst evs (.ok (ch, some r))) (hd : ∀ r, dst = some r → r < w.next) : r < w'.next := by
  have g := h.grows
  generalize hres : (Except.ok (ch, some r) : Except Err (Bool × Option Ref)) = res at h
  cases h
  case idle => cases hres; exact Nat.lt_of_lt_of_le (hd _ rfl) g.next_le
  case stale => split at hres <;> cases hres
  case crud => split at hres <;> cases hres
  case fatal => cases hres
  case failed => cases hres
  case created h3 h4 _ _ => cases hres; exact h4
  case kept => cases hres; exact Nat.lt_of_lt_of_le (hd _ rfl) g.next_le
theorem Removed.grows {sid : Nat} {G : Key → Prop} {w w' : World V E} (h : Removed sid G w w') : Grows w w' :=
  ⟨by rw [h.next_eq]; exact Nat.le_refl _, fun hr s t u r hf => by
    rw [h.next_eq]
    by_cases hs : s = sid
    · subst hs
      rcases h.mine t u with h' | h'
      · rw [h'] at hf; exact hr _ _ _ _ hf
      · rw [h'.1] at hf; cases hf
    · unfold findRef at hf; rw [h.others s t hs] at hf; exact hr _ _ _ _ hf⟩
theorem Grows.setObj (w : World V E) (r : Ref) (o : Obj V) : Grows w (w.setObj r o) := ⟨Nat.le_refl _, id⟩

theorem RRemoved.grows {G : String → Prop} {w w' : World V E} (h : RRemoved G w w') : Grows w w' :=
  ⟨h.next_le, fun hr s t u r hf => by
    unfold findRef tbl at hf; rw [h.loc_eq] at hf; exact Nat.lt_of_lt_of_le (hr s t u r hf) h.next_le⟩

/-- What bookkeeping in a store may do to events, counters and allocation. -/
structure Calm (w : World V E) (p : Except Err Unit × World V E) : Prop where
  grows : Grows w p.2
  regs : Regs w p.2
  trace : ∃ evs, p.2.trace = w.trace ++ evs ∧ ChildWarn evs
  err : ∀ e, p.1 = .error e → e.isCrud = false

theorem Calm.of_eq {w w' : World V E} {x : Except Err Unit} (g : Grows w w') (r : Regs w w') (t : w'.trace = w.trace) (h : ∀ e, x = .error e → e.isCrud = false) : Calm w (x, w') :=
  ⟨g, r, ⟨[], by simp [t], fun _ h => by cases h⟩, h⟩

section
variable {S : SyncCtx V E}

theorem add_calm (A : Adapter V) (r : Ref) (w : World V E) (hr : r < w.next) : Calm w (add A r w) := by
  cases hs : A.ref.store with
  | «local» sid =>
    cases hf : findRef w sid (w.heap r).m.type (w.heap r).m.uid with
    | none =>
      obtain ⟨w', h1, f, t, _⟩ := add_local_none hs r w hf
      rw [h1]
      refine .of_eq ⟨by rw [f.next_eq]; exact Nat.le_refl _, fun h s t' u r' hr' => ?_⟩ f.quiet.regs f.trace_eq (fun e he => by cases he)
      rw [t.findRef] at hr'
      rw [f.next_eq]
      split at hr'
      · cases hr'; exact hr
      · exact h _ _ _ _ hr'
    | some r' =>
      obtain ⟨w', h1, f, t, _⟩ := add_local_some hs r r' w hf
      rw [h1]
      split
      · exact .of_eq (f.still t).grows f.quiet.regs f.trace_eq (fun e he => by cases he)
      · exact .of_eq (f.still t).grows f.quiet.regs f.trace_eq (fun e he => by cases he; rfl)
  | redis sid =>
    rw [add_redis hs]
    split
    · refine .of_eq (Grows.refl _) (Regs.refl _) rfl (fun e he => ?_)
      split at he <;> cases he
      rfl
    · exact .of_eq ⟨Nat.le_refl _, id⟩ ⟨rfl, rfl, rfl, rfl, rfl⟩ rfl (fun e he => by cases he)

theorem remove_calm (A : Adapter V) (n : Nat) (r : Ref) (b : Bool) (w : World V E) (hr : r < w.next) : Calm w (remove A n r b w) := by
  cases hs : A.ref.store with
  | «local» sid =>
    obtain ⟨h1, h2, _⟩ := remove_removed hs (fun _ => True) b n r w trivial (fun _ _ _ => trivial) (fun _ _ _ _ _ _ => ⟨trivial, fun _ _ => trivial⟩)
    exact ⟨h1.grows, h1.regs, h1.trace, h2⟩
  | redis sid =>
    obtain ⟨h1, h2, _⟩ := rremove_removed hs (fun _ => True) b n r w hr trivial (fun _ _ _ => trivial) (fun _ _ _ _ _ _ => ⟨trivial, fun _ _ => trivial⟩)
    exact ⟨h1.grows, h1.regs, h1.trace, h2⟩

/-- Bookkeeping emits only warnings about children, and raises no CRUD exception. -/
theorem applyStore_calm (a : Option Action) (parent : Option Ref) (r : Ref) (skip : Bool) (w : World V E) (hr : r < w.next) :
    Calm w (applyStore S a parent r skip w) := by
  have hp : ∀ (f : Ref → M V E Unit) (g : M V E Unit), (∀ p w, Calm w (f p w) ∧ (f p w).2.next = w.next) →
      (∀ w, r < w.next → Calm w (g w)) → Calm w ((withParent parent f >>= fun _ => g) w) := by
    intro f g hf hg
    cases parent with
    | none => exact hg w hr
    | some p =>
      unfold withParent
      simp only
      rw [M.bind_def]
      obtain ⟨h1, h2⟩ := hf p w
      generalize f p w = q at h1 h2
      obtain ⟨x, w1⟩ := q
      cases x with
      | error e => exact h1
      | ok _ =>
        have h3 := hg w1 (by rw [h2]; exact hr)
        obtain ⟨e1, t1, c1⟩ := h1.trace
        obtain ⟨e2, t2, c2⟩ := h3.trace
        refine ⟨h1.grows.trans h3.grows, h1.regs.trans h3.regs, ⟨e1 ++ e2, by rw [t2]; show w1.trace ++ e2 = _; rw [show w1.trace = w.trace ++ e1 from t1, List.append_assoc], fun ev h => ?_⟩, h3.err⟩
        rcases List.mem_append.1 h with h | h
        · exact c1 ev h
        · exact c2 ev h
  unfold applyStore
  split
  · apply hp
    · intro p w
      rw [addChildRef_eq]
      split
      · exact ⟨.of_eq (Grows.setObj _ _ _) ⟨rfl, rfl, rfl, rfl, rfl⟩ rfl (fun e he => by cases he), rfl⟩
      · rename_i he; exact ⟨.of_eq (Grows.refl _) (Regs.refl _) rfl (fun e' he' => by cases he'; exact addChild_notCrud he), rfl⟩
    · exact fun w hr => add_calm S.dst r w hr
  · apply hp
    · intro p w
      rw [removeChildRef_eq]
      split
      · exact ⟨.of_eq (Grows.setObj _ _ _) ⟨rfl, rfl, rfl, rfl, rfl⟩ rfl (fun e he => by cases he), rfl⟩
      · rename_i he; exact ⟨.of_eq (Grows.refl _) (Regs.refl _) rfl (fun e' he' => by cases he'; exact removeChild_notCrud he), rfl⟩
    · exact fun w hr => remove_calm S.dst S.rlimit r skip w hr
  · exact .of_eq (Grows.refl _) (Regs.refl _) rfl (fun e he => by cases he)

theorem applyStore_grows (a : Option Action) (parent : Option Ref) (r : Ref) (skip : Bool) (w : World V E) (hr : r < w.next) :
    Grows w (applyStore S a parent r skip w).2 := (applyStore_calm a parent r skip w hr).grows

/-- The lookup of the destination object. -/
theorem fetchDst_any (c : ModelClass V) (ids : Dict V) {u : String} (hu : c.createUniqueId ids = some u) (w : World V E) (hw : RefsLt w) :
    ∃ dst w', fetchDst S c ids w = (.ok dst, w') ∧ Still w w' ∧ Quiet w w' ∧ DstAt S c u dst w w' ∧ (∀ r, dst = some r → r < w'.next) ∧ StatAt dst w w' := by
  cases hs : S.dst.ref.store with
  | «local» sid =>
    obtain ⟨w', h1, h2, h3, h4⟩ := fetchDst_spec hs c ids hu w
    exact ⟨_, w', h1, h2, h3, by unfold DstAt; rw [hs], fun r hr => Nat.lt_of_lt_of_le (hw _ _ _ _ hr) h2.next_le, h4⟩
  | redis sid =>
    have hres : resolve S.dst (.cls c) (.dict ids) = .ok (c.name, u) := by unfold resolve; simp only [hu]; rfl
    have hg : get (E := E) S.dst (.cls c) (.dict ids) w = getRaw S.dst c.name u w := by unfold get; rw [hres]; rfl
    have hr := getRaw_redis hs c.name u w
    unfold fetchDst M.tryCatch DstAt
    rw [hs]
    cases hf : Dict.get? w.redis (redisKey sid c.name u) with
    | none =>
      rw [hf] at hr
      rw [M.bind_err (hg.trans hr)]
      exact ⟨none, w, rfl, Still.refl _, Quiet.refl _, .inl ⟨hf, rfl⟩, fun r h => (by cases h), fun _ _ _ => rfl, fun r h => by cases h⟩
    | some o =>
      rw [hf] at hr
      dsimp only at hr
      rw [M.bind_ok (hg.trans hr)]
      obtain ⟨p3, h3, n3⟩ := alloc_rremoved (G := fun _ => False) { o with adapter := some S.dst.ref } w
      have hred : (alloc { o with adapter := some S.dst.ref } w).2.redis = w.redis := rfl
      have htr : (alloc { o with adapter := some S.dst.ref } w).2.trace = w.trace := rfl
      generalize hw3 : (alloc { o with adapter := some S.dst.ref } w).2 = w3 at p3 h3 n3 hred htr
      have s3 : Still w w3 := ⟨p3.next_le, hred, fun s t => by unfold tbl; rw [p3.loc_eq], fun s h => by rw [p3.loc_eq]; exact h, p3.heap_m⟩
      have q3 : Quiet w w3 := ⟨htr, p3.env_eq, p3.regs.sproc_eq, p3.regs.stotal_eq, p3.regs.sact_eq, p3.regs.scls_eq, p3.regs.slog_eq⟩
      rw [M.bind_ok (setStatus_eq _ _ _ w3)]
      refine ⟨some w.next, _, rfl, s3.trans (Still.setObj _ _ _ rfl), q3.trans (Quiet.setObj _ _ _), .inr ⟨o, w.next, hf, rfl, Nat.le_refl _, ?_, ?_⟩, ?_, fun r hr hne => ?_, fun r hr => ?_⟩
      · show w.next < w3.next; rw [n3]; exact Nat.lt_succ_self _
      · simp only [World.setObj, if_true, h3]
      · intro r hr; cases hr; show w.next < w3.next; rw [n3]; exact Nat.lt_succ_self _
      · have hrn : r ≠ w.next := fun h => hne (by rw [h])
        unfold World.stat
        simp only [World.setObj, if_neg hrn]
        rw [← hw3]
        simp [alloc, World.setObj, hrn]
      · cases hr; simp [World.stat, Obj.getStatus, World.setObj]

theorem dstFlags_eq (dst : Option Ref) (w : World V E) : dstFlags dst w = (.ok (natOf dst w, skipOf dst w), w) := by
  cases dst <;> rfl

theorem body_spec (n : Nat) (e : Elem V) (c : ModelClass V) (parent dst : Option Ref) (natural skip : Bool) (w : World V E)
    (hw : RefsLt w) (hd : ∀ r, dst = some r → r < w.next)
    (hK : ∀ e p (w : World V E), RefsLt w → Grows w (syncElem S n e p w).2) (p : Except Err Bool × World V E)
    (hp : p = (do
      let (changed, modified) ← syncModel S (w.scls.getD c) w.sact dst e.keys (e.plus.getD [])
      match modified with
      | none => do
        let w' ← M.read
        M.emit (.noObject w'.slog)
        pure changed
      | some r => do
        applyStore S w.sact parent r skip
        if w.sact == some .delete && skip then pure changed
        else do
          incrElements
          if !natural || !(w.sact == some .delete) then
            M.orEach (fun k => syncElem S n k (some r)) (getChildren S.dc e.kids) changed
          else pure changed : M V E Bool) w) :
    Body S (fun q k w w' res => syncElem S n k q w = (res, w')) e c parent dst natural skip w p.2 p.1 ∧ Grows w p.2 := by
  obtain ⟨res, w1, evs, h1, r1, t1, o1⟩ := syncModel_spec S (w.scls.getD c) w.sact dst e.keys (e.plus.getD []) w hd
  have g1 := o1.grows
  cases res with
  | error x =>
    rw [M.bind_err h1] at hp
    subst hp
    exact ⟨.raised o1 r1 t1 h1, g1⟩
  | ok cm =>
    obtain ⟨ch, mo⟩ := cm
    rw [M.bind_ok h1] at hp
    simp only at hp
    cases mo with
    | none =>
      subst hp
      exact ⟨.noObject o1 r1 t1 rfl h1, g1.trans (Still.emit _ _).grows⟩
    | some r =>
      simp only at hp
      have hr := o1.ref_lt hd
      have g2 := applyStore_grows (S := S) w.sact parent r skip w1 hr
      rw [M.bind_def] at hp
      generalize ha : applyStore S w.sact parent r skip w1 = q at hp g2
      obtain ⟨x, w2⟩ := q
      cases x with
      | error x => subst hp; exact ⟨.storeFail o1 r1 t1 ha h1, g1.trans g2⟩
      | ok _ =>
        dsimp only at hp
        by_cases hsk : (w.sact == some .delete && skip) = true
        · rw [if_pos hsk] at hp
          subst hp
          simp only [Bool.and_eq_true, beq_iff_eq] at hsk
          exact ⟨.shortcut o1 r1 t1 ha hsk.1 hsk.2 h1, g1.trans g2⟩
        · rw [if_neg hsk, M.bind_ok (show incrElements w2 = (.ok (), w2.tick) from rfl)] at hp
          have gt : Grows w2 w2.tick := (tick_still w2).grows
          by_cases hnat : (!natural || !(w.sact == some .delete)) = true
          · rw [if_pos hnat] at hp
            obtain ⟨k1, k2⟩ := orEach_kidsRun (f := fun k => syncElem S n k (some r)) (I := fun w' => RefsLt w' ∧ Grows w2.tick w')
              (K := fun k w w' res => syncElem S n k (some r) w = (res, w'))
              (fun e' w' hw' => ⟨rfl, (hK e' (some r) w' hw'.1).refs hw'.1, hw'.2.trans (hK e' (some r) w' hw'.1)⟩)
              (getChildren S.dc e.kids) ch w2.tick ⟨gt.refs (g2.refs (g1.refs hw)), Grows.refl _⟩
            subst hp
            refine ⟨.kids o1 r1 t1 ha ?_ k1 h1, ((g1.trans g2).trans gt).trans k2.2⟩
            intro hact
            simp only [hact, BEq.rfl, Bool.true_and] at hsk
            simp only [hact, BEq.rfl, Bool.not_true, Bool.or_false, Bool.not_eq_true'] at hnat
            exact ⟨hnat, by simpa using hsk⟩
          · rw [if_neg hnat] at hp
            subst hp
            simp only [Bool.or_eq_true, Bool.not_eq_true', not_or, Bool.not_eq_false] at hnat
            have hact : w.sact = some .delete := by simpa using hnat.2
            refine ⟨.leaf o1 r1 t1 ha hact ?_ hnat.1 rfl h1, (g1.trans g2).trans gt⟩
            simp only [hact, BEq.rfl, Bool.true_and] at hsk
            simpa using hsk

theorem syncElem_succ (n : Nat) (hK : ∀ e p (w : World V E), RefsLt w → Grows w (syncElem S n e p w).2)
    (e : Elem V) (parent : Option Ref) (w : World V E) (hw : RefsLt w) :
    GStep S (fun q k w w' res => syncElem S n k q w = (res, w')) e parent w
      (syncElem S (n + 1) e parent w).2 (syncElem S (n + 1) e parent w).1 ∧ Grows w (syncElem S (n + 1) e parent w).2 := by
  cases hc : Dict.get? S.dst.classes e.type with
  | none =>
    have he : enterElem S e w = (.error .attributeError, w) := by
      unfold enterElem M.ofOption; rw [hc]; rfl
    rw [syncElem, M.bind_err he]
    exact ⟨.noClass hc rfl, Grows.refl _⟩
  | some c =>
    cases hu : c.createUniqueId e.keys with
    | none =>
      have he : enterElem S e w = (.error .keyError, w) := by
        unfold enterElem; rw [M.bind_ok (show M.ofOption .attributeError (Dict.get? S.dst.classes e.type) w = (.ok c, w) by rw [hc]; rfl), M.bind_err (show M.ofOption .keyError (c.createUniqueId e.keys) w = (.error .keyError, w) by rw [hu]; rfl)]
      rw [syncElem, M.bind_err he]
      exact ⟨.noKey hc hu rfl, Grows.refl _⟩
    | some u =>
      generalize hwe : ({ w with scls := some c, slog := ⟨e.action, e.type, u⟩, sact := e.action } : World V E) = we
      have he : enterElem S e w = (.ok c, we) := by
        unfold enterElem; rw [M.bind_ok (show M.ofOption .attributeError (Dict.get? S.dst.classes e.type) w = (.ok c, w) by rw [hc]; rfl), M.bind_ok (show M.ofOption .keyError (c.createUniqueId e.keys) w = (.ok u, w) by rw [hu]; rfl), ← hwe]; rfl
      have se : Still w we := by rw [← hwe]; exact Still.of_eq (w := w) rfl rfl rfl rfl
      obtain ⟨x, wg, hg, rg⟩ := getOrNone_spec S.src c e.keys hu we (se.grows.refs hw)
      obtain ⟨dst, w1, hf, s1, q1, d1, hlt1, st1⟩ := fetchDst_any (S := S) c e.keys hu wg ((se.trans rg.still).grows.refs hw)
      have st : Still w w1 := (se.trans rg.still).trans s1
      have hdst : DstAt S c u dst w w1 := by
        unfold DstAt at d1 ⊢
        split at d1
        · rw [d1, rg.still.tbl_eq.findRef, se.tbl_eq.findRef]
        · rw [(se.trans rg.still).redis_eq] at d1
          rcases d1 with h | ⟨o, r, h1, h2, h3, h4⟩
          · exact .inl h
          · exact .inr ⟨o, r, h1, h2, Nat.le_trans (se.trans rg.still).next_le h3, h4⟩
      have ent : GEntered S e c u dst w w1 := {
        cls := hc, uid := hu, still := st
        trace := by rw [q1.trace_eq, rg.trace_eq, ← hwe]
        env_eq := by rw [q1.env_eq, rg.env_eq, ← hwe]
        sproc_eq := by rw [q1.sproc_eq, rg.sproc_eq, ← hwe]
        stotal_eq := by rw [q1.stotal_eq, rg.stotal_eq, ← hwe]
        sact := by rw [q1.sact_eq, rg.sact_eq, ← hwe]
        scls := by rw [q1.scls_eq, rg.scls_eq, ← hwe]
        slog := by rw [q1.slog_eq, rg.slog_eq, ← hwe]
        dst := hdst, lt := hlt1
        stat := ⟨fun r hr hne => (st1.1 r (Nat.lt_of_lt_of_le hr (se.trans rg.still).next_le) hne).trans (by
          unfold World.stat
          rw [rg.heap_eq r (by rw [← hwe]; exact hr), ← hwe]), st1.2⟩ }
      have hfl := dstFlags_eq dst w1
      rw [syncElem, M.bind_ok he, M.bind_ok hg, M.bind_ok hf, M.bind_ok hfl]
      simp only
      have hw1 := st.grows.refs hw
      by_cases hcase : (natOf dst w1 && e.action == some .delete && !skipOf dst w1) = true
      · rw [if_pos hcase]
        simp only [Bool.and_eq_true, beq_iff_eq, Bool.not_eq_true'] at hcase
        obtain ⟨k1, k2⟩ := orEach_kidsRun (f := fun k => syncElem S n k dst) (I := fun w' => RefsLt w' ∧ Grows w1 w')
          (K := fun k w w' res => syncElem S n k dst w = (res, w'))
          (fun e' w' hw' => ⟨rfl, (hK e' dst w' hw'.1).refs hw'.1, hw'.2.trans (hK e' dst w' hw'.1)⟩)
          (getChildren S.dc e.kids) false w1 ⟨hw1, Grows.refl _⟩
        rw [M.bind_def]
        generalize M.orEach (fun k => syncElem S n k dst) (getChildren S.dc e.kids) false w1 = q at k1 k2
        obtain ⟨y, w2⟩ := q
        cases y with
        | error y => exact ⟨.natFail ent hcase.1.1 hcase.2 hcase.1.2 k1, st.grows.trans k2.2⟩
        | ok b =>
          dsimp only
          rw [M.read_bind]
          obtain ⟨b1, b2⟩ := body_spec n e c parent dst (natOf dst w1) (skipOf dst w1) w2 k2.1
            (fun r hr => Nat.lt_of_lt_of_le (hlt1 r hr) k2.2.next_le) hK _ rfl
          refine ⟨.natural ent hcase.1.1 hcase.2 hcase.1.2 k1 ?_, (st.grows.trans k2.2).trans b2⟩
          rw [hcase.1.1, hcase.2] at b1 ⊢
          exact b1
      · rw [if_neg hcase, M.read_bind]
        obtain ⟨b1, b2⟩ := body_spec n e c parent dst (natOf dst w1) (skipOf dst w1) w1 hw1 hlt1 hK _ rfl
        refine ⟨.plain ent ?_ b1, st.grows.trans b2⟩
        rintro ⟨h1, h2, h3⟩
        apply hcase
        simp [h1, h2, h3]

theorem syncElem_grows (n : Nat) : ∀ e p (w : World V E), RefsLt w → Grows w (syncElem S n e p w).2 := by
  induction n with
  | zero => intro e p w _; exact Grows.refl _
  | succ n ih => intro e p w hw; exact (syncElem_succ n ih e p w hw).2

/-- One level of `sync_diff_element`, for either kind of store. -/
theorem syncElem_gstep (n : Nat) (e : Elem V) (parent : Option Ref) (w : World V E) (hw : RefsLt w) :
    GStep S (fun q k w w' res => syncElem S n k q w = (res, w')) e parent w
      (syncElem S (n + 1) e parent w).2 (syncElem S (n + 1) e parent w).1 :=
  (syncElem_succ n (syncElem_grows n) e parent w hw).1

/-- One level of `sync_diff_element`, for a local destination. -/
theorem syncElem_step {sid : Nat} (hA : S.dst.ref.store = .local sid) (n : Nat) (e : Elem V) (parent : Option Ref) (w : World V E) (hw : RefsLt w) :
    Step S sid (fun q k w w' res => syncElem S n k q w = (res, w')) e parent w
      (syncElem S (n + 1) e parent w).2 (syncElem S (n + 1) e parent w).1 := by
  have loc : ∀ {c u dst w1}, GEntered S e c u dst w w1 → Entered S sid e c u dst w w1 ∧ natOf dst w1 = natOf dst w ∧ skipOf dst w1 = skipOf dst w := by
    intro c u dst w1 h
    have hd : dst = findRef w sid c.name u := by have := h.dst; unfold DstAt at this; rw [hA] at this; exact this
    refine ⟨⟨h.cls, h.uid, h.still, h.trace, h.env_eq, h.sproc_eq, h.stotal_eq, h.sact, h.scls, h.slog, hd⟩, ?_, ?_⟩
    · cases dst with
      | none => rfl
      | some r => simp only [natOf, Option.elim_some, h.still.heap_m r (hw _ _ _ _ hd.symm)]
    · cases dst with
      | none => rfl
      | some r => simp only [skipOf, Option.elim_some, h.still.heap_m r (hw _ _ _ _ hd.symm)]
  have hs := syncElem_gstep (S := S) n e parent w hw
  generalize (syncElem S (n + 1) e parent w).1 = res at hs
  cases hs with
  | noClass h1 h2 => exact .noClass h1 h2
  | noKey h1 h2 h3 => exact .noKey h1 h2 h3
  | natFail h1 h2 h3 h4 h5 =>
    obtain ⟨l1, l2, l3⟩ := loc h1
    exact .natFail l1 (l2 ▸ h2) (l3 ▸ h3) h4 h5
  | natural h1 h2 h3 h4 h5 h6 =>
    obtain ⟨l1, l2, l3⟩ := loc h1
    exact .natural l1 (l2 ▸ h2) (l3 ▸ h3) h4 h5 h6
  | plain h1 h2 h3 =>
    obtain ⟨l1, l2, l3⟩ := loc h1
    rw [l2, l3] at h2 h3
    exact .plain l1 h2 h3
end

end DS
