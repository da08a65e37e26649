import Verif.Props.Store
/-! # C37, C49, exactly: what `count(model)` counts and which names `get_all_model_names()` returns -/
set_option linter.unusedSectionVars false

namespace DS
variable {V E α : Type} [PyVal V]

/-! ## C37 -/

/-- **C37** In a local store, exactly: `count(model)` is the number of objects `get_all(model)` returns, for every model name and class but the
empty name, for which it is `count()`. -/
theorem C37_count_model_local (A : Adapter V) {sid : Nat} (hA : A.ref.store = .local sid) (a : ModelArg V) (w : World V E) :
    (a ≠ .name "" → ∃ rs w', getAll A a.modelName w = (.ok rs, w') ∧ countOf A (some a) w = .ok rs.length) ∧
    (a = .name "" → countOf A (some a) w = countOf A none w) := by
  constructor
  · intro ha
    refine ⟨Dict.values (tbl w sid a.modelName), w.setLoc sid (touch (w.loc sid) a.modelName), ?_, ?_⟩
    · unfold getAll
      simp only [hA]
      rw [M.bind_ok (localModel_eq sid _ w)]; rfl
    · unfold countOf count
      simp only [hA]
      cases a with
      | name s =>
        simp only [ModelArg.modelName]
        rw [if_neg (fun h => ha (by rw [h])), localModel_eq]
        simp [Dict.values]
      | cls c =>
        simp only [ModelArg.modelName]
        rw [localModel_eq]
        simp [Dict.values]
  · rintro rfl
    unfold countOf count
    simp only [hA, if_pos]

/-- **C37** In a Redis store, exactly: `count(model)` is the number of objects that `get_all` returns for the name of the model in
lower case. -/
theorem C37_count_model_redis (A : Adapter V) {sid : String} (hA : A.ref.store = .redis sid) (a : ModelArg V) (w : World V E) (hd : RedisDetached w) :
    ∃ rs w', getAll A a.modelName.toLower w = (.ok rs, w') ∧ countOf A (some a) w = .ok rs.length := by
  obtain ⟨rs, w', e, _, _, _, hm⟩ := mapEach_load (A := A) (scanKeys w.redis (storeLabel sid ++ (":" ++ (a.modelName.toLower ++ ":")))) w hd
    (fun k hk => (List.mem_filter.1 hk).1)
  refine ⟨rs, w', ?_, ?_⟩
  · unfold getAll
    simp only [hA]
    rw [M.read_bind]; exact e
  · unfold countOf count
    simp only [hA]
    have := congrArg List.length hm
    simp only [List.length_map] at this
    rw [this]

/-! ## C49 -/

/-- Names are added to the local store `sid` only, and only `t`; none is dropped; objects keep their types. -/
structure NamesGrow (sid : Nat) (t : String) (w w' : World V E) : Prop where
  mono : ∀ s x, x ∈ Dict.keys (w.loc s) → x ∈ Dict.keys (w'.loc s)
  only : ∀ s x, x ∈ Dict.keys (w'.loc s) → x ∈ Dict.keys (w.loc s) ∨ (s = sid ∧ x = t)
  type : ∀ r, (w'.heap r).m.type = (w.heap r).m.type

theorem NamesGrow.preOrd (sid : Nat) (t : String) : PreOrd (NamesGrow sid t : World V E → World V E → Prop) where
  refl w := ⟨fun _ _ h => h, fun _ _ h => .inl h, fun _ => rfl⟩
  trans a b c h1 h2 := ⟨fun s x h => h2.mono s x (h1.mono s x h), fun s x h => (h2.only s x h).elim (h1.only s x) .inr,
    fun r => (h2.type r).trans (h1.type r)⟩

theorem NamesGrow.set (sid : Nat) (t : String) (d : Dict Ref) (w : World V E) : NamesGrow sid t w (w.setLoc sid (Dict.set (w.loc sid) t d)) := by
  have key : ∀ s, (w.setLoc sid (Dict.set (w.loc sid) t d)).loc s = if s = sid then Dict.set (w.loc sid) t d else w.loc s := fun s => rfl
  refine ⟨fun s x h => ?_, fun s x h => ?_, fun _ => rfl⟩
  · rw [key]
    by_cases hs : s = sid
    · subst hs; rw [if_pos rfl, Dict.keys_set]; split
      · exact h
      · exact List.mem_append_left _ h
    · rw [if_neg hs]; exact h
  · rw [key] at h
    by_cases hs : s = sid
    · subst hs; rw [if_pos rfl, Dict.keys_set] at h; split at h
      · exact .inl h
      · rcases List.mem_append.1 h with h | h
        · exact .inl h
        · exact .inr ⟨rfl, List.mem_singleton.1 h⟩
    · rw [if_neg hs] at h; exact .inl h

theorem NamesGrow.setAdapter (sid : Nat) (t : String) (r : Ref) (a : Option AdRef) (w : World V E) :
    NamesGrow sid t w (w.setObj r { w.heap r with adapter := a }) := by
  refine ⟨fun _ _ h => h, fun _ _ h => .inl h, fun r' => ?_⟩
  unfold World.setObj
  dsimp only
  split
  · rename_i h; subst h; rfl
  · rfl

theorem keys_touch_mem (d : Dict (Dict Ref)) (t : String) : t ∈ Dict.keys (touch d t) := by
  unfold touch
  split
  · rename_i h; exact Dict.has_iff.1 h
  · rw [Dict.keys_set]; split
    · assumption
    · simp

theorem localModel_grow (sid : Nat) (t : String) : Pres (NamesGrow sid t) (localModel sid t : M V E _) := by
  intro w
  rw [localModel_eq]
  unfold touch
  split
  · have : w.setLoc sid (w.loc sid) = w := by
      unfold World.setLoc
      have : (fun s => if s = sid then w.loc sid else w.loc s) = w.loc := by
        funext s; split
        · rename_i h; rw [h]
        · rfl
      rw [this]
    rw [this]; exact (NamesGrow.preOrd sid t).refl w
  · exact NamesGrow.set sid t [] w

/-- The name `t` is among the names of the store afterwards, and otherwise names are as before. -/
def Notes (sid : Nat) (t : String) (x : M V E α) : Prop := ∀ w, NamesGrow sid t w (x w).2 ∧ t ∈ Dict.keys ((x w).2.loc sid)

theorem Notes.bind {β : Type} {sid : Nat} {t : String} {x : M V E α} {f : α → M V E β} (hx : Notes sid t x) (hf : ∀ a, Pres (NamesGrow sid t) (f a)) :
    Notes sid t (x >>= f) := by
  intro w
  obtain ⟨h1, h2⟩ := hx w
  rw [M.bind_def]
  cases hr : x w with
  | mk r w1 =>
    rw [hr] at h1 h2
    cases r with
    | error e => exact ⟨h1, h2⟩
    | ok a =>
      have h3 := hf a w1
      exact ⟨(NamesGrow.preOrd sid t).trans _ _ _ h1 h3, h3.mono _ _ h2⟩

theorem Notes.localModel (sid : Nat) (t : String) : Notes sid t (DS.localModel sid t : M V E _) := fun w =>
  ⟨localModel_grow sid t w, by rw [localModel_eq]; unfold World.setLoc; simp only [if_pos]; exact keys_touch_mem _ _⟩

theorem Notes.tryCatch {sid : Nat} {t : String} {x : M V E α} {p : Err → Bool} {k : Err → M V E α} (hx : Notes sid t x) (hk : ∀ e, Pres (NamesGrow sid t) (k e)) :
    Notes sid t (M.tryCatch x p k) := by
  intro w
  obtain ⟨h1, h2⟩ := hx w
  unfold M.tryCatch
  cases hr : x w with
  | mk r w1 =>
    rw [hr] at h1 h2
    cases r with
    | ok a => exact ⟨h1, h2⟩
    | error e =>
      dsimp only
      split
      · have h3 := hk e w1
        exact ⟨(NamesGrow.preOrd sid t).trans _ _ _ h1 h3, h3.mono _ _ h2⟩
      · exact ⟨h1, h2⟩

/-- The model name an operation is about. -/
def StoreOp.about (op : StoreOp) (w : World V E) : String :=
  match op with
  | .add r | .update r | .remove r => (w.heap r).m.type
  | .get t _ | .getOrNone t _ | .getAll t => t

theorem getRaw_notes {A : Adapter V} {sid : Nat} (hA : A.ref.store = .local sid) (t u : String) : Notes sid t (getRaw A t u : M V E Ref) := by
  unfold getRaw
  simp only [hA]
  exact Notes.bind (Notes.localModel sid t) (fun _ => Pres.ofOption (NamesGrow.preOrd sid t) _ _)

theorem get_notes {A : Adapter V} {sid : Nat} (hA : A.ref.store = .local sid) (t u : String) : Notes sid t (get A (.name t) (.uid u) : M V E Ref) :=
  getRaw_notes hA t u

theorem removeItem_notes {A : Adapter V} {sid : Nat} (hA : A.ref.store = .local sid) (t u : String) : Notes sid t (removeItem A t u : M V E Unit) := by
  have P := NamesGrow.preOrd (V := V) (E := E) sid t
  unfold removeItem
  simp only [hA]
  refine Notes.bind (Notes.localModel sid t) (fun d => ?_)
  split
  · exact Pres.modify (fun w => NamesGrow.set sid t _ w)
  · exact Pres.raise P _

theorem runOp_notes {A : Adapter V} {sid : Nat} (hA : A.ref.store = .local sid) (op : StoreOp) (w : World V E) :
    NamesGrow sid (op.about w) w (runOp A op w).2 ∧ op.about w ∈ Dict.keys ((runOp A op w).2.loc sid) := by
  have P := NamesGrow.preOrd (V := V) (E := E) sid (op.about w)
  have tail : ∀ {t : String} (x : M V E Unit), NamesGrow sid t w (x w).2 ∧ t ∈ Dict.keys ((x w).2.loc sid) →
      NamesGrow sid t w ((do x; pure [] : M V E (List Ref)) w).2 ∧ t ∈ Dict.keys (((do x; pure [] : M V E (List Ref)) w).2.loc sid) := by
    intro t x h
    rw [M.bind_def]
    cases hu : x w with
    | mk res w1 => rw [hu] at h; cases res <;> exact h
  cases op with
  | get t u => exact Notes.bind (get_notes hA t u) (fun _ => Pres.pure P _) w
  | getOrNone t u =>
    refine Notes.bind (Notes.tryCatch (Notes.bind (get_notes hA t u) (fun _ => Pres.pure P _)) (fun _ => Pres.pure P _)) (fun _ => Pres.pure P _) w
  | getAll t =>
    have : Notes sid t (getAll A t : M V E _) := by
      unfold getAll
      simp only [hA]
      exact Notes.bind (Notes.localModel sid t) (fun _ => Pres.pure P _)
    exact this w
  | update r =>
    have : update A r w = (do
        let d ← localModel sid (w.heap r).m.type
        if Dict.get? d (w.heap r).m.uid = some r then pure ()
        else M.modify (fun w' => w'.setLoc sid (Dict.set (w'.loc sid) (w.heap r).m.type (Dict.set d (w.heap r).m.uid r))) : M V E Unit) w := by
      unfold update; rw [deref_bind]; simp only [hA]
    have hN : NamesGrow sid (w.heap r).m.type w (update A r w).2 ∧ (w.heap r).m.type ∈ Dict.keys ((update A r w).2.loc sid) := by
      rw [this]
      refine Notes.bind (Notes.localModel sid _) (fun d => ?_) w
      split
      · exact Pres.pure P _
      · exact Pres.modify (fun w' => NamesGrow.set sid _ _ w')
    exact tail _ hN
  | add r =>
    have hN : NamesGrow sid (w.heap r).m.type w (add A r w).2 ∧ (w.heap r).m.type ∈ Dict.keys ((add A r w).2.loc sid) := by
      have h0 : (localModel sid (w.heap r).m.type w).2.heap = w.heap := by rw [localModel_eq]; rfl
      obtain ⟨g1, g2⟩ := Notes.localModel (V := V) (E := E) sid (w.heap r).m.type w
      unfold add
      rw [deref_bind]
      simp only [hA]
      rw [localModel_eq] at g1 g2 h0
      rw [M.bind_ok (localModel_eq sid _ w)]
      cases hg : Dict.get? (tbl w sid (w.heap r).m.type) (w.heap r).m.uid with
      | some r' =>
        dsimp only
        by_cases hr : r' = r
        · rw [if_pos hr]; exact ⟨g1, g2⟩
        · rw [if_neg hr]; exact ⟨g1, g2⟩
      | none =>
        dsimp only
        rw [M.read_bind]
        have step : ∀ w2 : World V E, NamesGrow sid (w.heap r).m.type w w2 → NamesGrow sid (w.heap r).m.type w
            (w2.setLoc sid (Dict.set (w2.loc sid) (w.heap r).m.type (Dict.set (tbl w sid (w.heap r).m.type) (w.heap r).m.uid r))) ∧
            (w.heap r).m.type ∈ Dict.keys ((w2.setLoc sid (Dict.set (w2.loc sid) (w.heap r).m.type (Dict.set (tbl w sid (w.heap r).m.type) (w.heap r).m.uid r))).loc sid) := by
          intro w2 h2
          refine ⟨P.trans _ _ _ h2 (NamesGrow.set sid _ _ w2), ?_⟩
          unfold World.setLoc
          simp only [if_pos]
          rw [Dict.keys_set]
          split
          · assumption
          · simp
        by_cases ha : adapterTruthy (w.heap r).adapter (w.setLoc sid (touch (w.loc sid) (w.heap r).m.type)) = true
        · rw [if_pos ha]; exact step _ g1
        · rw [if_neg ha]; refine step _ (P.trans _ _ _ g1 ?_)
          have := NamesGrow.setAdapter sid (w.heap r).m.type r (some A.ref) (w.setLoc sid (touch (w.loc sid) (w.heap r).m.type))
          exact this
    exact tail _ hN
  | remove r =>
    have hN : NamesGrow sid (w.heap r).m.type w (removeOne A r w).2 ∧ (w.heap r).m.type ∈ Dict.keys ((removeOne A r w).2.loc sid) := by
      unfold removeOne
      rw [deref_bind]
      obtain ⟨g1, g2⟩ := removeItem_notes (E := E) hA (w.heap r).m.type (w.heap r).m.uid w
      have hh : (removeItem A (w.heap r).m.type (w.heap r).m.uid w).2.heap = w.heap := by
        unfold removeItem
        simp only [hA]
        rw [M.bind_ok (localModel_eq sid _ w)]
        split <;> rfl
      rw [M.bind_def]
      cases hu : removeItem A (w.heap r).m.type (w.heap r).m.uid w with
      | mk res w1 =>
        rw [hu] at g1 g2 hh
        cases res with
        | error e => exact ⟨g1, g2⟩
        | ok _ =>
          dsimp only
          rw [M.read_bind]
          split
          · have := NamesGrow.setAdapter sid (w.heap r).m.type r none w1
            rw [show w1.heap r = w.heap r from congrFun hh r] at this
            exact ⟨P.trans _ _ _ g1 this, this.mono _ _ g2⟩
          · exact ⟨g1, g2⟩
    rw [← remove_one_eq] at hN
    exact tail _ hN

theorem runOps_names {α : Type} (obs : World V E → Ref → α) : ∀ (ops : List (Adapter V × StoreOp)) (w : World V E),
    (∀ p ∈ ops, ∃ sid, p.1.ref.store = .local sid) → ∀ (sid : Nat) (t : String),
    t ∈ Dict.keys ((runOps obs ops w).2.loc sid) ↔ t ∈ Dict.keys (w.loc sid) ∨ ∃ p ∈ ops, p.1.ref.store = .local sid ∧ p.2.about w = t
  | [], w, _, sid, t => ⟨.inl, fun h => h.elim id (fun ⟨_, h, _⟩ => by cases h)⟩
  | (A, op) :: ops, w, h, sid, t => by
    obtain ⟨s, hs⟩ := h _ List.mem_cons_self
    obtain ⟨g1, g2⟩ := runOp_notes hs op w
    have ih := runOps_names obs ops (runOp A op w).2 (fun p hp => h p (List.mem_cons_of_mem _ hp)) sid t
    have hab : ∀ op' : StoreOp, op'.about (runOp A op w).2 = op'.about w := by
      intro op'; cases op' <;> first | rfl | exact g1.type _
    have he : (runOps obs ((A, op) :: ops) w).2 = (runOps obs ops (runOp A op w).2).2 := rfl
    rw [he, ih]
    simp only [hab]
    constructor
    · rintro (h | ⟨p, hp, h1, h2⟩)
      · rcases g1.only _ _ h with h | ⟨rfl, rfl⟩
        · exact .inl h
        · exact .inr ⟨_, List.mem_cons_self, hs, rfl⟩
      · exact .inr ⟨p, List.mem_cons_of_mem _ hp, h1, h2⟩
    · rintro (h | ⟨p, hp, h1, h2⟩)
      · exact .inl (g1.mono _ _ h)
      · rcases List.mem_cons.1 hp with rfl | hp
        · rw [show A.ref.store = .local s from hs] at h1
          cases h1
          subst h2
          exact .inl g2
        · exact .inr ⟨p, hp, h1, h2⟩

/-- **C49** In a local store, exactly: after any sequence of operations `get_all_model_names()` has the names it had and those of the models that
an operation on this store was about, be it to store, to look up or to remove, and successfully or not. -/
theorem C49_model_names_local (ops : List (Adapter V × StoreOp)) (w : World V E) (hloc : ∀ p ∈ ops, ∃ sid, p.1.ref.store = .local sid)
    (A : Adapter V) {sid : Nat} (hA : A.ref.store = .local sid) :
    ∃ before after, (getAllModelNames A w).1 = .ok before ∧ (getAllModelNames A (runOps (fun _ r => r) ops w).2).1 = .ok after ∧
      ∀ t, t ∈ after ↔ t ∈ before ∨ ∃ p ∈ ops, p.1.ref.store = A.ref.store ∧ p.2.about w = t := by
  refine ⟨Dict.keys (w.loc sid), Dict.keys ((runOps (fun _ r => r) ops w).2.loc sid), by unfold getAllModelNames; simp only [hA], by unfold getAllModelNames; simp only [hA], fun t => ?_⟩
  rw [runOps_names _ _ _ hloc, hA]

namespace Ex
/-- Looking up a rack and removing an object that is not stored leave their names. -/
example : ∃ before after, (getAllModelNames (ad 1) w1).1 = .ok before ∧
    (getAllModelNames (ad 1) (runOps (fun _ r => r) [(ad 1, .getOrNone "rack" "r1"), (ad 2, .get "row" "1")] w1).2).1 = .ok after ∧
      ∀ t, t ∈ after ↔ t ∈ before ∨ t = "rack" := by
  obtain ⟨b, a, h1, h2, h3⟩ := C49_model_names_local [(ad 1, .getOrNone "rack" "r1"), (ad 2, .get "row" "1")] w1
    (by rintro p hp; simp only [List.mem_cons, List.not_mem_nil, or_false] at hp; rcases hp with rfl | rfl <;> exact ⟨_, rfl⟩) (ad 1) rfl
  refine ⟨b, a, h1, h2, fun t => (h3 t).trans (or_congr Iff.rfl ?_)⟩
  constructor
  · rintro ⟨p, hp, hs, ht⟩
    simp only [List.mem_cons, List.not_mem_nil, or_false] at hp
    rcases hp with rfl | rfl
    · exact ht.symm
    · cases hs
  · rintro rfl
    exact ⟨_, List.mem_cons_self, rfl, rfl⟩
/-- C37: a name that occurs and one that does not; a Redis store. -/
example : (count (ad 1) (some (.name "device")) w1).1 = .ok 2 ∧ (count (ad 1) (some (.name "rack")) w1).1 = .ok 0 := by decide +kernel
example : (count (adR 1 "x") (some (.name "Site")) (addModels (adR 1 "x") [site "nyc" []] (world0 String (List Outcome) []))).1 = .ok 1 := by decide +kernel
end Ex
end DS
