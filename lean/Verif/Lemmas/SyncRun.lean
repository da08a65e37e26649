import Verif.Lemmas.SyncTop
import Verif.Lemmas.SyncComputed
import Verif.Lemmas.SyncPlan
/-! A whole sync: either it does not start, or it is a run. -/
set_option linter.unusedSectionVars false

namespace DS
variable {V E : Type} [PyVal V]

/-! ## diffs raise no CRUD exception -/

/-- No CRUD exception. -/
def NoCrud {α : Type} (x : Except Err α) : Prop := ∀ e, x = .error e → e.isCrud = false

theorem NoCrud.ok {α : Type} (a : α) : NoCrud (.ok a) := fun _ h => by cases h
theorem NoCrud.bind {α β : Type} {x : P α} {f : α → P β} (h : NoCrud x) (hf : ∀ a, NoCrud (f a)) : NoCrud (P.bind x f) := by
  intro e he
  unfold P.bind at he
  split at he
  · rename_i a k
    split at he
    · cases he
    · rename_i e' h2
      cases he
      exact hf a _ h2
  · cases he; exact h _ rfl
theorem NoCrud.lift {α : Type} {x : Except Err α} (h : NoCrud x) : NoCrud (P.lift x) := by
  intro e he
  unfold P.lift at he
  split at he
  · cases he
  · cases he; exact h _ rfl

theorem NoCrud.forEach {α : Type} {f : α → P Unit} (hf : ∀ a, NoCrud (f a)) (l : List α) : NoCrud (P.forEach f l) := by
  induction l with
  | nil => exact .ok _
  | cons a l ih => exact .bind (hf a) (fun _ => ih)

theorem noCrud_lookupAll (S : Snap V) (t : String) (us : List String) : NoCrud (lookupAll S t us) := by
  induction us with
  | nil => exact .ok _
  | cons u us ih =>
    intro e he
    unfold lookupAll at he
    split at he
    · cases he; rfl
    · split at he
      · cases he
      · rename_i e' h2; cases he; exact ih _ h2

theorem noCrud_addElems (kids es : List (Elem V)) : NoCrud (addElems kids es) := by
  induction es generalizing kids with
  | nil => exact .ok _
  | cons e es ih =>
    intro x hx
    unfold addElems at hx
    split at hx
    · exact ih _ x hx
    · rename_i e' h2
      cases hx
      unfold addElem at h2
      split at h2 <;> cases h2
      rfl

theorem noCrud_validatePairs (ps : List (Option (Model V) × Option (Model V))) : NoCrud (validatePairs ps) := by
  induction ps with
  | nil => exact .ok _
  | cons p ps ih =>
    intro x hx
    unfold validatePairs at hx
    split at hx
    · exact ih x hx
    · rename_i e' h2
      cases hx
      unfold validatePair at h2
      split at h2
      · split at h2
        · cases h2; rfl
        · split at h2
          · cases h2; rfl
          · split at h2
            · cases h2
            · cases h2; rfl
      · cases h2

theorem noCrud_childModels (S : Snap V) (o : Option (Model V)) (ct f : String) : NoCrud (pChildModels S o ct f) := by
  unfold pChildModels
  split
  · exact .ok _
  · split
    · intro e he; cases he; rfl
    · exact .lift (noCrud_lookupAll _ _ _)

theorem noCrud_childLoop {S D : Snap V} {rec : List (Model V) → List (Model V) → P (List (Elem V))} (hrec : ∀ a b, NoCrud (rec a b))
    (src dst : Option (Model V)) (m : Dict String) (kids : List (Elem V)) : NoCrud (pChildLoop S D rec src dst m kids) := by
  induction m generalizing kids with
  | nil => exact .ok _
  | cons p m ih =>
    obtain ⟨ct, f⟩ := p
    exact .bind (noCrud_childModels _ _ _ _) fun _ => .bind (noCrud_childModels _ _ _ _) fun _ => .bind (hrec _ _) fun _ =>
      .bind (.lift (noCrud_addElems _ _)) fun _ => ih _

theorem noCrud_mapping (s d : Option (Model V)) : NoCrud (pMapping s d) := by
  cases s <;> cases d
  · intro e he; cases he; rfl
  · exact .ok _
  · exact .ok _
  · refine .bind (.forEach (fun p => ?_) _) fun _ => .bind (.forEach (fun p => ?_) _) fun _ => .ok _
    · split <;> exact .ok _
    · split <;> exact .ok _

theorem noCrud_pair {C : DiffCtx V} {S D : Snap V} {rec : List (Model V) → List (Model V) → P (List (Elem V))} (hrec : ∀ a b, NoCrud (rec a b))
    (src dst : Option (Model V)) : NoCrud (pPair C S D rec src dst) := by
  unfold pPair
  split
  · intro e he; cases he; rfl
  · split
    · exact .bind (.ok _) fun _ => .ok _
    · exact .bind (.ok _) fun _ => .bind (noCrud_mapping _ _) fun _ => .bind (noCrud_childLoop hrec _ _ _ _) fun _ => .ok _

theorem noCrud_pairs {pair : Option (Model V) → Option (Model V) → P (Option (Elem V))} (h : ∀ s d, NoCrud (pair s d))
    (ps : List (Option (Model V) × Option (Model V))) : NoCrud (pPairs pair ps) := by
  induction ps with
  | nil => exact .ok _
  | cons p ps ih =>
    obtain ⟨s, d⟩ := p
    exact .bind (h s d) fun _ => .bind ih fun _ => .ok _

theorem noCrud_list (C : DiffCtx V) (S D : Snap V) (n : Nat) (a b : List (Model V)) : NoCrud (pList C S D n a b) := by
  induction n generalizing a b with
  | zero => intro e he; cases he; rfl
  | succ n ih =>
    exact .bind (.ok _) fun _ => .bind (.lift (noCrud_validatePairs _)) fun _ => noCrud_pairs (noCrud_pair (ih)) _

theorem noCrud_types (C : DiffCtx V) (S D : Snap V) (n : Nat) (ts : List String) (kids : List (Elem V)) : NoCrud (pTypes C S D n ts kids) := by
  induction ts generalizing kids with
  | nil => exact .ok _
  | cons t ts ih => exact .bind (noCrud_list _ _ _ _ _ _) fun _ => .bind (.lift (noCrud_addElems _ _)) fun _ => ih _

theorem noCrud_diff (C : DiffCtx V) (S D : Snap V) (n : Nat) : NoCrud (pDiff C S D n) := by
  refine .bind (.forEach (fun t => ?_) _) fun _ => noCrud_types _ _ _ _ _ _
  unfold pSkipped
  split
  · exact .ok _
  · split <;> exact .ok _

theorem diffFrom_noCrud (n : Nat) (dst src : Adapter V) (dc : DiffClass V) (flags : Nat) (w : World V E) (hw : RefsLt w) (hwf : TblWF w) :
    NoCrud (diffFrom n dst src dc flags w).1 := by
  obtain ⟨_, h⟩ := diffFrom_raw n dst src dc flags w hw hwf
  intro e he
  cases hp : pDiff ⟨src, dst, flags⟩ (rawSnap src w) (rawSnap dst w) n with
  | ok r => rw [hp] at h; dsimp only at h; rw [h.1] at he; cases he
  | error x => rw [hp] at h; dsimp only at h; rw [h] at he; cases he; exact noCrud_diff _ _ _ _ _ hp

/-! ## runs -/

theorem callsOf_only {evs : List (Event V)} (h : OnlyDiffProgress evs) : callsOf evs = [] := by
  induction evs with
  | nil => rfl
  | cons ev evs ih =>
    obtain ⟨a, b, rfl⟩ := h ev (by simp)
    exact ih (fun ev hev => h ev (by simp [hev]))

theorem progressOf_only {evs : List (Event V)} (h : OnlyDiffProgress evs) : progressOf evs = [] := by
  induction evs with
  | nil => rfl
  | cons ev evs ih =>
    obtain ⟨a, b, rfl⟩ := h ev (by simp)
    exact ih (fun ev hev => h ev (by simp [hev]))

theorem newEvents_eq {w w' : World V E} {evs : List (Event V)} (h : w'.trace = w.trace ++ evs) : newEvents w w' = evs := by
  unfold newEvents; rw [h]; simp

/-- A sync with a diff of the wrong class does nothing, any other is a run. -/
theorem SyncRun.cases {n rl : Nat} {hooks : Hooks V E} {dst src : Adapter V} {dc : DiffClass V} {flags : Nat} {diff : Option (Diff V)} {w w' : World V E}
    {res : Except Err (Diff V)} {d : Diff V} (h : SyncRun n rl hooks dst src dc flags diff w d res w') :
    (res = .error .diffClassMismatch ∧ w' = w ∧ diff = some d ∧ d.cls.bases.contains dc.id = false ∧ d.len ≠ 0) ∨
    ∃ evs0 evs p y, Ran n rl hooks dst src flags (Tidy dst d) d w w' res evs0 evs p y :=
  syncFrom_run (D := Tidy dst d) h.ready h.used h.good (fun h => h) h.run

/-- A sync does not start, or it is a run. -/
theorem sync_master {n rl : Nat} {hooks : Hooks V E} {dst src : Adapter V} {dc : DiffClass V} {flags : Nat} {diff : Option (Diff V)} {w w' : World V E}
    {res : Except Err (Diff V)} (hr : DstReady dst w) (hg : Applicable n dst src dc flags diff w)
    (h : syncFrom n rl hooks dst src dc flags diff w = (res, w')) :
    (∃ x, res = .error x ∧ x.isCrud = false ∧ Still w w' ∧ (∃ evs, w'.trace = w.trace ++ evs ∧ OnlyDiffProgress evs) ∧
      ((∃ d, diff = some d ∧ d.len ≠ 0 ∧ d.cls.bases.contains dc.id = false ∧ x = .diffClassMismatch ∧ w' = w) ∨
        ((∀ d, diff = some d → d.len = 0) ∧ diffFrom n dst src dc flags w = (.error x, w')))) ∨
    ∃ d evs0 evs p y, UsedDiff n dst src dc flags diff w d ∧ Ran n rl hooks dst src flags (Tidy dst d) d w w' res evs0 evs p y := by
  rcases syncFrom_cases n rl hooks dst src dc flags diff w hr.ok.refs_lt hr.ok.tbl_wf with ⟨x, w1, h1, h2, h3, h4⟩ | ⟨d, w0, evs0, y, w1, h1, _⟩
  · left
    rw [h] at h1; cases h1
    refine ⟨x, rfl, ?_, h2, h3, h4⟩
    rcases h4 with ⟨d, _, _, _, rfl, _⟩ | ⟨_, h5⟩
    · rfl
    · exact diffFrom_noCrud n dst src dc flags w hr.ok.refs_lt hr.ok.tbl_wf x (by rw [h5])
  · have hsplit := syncFrom_run (D := Tidy dst d) hr h1 (hg d h1) (fun h => h) h
    rcases hsplit with ⟨rfl, rfl, h3, h4, h5⟩ | ⟨evs0, evs, p, y, h2⟩
    · exact .inl ⟨_, rfl, rfl, .refl _, ⟨[], by simp, fun _ h => by cases h⟩, .inl ⟨d, h3, h5, h4, rfl, rfl⟩⟩
    · exact .inr ⟨d, evs0, evs, p, y, h1, h2⟩

theorem Tr.kinds {T : TrCtx V} {l : List (Elem V)} {p p' : Nat} {evs : List (Event V)} {res : Except Err Bool} (h : Tr T l p evs p' res) :
    ∀ a b, Event.syncComplete a b ∉ evs := by
  have body : ∀ {e : Elem V} {o ctx} {evs : List (Event V)} {rb}, BodyTr T e o ctx evs rb → ∀ a b, Event.syncComplete a b ∉ evs := by
    intro e o ctx evs rb hb a b hm
    obtain ⟨evs1, tail, r1, h1, rfl, h2⟩ := hb.inv
    rcases List.mem_append.1 hm with hm | hm
    · rcases h1.inv with ⟨ha, h3, rfl⟩ | ⟨a, ha, ⟨h3, rfl, h4⟩ | ⟨h3, call, out, h4, h5, h6⟩⟩
      · split at hm <;> simp at hm
      · simp at hm
      · rcases h6 with ⟨x, _, _, rfl, _⟩ | ⟨x, _, _, rfl, _⟩ | ⟨_, rfl, _⟩ | ⟨_, _, rfl, _⟩ <;> simp at hm
    · rcases h2 with ⟨_, _, rfl, _⟩ | ⟨_, rfl, _⟩ | ⟨_, h, _⟩
      · cases hm
      · simp at hm
      · obtain ⟨_, _, _, _, h⟩ := h _ hm; cases h
  refine Tr.ind (motive := fun _ _ evs _ _ => ∀ a b, Event.syncComplete a b ∉ evs) ?_ ?_ ?_ ?_ ?_ ?_ ?_ ?_ h
  · intro _ _ _ h; cases h
  · exact fun _ h => h
  · intro e l p evs p1 b evs' p' r _ _ ih ih' a b hm
    rcases List.mem_append.1 hm with hm | hm
    · exact ih a b hm
    · exact ih' a b hm
  · intro _ _ _ _ _ _ h; cases h
  · exact fun _ _ _ h => h
  · intro e o ctx p evs p' b evs' rb _ _ _ ⟨_, hb⟩ ih a b hm
    rcases List.mem_append.1 hm with hm | hm
    · exact ih a b hm
    · rcases List.mem_append.1 hm with hm | hm
      · exact body hb a b hm
      · unfold progIf at hm; split at hm <;> simp at hm
  · intro e o ctx p evs rb _ _ _ _ hb; exact body hb
  · intro e o ctx p evs evs' p' r _ _ _ _ hb _ ih a b hm
    rcases List.mem_append.1 hm with hm | hm
    · exact body hb a b hm
    · rcases List.mem_cons.1 hm with hm | hm
      · cases hm
      · exact ih a b hm

section
variable {n rl : Nat} {hooks : Hooks V E} {dst src : Adapter V} {flags : Nat} {D : Prop} {d : Diff V} {w w' : World V E}
  {res : Except Err (Diff V)} {evs0 evs : List (Event V)} {p : Nat} {y : Except Err Bool}

theorem Ran.new (h : Ran n rl hooks dst src flags D d w w' res evs0 evs p y) :
    newEvents w w' = evs0 ++ (evs ++ if y = .ok true then [.syncComplete dst.ref.id src.ref.id] else []) := newEvents_eq h.trace

theorem callsOf_done {y : Except Err Bool} {a b : Nat} : callsOf (if y = .ok true then [.syncComplete a b] else [] : List (Event V)) = [] := by
  split <;> rfl
theorem progressOf_done {y : Except Err Bool} {a b : Nat} : progressOf (if y = .ok true then [.syncComplete a b] else [] : List (Event V)) = [] := by
  split <;> rfl

theorem Ran.calls (h : Ran n rl hooks dst src flags D d w w' res evs0 evs p y) : callsOf (newEvents w w') = callsOf evs := by
  rw [h.new, callsOf_append, callsOf_append, callsOf_only h.only, callsOf_done]; simp

theorem Ran.mem_call (h : Ran n rl hooks dst src flags D d w w' res evs0 evs p y) {c : CrudCall V} {out : Outcome} :
    Event.call c out ∈ newEvents w w' ↔ Event.call c out ∈ evs := by
  rw [← mem_callsOf, h.calls, mem_callsOf]

theorem Ran.mem_noObject (h : Ran n rl hooks dst src flags D d w w' res evs0 evs p y) : NoMissing (newEvents w w') ↔ NoMissing evs := by
  rw [h.new]
  constructor
  · exact fun h => h.right.left
  · intro hm c hc
    rcases List.mem_append.1 hc with hc | hc
    · obtain ⟨_, _, he⟩ := h.only _ hc; cases he
    · rcases List.mem_append.1 hc with hc | hc
      · exact hm c hc
      · split at hc <;> simp at hc

theorem Ran.split (h : Ran n rl hooks dst src flags D d w w' res evs0 evs p y) {L R : List (Event V)} {c : CrudCall V} {out : Outcome}
    (hs : newEvents w w' = L ++ .call c out :: R) : ∃ L' R', evs = L' ++ .call c out :: R' ∧ L = evs0 ++ L' ∧
      R = R' ++ if y = .ok true then [.syncComplete dst.ref.id src.ref.id] else [] := by
  rw [h.new] at hs
  rcases split_append hs with ⟨A', hA, hs1⟩ | ⟨B', _, hs1⟩
  · rcases split_append hs1 with ⟨A2, _, hs2⟩ | ⟨B', hB, hs2⟩
    · exfalso
      split at hs2
      · rcases split_single hs2 with ⟨_, h, _⟩ | ⟨_, _, h⟩
        · cases h
        · exact not_split_nil h
      · exact not_split_nil hs2
    · exact ⟨A', B', hs2, hA, hB⟩
  · obtain ⟨_, _, he⟩ := h.only (.call c out) (by rw [hs1]; simp); cases he

theorem Ran.inTree (_h : Ran n rl hooks dst src flags D d w w' res evs0 evs p y) {x : Elem V} (hx : InTree x (getChildren d.cls d.kids)) : InTree x d.kids :=
  hx.mono (fun _ hk => mem_of_getChildren hk)
end

end DS
