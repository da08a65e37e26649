import Verif.Props.Concurrent
import Verif.Lemmas.StoreOps
/-! # C64: a client that is alone does what the methods of the Redis store do

The methods as sequences of commands (`Verif/Model/RedisCmd.lean`) and as one step each (`Verif/Model/Store.lean`). -/
set_option linter.unusedSectionVars false

namespace DS
variable {V E α β : Type} [PyVal V]

theorem Proc.run_bind (p : Proc V α) (k : α → Proc V β) (d : Dict (Obj V)) :
    (p.bind k).run d = match p.run d with | (.ok a, d') => (k a).run d' | (.error e, d') => (.error e, d') := by
  induction p generalizing d with
  | ret r => cases r <;> rfl
  | cmd c f ih =>
    simp only [Proc.bind, Proc.run]
    exact ih _ _

theorem Proc.run_tryCatch (p : Proc V α) (sel : Err → Bool) (h : Err → Proc V α) (d : Dict (Obj V)) :
    (p.tryCatch sel h).run d = match p.run d with | (.ok a, d') => (.ok a, d') | (.error e, d') => if sel e then (h e).run d' else (.error e, d') := by
  induction p generalizing d with
  | ret r =>
    cases r with
    | ok a => rfl
    | error e =>
      simp only [Proc.tryCatch, Proc.run]
      split <;> rfl
  | cmd c f ih =>
    simp only [Proc.tryCatch, Proc.run]
    exact ih _ _

/-- What the server does for a client that is alone is one of the ways of `Solo`. -/
theorem solo_run (p : Proc V α) (d : Dict (Obj V)) : Solo (p, d) (.ret (p.run d).1, (p.run d).2) := by
  induction p generalizing d with
  | ret r => exact .done _
  | cmd c f ih =>
    cases c with
    | scan pfx => exact .scan (scanKeys d pfx) (fun y => by unfold scanKeys Found; rw [List.mem_filter]) (ih _ _)
    | get => exact .cmd id (ih _ _)
    | set => exact .cmd id (ih _ _)
    | exist => exact .cmd id (ih _ _)
    | del => exact .cmd id (ih _ _)

/-- A method returned or raised the same as its sequence of commands, and left the same on the server; `R` relates the results. -/
def Same (R : α → World V E → β → Prop) (x : Except Err α × World V E) (y : Except Err β × Dict (Obj V)) : Prop :=
  x.2.redis = y.2 ∧ match x.1, y.1 with
    | .ok a, .ok b => R a x.2 b
    | .error e, .error e' => e = e'
    | _, _ => False

/-- Instances stay as they are. -/
def World.Kept (w w' : World V E) : Prop := w.next ≤ w'.next ∧ ∀ r < w.next, w'.heap r = w.heap r

theorem deref_bind' (r : Ref) (f : Obj V → M V E α) (w : World V E) : (deref r >>= f) w = f (w.heap r) w := rfl

/-- **C64** Alone on the server, the commands of `add` do what `add` does. -/
theorem C64_alone_add (A : Adapter V) {sid : String} (hA : A.ref.store = .redis sid) (r : Ref) (w : World V E) :
    Same (fun _ _ _ => True) (add A r w) ((pAdd sid (w.heap r)).run w.redis) := by
  unfold add pAdd
  rw [deref_bind']
  simp only [hA, M.read_bind, Proc.run, Cmd.exec]
  cases hg : Dict.get? w.redis (redisKey sid (w.heap r).m.type (w.heap r).m.uid) with
  | none => exact ⟨rfl, trivial⟩
  | some o' =>
    dsimp only
    cases o'.m.dictEq (w.heap r).m with
    | true => exact ⟨rfl, trivial⟩
    | false => exact ⟨rfl, rfl⟩

/-- **C64** The same for `update`. -/
theorem C64_alone_update (A : Adapter V) {sid : String} (hA : A.ref.store = .redis sid) (r : Ref) (w : World V E) :
    Same (fun _ _ _ => True) (update A r w) ((pUpdate sid (w.heap r)).run w.redis) := by
  unfold update pUpdate
  rw [deref_bind']
  simp only [hA]
  exact ⟨rfl, trivial⟩

theorem same_removeItem (A : Adapter V) {sid : String} (hA : A.ref.store = .redis sid) (t u : String) (w : World V E) :
    Same (fun _ _ _ => True) (removeItem A t u w) ((pRemoveItem sid t u).run w.redis) := by
  unfold removeItem pRemoveItem
  simp only [hA, M.read_bind, Proc.run, Cmd.exec]
  cases Dict.has w.redis (redisKey sid t u) with
  | true => exact ⟨rfl, trivial⟩
  | false => exact ⟨rfl, rfl⟩

theorem same_load (A : Adapter V) (key : String) (w : World V E) :
    Same (fun r w' o => w'.heap r = o ∧ r < w'.next ∧ w.Kept w') (redisLoad A key w) ((pLoad A key).run w.redis) := by
  unfold redisLoad pLoad
  simp only [Proc.run, Cmd.exec]
  cases Dict.get? w.redis key with
  | none => exact ⟨rfl, rfl⟩
  | some o =>
    refine ⟨rfl, by simp [alloc, World.setObj], Nat.lt_succ_self _, Nat.le_succ _, fun r hr => ?_⟩
    simp only [alloc, World.setObj]
    rw [if_neg (Nat.ne_of_lt hr)]

/-- **C64** The same for `get`. -/
theorem C64_alone_get (A : Adapter V) {sid : String} (hA : A.ref.store = .redis sid) (t u : String) (w : World V E) :
    Same (fun r w' o => w'.heap r = o) (get A (.name t) (.uid u) w) ((pGet A sid t u).run w.redis) := by
  have h := same_load A (redisKey sid t u) w
  have e : get A (.name t) (.uid u) w = redisLoad A (redisKey sid t u) w := by
    have : get A (.name t) (.uid u) w = getRaw A t u w := rfl
    rw [this]; unfold getRaw; rw [hA]
  rw [e]
  unfold pGet
  refine ⟨h.1, ?_⟩
  have h2 := h.2
  revert h2
  cases (redisLoad A (redisKey sid t u) w).1 <;> cases ((pLoad A (redisKey sid t u)).run w.redis).1
  · exact id
  · exact id
  · exact id
  · exact fun h => h.1

theorem same_loads (A : Adapter V) (ks : List String) (w : World V E) :
    Same (fun rs w' os => rs.map w'.heap = os ∧ (∀ r ∈ rs, r < w'.next) ∧ w.Kept w') (M.mapEach (redisLoad A) ks w) ((Proc.mapEach (pLoad A) ks).run w.redis) := by
  induction ks generalizing w with
  | nil => exact ⟨rfl, rfl, by simp, Nat.le_refl _, fun _ _ => rfl⟩
  | cons k ks ih =>
    rw [M.mapEach_cons]
    unfold Proc.mapEach
    rw [Proc.run_bind]
    have h1 := same_load A k w
    cases hx : redisLoad A k w with
    | mk x w1 =>
      cases hy : (pLoad A k).run w.redis with
      | mk y d1 =>
        rw [hx, hy] at h1
        obtain ⟨h1, h2⟩ := h1
        simp only at h1
        cases x with
        | error e =>
          cases y with
          | error e' =>
            rw [M.bind_err hx]
            exact ⟨h1, h2⟩
          | ok b => exact h2.elim
        | ok r =>
          cases y with
          | error e' => exact h2.elim
          | ok o =>
            obtain ⟨h2, h3, h4⟩ := h2
            rw [M.bind_ok hx]
            simp only
            rw [Proc.run_bind, ← h1]
            have h5 := ih w1
            cases hx' : M.mapEach (redisLoad A) ks w1 with
            | mk x' w2 =>
              cases hy' : (Proc.mapEach (pLoad A) ks).run w1.redis with
              | mk y' d2 =>
                rw [hx', hy'] at h5
                obtain ⟨h5, h6⟩ := h5
                simp only at h5
                cases x' with
                | error e =>
                  cases y' with
                  | error e' =>
                    rw [M.bind_err hx']
                    exact ⟨h5, h6⟩
                  | ok b => exact h6.elim
                | ok rs =>
                  cases y' with
                  | error e' => exact h6.elim
                  | ok os =>
                    obtain ⟨h6, h7, h8⟩ := h6
                    rw [M.bind_ok hx']
                    refine ⟨h5, ?_, ?_, Nat.le_trans h4.1 h8.1, fun r' hr' => (h8.2 r' (Nat.lt_of_lt_of_le hr' h4.1)).trans (h4.2 r' hr')⟩
                    · rw [List.map_cons]
                      exact (congrArg (· :: _) ((h8.2 r h3).trans h2)).trans (congrArg (o :: ·) h6)
                    · intro r' hr'
                      rcases List.mem_cons.1 hr' with rfl | hr'
                      · exact Nat.lt_of_lt_of_le h3 h8.1
                      · exact h7 r' hr'

/-- **C64** The same for `get_all`. -/
theorem C64_alone_get_all (A : Adapter V) {sid : String} (hA : A.ref.store = .redis sid) (t : String) (w : World V E) :
    Same (fun rs w' os => rs.map w'.heap = os) (getAll A t w) ((pGetAll A sid t).run w.redis) := by
  have h := same_loads A (scanKeys w.redis (storeLabel sid ++ (":" ++ (t ++ ":")))) w
  have e : getAll A t w = M.mapEach (redisLoad A) (scanKeys w.redis (storeLabel sid ++ (":" ++ (t ++ ":")))) w := by
    unfold getAll; simp only [hA]; rw [M.read_bind]
  rw [e]
  unfold pGetAll
  simp only [Proc.run, Cmd.exec]
  refine ⟨h.1, ?_⟩
  have h2 := h.2
  revert h2
  cases (M.mapEach (redisLoad A) (scanKeys w.redis (storeLabel sid ++ (":" ++ (t ++ ":")))) w).1 <;>
    cases ((Proc.mapEach (pLoad A) (scanKeys w.redis (storeLabel sid ++ (":" ++ (t ++ ":"))))).run w.redis).1
  · exact id
  · exact id
  · exact id
  · exact fun h => h.1

/-- **C64** The same for `get_by_uids`. -/
theorem C64_alone_get_by_uids (A : Adapter V) {sid : String} (hA : A.ref.store = .redis sid) (us : List String) (t : String) (w : World V E) :
    Same (fun rs w' os => rs.map w'.heap = os) (getByUids A us t w) ((pGetByUids A sid us t).run w.redis) := by
  have h := same_loads A (us.map (redisKey sid t)) w
  have e : getByUids A us t = M.mapEach (E := E) (redisLoad A) (us.map (redisKey sid t)) := by
    unfold getByUids
    clear h
    induction us with
    | nil => rfl
    | cons u us ih =>
      funext w
      rw [M.mapEach_cons, List.map_cons, M.mapEach_cons, ih]
      have : getRaw (E := E) A t u = redisLoad A (redisKey sid t u) := by unfold getRaw; rw [hA]
      rw [this]
  rw [e]
  unfold pGetByUids pGet
  rw [mapEach_map (redisKey sid t)]
  refine ⟨h.1, ?_⟩
  have h2 := h.2
  revert h2
  cases (M.mapEach (redisLoad A) (us.map (redisKey sid t)) w).1 <;> cases ((Proc.mapEach (pLoad A) (us.map (redisKey sid t))).run w.redis).1
  · exact id
  · exact id
  · exact id
  · exact fun h => h.1

/-- **C64** The same for `count`. -/
theorem C64_alone_count (A : Adapter V) {sid : String} (hA : A.ref.store = .redis sid) (a : Option (ModelArg V)) (w : World V E) :
    Same (fun n _ n' => n = n') (count A a w) ((pCount sid a).run w.redis) := by
  unfold count
  rw [hA]
  cases a with
  | none =>
    simp only [lenAdapter, countStore, hA]
    exact ⟨rfl, rfl⟩
  | some a => exact ⟨rfl, rfl⟩

/-- **C64** The same for `get_all_model_names`. -/
theorem C64_alone_model_names (A : Adapter V) {sid : String} (hA : A.ref.store = .redis sid) (w : World V E) :
    Same (fun n _ n' => n = n') (getAllModelNames A w) ((pModelNames sid).run w.redis) := by
  unfold getAllModelNames
  rw [hA]
  exact ⟨rfl, rfl⟩

theorem same_error {R : α → World V E → β → Prop} {e : Err} {w : World V E} {y : Except Err β × Dict (Obj V)} (h : Same R (.error e, w) y) : y = (.error e, w.redis) := by
  obtain ⟨y, d⟩ := y
  obtain ⟨h1, h2⟩ := h
  cases y with
  | error e' => cases h2; cases h1; rfl
  | ok b => exact h2.elim
theorem same_ok {R : α → World V E → β → Prop} {a : α} {w : World V E} {y : Except Err β × Dict (Obj V)} (h : Same R (.ok a, w) y) : ∃ b, y = (.ok b, w.redis) ∧ R a w b := by
  obtain ⟨y, d⟩ := y
  obtain ⟨h1, h2⟩ := h
  cases y with
  | error e' => exact h2.elim
  | ok b => cases h1; exact ⟨b, rfl, h2⟩

/-- **C64** The same for `remove`, with and without `remove_children`. -/
theorem C64_alone_remove (A : Adapter V) {sid : String} (hA : A.ref.store = .redis sid) (n : Nat) (r : Ref) (rc : Bool) (w : World V E) :
    Same (fun _ _ _ => True) (remove A n r rc w) ((pRemove A sid n (w.heap r).m rc).run w.redis) := by
  induction n generalizing r w with
  | zero => exact ⟨rfl, rfl⟩
  | succ n ih =>
    unfold remove pRemove
    rw [deref_bind', Proc.run_bind]
    have h1 : Same (fun _ _ _ => True) (removeOne A r w) ((pRemoveItem sid (w.heap r).m.type (w.heap r).m.uid).run w.redis) := by
      have h := same_removeItem A hA (w.heap r).m.type (w.heap r).m.uid w
      unfold removeOne
      rw [deref_bind']
      cases hx : removeItem A (w.heap r).m.type (w.heap r).m.uid w with
      | mk x w1 =>
        rw [hx] at h
        cases x with
        | error e => rw [M.bind_err hx]; exact h
        | ok a =>
          obtain ⟨b, hb, _⟩ := same_ok h
          rw [M.bind_ok hx, M.read_bind, hb]
          split <;> exact ⟨rfl, trivial⟩
    cases hx : removeOne A r w with
    | mk x w1 =>
      rw [hx] at h1
      cases x with
      | error e =>
        rw [M.bind_err hx, same_error h1]
        exact ⟨rfl, rfl⟩
      | ok a =>
        obtain ⟨b, hb, _⟩ := same_ok h1
        rw [M.bind_ok hx, hb]
        dsimp only
        cases rc with
        | false => exact ⟨rfl, trivial⟩
        | true =>
          simp only [if_true]
          generalize childRefs (w.heap r).m = cs
          clear hx h1 hb
          induction cs generalizing w1 with
          | nil => exact ⟨rfl, trivial⟩
          | cons c cs ihc =>
            rw [M.forEach_cons]
            unfold Proc.forEach
            rw [Proc.run_bind]
            have hc : Same (fun _ _ _ => True)
                (M.tryCatch (do let k ← getRaw A c.1 c.2; remove A n k true) Err.isNotFound (fun _ => M.emit (.childNotFound c.1 c.2 (w.heap r).m.type (w.heap r).m.uid)) w1)
                ((Proc.tryCatch (Proc.bind (pGet A sid c.1 c.2) (fun o => pRemove A sid n o.m true)) Err.isNotFound (fun _ => .ret (.ok ()))).run w1.redis) := by
              have hb : Same (fun _ _ _ => True) ((do let k ← getRaw A c.1 c.2; remove A n k true : M V E Unit) w1)
                  ((Proc.bind (pGet A sid c.1 c.2) (fun o => pRemove A sid n o.m true)).run w1.redis) := by
                rw [Proc.run_bind]
                have hl := same_load A (redisKey sid c.1 c.2) w1
                have e : getRaw A c.1 c.2 w1 = redisLoad A (redisKey sid c.1 c.2) w1 := by unfold getRaw; rw [hA]
                rw [← e] at hl
                cases hx : getRaw A c.1 c.2 w1 with
                | mk x w2 =>
                  rw [hx] at hl
                  cases x with
                  | error e =>
                    rw [M.bind_err hx]
                    unfold pGet
                    rw [same_error hl]
                    exact ⟨rfl, rfl⟩
                  | ok k =>
                    obtain ⟨o, ho, h2, _⟩ := same_ok hl
                    rw [M.bind_ok hx]
                    unfold pGet
                    rw [ho]
                    have := ih k w2
                    rw [h2] at this
                    exact this
              rw [Proc.run_tryCatch]
              unfold M.tryCatch
              cases hx : (do let k ← getRaw A c.1 c.2; remove A n k true : M V E Unit) w1 with
              | mk x w2 =>
                rw [hx] at hb
                cases x with
                | error e =>
                  rw [same_error hb]
                  dsimp only
                  cases e.isNotFound with
                  | true => exact ⟨rfl, trivial⟩
                  | false => exact ⟨rfl, rfl⟩
                | ok a =>
                  obtain ⟨b, hb, _⟩ := same_ok hb
                  rw [hb]
                  exact ⟨rfl, trivial⟩
            cases hx : M.tryCatch (do let k ← getRaw A c.1 c.2; remove A n k true) Err.isNotFound (fun _ => M.emit (.childNotFound c.1 c.2 (w.heap r).m.type (w.heap r).m.uid)) w1 with
            | mk x w2 =>
              rw [hx] at hc
              cases x with
              | error e =>
                rw [M.bind_err hx, same_error hc]
                exact ⟨rfl, rfl⟩
              | ok a =>
                obtain ⟨b, hb, _⟩ := same_ok hc
                rw [M.bind_ok hx, hb]
                exact ihc w2

end DS
