import Verif.Lemmas.SyncBase
import Verif.Spec.Sync
/-! Bookkeeping in the destination store after `sync_model`. -/
set_option linter.unusedSectionVars false

namespace DS
variable {V E α β : Type} [PyVal V]

/-- Only warnings about children that were not found. -/
def ChildWarn (evs : List (Event V)) : Prop := ∀ ev ∈ evs, ∃ a b c d, ev = .childNotFound a b c d

/-- Some entries of the store `sid` have been removed, all of them among `G`. -/
structure Removed (sid : Nat) (G : Key → Prop) (w w' : World V E) : Prop where
  regs : Regs w w'
  env_eq : w'.env = w.env
  trace : ∃ evs, w'.trace = w.trace ++ evs ∧ ChildWarn evs
  next_eq : w'.next = w.next
  redis_eq : w'.redis = w.redis
  heap_m : ∀ r, (w'.heap r).m = (w.heap r).m
  others : ∀ s t, s ≠ sid → tbl w' s t = tbl w s t
  loc_wf : ∀ s, Dict.WF (w.loc s) → Dict.WF (w'.loc s)
  tbl_wf : ∀ t, Dict.WF (tbl w sid t) → Dict.WF (tbl w' sid t)
  mine : ∀ t u, findRef w' sid t u = findRef w sid t u ∨ (findRef w' sid t u = none ∧ G (t, u))

theorem Removed.refl {sid : Nat} {G : Key → Prop} (w : World V E) : Removed sid G w w :=
  ⟨Regs.refl _, rfl, ⟨[], by simp, fun _ h => by cases h⟩, rfl, rfl, fun _ => rfl, fun _ _ _ => rfl, fun _ h => h, fun _ h => h, fun _ _ => .inl rfl⟩

theorem Removed.trans {sid : Nat} {G : Key → Prop} {a b c : World V E} (h1 : Removed sid G a b) (h2 : Removed sid G b c) : Removed sid G a c where
  regs := h1.regs.trans h2.regs
  env_eq := h2.env_eq.trans h1.env_eq
  trace := by
    obtain ⟨e1, t1, c1⟩ := h1.trace
    obtain ⟨e2, t2, c2⟩ := h2.trace
    refine ⟨e1 ++ e2, by rw [t2, t1, List.append_assoc], fun ev h => ?_⟩
    rcases List.mem_append.1 h with h | h
    · exact c1 ev h
    · exact c2 ev h
  next_eq := h2.next_eq.trans h1.next_eq
  redis_eq := h2.redis_eq.trans h1.redis_eq
  heap_m r := (h2.heap_m r).trans (h1.heap_m r)
  others s t hs := (h2.others s t hs).trans (h1.others s t hs)
  loc_wf s h := h2.loc_wf s (h1.loc_wf s h)
  tbl_wf t h := h2.tbl_wf t (h1.tbl_wf t h)
  mine t u := by
    rcases h2.mine t u with h | h
    · rw [h]; exact h1.mine t u
    · exact .inr h

theorem Removed.ok {sid : Nat} {G : Key → Prop} {w w' : World V E} (h : Removed sid G w w') (hw : w.OK) : w'.OK where
  loc_wf s := h.loc_wf s (hw.loc_wf s)
  tbl_wf s t := by
    by_cases hs : s = sid
    · subst hs; exact h.tbl_wf t (hw.tbl_wf s t)
    · rw [h.others s t hs]; exact hw.tbl_wf s t
  refs_lt s t u r hr := by
    rw [h.next_eq]
    by_cases hs : s = sid
    · subst hs
      rcases h.mine t u with h' | h'
      · rw [h'] at hr; exact hw.refs_lt _ _ _ _ hr
      · rw [h'.1] at hr; cases hr
    · unfold findRef at hr; rw [h.others s t hs] at hr; exact hw.refs_lt _ _ _ _ hr
  key_ok s t u r hr := by
    rw [h.heap_m]
    by_cases hs : s = sid
    · subst hs
      rcases h.mine t u with h' | h'
      · rw [h'] at hr; exact hw.key_ok _ _ _ _ hr
      · rw [h'.1] at hr; cases hr
    · unfold findRef at hr; rw [h.others s t hs] at hr; exact hw.key_ok _ _ _ _ hr

theorem removed_of_erase {sid : Nat} {G : Key → Prop} {w w' : World V E} (f : Frame w w') {x u : String} (t : TblErase sid x u w w')
    (hG : G (x, u)) : Removed sid G w w' where
  regs := f.quiet.regs
  env_eq := f.env_eq
  trace := ⟨[], by simp [f.trace_eq], fun _ h => by cases h⟩
  next_eq := f.next_eq
  redis_eq := f.redis_eq
  heap_m := f.heap_m
  others s x' hs := by rw [t, if_neg (fun hc => hs hc.1)]
  loc_wf := f.loc_wf
  tbl_wf x' h := by
    rw [t]; split
    · rename_i hc; rw [hc.2] at h; exact Dict.wf_erase h _
    · exact h
  mine x' u' := by
    rw [t.findRef]
    split
    · rename_i hc; exact .inr ⟨rfl, by rw [hc.2.1, hc.2.2]; exact hG⟩
    · exact .inl rfl

section
variable {A : Adapter V} {sid : Nat} (hA : A.ref.store = .local sid)
include hA

theorem getRaw_local (t u : String) (w : World V E) :
    ∃ w', getRaw A t u w = ((match findRef w sid t u with | some r => .ok r | none => .error .objectNotFound), w') ∧ Frame w w' ∧ TblSame w w' := by
  refine ⟨w.setLoc sid (touch (w.loc sid) t), ?_, Frame.setLoc _ _ _ (fun h => wf_touch h _), tbl_setLoc_touch _ _ _⟩
  unfold getRaw
  simp only [hA]
  rw [M.bind_ok (localModel_eq sid t w)]
  show M.ofOption .objectNotFound (findRef w sid t u) _ = _
  cases findRef w sid t u <;> rfl

omit hA in
theorem removed_of_same {G : Key → Prop} {w w' : World V E} (f : Frame w w') (t : TblSame w w') : Removed sid G w w' where
  regs := f.quiet.regs
  env_eq := f.env_eq
  trace := ⟨[], by simp [f.trace_eq], fun _ h => by cases h⟩
  next_eq := f.next_eq
  redis_eq := f.redis_eq
  heap_m := f.heap_m
  others s x' hs := t s x'
  loc_wf := f.loc_wf
  tbl_wf x' h := by rw [t]; exact h
  mine x' u' := .inl (t.findRef _ _ _)

/-- Removal, whatever the recursion limit: only what is reachable goes, and failures are not CRUD exceptions. -/
theorem remove_removed (G : Key → Prop) (b : Bool) (n : Nat) : ∀ (r : Ref) (w : World V E), G (w.heap r).m.key →
    (b = true → ∀ c ∈ childRefs (w.heap r).m, G c) → (b = true → ∀ t u r', G (t, u) → findRef w sid t u = some r' → G (w.heap r').m.key ∧ ∀ c ∈ childRefs (w.heap r').m, G c) →
    Removed sid G w (remove A n r b w).2 ∧ (∀ e, (remove A n r b w).1 = .error e → e.isCrud = false) ∧
    ((remove A n r b w).1 = .ok () → findRef w sid (w.heap r).m.type (w.heap r).m.uid ≠ none ∧
      findRef (remove A n r b w).2 sid (w.heap r).m.type (w.heap r).m.uid = none) := by
  induction n with
  | zero =>
    intro r w _ _ _
    exact ⟨Removed.refl _, fun e he => by cases he; rfl, fun h => by cases h⟩
  | succ n ih =>
    intro r w hG hGc hcl
    rw [remove, deref_bind]
    obtain ⟨w1, e1, f1, t1, _⟩ := removeOne_local hA r w
    have p1 : Removed sid G w w1 := removed_of_erase f1 t1 hG
    by_cases hs : (findRef w sid (w.heap r).m.type (w.heap r).m.uid).isSome = true
    · rw [if_pos hs] at e1
      rw [M.bind_ok e1]
      have hne : findRef w sid (w.heap r).m.type (w.heap r).m.uid ≠ none := by intro h; rw [h] at hs; cases hs
      have hz : findRef w1 sid (w.heap r).m.type (w.heap r).m.uid = none := by rw [t1.findRef, if_pos ⟨rfl, rfl, rfl⟩]
      cases b with
      | false =>
        simp only [Bool.false_eq_true, if_false]
        exact ⟨p1, (fun e he => by cases he), fun _ => ⟨hne, hz⟩⟩
      | true =>
        simp only [if_true]
        have loop : ∀ (cs : List (String × String)), (∀ c ∈ cs, G c) → ∀ w2 : World V E, Removed sid G w w2 →
            ∀ p, p = M.forEach (fun c => M.tryCatch
              (do let k ← getRaw A c.1 c.2
                  remove A n k true)
              Err.isNotFound
              (fun _ => M.emit (.childNotFound c.1 c.2 (w.heap r).m.type (w.heap r).m.uid))) cs w2 →
            Removed sid G w2 p.2 ∧ (∀ e, p.1 = .error e → e.isCrud = false) := by
          intro cs
          induction cs with
          | nil =>
            intro _ w2 _ p hp
            subst hp
            exact ⟨Removed.refl _, fun e he => by cases he⟩
          | cons c cs ihc =>
            intro hcs w2 hr2 p hp
            have step : ∀ q, q = M.tryCatch
                (do let k ← getRaw A c.1 c.2
                    remove A n k true)
                Err.isNotFound
                (fun _ => M.emit (.childNotFound c.1 c.2 (w.heap r).m.type (w.heap r).m.uid)) w2 →
                Removed sid G w2 q.2 ∧ (∀ e, q.1 = .error e → e.isCrud = false) := by
              intro q hq
              obtain ⟨w3, e3, f3, t3⟩ := getRaw_local hA c.1 c.2 w2
              have p3 : Removed sid G w2 w3 := removed_of_same f3 t3
              cases hf : findRef w2 sid c.1 c.2 with
              | none =>
                rw [hf] at e3
                unfold M.tryCatch at hq
                rw [M.bind_err e3] at hq
                subst hq
                refine ⟨p3.trans ⟨⟨rfl, rfl, rfl, rfl, rfl⟩, rfl, ⟨_, rfl, ?_⟩, rfl, rfl, fun _ => rfl, fun _ _ _ => rfl, fun _ h => h, fun _ h => h, fun _ _ => .inl rfl⟩, fun e he => by cases he⟩
                intro ev hev
                rw [List.mem_singleton] at hev
                exact ⟨_, _, _, _, hev⟩
              | some k =>
                rw [hf] at e3
                unfold M.tryCatch at hq
                rw [M.bind_ok e3] at hq
                have hk0 : findRef w sid c.1 c.2 = some k := by
                  rcases hr2.mine c.1 c.2 with h | h
                  · rw [← h]; exact hf
                  · rw [h.1] at hf; cases hf
                have hmk : (w3.heap k).m = (w.heap k).m := by rw [f3.heap_m, hr2.heap_m]
                obtain ⟨hkk, hkc⟩   := hcl rfl c.1 c.2 k (hcs c (by simp)) hk0
                obtain ⟨p4, e4, _⟩ := ih k w3 (by rw [hmk]; exact hkk) (by rw [hmk]; exact fun _ => hkc) (by
                  intro _ t u r' hg hr'
                  rw [f3.heap_m, hr2.heap_m]
                  rw [t3.findRef] at hr'
                  rcases hr2.mine t u with h | h
                  · rw [h] at hr'; exact hcl rfl t u r' hg hr'
                  · rw [h.1] at hr'; cases hr')
                generalize remove A n k true w3 = q4 at hq p4 e4
                obtain ⟨x4, w4⟩ := q4
                cases x4 with
                | ok _ => subst hq; exact ⟨p3.trans p4, fun e he => by cases he⟩
                | error e =>
                  simp only at hq
                  by_cases hnf : e.isNotFound = true
                  · rw [if_pos hnf] at hq
                    subst hq
                    refine ⟨(p3.trans p4).trans ⟨⟨rfl, rfl, rfl, rfl, rfl⟩, rfl, ⟨_, rfl, ?_⟩, rfl, rfl, fun _ => rfl, fun _ _ _ => rfl, fun _ h => h, fun _ h => h, fun _ _ => .inl rfl⟩, fun e he => by cases he⟩
                    intro ev hev
                    rw [List.mem_singleton] at hev
                    exact ⟨_, _, _, _, hev⟩
                  · rw [if_neg hnf] at hq
                    subst hq
                    exact ⟨p3.trans p4, fun e' he' => by cases he'; exact e4 _ rfl⟩
            rw [M.forEach_cons, M.bind_def] at hp
            obtain ⟨s3, e3⟩ := step _ rfl
            generalize hq : M.tryCatch
                (do let k ← getRaw A c.1 c.2
                    remove A n k true)
                Err.isNotFound
                (fun _ => M.emit (.childNotFound c.1 c.2 (w.heap r).m.type (w.heap r).m.uid)) w2 = q at hp s3 e3
            obtain ⟨x3, w3⟩ := q
            cases x3 with
            | error e => subst hp; exact ⟨s3, e3⟩
            | ok _ =>
              obtain ⟨s4, e4⟩ := ihc (fun x hx => hcs x (by simp [hx])) w3 (hr2.trans s3) p hp
              exact ⟨s3.trans s4, e4⟩
        obtain ⟨s3, e3⟩ := loop (childRefs (w.heap r).m) (hGc rfl) w1 p1 _ rfl
        refine ⟨p1.trans s3, e3, fun _ => ⟨hne, ?_⟩⟩
        rcases s3.mine (w.heap r).m.type (w.heap r).m.uid with h | h
        · rw [h, hz]
        · exact h.1
    · rw [if_neg hs] at e1
      rw [M.bind_err e1]
      exact ⟨p1, fun e he => by cases he; rfl, fun h => by cases h⟩
end

/-! ## removal from a Redis store -/

/-- Some keys of the Redis database have been removed, all of them among `G`. -/
structure RRemoved (G : String → Prop) (w w' : World V E) : Prop where
  regs : Regs w w'
  env_eq : w'.env = w.env
  trace : ∃ evs, w'.trace = w.trace ++ evs ∧ ChildWarn evs
  next_le : w.next ≤ w'.next
  loc_eq : w'.loc = w.loc
  heap_m : ∀ r, r < w.next → (w'.heap r).m = (w.heap r).m
  wf : Dict.WF w.redis → Dict.WF w'.redis
  mine : ∀ k, Dict.get? w'.redis k = Dict.get? w.redis k ∨ (Dict.get? w'.redis k = none ∧ G k)
  order : ∀ p : String → Bool, (∀ k, G k → p k = false) → (Dict.keys w'.redis).filter p = (Dict.keys w.redis).filter p

theorem RRemoved.refl {G : String → Prop} (w : World V E) : RRemoved G w w :=
  ⟨Regs.refl _, rfl, ⟨[], by simp, fun _ h => by cases h⟩, Nat.le_refl _, rfl, fun _ _ => rfl, fun h => h, fun _ => .inl rfl, fun _ _ => rfl⟩

theorem RRemoved.trans {G : String → Prop} {a b c : World V E} (h1 : RRemoved G a b) (h2 : RRemoved G b c) : RRemoved G a c where
  regs := h1.regs.trans h2.regs
  env_eq := h2.env_eq.trans h1.env_eq
  trace := by
    obtain ⟨e1, t1, c1⟩ := h1.trace
    obtain ⟨e2, t2, c2⟩ := h2.trace
    refine ⟨e1 ++ e2, by rw [t2, t1, List.append_assoc], fun ev h => ?_⟩
    rcases List.mem_append.1 h with h | h
    · exact c1 ev h
    · exact c2 ev h
  next_le := Nat.le_trans h1.next_le h2.next_le
  loc_eq := h2.loc_eq.trans h1.loc_eq
  heap_m r hr := (h2.heap_m r (Nat.lt_of_lt_of_le hr h1.next_le)).trans (h1.heap_m r hr)
  wf h := h2.wf (h1.wf h)
  mine k := by
    rcases h2.mine k with h | h
    · rw [h]; exact h1.mine k
    · exact .inr h
  order p hp := (h2.order p hp).trans (h1.order p hp)

theorem RRemoved.sub {G : String → Prop} {w w' : World V E} (h : RRemoved G w w') {k : String} {o : Obj V} (hk : Dict.get? w'.redis k = some o) :
    Dict.get? w.redis k = some o := by
  rcases h.mine k with h' | h'
  · rw [← h']; exact hk
  · rw [h'.1] at hk; cases hk

theorem rremoved_warn {G : String → Prop} (w : World V E) (a b c d : String) : RRemoved G w { w with trace := w.trace ++ [.childNotFound a b c d] } :=
  ⟨⟨rfl, rfl, rfl, rfl, rfl⟩, rfl, ⟨_, rfl, fun ev hev => by rw [List.mem_singleton] at hev; exact ⟨_, _, _, _, hev⟩⟩, Nat.le_refl _, rfl, fun _ _ => rfl,
   fun h => h, fun _ => .inl rfl, fun _ _ => rfl⟩

section
variable {A : Adapter V} {sid : String} (hA : A.ref.store = .redis sid)
include hA

/-- Reading from a Redis store: a fresh copy of what is stored. -/
theorem getRaw_redis (t u : String) (w : World V E) : match Dict.get? w.redis (redisKey sid t u) with
    | none => getRaw A t u w = (.error .objectNotFound, w)
    | some o => getRaw A t u w = (.ok w.next, (alloc { o with adapter := some A.ref } w).2) := by
  unfold getRaw redisLoad
  simp only [hA]
  cases Dict.get? w.redis (redisKey sid t u) with
  | none => rfl
  | some o => rfl

omit hA in
theorem alloc_rremoved {G : String → Prop} (o : Obj V) (w : World V E) : RRemoved G w (alloc o w).2 ∧ ((alloc o w).2.heap w.next) = o ∧ (alloc o w).2.next = w.next + 1 := by
  refine ⟨⟨⟨rfl, rfl, rfl, rfl, rfl⟩, rfl, ⟨[], by simp [alloc, World.setObj], fun _ h => by cases h⟩, Nat.le_succ _, rfl, fun r hr => ?_, fun h => h, fun _ => .inl rfl, fun _ _ => rfl⟩, ?_, rfl⟩
  · simp only [alloc, World.setObj]; rw [if_neg (Nat.ne_of_lt hr)]
  · simp [alloc, World.setObj]

theorem removeOne_redis {G : String → Prop} (r : Ref) (w : World V E) (hG : G (redisKey sid (w.heap r).m.type (w.heap r).m.uid)) :
    ∃ w', removeOne A r w = (if (Dict.get? w.redis (redisKey sid (w.heap r).m.type (w.heap r).m.uid)).isSome then .ok () else .error .objectNotFound, w') ∧
      RRemoved G w w' ∧ (∀ r, (w'.heap r).m = (w.heap r).m) ∧ Dict.get? w'.redis (redisKey sid (w.heap r).m.type (w.heap r).m.uid) = none := by
  generalize hk : redisKey sid (w.heap r).m.type (w.heap r).m.uid = key at hG ⊢
  unfold removeOne removeItem
  rw [deref_bind]
  simp only [hA]
  rw [M.bind_assoc', M.read_bind]
  cases hf : Dict.get? w.redis key with
  | none =>
    have hh : Dict.has w.redis key = false := by unfold Dict.has; rw [hf]; rfl
    simp only [hk, hh, Bool.false_eq_true, if_false]
    exact ⟨w, rfl, RRemoved.refl _, fun _ => rfl, hf⟩
  | some o =>
    have hh : Dict.has w.redis key = true := by unfold Dict.has; rw [hf]; rfl
    simp only [hk, hh, if_true]
    rw [M.modify_bind, M.read_bind]
    have hrm : RRemoved G w { w with redis := Dict.erase w.redis key } :=
      ⟨⟨rfl, rfl, rfl, rfl, rfl⟩, rfl, ⟨[], by simp, fun _ h => by cases h⟩, Nat.le_refl _, rfl, fun _ _ => rfl, fun h => Dict.wf_erase h _, fun k => by
        simp only [Dict.get?_erase]
        split
        · rename_i h; exact .inr ⟨rfl, by rw [← h]; exact hG⟩
        · exact .inl rfl,
        fun p hp => by
          show (Dict.keys (Dict.erase _ _)).filter p = _
          rw [Dict.keys_erase, List.filter_filter]
          refine List.filter_congr fun k _ => ?_
          by_cases h : k = key
          · rw [h, hp _ hG]; rfl
          · simp [h]⟩
    have hz : Dict.get? (Dict.erase w.redis key) key = none := by rw [Dict.get?_erase, if_pos rfl]
    split
    · have hm : ∀ r', ((({ w with redis := Dict.erase w.redis key } : World V E).setObj r { w.heap r with adapter := none }).heap r').m = (w.heap r').m := by
        intro r'
        simp only [World.setObj]
        split
        · rename_i h; rw [h]
        · rfl
      exact ⟨_, rfl, hrm.trans ⟨⟨rfl, rfl, rfl, rfl, rfl⟩, rfl, ⟨[], by simp [World.setObj], fun _ h => by cases h⟩, Nat.le_refl _, rfl, fun r' _ => hm r', fun h => h, fun _ => .inl rfl, fun _ _ => rfl⟩, hm, hz⟩
    · exact ⟨_, rfl, hrm, fun _ => rfl, hz⟩

/-- Removal from a Redis store, whatever the recursion limit: only what is reachable goes, and failures are not CRUD exceptions. -/
theorem rremove_removed (G : String → Prop) (b : Bool) (n : Nat) : ∀ (r : Ref) (w : World V E), r < w.next → G (redisKey sid (w.heap r).m.type (w.heap r).m.uid) →
    (b = true → ∀ c ∈ childRefs (w.heap r).m, G (redisKey sid c.1 c.2)) →
    (b = true → ∀ t u o, G (redisKey sid t u) → Dict.get? w.redis (redisKey sid t u) = some o →
      G (redisKey sid o.m.type o.m.uid) ∧ ∀ c ∈ childRefs o.m, G (redisKey sid c.1 c.2)) →
    RRemoved G w (remove A n r b w).2 ∧ (∀ e, (remove A n r b w).1 = .error e → e.isCrud = false) ∧
    ((remove A n r b w).1 = .ok () → Dict.get? w.redis (redisKey sid (w.heap r).m.type (w.heap r).m.uid) ≠ none ∧
      Dict.get? (remove A n r b w).2.redis (redisKey sid (w.heap r).m.type (w.heap r).m.uid) = none) := by
  induction n with
  | zero =>
    intro r w _ _ _ _
    exact ⟨RRemoved.refl _, fun e he => by cases he; rfl, fun h => by cases h⟩
  | succ n ih =>
    intro r w hlt hG hGc hcl
    rw [remove, deref_bind]
    obtain ⟨w1, e1, p1, m1, hz⟩ := removeOne_redis hA (G := G) r w hG
    by_cases hs : (Dict.get? w.redis (redisKey sid (w.heap r).m.type (w.heap r).m.uid)).isSome = true
    · rw [if_pos hs] at e1
      rw [M.bind_ok e1]
      have hne : Dict.get? w.redis (redisKey sid (w.heap r).m.type (w.heap r).m.uid) ≠ none := by intro h; rw [h] at hs; cases hs
      cases b with
      | false =>
        simp only [Bool.false_eq_true, if_false]
        exact ⟨p1, (fun e he => by cases he), fun _ => ⟨hne, hz⟩⟩
      | true =>
        simp only [if_true]
        have loop : ∀ (cs : List (String × String)), (∀ c ∈ cs, G (redisKey sid c.1 c.2)) → ∀ w2 : World V E, RRemoved G w w2 →
            ∀ p, p = M.forEach (fun c => M.tryCatch
              (do let k ← getRaw A c.1 c.2
                  remove A n k true)
              Err.isNotFound
              (fun _ => M.emit (.childNotFound c.1 c.2 (w.heap r).m.type (w.heap r).m.uid))) cs w2 →
            RRemoved G w2 p.2 ∧ (∀ e, p.1 = .error e → e.isCrud = false) := by
          intro cs
          induction cs with
          | nil =>
            intro _ w2 _ p hp
            subst hp
            exact ⟨RRemoved.refl _, fun e he => by cases he⟩
          | cons c cs ihc =>
            intro hcs w2 hr2 p hp
            have step : ∀ q, q = M.tryCatch
                (do let k ← getRaw A c.1 c.2
                    remove A n k true)
                Err.isNotFound
                (fun _ => M.emit (.childNotFound c.1 c.2 (w.heap r).m.type (w.heap r).m.uid)) w2 →
                RRemoved G w2 q.2 ∧ (∀ e, q.1 = .error e → e.isCrud = false) := by
              intro q hq
              have e3 := getRaw_redis hA c.1 c.2 w2
              cases hf : Dict.get? w2.redis (redisKey sid c.1 c.2) with
              | none =>
                rw [hf] at e3
                unfold M.tryCatch at hq
                rw [M.bind_err e3] at hq
                subst hq
                exact ⟨rremoved_warn _ _ _ _ _, fun e he => by cases he⟩
              | some o =>
                rw [hf] at e3
                dsimp only at e3
                obtain ⟨p3, h3, n3⟩ := alloc_rremoved (G := G) { o with adapter := some A.ref } w2
                generalize hw3 : (alloc { o with adapter := some A.ref } w2).2 = w3 at e3 p3 h3 n3
                have hred : w3.redis = w2.redis := by rw [← hw3]; rfl
                unfold M.tryCatch at hq
                rw [M.bind_ok e3] at hq
                have hk0 := hr2.sub hf
                have hmk : (w3.heap w2.next).m = o.m := by rw [h3]
                obtain ⟨hkk, hkc⟩ := hcl rfl c.1 c.2 o (hcs c (by simp)) hk0
                obtain ⟨p4, e4, _⟩ := ih w2.next w3 (by rw [n3]; exact Nat.lt_succ_self _) (by rw [hmk]; exact hkk) (by rw [hmk]; exact fun _ => hkc) (by
                  intro _ t u o' hg ho'
                  rw [hred] at ho'
                  exact hcl rfl t u o' hg (hr2.sub ho'))
                generalize remove A n w2.next true w3 = q4 at hq p4 e4
                obtain ⟨x4, w4⟩ := q4
                cases x4 with
                | ok _ => subst hq; exact ⟨p3.trans p4, fun e he => by cases he⟩
                | error e =>
                  simp only at hq
                  by_cases hnf : e.isNotFound = true
                  · rw [if_pos hnf] at hq
                    subst hq
                    exact ⟨(p3.trans p4).trans (rremoved_warn _ _ _ _ _), fun e he => by cases he⟩
                  · rw [if_neg hnf] at hq
                    subst hq
                    exact ⟨p3.trans p4, fun e' he' => by cases he'; exact e4 _ rfl⟩
            rw [M.forEach_cons, M.bind_def] at hp
            obtain ⟨s3, e3⟩ := step _ rfl
            generalize hq : M.tryCatch
                (do let k ← getRaw A c.1 c.2
                    remove A n k true)
                Err.isNotFound
                (fun _ => M.emit (.childNotFound c.1 c.2 (w.heap r).m.type (w.heap r).m.uid)) w2 = q at hp s3 e3
            obtain ⟨x3, w3⟩ := q
            cases x3 with
            | error e => subst hp; exact ⟨s3, e3⟩
            | ok _ =>
              obtain ⟨s4, e4⟩ := ihc (fun x hx => hcs x (by simp [hx])) w3 (hr2.trans s3) p hp
              exact ⟨s3.trans s4, e4⟩
        obtain ⟨s3, e3⟩ := loop (childRefs (w.heap r).m) (hGc rfl) w1 p1 _ rfl
        refine ⟨p1.trans s3, e3, fun _ => ⟨hne, ?_⟩⟩
        rcases s3.mine (redisKey sid (w.heap r).m.type (w.heap r).m.uid) with h | h
        · rw [h, hz]
        · exact h.1
    · rw [if_neg hs] at e1
      rw [M.bind_err e1]
      exact ⟨p1, fun e he => by cases he; rfl, fun h => by cases h⟩

/-- `add` to a Redis store. -/
theorem add_redis (r : Ref) (w : World V E) :
    add A r w = match Dict.get? w.redis (redisKey sid (w.heap r).m.type (w.heap r).m.uid) with
      | some o => (if o.m.dictEq (w.heap r).m then .ok () else .error .objectAlreadyExists, w)
      | none => (.ok (), { w with redis := Dict.set w.redis (redisKey sid (w.heap r).m.type (w.heap r).m.uid) { w.heap r with adapter := none } }) := by
  unfold add
  rw [deref_bind]
  simp only [hA]
  rw [M.read_bind]
  cases Dict.get? w.redis (redisKey sid (w.heap r).m.type (w.heap r).m.uid) with
  | none => rfl
  | some o =>
    simp only
    split <;> rfl
end

/-! ## child lists -/

theorem addChildRef_eq (p r : Ref) (w : World V E) :
    addChildRef p r w = match (w.heap p).m.addChild (w.heap r).m.type (w.heap r).m.uid with
      | .ok m => (.ok (), w.setObj p { w.heap p with m := m })
      | .error e => (.error e, w) := by
  unfold addChildRef
  rw [deref_bind, deref_bind]
  generalize (w.heap p).m.addChild (w.heap r).m.type (w.heap r).m.uid = x
  cases x <;> rfl

theorem removeChildRef_eq (p r : Ref) (w : World V E) :
    removeChildRef p r w = match (w.heap p).m.removeChild (w.heap r).m.type (w.heap r).m.uid with
      | .ok m => (.ok (), w.setObj p { w.heap p with m := m })
      | .error e => (.error e, w) := by
  unfold removeChildRef
  rw [deref_bind, deref_bind]
  generalize (w.heap p).m.removeChild (w.heap r).m.type (w.heap r).m.uid = x
  cases x <;> rfl

theorem addChild_notCrud {m : Model V} {t u : String} {e : Err} (h : m.addChild t u = .error e) : e.isCrud = false := by
  unfold Model.addChild at h
  split at h
  · cases h; rfl
  · split at h
    · cases h; rfl
    · split at h
      · cases h; rfl
      · cases h

theorem removeChild_notCrud {m : Model V} {t u : String} {e : Err} (h : m.removeChild t u = .error e) : e.isCrud = false := by
  unfold Model.removeChild at h
  split at h
  · cases h; rfl
  · split at h
    · cases h; rfl
    · split at h
      · cases h
      · cases h; rfl

/-- A change of child lists only. -/
structure KidsOnly (m m' : Model V) : Prop where
  cls_eq : m'.cls = m.cls
  vals_eq : m'.vals = m.vals
  flags_eq : m'.flags = m.flags

theorem addChild_kidsOnly {m m' : Model V} {t u : String} (h : m.addChild t u = .ok m') : KidsOnly m m' := by
  unfold Model.addChild at h
  split at h
  · cases h
  · split at h
    · cases h
    · split at h
      · cases h
      · cases h; exact ⟨rfl, rfl, rfl⟩

theorem removeChild_kidsOnly {m m' : Model V} {t u : String} (h : m.removeChild t u = .ok m') : KidsOnly m m' := by
  unfold Model.removeChild at h
  split at h
  · cases h
  · split at h
    · cases h
    · split at h
      · cases h; exact ⟨rfl, rfl, rfl⟩
      · cases h

theorem KidsOnly.key_eq {m m' : Model V} (h : KidsOnly m m') : m'.key = m.key := by
  unfold Model.key Model.type Model.uid Model.strField
  rw [h.cls_eq, h.vals_eq]
theorem KidsOnly.type_eq {m m' : Model V} (h : KidsOnly m m') : m'.type = m.type := congrArg Prod.fst h.key_eq
theorem KidsOnly.uid_eq {m m' : Model V} (h : KidsOnly m m') : m'.uid = m.uid := congrArg Prod.snd h.key_eq

end DS
