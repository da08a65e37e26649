import Verif.Spec.Crash
import Verif.Props.RedisSeq
import Verif.Props.StoreSame
import Verif.Lemmas.SyncFrame
/-! # C67: clients of a Redis store that are killed -/
set_option linter.unusedSectionVars false

namespace DS
variable {V α β : Type} [PyVal V]

/-! ## steps of composed clients -/

theorem solo_ret {r : Except Err α} {d : Dict (Obj V)} {x : Proc V α × Dict (Obj V)} (h : Solo (.ret r, d) x) : x = (.ret r, d) := by
  cases h; rfl

theorem solo_bind {p : Proc V α} {k : α → Proc V β} {d d' : Dict (Obj V)} {q : Proc V β} (h : Solo (p.bind k, d) (q, d')) :
    (∃ p', Solo (p, d) (p', d') ∧ q = p'.bind k) ∨ ∃ a d1, Solo (p, d) (.ret (.ok a), d1) ∧ Solo (k a, d1) (q, d') := by
  induction p generalizing d with
  | ret r =>
    cases r with
    | ok a => exact .inr ⟨a, d, .done _, h⟩
    | error e =>
      have := solo_ret h
      cases this
      exact .inl ⟨_, .done _, rfl⟩
  | cmd c f ih =>
    cases h with
    | done => exact .inl ⟨_, .done _, rfl⟩
    | cmd hc h =>
      rcases ih _ h with ⟨p', h1, h2⟩ | ⟨a, d1, h1, h2⟩
      · exact .inl ⟨p', .cmd hc h1, h2⟩
      · exact .inr ⟨a, d1, .cmd hc h1, h2⟩
    | scan ks hk h =>
      rcases ih _ h with ⟨p', h1, h2⟩ | ⟨a, d1, h1, h2⟩
      · exact .inl ⟨p', .scan ks hk h1, h2⟩
      · exact .inr ⟨a, d1, .scan ks hk h1, h2⟩

theorem solo_tryCatch {p : Proc V α} {sel : Err → Bool} {g : Err → Proc V α} {d d' : Dict (Obj V)} {q : Proc V α} (h : Solo (p.tryCatch sel g, d) (q, d')) :
    (∃ p', Solo (p, d) (p', d')) ∨ ∃ e d1, Solo (p, d) (.ret (.error e), d1) ∧ Solo (g e, d1) (q, d') := by
  induction p generalizing d with
  | ret r =>
    cases r with
    | ok a =>
      cases solo_ret h
      exact .inl ⟨_, .done _⟩
    | error e =>
      unfold Proc.tryCatch at h
      split at h
      · exact .inr ⟨e, d, .done _, h⟩
      · cases solo_ret h
        exact .inl ⟨_, .done _⟩
  | cmd c f ih =>
    cases h with
    | done => exact .inl ⟨_, .done _⟩
    | cmd hc h =>
      rcases ih _ h with ⟨p', h1⟩ | ⟨a, d1, h1, h2⟩
      · exact .inl ⟨p', .cmd hc h1⟩
      · exact .inr ⟨a, d1, .cmd hc h1, h2⟩
    | scan ks hk h =>
      rcases ih _ h with ⟨p', h1⟩ | ⟨a, d1, h1, h2⟩
      · exact .inl ⟨p', .scan ks hk h1⟩
      · exact .inr ⟨a, d1, .scan ks hk h1, h2⟩

/-! ## reads -/

theorem exec_readOnly {c : Cmd V} (h : c.ReadOnly) (d : Dict (Obj V)) : (c.exec d).2 = d := by
  cases c <;> first | rfl | exact h.elim

theorem solo_readOnly {p : Proc V α} (hp : Sends Cmd.ReadOnly p) : ∀ {d d' : Dict (Obj V)} {q : Proc V α}, Solo (p, d) (q, d') → d' = d := by
  induction hp with
  | ret r => intro d d' q h; cases solo_ret h; rfl
  | @cmd c k hc hk ih =>
    intro d d' q h
    cases h with
    | done => rfl
    | cmd hs h =>
      have := ih (c.exec d).1 (by cases c <;> first | trivial | exact (hs trivial).elim) h
      rw [this, exec_readOnly hc]
    | scan ks hks h => exact ih ks (fun key hm => ((hks key).1 hm).2) h

theorem sends_mapEach {P : Cmd V → Prop} {γ : Type} {f : γ → Proc V α} (hb : ∀ x, Sends P (f x)) : ∀ l, Sends P (Proc.mapEach f l)
  | [] => .ret _
  | x :: xs => by
    have bind : ∀ {α β : Type} {p : Proc V α} {k : α → Proc V β}, Sends P p → (∀ a, Sends P (k a)) → Sends P (p.bind k) := by
      intro α β p k hp hk
      induction hp with
      | ret r => cases r <;> first | exact hk _ | exact .ret _
      | cmd h _ ih => exact .cmd h ih
    unfold Proc.mapEach
    exact bind (hb x) (fun _ => bind (sends_mapEach hb xs) (fun _ => .ret _))

theorem readOnly_load (A : Adapter V) (key : String) : Sends Cmd.ReadOnly (pLoad A key) :=
  .cmd trivial (fun o? _ => by cases o? <;> exact .ret _)

/-- **C67** Whenever a client is killed during `get`, `get_all`, `get_by_uids`, `count` or `get_all_model_names`, the server's contents are as before. -/
theorem C67_reads (A : Adapter V) (sid : String) (d d' : Dict (Obj V)) :
    (∀ t u, KilledLeaves (pGet A sid t u) d d' → d' = d) ∧
    (∀ t, KilledLeaves (pGetAll A sid t) d d' → d' = d) ∧
    (∀ t us, KilledLeaves (pGetByUids A sid us t) d d' → d' = d) ∧
    (∀ a : Option (ModelArg V), KilledLeaves (pCount sid a) d d' → d' = d) ∧
    (KilledLeaves (pModelNames sid : Proc V (List String)) d d' → d' = d) := by
  refine ⟨fun t u ⟨q, h⟩ => solo_readOnly (readOnly_load A _) h,
    fun t ⟨q, h⟩ => solo_readOnly (p := pGetAll A sid t) (.cmd trivial (fun ks _ => sends_mapEach (fun k => readOnly_load A k) _)) h,
    fun t us ⟨q, h⟩ => solo_readOnly (p := pGetByUids A sid us t) (sends_mapEach (fun k => readOnly_load A _) _) h, ?_,
    fun ⟨q, h⟩ => solo_readOnly (p := pModelNames sid) (.cmd trivial (fun _ _ => .ret _)) h⟩
  rintro (_ | a) ⟨q, h⟩
  · exact solo_readOnly (p := pCount sid none) (.cmd trivial (fun _ _ => .ret _)) h
  · exact solo_readOnly (p := pCount sid (some a)) (.cmd trivial (fun _ _ => .ret _)) h

/-! ## single writes -/

/-- Killed at any time, the client leaves everything as it was, or has ended. -/
def AllOrNothing (p : Proc V α) : Prop := ∀ d q d', Solo (p, d) (q, d') → d' = d ∨ (q, d') = (.ret (p.run d).1, (p.run d).2)

theorem once_cmd {c : Cmd V} (hc : ¬ c.isScan) (hr : c.ReadOnly) {k : c.Reply → Proc V α} (hk : ∀ x, AllOrNothing (k x)) : AllOrNothing (.cmd c k) := by
  intro d q d' h
  cases h with
  | done => exact .inl rfl
  | cmd _ h =>
    have := hk _ _ _ _ h
    rw [exec_readOnly hr] at this
    rcases this with h1 | h1
    · exact .inl h1
    · refine .inr ?_
      rw [h1]
      simp only [Proc.run, exec_readOnly hr]
  | scan => exact (hc trivial).elim

theorem once_ret (r : Except Err α) : AllOrNothing (V := V) (.ret r) := by
  intro d q d' h
  cases solo_ret h
  exact .inl rfl

theorem once_last {c : Cmd V} (hc : ¬ c.isScan) {r : c.Reply → Except Err α} : AllOrNothing (.cmd c (fun x => .ret (r x))) := by
  intro d q d' h
  cases h with
  | done => exact .inl rfl
  | cmd _ h => exact .inr (solo_ret h)
  | scan => exact (hc trivial).elim

theorem once_add (sid : String) (o : Obj V) : AllOrNothing (pAdd sid o) := by
  unfold pAdd
  refine once_cmd id (show Cmd.ReadOnly (.get _) from trivial) (fun x => ?_)
  cases x with
  | none => exact once_last id
  | some o' => dsimp only; split <;> exact once_ret _

/-- **C67** Whenever a client is killed during `add` or `update` of an object or `remove` without children, the server's contents are as before, or the call
had ended and they are as after the call. -/
theorem C67_writes (A : Adapter V) (sid : String) (o : Obj V) (n : Nat) (m : Model V) :
    AllOrNothing (pAdd sid o) ∧ AllOrNothing (pUpdate sid o) ∧ AllOrNothing (pRemove A sid (n + 1) m false) := by
  refine ⟨once_add sid o, once_last id, ?_⟩
  show AllOrNothing (Proc.cmd (.exist _) _)
  refine once_cmd id (show Cmd.ReadOnly (.exist _) from trivial) (fun x => ?_)
  cases x with
  | true => exact once_last id
  | false => exact once_ret _

/-! ## removal with children -/

/-- What is left when the objects `l` have been taken. -/
def LeftOver (d : Dict (Obj V)) (sid : String) (l : List (Model V)) (d' : Dict (Obj V)) : Prop :=
  ∀ key, (key ∈ l.map (fun x => redisKey sid x.type x.uid) → Dict.get? d' key = none) ∧
    (key ∉ l.map (fun x => redisKey sid x.type x.uid) → Dict.get? d' key = Dict.get? d key)

theorem LeftOver.sub {d d' : Dict (Obj V)} {sid : String} {l : List (Model V)} (h : LeftOver d sid l d') {key : String} {o : Obj V}
    (ho : Dict.get? d' key = some o) : Dict.get? d key = some o := by
  by_cases hm : key ∈ l.map (fun x => redisKey sid x.type x.uid)
  · rw [(h key).1 hm] at ho; cases ho
  · rw [← (h key).2 hm]; exact ho

theorem LeftOver.take {d d' : Dict (Obj V)} {sid : String} {l : List (Model V)} (h : LeftOver d sid l d') (x : Model V) :
    LeftOver d sid (l ++ [x]) (Dict.erase d' (redisKey sid x.type x.uid)) := by
  intro key
  simp only [List.map_append, List.map_cons, List.map_nil, List.mem_append, List.mem_singleton]
  rw [Dict.get?_erase]
  constructor
  · rintro (hm | rfl)
    · split
      · rfl
      · exact (h key).1 hm
    · rw [if_pos rfl]
  · intro hn
    rw [if_neg (fun hk => hn (.inr hk.symm)), (h key).2 (fun hm => hn (.inl hm))]

theorem removal {A : Adapter V} {sid : String} {d0 : Dict (Obj V)} {m0 : Model V} : ∀ (n : Nat) {x : Model V} {rc : Bool} {l : List (Model V)} {d d' : Dict (Obj V)} {q : Proc V Unit},
    TakenFrom d0 sid m0 l → LeftOver d0 sid l d → TakenFrom d0 sid m0 (l ++ [x]) → Solo (pRemove A sid n x rc, d) (q, d') →
    ∃ l', TakenFrom d0 sid m0 (l ++ l') ∧ LeftOver d0 sid (l ++ l') d'
  | 0, x, rc, l, d, d', q, ht, hl, _, h => by
    cases solo_ret h
    exact ⟨[], by rwa [List.append_nil], by rwa [List.append_nil]⟩
  | n + 1, x, rc, l, d, d', q, ht, hl, hx, h => by
    unfold pRemove at h
    have item : ∀ {q1 : Proc V Unit} {d1 : Dict (Obj V)}, Solo (pRemoveItem sid x.type x.uid, d) (q1, d1) →
        d1 = d ∧ q1 ≠ .ret (.ok ()) ∨ d1 = Dict.erase d (redisKey sid x.type x.uid) := by
      intro q1 d1 h1
      cases h1 with
      | done => exact .inl ⟨rfl, nofun⟩
      | cmd _ h1 =>
        simp only [Cmd.exec] at h1
        cases hh : Dict.has d (redisKey sid x.type x.uid) with
        | false => rw [hh] at h1; cases solo_ret h1; exact .inl ⟨rfl, nofun⟩
        | true =>
          rw [hh] at h1
          cases h1 with
          | done => exact .inl ⟨rfl, nofun⟩
          | cmd _ h1 => cases solo_ret h1; exact .inr rfl
    have stay : ∃ l', TakenFrom d0 sid m0 (l ++ l') ∧ LeftOver d0 sid (l ++ l') d := ⟨[], by rwa [List.append_nil], by rwa [List.append_nil]⟩
    have one : ∃ l', TakenFrom d0 sid m0 (l ++ l') ∧ LeftOver d0 sid (l ++ l') (Dict.erase d (redisKey sid x.type x.uid)) := ⟨[x], hx, hl.take x⟩
    rcases solo_bind h with ⟨p', h1, _⟩ | ⟨_, d1, h1, h2⟩
    · rcases item h1 with ⟨rfl, _⟩ | rfl
      · exact stay
      · exact one
    · rcases item h1 with ⟨_, hn⟩ | rfl
      · exact (hn rfl).elim
      · cases rc with
        | false => cases solo_ret h2; exact one
        | true =>
          have loop : ∀ (cs : List (String × String)) {l2 : List (Model V)} {d2 : Dict (Obj V)} {q2 : Proc V Unit}, (∀ c ∈ cs, c ∈ childRefs x) → x ∈ l2 → TakenFrom d0 sid m0 l2 → LeftOver d0 sid l2 d2 →
              Solo (Proc.forEach (fun c => Proc.tryCatch (Proc.bind (pGet A sid c.1 c.2) (fun o => pRemove A sid n o.m true)) Err.isNotFound (fun _ => .ret (.ok ()))) cs, d2) (q2, d') →
              ∃ l', TakenFrom d0 sid m0 (l2 ++ l') ∧ LeftOver d0 sid (l2 ++ l') d' := by
            intro cs
            induction cs with
            | nil =>
              intro l2 d2 q2 _ _ ht2 hl2 h3
              cases solo_ret h3
              exact ⟨[], by rwa [List.append_nil], by rwa [List.append_nil]⟩
            | cons c cs ih =>
              intro l2 d2 q2 hcs hx2 ht2 hl2 h3
              have body : ∀ {q3 : Proc V Unit} {d3 : Dict (Obj V)}, Solo (Proc.bind (pGet A sid c.1 c.2) (fun o => pRemove A sid n o.m true), d2) (q3, d3) →
                  ∃ l', TakenFrom d0 sid m0 (l2 ++ l') ∧ LeftOver d0 sid (l2 ++ l') d3 := by
                intro q3 d3 h4
                rcases solo_bind h4 with ⟨p', h5, _⟩ | ⟨o, d4, h5, h6⟩
                · rw [solo_readOnly (readOnly_load A _) h5]
                  exact ⟨[], by rwa [List.append_nil], by rwa [List.append_nil]⟩
                · have hd := solo_readOnly (readOnly_load A _) h5
                  rw [hd] at h5 h6
                  unfold pGet pLoad at h5
                  cases h5 with
                  | cmd _ h5 =>
                    simp only [Cmd.exec] at h5
                    cases hg : Dict.get? d2 (redisKey sid c.1 c.2) with
                    | none => rw [hg] at h5; cases h5
                    | some o' =>
                      rw [hg] at h5
                      cases h5
                      obtain ⟨f, hf, ll, hk, hu⟩ := mem_childRefs_iff.1 (hcs c (List.mem_cons_self ..))
                      exact removal n ht2 hl2 (.next ht2 hx2 ⟨f, ll, hf, hk, hu⟩ (hl2.sub hg)) h6
              have tc : ∀ {q3 : Proc V Unit} {d3 : Dict (Obj V)}, Solo (Proc.tryCatch (Proc.bind (pGet A sid c.1 c.2) (fun o => pRemove A sid n o.m true)) Err.isNotFound (fun _ => .ret (.ok ())), d2) (q3, d3) →
                  ∃ l', TakenFrom d0 sid m0 (l2 ++ l') ∧ LeftOver d0 sid (l2 ++ l') d3 := by
                intro q3 d3 h4
                rcases solo_tryCatch h4 with ⟨p', h5⟩ | ⟨e, d4, h5, h6⟩
                · exact body h5
                · cases solo_ret h6
                  exact body h5
              unfold Proc.forEach at h3
              rcases solo_bind h3 with ⟨p', h4, _⟩ | ⟨_, d3, h4, h5⟩
              · exact tc h4
              · obtain ⟨l3, ht3, hl3⟩ := tc h4
                obtain ⟨l4, ht4, hl4⟩ := ih (fun c hc => hcs c (List.mem_cons_of_mem _ hc)) (List.mem_append_left _ hx2) ht3 hl3 h5
                exact ⟨l3 ++ l4, by rwa [← List.append_assoc], by rwa [← List.append_assoc]⟩
          obtain ⟨l', h3, h4⟩ := loop (childRefs x) (fun _ h => h) (List.mem_append_right l (List.mem_singleton.2 rfl)) hx (hl.take x) h2
          exact ⟨[x] ++ l', by rwa [← List.append_assoc], by rwa [← List.append_assoc]⟩

/-- **C67** Whenever a client is killed during `remove`, with children or without: the objects that are gone are the object itself and some that are below it, none
of them without one that lists it; everything else on the server is as before. -/
theorem C67_remove {A : Adapter V} {sid : String} {n : Nat} {m : Model V} {rc : Bool} {d d' : Dict (Obj V)} (h : KilledLeaves (pRemove A sid n m rc) d d') :
    ∃ l, TakenFrom d sid m l ∧
      ∀ key, (key ∈ l.map (fun x => redisKey sid x.type x.uid) → Dict.get? d' key = none) ∧
        (key ∉ l.map (fun x => redisKey sid x.type x.uid) → Dict.get? d' key = Dict.get? d key) := by
  obtain ⟨q, h⟩ := h
  obtain ⟨l, h1, h2⟩ := removal (l := []) n .none (fun key => ⟨(fun hm => by cases hm), fun _ => rfl⟩) .first h
  exact ⟨l, h1, h2⟩

/-! ## loading many objects -/

/-- `for obj in l: adapter.add(obj)`, /repo/diffsync/store/redis.py:154-184. -/
def pAddAll (sid : String) (l : List (Obj V)) : Proc V Unit := Proc.forEach (pAdd sid) l

theorem run_addAll_cons (sid : String) (o : Obj V) (l : List (Obj V)) (d : Dict (Obj V)) :
    (pAddAll sid (o :: l)).run d = match (pAdd sid o).run d with | (.ok _, d') => (pAddAll sid l).run d' | (.error e, d') => (.error e, d') := by
  show (Proc.bind (pAdd sid o) (fun _ => pAddAll sid l)).run d = _
  rw [Proc.run_bind]
  rcases (pAdd sid o).run d with ⟨r, d'⟩
  cases r <;> rfl

/-- The object, or one with the same data, is stored. -/
def HasIt (sid : String) (d : Dict (Obj V)) (o : Obj V) : Prop := ∃ x, Dict.get? d (redisKey sid o.m.type o.m.uid) = some x ∧ x.m.dictEq o.m = true

theorem add_has {sid : String} {d : Dict (Obj V)} {o : Obj V} (h : HasIt sid d o) : (pAdd sid o).run d = (.ok (), d) := by
  obtain ⟨x, h1, h2⟩ := h
  simp only [pAdd, Proc.run, Cmd.exec, h1, h2, if_true]

theorem add_ok {sid : String} {d d' : Dict (Obj V)} {o : Obj V} (hr : o.m.dictEq o.m = true) (h : (pAdd sid o).run d = (.ok (), d')) :
    HasIt sid d' o ∧ ∀ o', HasIt sid d o' → HasIt sid d' o' := by
  simp only [pAdd, Proc.run, Cmd.exec] at h
  cases hg : Dict.get? d (redisKey sid o.m.type o.m.uid) with
  | some x =>
    rw [hg] at h
    dsimp only at h
    cases he : x.m.dictEq o.m with
    | true => rw [he] at h; cases h; exact ⟨⟨x, hg, he⟩, fun _ h => h⟩
    | false => rw [he] at h; cases h
  | none =>
    rw [hg] at h
    cases h
    refine ⟨⟨_, Dict.get?_set_self .., hr⟩, fun o' ⟨x, h1, h2⟩ => ⟨x, ?_, h2⟩⟩
    show Dict.get? (Dict.set d (redisKey sid o.m.type o.m.uid) _) _ = _
    have hk : redisKey sid o.m.type o.m.uid ≠ redisKey sid o'.m.type o'.m.uid := fun hk => by rw [hk, h1] at hg; cases hg
    rw [Dict.get?_set_ne _ hk]
    exact h1

theorem addAll_ok {sid : String} : ∀ {l : List (Obj V)} {d d' : Dict (Obj V)}, (∀ o ∈ l, o.m.dictEq o.m = true) → (pAddAll sid l).run d = (.ok (), d') →
    (∀ o ∈ l, HasIt sid d' o) ∧ ∀ o, HasIt sid d o → HasIt sid d' o
  | [], d, d', _, h => by cases h; exact ⟨(fun _ h => by cases h), fun _ h => h⟩
  | o :: l, d, d', hr, h => by
    rw [run_addAll_cons] at h
    cases h1 : (pAdd sid o).run d with
    | mk r d1 =>
      rw [h1] at h
      cases r with
      | error e => cases h
      | ok _ =>
        obtain ⟨a1, a2⟩ := add_ok (hr o (List.mem_cons_self ..)) h1
        obtain ⟨b1, b2⟩ := addAll_ok (fun o ho => hr o (List.mem_cons_of_mem _ ho)) h
        refine ⟨fun x hx => ?_, fun x hx => b2 x (a2 x hx)⟩
        rcases List.mem_cons.1 hx with rfl | hx
        · exact b2 _ a1
        · exact b1 x hx

theorem addAll_has {sid : String} {d : Dict (Obj V)} (l2 : List (Obj V)) : ∀ {l : List (Obj V)}, (∀ o ∈ l, HasIt sid d o) → (pAddAll sid (l ++ l2)).run d = (pAddAll sid l2).run d
  | [], _ => rfl
  | o :: l, h => by
    rw [List.cons_append, run_addAll_cons, add_has (h o (List.mem_cons_self ..))]
    exact addAll_has l2 (fun o ho => h o (List.mem_cons_of_mem _ ho))

theorem addAll_append {sid : String} (l2 : List (Obj V)) : ∀ {l1 : List (Obj V)} {d d' : Dict (Obj V)}, (pAddAll sid l1).run d = (.ok (), d') → (pAddAll sid (l1 ++ l2)).run d = (pAddAll sid l2).run d'
  | [], d, d', h => by cases h; rfl
  | o :: l, d, d', h => by
    rw [run_addAll_cons] at h
    rw [List.cons_append, run_addAll_cons]
    cases h1 : (pAdd sid o).run d with
    | mk r d1 =>
      rw [h1] at h
      cases r with
      | error e => cases h
      | ok _ => exact addAll_append l2 h

theorem solo_det_add {sid : String} {o : Obj V} {d d1 : Dict (Obj V)} {a : Unit} (h : Solo (pAdd sid o, d) (.ret (.ok a), d1)) : (pAdd sid o).run d = (.ok (), d1) := by
  unfold pAdd at h ⊢
  cases h with
  | cmd _ h =>
    simp only [Proc.run, Cmd.exec] at h ⊢
    cases hg : Dict.get? d (redisKey sid o.m.type o.m.uid) with
    | none =>
      rw [hg] at h
      cases h with
      | cmd _ h => cases solo_ret h; rfl
    | some x =>
      rw [hg] at h
      dsimp only at h ⊢
      split at h
      · rename_i he; rw [if_pos he]; cases solo_ret h; rfl
      · cases solo_ret h

/-- **C67** A client that is killed while it adds objects one after the other has added the first ones, and none of the others. -/
theorem C67_load_prefix {sid : String} : ∀ {l : List (Obj V)} {d d' : Dict (Obj V)}, KilledLeaves (pAddAll sid l) d d' →
    ∃ l1 l2, l = l1 ++ l2 ∧ (pAddAll sid l1).run d = (.ok (), d')
  | [], d, d', ⟨q, h⟩ => by cases solo_ret h; exact ⟨[], [], rfl, rfl⟩
  | o :: l, d, d', ⟨q, h⟩ => by
    have hw := once_add sid o
    have he : ∀ {d e}, ((pAdd sid o).run d).1 = .error e → ((pAdd sid o).run d).2 = d := by
      intro d e h
      simp only [pAdd, Proc.run, Cmd.exec] at h ⊢
      cases hg : Dict.get? d (redisKey sid o.m.type o.m.uid) with
      | none => rw [hg] at h; cases h
      | some x =>
        dsimp only
        split <;> rfl
    have h : Solo (Proc.bind (pAdd sid o) (fun _ => pAddAll sid l), d) (q, d') := h
    have one : d' = d ∨ (pAdd sid o).run d = (.ok (), d') → ∃ l1 l2, o :: l = l1 ++ l2 ∧ (pAddAll sid l1).run d = (.ok (), d') := by
      rintro (rfl | h1)
      · exact ⟨[], o :: l, rfl, rfl⟩
      · exact ⟨[o], l, rfl, by rw [run_addAll_cons, h1]; rfl⟩
    rcases solo_bind h with ⟨p', h1, _⟩ | ⟨_, d1, h1, h2⟩
    · refine one ?_
      rcases hw _ _ _ h1 with h3 | h3
      · exact .inl h3
      · cases h4 : (pAdd sid o).run d with
        | mk r d2 =>
          rw [h4] at h3
          cases h3
          cases r with
          | ok _ => exact .inr rfl
          | error e =>
            have := he (d := d) (e := e) (by rw [h4])
            rw [h4] at this
            exact .inl this
    · obtain ⟨l1, l2, rfl, h3⟩ := C67_load_prefix ⟨q, h2⟩
      refine ⟨o :: l1, l2, rfl, ?_⟩
      have h4 : (pAdd sid o).run d = (.ok (), d1) := by
        have := solo_det_add h1
        exact this
      rw [run_addAll_cons, h4]
      exact h3

/-- **C67** Loading objects again, after the first attempt was killed at any time, ends with the same result and the same contents as if the first attempt had not
been interrupted.  (Values that differ from themselves, as NaN does, are excepted: an object with such a value is refused the second time.) -/
theorem C67_load_again [PyVal.Refl V] {sid : String} {l : List (Obj V)} {d d' : Dict (Obj V)} (hw : ∀ o ∈ l, Dict.WF o.m.vals ∧ Dict.WF o.m.kids)
    (h : KilledLeaves (pAddAll sid l) d d') : (pAddAll sid l).run d' = (pAddAll sid l).run d := by
  obtain ⟨l1, l2, rfl, h1⟩ := C67_load_prefix h
  have hr : ∀ o ∈ l1, o.m.dictEq o.m = true := by
    intro o ho
    obtain ⟨h2, h3⟩ := hw o (List.mem_append_left _ ho)
    refine (dictEq_iff h2 h2 h3 h3).2 ⟨fun _ => Iff.rfl, fun f x y hx hy => ?_, fun _ => rfl, rfl⟩
    rw [hx] at hy; cases hy
    exact PyVal.Refl.eq_refl x
  rw [addAll_has l2 (addAll_ok hr h1).1, addAll_append l2 h1]

/-- `for obj in l: adapter.update(obj)`, /repo/diffsync/store/redis.py:186-199. -/
def pUpdateAll (sid : String) (l : List (Obj V)) : Proc V Unit := Proc.forEach (pUpdate sid) l

theorem run_updateAll_cons (sid : String) (o : Obj V) (l : List (Obj V)) (d : Dict (Obj V)) :
    (pUpdateAll sid (o :: l)).run d = (pUpdateAll sid l).run (Dict.set d (redisKey sid o.m.type o.m.uid) { o with adapter := none }) := rfl

theorem updateAll_get {sid : String} : ∀ (l : List (Obj V)) (d e : Dict (Obj V)) (key : String),
    ((pUpdateAll sid l).run d).1 = .ok () ∧
    ((∃ o ∈ l, redisKey sid o.m.type o.m.uid = key) → Dict.get? ((pUpdateAll sid l).run d).2 key = Dict.get? ((pUpdateAll sid l).run e).2 key) ∧
    ((¬ ∃ o ∈ l, redisKey sid o.m.type o.m.uid = key) → Dict.get? ((pUpdateAll sid l).run d).2 key = Dict.get? d key)
  | [], d, e, key => ⟨rfl, (fun ⟨_, h, _⟩ => by cases h), fun _ => rfl⟩
  | o :: l, d, e, key => by
    rw [run_updateAll_cons, run_updateAll_cons]
    obtain ⟨h1, h2, h3⟩ := updateAll_get l (Dict.set d (redisKey sid o.m.type o.m.uid) { o with adapter := none }) (Dict.set e (redisKey sid o.m.type o.m.uid) { o with adapter := none }) key
    obtain ⟨_, _, h4⟩ := updateAll_get l (Dict.set e (redisKey sid o.m.type o.m.uid) { o with adapter := none }) e key
    refine ⟨h1, fun ⟨x, hx, hk⟩ => ?_, fun hn => ?_⟩
    · by_cases hl : ∃ o ∈ l, redisKey sid o.m.type o.m.uid = key
      · exact h2 hl
      · rw [h3 hl, h4 hl]
        rcases List.mem_cons.1 hx with rfl | hx
        · rw [hk, Dict.get?_set_self, Dict.get?_set_self]
        · exact (hl ⟨x, hx, hk⟩).elim
    · rw [h3 (fun ⟨x, hx, hk⟩ => hn ⟨x, List.mem_cons_of_mem _ hx, hk⟩), Dict.get?_set_ne _ (fun hk => hn ⟨o, List.mem_cons_self .., hk⟩)]

/-- **C67** Killed while it updates objects one after the other, a client has updated the first ones, and none of the others. -/
theorem C67_updates_prefix {sid : String} : ∀ {l : List (Obj V)} {d d' : Dict (Obj V)}, KilledLeaves (pUpdateAll sid l) d d' →
    ∃ l1 l2, l = l1 ++ l2 ∧ (pUpdateAll sid l1).run d = (.ok (), d')
  | [], d, d', ⟨q, h⟩ => by cases solo_ret h; exact ⟨[], [], rfl, rfl⟩
  | o :: l, d, d', ⟨q, h⟩ => by
    cases h with
    | done => exact ⟨[], o :: l, rfl, rfl⟩
    | cmd _ h =>
      obtain ⟨l1, l2, rfl, h3⟩ := C67_updates_prefix (l := l) ⟨q, h⟩
      exact ⟨o :: l1, l2, rfl, h3⟩

/-- **C67** Updating them all again, after the first attempt was killed at any time, leaves the contents that it would have left without interruption. -/
theorem C67_updates_again {sid : String} {l : List (Obj V)} {d d' : Dict (Obj V)} (h : KilledLeaves (pUpdateAll sid l) d d') (key : String) :
    Dict.get? ((pUpdateAll sid l).run d').2 key = Dict.get? ((pUpdateAll sid l).run d).2 key := by
  obtain ⟨l1, l2, rfl, h1⟩ := C67_updates_prefix h
  by_cases hl : ∃ o ∈ l1 ++ l2, redisKey sid o.m.type o.m.uid = key
  · exact (updateAll_get (l1 ++ l2) d' d key).2.1 hl
  · rw [(updateAll_get (l1 ++ l2) d' d key).2.2 hl, (updateAll_get (l1 ++ l2) d d' key).2.2 hl]
    have := (updateAll_get l1 d d key).2.2 (fun ⟨o, ho, hk⟩ => hl ⟨o, List.mem_append_left _ ho, hk⟩)
    rw [h1] at this
    exact this

end DS
