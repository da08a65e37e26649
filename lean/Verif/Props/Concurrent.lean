import Verif.Spec.Concurrent
import Verif.Lemmas.Redis
/-! # C64, C65: clients of one Redis server that run at the same time -/
set_option linter.unusedSectionVars false

namespace DS
variable {V α β : Type} [PyVal V]

/-! ## What clients send -/

theorem Sends.bind {P : Cmd V → Prop} {p : Proc V α} {k : α → Proc V β} (h : Sends P p) (hk : ∀ a, Sends P (k a)) : Sends P (p.bind k) := by
  induction h with
  | ret r => cases r with
    | ok a => exact hk a
    | error e => exact .ret _
  | cmd hc _ ih => exact .cmd hc (fun x hx => ih x hx)
theorem Sends.tryCatch {P : Cmd V → Prop} {p : Proc V α} {sel : Err → Bool} {k : Err → Proc V α} (h : Sends P p) (hk : ∀ e, Sends P (k e)) :
    Sends P (p.tryCatch sel k) := by
  induction h with
  | ret r => cases r with
    | ok a => exact .ret _
    | error e =>
      unfold Proc.tryCatch
      split
      · exact hk e
      · exact .ret _
  | cmd hc _ ih => exact .cmd hc (fun x hx => ih x hx)
theorem Sends.mapEach {γ : Type} {P : Cmd V → Prop} {f : γ → Proc V α} {l : List γ} (h : ∀ x ∈ l, Sends P (f x)) : Sends P (Proc.mapEach f l) := by
  induction l with
  | nil => exact .ret _
  | cons x xs ih => exact Sends.bind (h x (by simp)) (fun a => Sends.bind (ih fun y hy => h y (by simp [hy])) (fun as => .ret _))
theorem Sends.forEach {γ : Type} {P : Cmd V → Prop} {f : γ → Proc V Unit} {l : List γ} (h : ∀ x ∈ l, Sends P (f x)) : Sends P (Proc.forEach f l) := by
  induction l with
  | nil => exact .ret _
  | cons x xs ih => exact Sends.bind (h x (by simp)) (fun _ => ih fun y hy => h y (by simp [hy]))

theorem Sends.load {P : Cmd V → Prop} {A : Adapter V} {key : String} (h : P (.get key)) : Sends P (pLoad A key) := by
  refine .cmd h (fun o? _ => ?_)
  cases o? with
  | none => exact .ret _
  | some o => exact .ret _
theorem Sends.getByUids {P : Cmd V → Prop} {A : Adapter V} {sid t : String} {us : List String} (h : ∀ u ∈ us, P (.get (redisKey sid t u))) : Sends P (pGetByUids A sid us t) :=
  .mapEach fun u hu => .load (h u hu)
theorem Sends.add {P : Cmd V → Prop} {sid : String} {o : Obj V} (h1 : P (.get (redisKey sid o.m.type o.m.uid)))
    (h2 : P (.set (redisKey sid o.m.type o.m.uid) { o with adapter := none })) : Sends P (pAdd sid o) := by
  refine .cmd h1 (fun o? _ => ?_)
  cases o? with
  | none => exact .cmd h2 (fun _ _ => .ret _)
  | some o' =>
    dsimp only
    split <;> exact .ret _
theorem Sends.update {P : Cmd V → Prop} {sid : String} {o : Obj V} (h2 : P (.set (redisKey sid o.m.type o.m.uid) { o with adapter := none })) :
    Sends P (pUpdate sid o) := .cmd h2 (fun _ _ => .ret _)
theorem Sends.removeItem {P : Cmd V → Prop} {sid t u : String} (h1 : P (.exist (redisKey sid t u))) (h2 : P (.del (redisKey sid t u))) :
    Sends P (pRemoveItem sid t u) := by
  refine .cmd h1 (fun b _ => ?_)
  cases b with
  | false => exact .ret _
  | true => exact .cmd h2 (fun _ _ => .ret _)
theorem Sends.remove {P : Cmd V → Prop} {A : Adapter V} {sid : String} (h : ∀ t u, P (.exist (redisKey sid t u)) ∧ P (.del (redisKey sid t u)) ∧ P (.get (redisKey sid t u)))
    (n : Nat) (m : Model V) (rc : Bool) : Sends P (pRemove A sid n m rc) := by
  induction n generalizing m with
  | zero => exact .ret _
  | succ n ih =>
    refine .bind (.removeItem (h _ _).1 (h _ _).2.1) (fun _ => ?_)
    split
    · exact .forEach fun c _ => .tryCatch (.bind (.load (h _ _).2.2) (fun o => ih o.m)) (fun _ => .ret _)
    · exact .ret _

/-! ## Steps -/

theorem Dict.get?_iff_has (d : Dict (Obj V)) (k : String) : Dict.has d k = (Dict.get? d k).isSome := by
  rw [Bool.eq_iff_iff, Dict.has_iff, Dict.mem_keys_iff, Option.isSome_iff_exists]

theorem possible_exec {c : Cmd V} (hc : ¬ c.isScan) (x : c.Reply) : c.Possible x := by
  cases c <;> first | trivial | exact absurd trivial hc

/-- Both servers have the same objects under the keys `K`. -/
def SameOn (K : String → Prop) (d d' : Dict (Obj V)) : Prop := ∀ key, K key → Dict.get? d key = Dict.get? d' key

theorem SameOn.found {K : String → Prop} {d d' : Dict (Obj V)} (h : SameOn K d d') {pfx : String}
    (hp : ∀ key, globMatch (pfx ++ "*") key = true → K key) (x : String) : Found d pfx x ↔ Found d' pfx x := by
  unfold Found
  constructor
  · rintro ⟨h1, h2⟩
    obtain ⟨o, ho⟩ := Dict.mem_keys_iff.1 h1
    exact ⟨Dict.mem_keys_iff.2 ⟨o, by rw [← h x (hp x h2)]; exact ho⟩, h2⟩
  · rintro ⟨h1, h2⟩
    obtain ⟨o, ho⟩ := Dict.mem_keys_iff.1 h1
    exact ⟨Dict.mem_keys_iff.2 ⟨o, by rw [h x (hp x h2)]; exact ho⟩, h2⟩

theorem SameOn.exec {K : String → Prop} {d d' : Dict (Obj V)} (h : SameOn K d d') {c : Cmd V} (hc : c.About K) (hs : ¬ c.isScan) :
    (c.exec d).1 = (c.exec d').1 ∧ SameOn K (c.exec d).2 (c.exec d').2 := by
  cases c with
  | get k => exact ⟨h k hc, h⟩
  | set k o =>
    refine ⟨rfl, fun key hk => ?_⟩
    show Dict.get? (Dict.set d k o) key = Dict.get? (Dict.set d' k o) key
    rw [Dict.get?_set, Dict.get?_set, h key hk]
  | exist k =>
    refine ⟨?_, h⟩
    show Dict.has d k = Dict.has d' k
    rw [Dict.get?_iff_has, Dict.get?_iff_has, h k hc]
  | del k =>
    refine ⟨rfl, fun key hk => ?_⟩
    show Dict.get? (Dict.erase d k) key = Dict.get? (Dict.erase d' k) key
    rw [Dict.get?_erase, Dict.get?_erase, h key hk]
  | scan p => exact absurd trivial hs

theorem SameOn.outside {K : String → Prop} {d d' : Dict (Obj V)} (h : SameOn K d d') {c : Cmd V} (hc : c.Spares K) : SameOn K (c.exec d).2 d' := by
  cases c with
  | get k => exact h
  | set k o =>
    intro key hk
    show Dict.get? (Dict.set d k o) key = _
    rw [Dict.get?_set]
    split
    · next e => subst e; exact absurd hk hc
    · exact h key hk
  | exist k => exact h
  | del k =>
    intro key hk
    show Dict.get? (Dict.erase d k) key = _
    rw [Dict.get?_erase]
    split
    · next e => subst e; exact absurd hk hc
    · exact h key hk
  | scan p => exact h

theorem Stage.All.see {P : Proc V α → Prop} {x : Stage V α} (h : x.All P) (d : Dict (Obj V)) : (x.see d).All P := by
  cases x with
  | «at» p => exact h
  | scanning => exact h

/-- Client `i` sees the keys `K` as in `d`. -/
structure Sees (K : String → Prop) (i : Nat) (p : Proc V α) (d : Dict (Obj V)) (s : Sys V α) : Prop where
  here : (s.cl i).IsAt p
  mine : Sends (Cmd.About K) p
  theirs : ∀ j, j ≠ i → (s.cl j).All (Sends (Cmd.Spares K))
  agree : SameOn K s.srv d
  scans : ∀ {pfx must may k}, s.cl i = .scanning pfx must may k → ∀ x, (must x ↔ Found d pfx x) ∧ (may x ↔ Found d pfx x)

theorem sees_exec {K : String → Prop} {i : Nat} {s s' : Sys V α} {l : List (Sys V α)} (he : Exec s l s') {p : Proc V α} {d : Dict (Obj V)} (h : Sees K i p d s) :
    ∃ p' d', Solo (p, d) (p', d') ∧ Sees K i p' d' s' := by
  induction he generalizing p d with
  | done s => exact ⟨p, d, .done _, h⟩
  | @step j s s1 s' l hst _ ih =>
    by_cases hj : j = i
    · subst hj
      have hm := h.mine
      have hh := h.here
      cases hst with
      | @cmd c k hc hs =>
        rw [hc] at hh
        cases hh
        cases hm with
        | cmd hw hk =>
          obtain ⟨e1, e2⟩ := h.agree.exec hw hs
          obtain ⟨p', d', h1, h2⟩ := ih (p := k (c.exec d).1) (d := (c.exec d).2) ⟨by simp [Stage.IsAt, e1], hk _ (possible_exec hs _),
            fun j hj => by simp only [if_neg hj]; exact (h.theirs j hj).see _, e2, fun h => by simp at h⟩
          exact ⟨p', d', .cmd hs h1, h2⟩
      | @scanBegins pfx k hc =>
        rw [hc] at hh
        cases hh
        cases hm with
        | cmd hw hk =>
          refine ih (p := .cmd (.scan pfx) k) (d := d) ⟨by simp [Stage.IsAt], .cmd hw hk, fun j hj => ?_, h.agree, fun h' x => ?_⟩
          · simp only [if_neg hj]; exact h.theirs j hj
          · simp only [if_true] at h'
            cases h'
            exact ⟨h.agree.found hw x, h.agree.found hw x⟩
      | @scanEnds pfx must may k hc ks h1 h2 =>
        rw [hc] at hh
        cases hh
        cases hm with
        | cmd hw hk =>
          have hsc := h.scans hc
          obtain ⟨p', d', h3, h4⟩ := ih (p := k ks) (d := d) ⟨by simp [Stage.IsAt], hk _ (fun x hx => (h2 x hx).2), fun j hj => by simp only [if_neg hj]; exact h.theirs j hj, h.agree,
            fun h => by simp at h⟩
          exact ⟨p', d', .scan ks (fun y => ⟨fun hy => (hsc y).2.1 (h2 y hy).1, fun hy => h1 y ((hsc y).1.2 hy)⟩) h3, h4⟩
    · have hij : i ≠ j := fun e => hj e.symm
      have hth := h.theirs j hj
      cases hst with
      | @cmd c k hc hs =>
        rw [hc] at hth
        cases hth with
        | cmd hw hk =>
          refine ih (p := p) (d := d) ⟨?_, h.mine, fun j' hj' => ?_, h.agree.outside hw, fun {pfx must may k'} h' x => ?_⟩
          · simp only [if_neg hij]
            have := h.here
            revert this
            cases s.cl i with
            | «at» q => exact id
            | scanning => exact id
          · dsimp only
            split
            · exact hk _ (possible_exec hs _)
            · exact (h.theirs j' hj').see _
          · simp only [if_neg hij] at h'
            cases hi : s.cl i with
            | «at» q => rw [hi] at h'; cases h'
            | scanning pfx0 must0 may0 k0 =>
              rw [hi] at h'
              cases h'
              have h3 := h.scans hi x
              have hp : p = .cmd (.scan pfx) k' := by have := h.here; rw [hi] at this; exact this
              have hm := h.mine
              rw [hp] at hm
              cases hm with
              | cmd hw' hk' =>
                have h4 := (h.agree.outside hw).found hw' x
                dsimp only
                rw [h3.1, h3.2, h4]
                exact ⟨and_self_iff, or_self_iff⟩
      | @scanBegins pfx k hc =>
        rw [hc] at hth
        refine ih (p := p) (d := d) ⟨by simp only [if_neg hij]; exact h.here, h.mine, fun j' hj' => ?_, h.agree, fun h' x => ?_⟩
        · dsimp only
          split
          · exact hth
          · exact h.theirs j' hj'
        · simp only [if_neg hij] at h'
          exact h.scans h' x
      | @scanEnds pfx must may k hc ks h1 h2 =>
        rw [hc] at hth
        refine ih (p := p) (d := d) ⟨by simp only [if_neg hij]; exact h.here, h.mine, fun j' hj' => ?_, h.agree, fun h' x => ?_⟩
        · dsimp only
          split
          · cases hth with
            | cmd _ hk => exact hk _ (fun x hx => (h2 x hx).2)
          · exact h.theirs j' hj'
        · simp only [if_neg hij] at h'
          exact h.scans h' x

/-! ## What the methods of a store send -/

theorem ofStore_key (sid t u : String) : OfStore sid (redisKey sid t u) :=
  ⟨t ++ ":" ++ u, by unfold redisKey storeLabel; simp only [String.append_assoc]⟩

theorem ofStore_prefix {sid key : String} : OfStore sid key ↔ (storeLabel sid ++ ":").toList.isPrefixOf key.toList = true := by
  rw [List.isPrefixOf_iff_prefix]
  unfold OfStore storeLabel
  constructor
  · rintro ⟨rest, rfl⟩
    exact ⟨rest.toList, by simp [String.toList_append]⟩
  · rintro ⟨x, hx⟩
    refine ⟨String.ofList x, ?_⟩
    rw [← String.toList_inj, ← hx]
    simp [String.toList_append]

theorem ofStore_inj {sid sid' key : String} (h1 : Plain sid) (h2 : Plain sid') (h : OfStore sid key) (h' : OfStore sid' key) : sid = sid' := by
  obtain ⟨x, rfl⟩ := h
  obtain ⟨y, hy⟩ := h'
  have hy := congrArg String.toList hy
  simp only [String.toList_append] at hy
  have e : ∀ a b : List Char, "diffsync:".toList ++ a ++ ":".toList ++ b = "diffsync".toList ++ ':' :: (a ++ ':' :: b) := fun a b => by
    simp
  rw [e, e] at hy
  obtain ⟨_, hy⟩ := split_colon_inj noColon_diffsync noColon_diffsync hy
  exact String.toList_inj.1 (split_colon_inj h1.noColon h2.noColon hy).1

theorem scanStore_within {sid : String} (h : Plain sid) : Cmd.Within (V := V) sid (.scan (storeLabel sid ++ ":")) := fun key hk => by
  rw [globStore_eq h] at hk
  exact ofStore_prefix.2 hk
theorem scanType_within {sid t : String} (h : Plain sid) (ht : Plain t) : Cmd.Within (V := V) sid (.scan (storeLabel sid ++ (":" ++ (t ++ ":")))) := fun key hk => by
  rw [globType_eq h ht] at hk
  refine ofStore_prefix.2 ?_
  have : storeLabel sid ++ (":" ++ (t ++ ":")) = storeLabel sid ++ ":" ++ (t ++ ":") := by rw [String.append_assoc]
  rw [this, String.toList_append] at hk
  exact isPrefixOf_trans_of _ hk

/-- **C64** Each method of a Redis store sends commands about keys of that store only. -/
theorem C64_methods_stay_within (A : Adapter V) {sid : String} (hs : Plain sid) :
    (∀ t u, Sends (Cmd.Within sid) (pGet A sid t u)) ∧ (∀ t, Plain t → Sends (Cmd.Within sid) (pGetAll A sid t)) ∧
      (∀ us t, Sends (Cmd.Within sid) (pGetByUids A sid us t)) ∧ (∀ o : Obj V, Sends (Cmd.Within sid) (pAdd sid o)) ∧
      (∀ o : Obj V, Sends (Cmd.Within sid) (pUpdate sid o)) ∧ (∀ n m rc, Sends (Cmd.Within sid) (pRemove A sid n m rc)) ∧
      Sends (Cmd.Within sid) (pCount (V := V) sid none) ∧ (∀ a : ModelArg V, Plain a.modelName.toLower → Sends (Cmd.Within sid) (pCount sid (some a))) ∧
      Sends (Cmd.Within sid) (pModelNames (V := V) sid) :=
  ⟨fun _ _ => .load (ofStore_key _ _ _), fun t ht => .cmd (scanType_within hs ht) (fun ks hks => .mapEach fun k hk => .load (scanType_within (V := V) hs ht k (hks k hk))),
    fun us t => .getByUids fun u _ => ofStore_key _ _ _, fun o => .add (ofStore_key _ _ _) (ofStore_key _ _ _), fun o => .update (ofStore_key _ _ _),
    fun n m rc => .remove (fun t u => ⟨ofStore_key _ _ _, ofStore_key _ _ _, ofStore_key _ _ _⟩) n m rc,
    .cmd (scanStore_within hs) (fun _ _ => .ret _), fun a ha => .cmd (scanType_within hs ha) (fun _ _ => .ret _), .cmd (scanStore_within hs) (fun _ _ => .ret _)⟩

/-- A client of one store leaves the others alone. -/
theorem Sends.outside {sid sid' : String} (h1 : Plain sid) (h2 : Plain sid') (hne : sid ≠ sid') {p : Proc V α} (h : Sends (Cmd.Within sid') p) :
    Sends (Cmd.Outside sid) p := by
  induction h with
  | ret r => exact .ret r
  | @cmd c k hc _ ih =>
    refine .cmd ?_ ih
    cases c with
    | get => trivial
    | set k o => exact fun h => hne (ofStore_inj h1 h2 h hc)
    | exist => trivial
    | del k => exact fun h => hne (ofStore_inj h1 h2 h hc)
    | scan => trivial

/-- **C64** A client that is the only one to write to its store behaves, in every execution and at every point of it, as if it were alone on the
server, and its store has the contents that it would then have. The other clients may be any programs, also ones that read the store. -/
theorem C64_isolated {sid : String} {i : Nat} {s s' : Sys V α} {l : List (Sys V α)} (he : Exec s l s') {p : Proc V α} (hi : s.cl i = .at p)
    (hp : Sends (Cmd.Within sid) p) (ho : ∀ j, j ≠ i → (s.cl j).All (Sends (Cmd.Outside sid))) :
    ∃ p' d', Solo (p, s.srv) (p', d') ∧ (s'.cl i).IsAt p' ∧ ∀ key, OfStore sid key → Dict.get? s'.srv key = Dict.get? d' key := by
  obtain ⟨p', d', h1, h2⟩ := sees_exec he (p := p) (d := s.srv) (K := OfStore sid) (i := i)
    ⟨by rw [hi]; rfl, hp, ho, fun _ _ => rfl, fun h => by rw [hi] at h; cases h⟩
  exact ⟨p', d', h1, h2.here, h2.agree⟩

/-- **C64** Clients of different stores do not disturb each other: each gets the result that it would get alone. -/
theorem C64_stores_apart {i : Nat} {s s' : Sys V α} {l : List (Sys V α)} (he : Exec s l s') {sids : Nat → String} {ps : Nat → Proc V α}
    (hs : ∀ j, Plain (sids j)) (hd : ∀ j, j ≠ i → sids j ≠ sids i) (hp : ∀ j, s.cl j = .at (ps j) ∧ Sends (Cmd.Within (sids j)) (ps j))
    {r : Except Err α} (hr : s'.cl i = .at (.ret r)) :
    ∃ d', Solo (ps i, s.srv) (.ret r, d') ∧ ∀ t u, Dict.get? s'.srv (redisKey (sids i) t u) = Dict.get? d' (redisKey (sids i) t u) := by
  obtain ⟨p', d', h1, h2, h3⟩ := C64_isolated he (hp i).1 (hp i).2 (fun j hj => by
    rw [(hp j).1]; exact Sends.outside (hs i) (hs j) (fun e => hd j hj e.symm) (hp j).2)
  rw [hr] at h2
  cases h2
  exact ⟨d', h1, fun t u => h3 _ (ofStore_key _ _ _)⟩

/-! ## Clients of the same store -/

theorem Exec.first {s s' : Sys V α} {l : List (Sys V α)} (h : Exec s l s') : s ∈ l := by
  cases h <;> simp
theorem Exec.last {s s' : Sys V α} {l : List (Sys V α)} (h : Exec s l s') : s' ∈ l := by
  induction h with
  | done s => simp
  | step _ _ ih => simp [ih]

theorem Move.other {i j : Nat} {s s1 : Sys V α} (h : Move j s s1) (hj : j ≠ i) : s1.cl i = s.cl i ∨ s1.cl i = (s.cl i).see s1.srv := by
  have hij : i ≠ j := fun e => hj e.symm
  cases h with
  | cmd => right; simp [hij]
  | scanBegins => left; simp [hij]
  | scanEnds => left; simp [hij]

theorem Move.other_at {i j : Nat} {s s1 : Sys V α} (h : Move j s s1) (hj : j ≠ i) {p : Proc V α} (hp : s.cl i = .at p) : s1.cl i = .at p := by
  rcases h.other hj with e | e <;> rw [e, hp]
  rfl

/-- The execution reaches the end of the client's first command. -/
theorem first_cmd {i : Nat} {s s' : Sys V α} {l : List (Sys V α)} (he : Exec s l s') {c : Cmd V} {k : c.Reply → Proc V α} (h : s.cl i = .at (.cmd c k)) (hc : ¬ c.isScan)
    {r : Except Err α} (hr : s'.cl i = .at (.ret r)) :
    ∃ s1 ∈ l, ∃ s2 l2, s2.srv = (c.exec s1.srv).2 ∧ s2.cl i = .at (k (c.exec s1.srv).1) ∧ Exec s2 l2 s' ∧ ∀ x ∈ l2, x ∈ l := by
  induction he with
  | done s => rw [h] at hr; cases hr
  | @step j s s1 s' l hst hrest ih =>
    by_cases hj : j = i
    · subst hj
      cases hst with
      | @cmd c' k' h' hs' =>
        rw [h] at h'
        cases h'
        exact ⟨s, by simp, _, l, rfl, by simp, hrest, fun x hx => by simp [hx]⟩
      | scanBegins h' => rw [h] at h'; cases h'; exact absurd trivial hc
      | scanEnds h' => rw [h] at h'; cases h'
    · obtain ⟨s2, h2, h3⟩ := ih (hst.other_at hj h) hr
      obtain ⟨s3, l3, h4, h5, h6, h7⟩ := h3
      exact ⟨s2, by simp [h2], s3, l3, h4, h5, h6, fun x hx => by simp [h7 x hx]⟩

theorem end_scan {i : Nat} {s s' : Sys V α} {l : List (Sys V α)} (he : Exec s l s') {pfx : String} {must may : String → Prop} {k : List String → Proc V α}
    (h : s.cl i = .scanning pfx must may k) {r : Except Err α} (hr : s'.cl i = .at (.ret r)) :
    ∃ ks s2 l2, s2.cl i = .at (k ks) ∧ Exec s2 l2 s' ∧ (∀ x ∈ l2, x ∈ l) ∧ (∀ key, must key → (∀ s1 ∈ l, Found s1.srv pfx key) → key ∈ ks) ∧
      ∀ key ∈ ks, may key ∨ ∃ s1 ∈ l, Found s1.srv pfx key := by
  induction he generalizing must may with
  | done s => rw [h] at hr; cases hr
  | @step j s s1 s' l hst hrest ih =>
    by_cases hj : j = i
    · subst hj
      cases hst with
      | cmd h' => rw [h] at h'; cases h'
      | scanBegins h' => rw [h] at h'; cases h'
      | scanEnds h' ks h1 h2 =>
        rw [h] at h'
        cases h'
        exact ⟨ks, _, l, by simp, hrest, fun x hx => by simp [hx], fun key hk _ => h1 key hk, fun key hk => .inl (h2 key hk).1⟩
    · rcases hst.other hj with e | e
      · obtain ⟨ks, s2, l2, h1, h2, h3, h4, h5⟩ := ih (e.trans h) hr
        exact ⟨ks, s2, l2, h1, h2, fun x hx => by simp [h3 x hx], fun key hk ha => h4 key hk (fun s1 hs1 => ha s1 (by simp [hs1])),
          fun key hk => (h5 key hk).imp id (fun ⟨s1, hs1, hf⟩ => ⟨s1, by simp [hs1], hf⟩)⟩
      · rw [h] at e
        obtain ⟨ks, s2, l2, h1, h2, h3, h4, h5⟩ := ih e hr
        refine ⟨ks, s2, l2, h1, h2, fun x hx => by simp [h3 x hx],
          fun key hk ha => h4 key ⟨hk, ha s1 (List.mem_cons_of_mem _ hrest.first)⟩ (fun s1 hs1 => ha s1 (by simp [hs1])), fun key hk => ?_⟩
        rcases h5 key hk with (h6 | h6) | ⟨s1, hs1, hf⟩
        · exact .inl h6
        · exact .inr ⟨s1, List.mem_cons_of_mem _ hrest.first, h6⟩
        · exact .inr ⟨s1, by simp [hs1], hf⟩

theorem first_scan {i : Nat} {s s' : Sys V α} {l : List (Sys V α)} (he : Exec s l s') {pfx : String} {k : List String → Proc V α}
    (h : s.cl i = .at (.cmd (.scan pfx) k)) {r : Except Err α} (hr : s'.cl i = .at (.ret r)) :
    ∃ ks s2 l2, s2.cl i = .at (k ks) ∧ Exec s2 l2 s' ∧ (∀ x ∈ l2, x ∈ l) ∧ (∀ key, (∀ s1 ∈ l, Found s1.srv pfx key) → key ∈ ks) ∧
      ∀ key ∈ ks, ∃ s1 ∈ l, Found s1.srv pfx key := by
  induction he with
  | done s => rw [h] at hr; cases hr
  | @step j s s1 s' l hst hrest ih =>
    by_cases hj : j = i
    · subst hj
      cases hst with
      | cmd h' hs' => rw [h] at h'; cases h'; exact absurd trivial hs'
      | scanBegins h' =>
        rw [h] at h'
        cases h'
        obtain ⟨ks, s2, l2, h1, h2, h3, h4, h5⟩ := end_scan (i := j) hrest (by simp; exact ⟨rfl, rfl, rfl, rfl⟩) hr
        refine ⟨ks, s2, l2, h1, h2, fun x hx => by simp [h3 x hx], fun key ha => h4 key (ha s (by simp)) (fun s1 hs1 => ha s1 (by simp [hs1])), fun key hk => ?_⟩
        rcases h5 key hk with h6 | ⟨s1, hs1, hf⟩
        · exact ⟨s, by simp, h6⟩
        · exact ⟨s1, by simp [hs1], hf⟩
      | scanEnds h' => rw [h] at h'; cases h'
    · obtain ⟨ks, s2, l2, h1, h2, h3, h4, h5⟩ := ih (hst.other_at hj h) hr
      exact ⟨ks, s2, l2, h1, h2, fun x hx => by simp [h3 x hx], fun key ha => h4 key (fun s1 hs1 => ha s1 (by simp [hs1])),
        fun key hk => by obtain ⟨s1, hs1, hf⟩ := h5 key hk; exact ⟨s1, by simp [hs1], hf⟩⟩

/-- A client that has ended stays so. -/
theorem ended {i : Nat} {s s' : Sys V α} {l : List (Sys V α)} (he : Exec s l s') {r r' : Except Err α} (h : s.cl i = .at (.ret r)) (hr : s'.cl i = .at (.ret r')) : r' = r := by
  induction he with
  | done s => rw [h] at hr; cases hr; rfl
  | @step j s s1 s' l hst _ ih =>
    by_cases hj : j = i
    · subst hj
      cases hst with
      | cmd h' => rw [h] at h'; cases h'
      | scanBegins h' => rw [h] at h'; cases h'
      | scanEnds h' => rw [h] at h'; cases h'
    · exact ih (hst.other_at hj h) hr

/-- **C65** `get` returns what was stored at a moment of the call, or raises `ObjectNotFound` because nothing was. -/
theorem C65_get {i : Nat} {s s' : Sys V (Obj V)} {l : List (Sys V (Obj V))} (he : Exec s l s') {A : Adapter V} {sid t u : String} (h : s.cl i = .at (pGet A sid t u))
    {r : Except Err (Obj V)} (hr : s'.cl i = .at (.ret r)) :
    (∃ s1 ∈ l, ∃ o, Dict.get? s1.srv (redisKey sid t u) = some o ∧ r = .ok { o with adapter := some A.ref }) ∨
      (∃ s1 ∈ l, Dict.get? s1.srv (redisKey sid t u) = none ∧ r = .error .objectNotFound) := by
  obtain ⟨s1, hs1, s2, l2, _, h2, h3, _⟩ := first_cmd he h id hr
  simp only [Cmd.exec] at h2
  cases hg : Dict.get? s1.srv (redisKey sid t u) with
  | none =>
    rw [hg] at h2
    exact .inr ⟨s1, hs1, hg, ended h3 h2 hr⟩
  | some o =>
    rw [hg] at h2
    exact .inl ⟨s1, hs1, o, hg, ended h3 h2 hr⟩

/-- **C65** `update` stores the object at a moment of the call. -/
theorem C65_update {i : Nat} {s s' : Sys V Unit} {l : List (Sys V Unit)} (he : Exec s l s') {sid : String} {o : Obj V} (h : s.cl i = .at (pUpdate sid o))
    {r : Except Err Unit} (hr : s'.cl i = .at (.ret r)) :
    r = .ok () ∧ ∃ s1 ∈ l, Dict.get? s1.srv (redisKey sid o.m.type o.m.uid) = some { o with adapter := none } := by
  obtain ⟨s1, hs1, s2, l2, h1, h2, h3, h4⟩ := first_cmd he h id hr
  refine ⟨ended h3 h2 hr, s2, h4 _ h3.first, ?_⟩
  rw [h1]
  show Dict.get? (Dict.set _ _ _) _ = _
  rw [Dict.get?_set, if_pos rfl]

/-- **C65** `add` raises nothing but `ObjectAlreadyExists`, and that only if a different object was stored at a moment of the call; otherwise an equal object was
stored at a moment of the call. -/
theorem C65_add {i : Nat} {s s' : Sys V Unit} {l : List (Sys V Unit)} (he : Exec s l s') {sid : String} {o : Obj V} (h : s.cl i = .at (pAdd sid o))
    {r : Except Err Unit} (hr : s'.cl i = .at (.ret r)) :
    (r = .ok () ∧ ∃ s1 ∈ l, ∃ o', Dict.get? s1.srv (redisKey sid o.m.type o.m.uid) = some o' ∧ (o' = { o with adapter := none } ∨ o'.m.dictEq o.m = true)) ∨
      (r = .error .objectAlreadyExists ∧ ∃ s1 ∈ l, ∃ o', Dict.get? s1.srv (redisKey sid o.m.type o.m.uid) = some o' ∧ o'.m.dictEq o.m = false) := by
  obtain ⟨s1, hs1, s2, l2, h1, h2, h3, h4⟩ := first_cmd he h id hr
  simp only [Cmd.exec] at h2
  cases hg : Dict.get? s1.srv (redisKey sid o.m.type o.m.uid) with
  | some o' =>
    rw [hg] at h2
    dsimp only at h2
    cases hd : o'.m.dictEq o.m with
    | true =>
      rw [hd, if_pos rfl] at h2
      exact .inl ⟨ended h3 h2 hr, s1, hs1, o', hg, .inr hd⟩
    | false =>
      rw [hd, if_neg (by simp)] at h2
      exact .inr ⟨ended h3 h2 hr, s1, hs1, o', hg, hd⟩
  | none =>
    rw [hg] at h2
    obtain ⟨s3, hs3, s4, l4, h5, h6, h7, h8⟩ := first_cmd h3 h2 id hr
    refine .inl ⟨ended h7 h6 hr, s4, h4 _ (h8 _ h7.first), _, ?_, .inl rfl⟩
    rw [h5]
    show Dict.get? (Dict.set _ _ _) _ = _
    rw [Dict.get?_set, if_pos rfl]

/-- **C65** Removing an object succeeds only if there was one at a moment of the call, and leaves none at a later moment; it raises `ObjectNotFound`, and nothing else, if there was
none at a moment of the call. -/
theorem C65_remove_item {i : Nat} {s s' : Sys V Unit} {l : List (Sys V Unit)} (he : Exec s l s') {sid t u : String} (h : s.cl i = .at (pRemoveItem sid t u))
    {r : Except Err Unit} (hr : s'.cl i = .at (.ret r)) :
    (r = .ok () ∧ (∃ s1 ∈ l, ∃ o, Dict.get? s1.srv (redisKey sid t u) = some o) ∧ ∃ s1 ∈ l, Dict.get? s1.srv (redisKey sid t u) = none) ∨
      (r = .error .objectNotFound ∧ ∃ s1 ∈ l, Dict.get? s1.srv (redisKey sid t u) = none) := by
  obtain ⟨s1, hs1, s2, l2, h1, h2, h3, h4⟩ := first_cmd he h id hr
  simp only [Cmd.exec] at h2
  cases hg : Dict.get? s1.srv (redisKey sid t u) with
  | none =>
    rw [Dict.get?_iff_has, hg] at h2
    exact .inr ⟨ended h3 h2 hr, s1, hs1, hg⟩
  | some o =>
    rw [Dict.get?_iff_has, hg] at h2
    obtain ⟨s3, hs3, s4, l4, h5, h6, h7, h8⟩ := first_cmd h3 h2 id hr
    refine .inl ⟨ended h7 h6 hr, ⟨s1, hs1, o, hg⟩, s4, h4 _ (h8 _ h7.first), ?_⟩
    rw [h5]
    show Dict.get? (Dict.erase _ _) _ = _
    rw [Dict.get?_erase, if_pos rfl]

theorem Proc.bind_assoc {γ : Type} (p : Proc V α) (f : α → Proc V β) (g : β → Proc V γ) : (p.bind f).bind g = p.bind (fun a => (f a).bind g) := by
  induction p with
  | ret r => cases r <;> rfl
  | cmd c k ih =>
    simp only [Proc.bind]
    congr
    funext x
    exact ih x
theorem Proc.bind_ret (p : Proc V α) : p.bind (fun a => .ret (.ok a)) = p := by
  induction p with
  | ret r => cases r <;> rfl
  | cmd c k ih =>
    simp only [Proc.bind]
    congr
    funext x
    exact ih x

theorem load_each {i : Nat} {A : Adapter V} (ks : List String) {s s' : Sys V α} {l : List (Sys V α)} (he : Exec s l s') {k : List (Obj V) → Proc V α}
    (h : s.cl i = .at ((Proc.mapEach (pLoad A) ks).bind k)) {r : Except Err α} (hr : s'.cl i = .at (.ret r)) :
    (r = .error .objectNotFound ∧ ∃ key ∈ ks, ∃ s1 ∈ l, Dict.get? s1.srv key = none) ∨
      ∃ os s2 l2, s2.cl i = .at (k os) ∧ Exec s2 l2 s' ∧ (∀ x ∈ l2, x ∈ l) ∧ os.length = ks.length ∧
        ∀ p ∈ ks.zip os, ∃ s1 ∈ l, ∃ o, Dict.get? s1.srv p.1 = some o ∧ p.2 = { o with adapter := some A.ref } := by
  induction ks generalizing s l k with
  | nil => exact .inr ⟨[], s, l, h, he, fun _ h => h, rfl, fun p hp => by simp at hp⟩
  | cons key ks ih =>
    simp only [Proc.mapEach, Proc.bind_assoc] at h
    obtain ⟨s1, hs1, s2, l2, _, h2, h3, h4⟩ := first_cmd he (c := .get key) h id hr
    simp only [Cmd.exec] at h2
    cases hg : Dict.get? s1.srv key with
    | none =>
      rw [hg] at h2
      exact .inl ⟨ended h3 h2 hr, key, by simp, s1, hs1, hg⟩
    | some o =>
      rw [hg] at h2
      rcases ih h3 h2 with ⟨h5, k', hk', s3, hs3, h6⟩ | ⟨os, s3, l3, h5, h6, h7, h8, h9⟩
      · exact .inl ⟨h5, k', by simp [hk'], s3, h4 _ hs3, h6⟩
      · refine .inr ⟨_ :: os, s3, l3, h5, h6, fun x hx => h4 _ (h7 x hx), by simp [h8], fun p hp => ?_⟩
        rw [List.zip_cons_cons, List.mem_cons] at hp
        rcases hp with rfl | hp
        · exact ⟨s1, hs1, o, hg, rfl⟩
        · obtain ⟨s4, hs4, o', h10, h11⟩ := h9 p hp
          exact ⟨s4, h4 _ hs4, o', h10, h11⟩

theorem mapEach_map {γ : Type} (f : γ → String) (g : String → Proc V α) (l : List γ) : Proc.mapEach (fun x => g (f x)) l = Proc.mapEach g (l.map f) := by
  induction l with
  | nil => rfl
  | cons x xs ih => simp only [Proc.mapEach, List.map_cons, ih]

/-- **C65** `get_by_uids` returns one object per id, in order, each as it was stored at a moment of the call, or raises `ObjectNotFound` because one of them was missing at a moment. -/
theorem C65_get_by_uids {i : Nat} {s s' : Sys V (List (Obj V))} {l : List (Sys V (List (Obj V)))} (he : Exec s l s') {A : Adapter V} {sid t : String} {us : List String}
    (h : s.cl i = .at (pGetByUids A sid us t)) {r : Except Err (List (Obj V))} (hr : s'.cl i = .at (.ret r)) :
    (r = .error .objectNotFound ∧ ∃ u ∈ us, ∃ s1 ∈ l, Dict.get? s1.srv (redisKey sid t u) = none) ∨
      ∃ os, r = .ok os ∧ os.length = us.length ∧
        ∀ p ∈ us.zip os, ∃ s1 ∈ l, ∃ o, Dict.get? s1.srv (redisKey sid t p.1) = some o ∧ p.2 = { o with adapter := some A.ref } := by
  unfold pGetByUids pGet at h
  rw [mapEach_map (redisKey sid t), ← Proc.bind_ret (Proc.mapEach _ _)] at h
  rcases load_each _ he h hr with ⟨h1, key, hk, h2⟩ | ⟨os, s2, l2, h1, h2, _, h4, h5⟩
  · obtain ⟨u, hu, rfl⟩ := List.mem_map.1 hk
    exact .inl ⟨h1, u, hu, h2⟩
  · refine .inr ⟨os, ended h2 h1 hr, by simpa using h4, fun p hp => ?_⟩
    refine h5 (redisKey sid t p.1, p.2) ?_
    rw [List.zip_map_left, List.mem_map]
    exact ⟨p, hp, rfl⟩

theorem found_type {sid t : String} (hs : Plain sid) (ht : Plain t) {d : Dict (Obj V)} {key : String} :
    Found d (storeLabel sid ++ (":" ++ (t ++ ":"))) key ↔ ∃ u, key = redisKey sid t u ∧ key ∈ Dict.keys d := by
  unfold Found
  rw [globType_eq hs ht, List.isPrefixOf_iff_prefix]
  constructor
  · rintro ⟨h1, x, hx⟩
    refine ⟨String.ofList x, ?_, h1⟩
    rw [← String.toList_inj, redisKey_toList, ← hx, prefixType_toList]
    simp
  · rintro ⟨u, rfl, h⟩
    refine ⟨h, u.toList, ?_⟩
    rw [redisKey_toList, prefixType_toList]
    simp

/-- **C65** `get_all` returns only objects of the model, each as it was stored at a moment of the call, and misses no object that was there all the time. It raises `ObjectNotFound`,
and nothing else, only if an object that was there vanished. -/
theorem C65_get_all {i : Nat} {s s' : Sys V (List (Obj V))} {l : List (Sys V (List (Obj V)))} (he : Exec s l s') {A : Adapter V} {sid t : String} (hs : Plain sid) (ht : Plain t)
    (h : s.cl i = .at (pGetAll A sid t)) {r : Except Err (List (Obj V))} (hr : s'.cl i = .at (.ret r)) :
    (r = .error .objectNotFound ∧ ∃ u, (∃ s1 ∈ l, ∃ o, Dict.get? s1.srv (redisKey sid t u) = some o) ∧ ∃ s1 ∈ l, Dict.get? s1.srv (redisKey sid t u) = none) ∨
      ∃ os, r = .ok os ∧
        (∀ o ∈ os, ∃ u, ∃ s1 ∈ l, ∃ o', Dict.get? s1.srv (redisKey sid t u) = some o' ∧ o = { o' with adapter := some A.ref }) ∧
        ∀ u, (∀ s1 ∈ l, ∃ o, Dict.get? s1.srv (redisKey sid t u) = some o) →
          ∃ o ∈ os, ∃ s1 ∈ l, ∃ o', Dict.get? s1.srv (redisKey sid t u) = some o' ∧ o = { o' with adapter := some A.ref } := by
  obtain ⟨ks, s2, l2, h1, h2, h3, h4, h5⟩ := first_scan he h hr
  rw [← Proc.bind_ret (Proc.mapEach _ _)] at h1
  rcases load_each _ h2 h1 hr with ⟨h6, key, hk, s3, hs3, h7⟩ | ⟨os, s3, l3, h6, h7, _, h9, h10⟩
  · obtain ⟨s1, hs1, hf⟩ := h5 key hk
    obtain ⟨u, rfl, hu⟩ := (found_type hs ht).1 hf
    exact .inl ⟨h6, u, ⟨s1, hs1, Dict.mem_keys_iff.1 hu⟩, s3, h3 _ hs3, h7⟩
  · refine .inr ⟨os, ended h7 h6 hr, fun o ho => ?_, fun u hu => ?_⟩
    · obtain ⟨n, hn, rfl⟩ := List.getElem_of_mem ho
      have hm : (ks[n]'(h9 ▸ hn), os[n]) ∈ ks.zip os := by
        rw [List.mem_iff_getElem]
        exact ⟨n, by simp [List.length_zip]; omega, by simp⟩
      obtain ⟨s1, hs1, o', h11, h12⟩ := h10 _ hm
      obtain ⟨s4, _, hf⟩ := h5 _ (List.getElem_mem (h9 ▸ hn))
      obtain ⟨u, hu, _⟩ := (found_type hs ht).1 hf
      exact ⟨u, s1, h3 _ hs1, o', by rw [← hu]; exact h11, h12⟩
    · have hk := h4 (redisKey sid t u) (fun s1 hs1 => (found_type hs ht).2 ⟨u, rfl, Dict.mem_keys_iff.2 (hu s1 hs1)⟩)
      obtain ⟨n, hn, e⟩ := List.getElem_of_mem hk
      have hm : (ks[n], os[n]'(h9 ▸ hn)) ∈ ks.zip os := by
        rw [List.mem_iff_getElem]
        exact ⟨n, by simp [List.length_zip]; omega, by simp⟩
      obtain ⟨s1, hs1, o', h11, h12⟩ := h10 _ hm
      exact ⟨_, List.getElem_mem (h9 ▸ hn), s1, h3 _ hs1, o', by rw [← e]; exact h11, h12⟩

/-! ## Objects keep to their keys -/

theorem KeysRight.exec {d : Dict (Obj V)} (h : KeysRight d) {c : Cmd V} (hc : c.Proper) : KeysRight (c.exec d).2 := by
  cases c with
  | get => exact h
  | exist => exact h
  | scan => exact h
  | set k o =>
    intro key o' ho
    change Dict.get? (Dict.set d k o) key = some o' at ho
    rw [Dict.get?_set] at ho
    split at ho
    · next e => subst e; cases ho; exact hc
    · exact h key o' ho
  | del k =>
    intro key o' ho
    change Dict.get? (Dict.erase d k) key = some o' at ho
    rw [Dict.get?_erase] at ho
    split at ho
    · cases ho
    · exact h key o' ho

/-- **C65** Whatever the clients do at the same time, at every moment each object on the server is stored under its own type and unique id. -/
theorem C65_keys_right {s s' : Sys V α} {l : List (Sys V α)} (he : Exec s l s') (hp : ∀ j, (s.cl j).All (Sends Cmd.Proper)) (h : KeysRight s.srv) :
    ∀ s1 ∈ l, KeysRight s1.srv := by
  induction he with
  | done s => intro s1 hs1; rw [List.mem_singleton] at hs1; subst hs1; exact h
  | @step j s s1 s' l hst _ ih =>
    intro s2 hs2
    rw [List.mem_cons] at hs2
    rcases hs2 with rfl | hs2
    · exact h
    · have hj := hp j
      refine ih (fun j' => ?_) ?_ s2 hs2
      · cases hst with
        | cmd hc hs =>
          rw [hc] at hj
          dsimp only
          split
          · cases hj with
            | cmd _ hk => exact hk _ (possible_exec hs _)
          · exact (hp j').see _
        | scanBegins hc =>
          rw [hc] at hj
          dsimp only
          split
          · exact hj
          · exact hp j'
        | scanEnds hc ks h1 h2 =>
          rw [hc] at hj
          dsimp only
          split
          · cases hj with
            | cmd _ hk => exact hk _ (fun x hx => (h2 x hx).2)
          · exact hp j'
      · cases hst with
        | cmd hc hs =>
          rw [hc] at hj
          cases hj with
          | cmd hw _ => exact h.exec hw
        | scanBegins => exact h
        | scanEnds => exact h

/-- **C65** So `get` returns an object of the type and with the unique id that it was asked for. -/
theorem C65_got_what_asked {i : Nat} {s s' : Sys V (Obj V)} {l : List (Sys V (Obj V))} (he : Exec s l s') (hp : ∀ j, (s.cl j).All (Sends Cmd.Proper)) (hk : KeysRight s.srv)
    {A : Adapter V} {sid t u : String} (hs : Plain sid) (ht : Plain t) (h : s.cl i = .at (pGet A sid t u)) {o : Obj V} (hr : s'.cl i = .at (.ret (.ok o))) :
    o.m.type = t ∧ o.m.uid = u := by
  rcases C65_get he h hr with ⟨s1, hs1, o', h1, h2⟩ | ⟨_, _, _, h2⟩
  · cases h2
    obtain ⟨sid', h3, h4, h5, _⟩ := C65_keys_right he hp hk s1 hs1 _ _ h1
    obtain ⟨_, e1, e2⟩ := redisKey_inj hs h3 ht h4 h5
    exact ⟨e1.symm, e2.symm⟩
  · cases h2

/-- The methods store objects under their own type and unique id. -/
theorem C65_methods_proper (A : Adapter V) {sid : String} (hs : Plain sid) :
    (∀ t u, Sends Cmd.Proper (pGet A sid t u)) ∧ (∀ t, Sends Cmd.Proper (pGetAll A sid t)) ∧ (∀ us t, Sends Cmd.Proper (pGetByUids A sid us t)) ∧
      (∀ o : Obj V, Plain o.m.type → Sends Cmd.Proper (pAdd sid o)) ∧ (∀ o : Obj V, Plain o.m.type → Sends Cmd.Proper (pUpdate sid o)) ∧
      (∀ n m rc, Sends Cmd.Proper (pRemove A sid n m rc)) ∧ (∀ a, Sends Cmd.Proper (pCount (V := V) sid a)) ∧ Sends Cmd.Proper (pModelNames (V := V) sid) :=
  ⟨fun _ _ => .load trivial, fun _ => .cmd trivial (fun _ _ => .mapEach fun _ _ => .load trivial), fun _ _ => .getByUids fun _ _ => trivial,
    fun o ho => .add trivial ⟨sid, hs, ho, rfl, rfl⟩, fun o ho => .update ⟨sid, hs, ho, rfl, rfl⟩, fun n m rc => .remove (fun _ _ => ⟨trivial, trivial, trivial⟩) n m rc,
    fun a => by cases a <;> exact .cmd trivial (fun _ _ => .ret _), .cmd trivial (fun _ _ => .ret _)⟩

end DS
