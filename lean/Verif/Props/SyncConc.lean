import Verif.Lemmas.SyncConc
import Verif.Props.SyncKilled
/-! # C87, C88: syncs into Redis stores at the same time as other clients of the server -/
set_option linter.unusedSectionVars false

namespace DS
variable {V E α : Type} [PyVal V]

/-! ## What a sync sends -/

theorem ClT.performSync {Q : String → Option (Obj V) → Prop} {P : Cmd V → Prop} {g : Prop} {S : SyncCtx V E} {sid : String} {d : Diff V} (hS : S.dst.ref.store = .redis sid)
    (hn : g → ∀ t c, Dict.get? S.dst.classes t = some c → c.name = t) (hq : g → Right sid Q) (hd : g → DelClosed d.kids) (hA : Allows g S sid d.kids Q P) (n : Nat) (w : World V E) :
    ClT Q P (cPerformSync S sid n d) w (fun _ _ => True) := by
  refine .bind (R := fun _ _ => True) (.lift trivial) (fun _ w' _ => ?_) (fun _ _ _ => trivial)
  refine ClT.orEach (I := fun _ => True) (fun e he w _ => ?_) trivial
  exact (ClT.syncElem hS hn hq hd hA n e none w (.here (mem_of_getChildren he)) (fun _ h => by cases h)).mono fun _ _ _ => trivial

theorem sync_about {S : SyncCtx V E} {sid : String} (hS : S.dst.ref.store = .redis sid) (hp : Plain sid) (n : Nat) (d : Diff V) (w : World V E) :
    Sends (Cmd.About (SyncKeys S sid)) (cPerformSync S sid n d w) := by
  refine Talks.sends (ClT.performSync (g := False) hS (fun h => h.elim) (fun h => h.elim) (fun h => h.elim) ?_ n w)
  exact ⟨fun t u => .inl (ofStore_key _ _ _), fun t u => .inl (ofStore_key _ _ _), fun key hk => .inl (scanStore_within (V := V) hp key hk), fun s hs t u => .inr ⟨s, hs, ofStore_key _ _ _⟩,
    fun o _ _ _ => .inl (ofStore_key _ _ _), fun t u _ => .inl (ofStore_key _ _ _)⟩

theorem sync_spares {S : SyncCtx V E} {sid : String} (hS : S.dst.ref.store = .redis sid) (n : Nat) (d : Diff V) (w : World V E) {K : String → Prop} (hK : ∀ key, OfStore sid key → ¬ K key) :
    Sends (Cmd.Spares K) (cPerformSync S sid n d w) := by
  refine Talks.sends (ClT.performSync (g := False) hS (fun h => h.elim) (fun h => h.elim) (fun h => h.elim) ?_ n w)
  exact ⟨fun t u => trivial, fun t u => trivial, trivial, fun s hs t u => trivial, fun o _ _ _ => hK _ (ofStore_key _ _ _), fun t u _ => hK _ (ofStore_key _ _ _)⟩

theorem sync_proper {S : SyncCtx V E} {sid : String} (hS : S.dst.ref.store = .redis sid) (hp : Plain sid) (hv : S.dst.Valid) (ht : ∀ t c, Dict.get? S.dst.classes t = some c → Plain t) (n : Nat) (d : Diff V)
    (w : World V E) : Sends Cmd.Proper (cPerformSync S sid n d w) := by
  refine Talks.sends (ClT.performSync (g := False) hS (fun h => h.elim) (fun h => h.elim) (fun h => h.elim) ?_ n w)
  refine ⟨fun t u => trivial, fun t u => trivial, trivial, fun s hs t u => trivial, fun o ha hc _ => ⟨sid, hp, ?_, rfl, ha⟩, fun t u _ => trivial⟩
  obtain ⟨e, _, _, ⟨_, c, h1, h2⟩, _⟩ := hc
  have : o.m.cls = c := (construct_good (hv.valid _ _ h1) _ h2).1
  unfold Model.type
  rw [this, hv.names _ _ h1]
  exact ht _ _ h1

/-! ## A sync while nobody else writes to its stores -/

section
variable {S : SyncCtx V E} {sid : String} {n : Nat} {d : Diff V} {w : World V E} {i : Nat} {s s' : Sys V (Except Err Bool × World V E)} {l : List (Sys V (Except Err Bool × World V E))}

/-- **C87** A sync into a Redis store, while no other client of the server writes to that store (nor to the source's store, if that is on the server): whatever
the other clients do, and in whatever order the server takes the commands, when the sync ends its result, its client's memory and the contents of these
stores are those of a sync that has the server for itself. -/
theorem C87_isolated (he : Exec s l s') (hi : s.cl i = .at (cPerformSync S sid n d w)) (hS : S.dst.ref.store = .redis sid) (hp : Plain sid)
    (ho : ∀ j, j ≠ i → (s.cl j).All (Sends (Cmd.Spares (SyncKeys S sid)))) {r} (hr : s'.cl i = .at (.ret r)) :
    ∃ res w1, performSync S n d (w.onServer s.srv) = (res, w1) ∧ r = .ok (res, w1.onServer w.redis) ∧
      ∀ key, SyncKeys S sid key → Dict.get? s'.srv key = Dict.get? w1.redis key := by
  obtain ⟨p', d', h1, h2⟩ := sees_exec he (p := cPerformSync S sid n d w) (d := s.srv) (K := SyncKeys S sid) (i := i)
    ⟨by rw [hi]; rfl, sync_about hS hp n d w, ho, fun _ _ => rfl, fun h => by rw [hi] at h; cases h⟩
  have hh := h2.here
  rw [hr] at hh
  cases hh
  obtain ⟨g1, g2⟩ := runs_performSync S hS n d w s.srv _ _ h1
  exact ⟨_, _, rfl, g1, fun key hk => by rw [h2.agree key hk, g2]; rfl⟩

/-- **C87** At every point of such an execution, the contents of these stores are those that a sync leaves that has the server for itself and is killed at some
point (so that C86 says what may be there and what may be missing). -/
theorem C87_meanwhile (he : Exec s l s') (hi : s.cl i = .at (cPerformSync S sid n d w)) (hS : S.dst.ref.store = .redis sid) (hp : Plain sid)
    (ho : ∀ j, j ≠ i → (s.cl j).All (Sends (Cmd.Spares (SyncKeys S sid)))) :
    ∃ d', KilledLeaves (cPerformSync S sid n d w) s.srv d' ∧ ∀ key, SyncKeys S sid key → Dict.get? s'.srv key = Dict.get? d' key := by
  obtain ⟨p', d', h1, h2⟩ := sees_exec he (p := cPerformSync S sid n d w) (d := s.srv) (K := SyncKeys S sid) (i := i)
    ⟨by rw [hi]; rfl, sync_about hS hp n d w, ho, fun _ _ => rfl, fun h => by rw [hi] at h; cases h⟩
  exact ⟨d', ⟨p', h1⟩, h2.agree⟩

end

/-- **C87** Any number of syncs at the same time, each into another Redis store, from local sources or from Redis stores that none of them syncs into, while other clients
write to none of these stores: each sync ends with the result and with the contents that it would have alone. -/
theorem C87_stores_apart {jobs : Nat → Option (SyncJob V E)} {sids : Nat → String} {s s' : Sys V (Except Err Bool × World V E)}
    {l : List (Sys V (Except Err Bool × World V E))} (he : Exec s l s')
    (hi : ∀ j J, jobs j = some J → s.cl j = .at (J.client (sids j)) ∧ J.ctx.dst.ref.store = .redis (sids j) ∧ Plain (sids j))
    (hd : ∀ j k J K, jobs j = some J → jobs k = some K → j ≠ k → sids j ≠ sids k ∧ K.ctx.src.ref.store ≠ .redis (sids j))
    (hsrc : ∀ j J x, jobs j = some J → J.ctx.src.ref.store = .redis x → Plain x)
    (ho : ∀ j k K, jobs j = none → jobs k = some K → (s.cl j).All (Sends (Cmd.Spares (SyncKeys K.ctx (sids k)))))
    {i : Nat} {J : SyncJob V E} (hJ : jobs i = some J) {r} (hr : s'.cl i = .at (.ret r)) :
    ∃ res w1, performSync J.ctx J.depth J.diff (J.mem.onServer s.srv) = (res, w1) ∧ r = .ok (res, w1.onServer J.mem.redis) ∧
      ∀ t u, Dict.get? s'.srv (redisKey (sids i) t u) = Dict.get? w1.redis (redisKey (sids i) t u) := by
  obtain ⟨a1, a2, a3⟩ := hi i J hJ
  obtain ⟨res, w1, h1, h2, h3⟩ := C87_isolated he a1 a2 a3 (fun j hj => by
    cases hK : jobs j with
    | none => exact ho j i J hK hJ
    | some K =>
      obtain ⟨b1, b2, b3⟩ := hi j K hK
      rw [b1]
      refine sync_spares b2 _ _ _ fun key hk hs => ?_
      rcases hs with hs | ⟨x, hx, hs⟩
      · exact (hd j i K J hK hJ hj).1 (ofStore_inj b3 a3 hk hs)
      · exact (hd j i K J hK hJ hj).2 (by rw [hx, ofStore_inj (hsrc i J x hJ hx) b3 hs hk])) hr
  exact ⟨res, w1, h1, h2, fun t u => h3 _ (.inl (ofStore_key _ _ _))⟩

/-! ## Syncs into the same store -/

theorem answer_exec {Q : String → Option (Obj V) → Prop} {c : Cmd V} (hs : ¬ c.isScan) {d : Dict (Obj V)} (h : ∀ key, Q key (Dict.get? d key)) : c.Answer Q (c.exec d).1 := by
  cases c with
  | get key => exact h key
  | scan => exact absurd trivial hs
  | _ => trivial

/-- What is stored changes only by commands that clients send; `I` is an invariant of where the clients are. -/
theorem effects_exec {I : Nat → Stage V α → Prop} {P : Nat → Cmd V → Prop} {M : Sys V α → Prop}
    (hI : ∀ j s s1, M s → M s1 → Move j s s1 → (∀ i, I i (s.cl i)) → ∀ i, I i (s1.cl i)) (hw : ∀ j c k, I j (.at (.cmd c k)) → P j c)
    {s s' : Sys V α} {l : List (Sys V α)} (he : Exec s l s') (hM : ∀ t ∈ l, M t) (h : ∀ j, I j (s.cl j)) :
    ∀ s1 ∈ l, (∀ key o, Dict.get? s1.srv key = some o → Dict.get? s.srv key = some o ∨ ∃ j, P j (.set key o)) ∧
      (∀ key o, Dict.get? s.srv key = some o → Dict.get? s1.srv key = some o ∨ (∃ j, P j (.del key)) ∨ ∃ j o', P j (.set key o')) ∧
      (∀ key o, Dict.get? s.srv key = some o → Dict.get? s1.srv key = none → ∃ j, P j (.del key)) := by
  induction he with
  | done s =>
    intro s1 hs1
    rw [List.mem_singleton] at hs1
    subst hs1
    exact ⟨fun _ _ h => .inl h, fun _ _ h => .inl h, fun _ _ h h' => by rw [h] at h'; cases h'⟩
  | @step j s s1 s' l hst hrest ih =>
    intro s2 hs2
    rw [List.mem_cons] at hs2
    rcases hs2 with rfl | hs2
    · exact ⟨fun _ _ h => .inl h, fun _ _ h => .inl h, fun _ _ h h' => by rw [h] at h'; cases h'⟩
    · have hj := h j
      have hcl := hI j s s1 (hM s (List.mem_cons_self ..)) (hM s1 (List.mem_cons_of_mem _ hrest.first)) hst h
      obtain ⟨i1, i2, i3⟩ := ih (fun t ht => hM t (List.mem_cons_of_mem _ ht)) hcl s2 hs2
      have hsrv : s1.srv = s.srv ∨ (∃ key o, P j (.set key o) ∧ s1.srv = Dict.set s.srv key o) ∨ (∃ key, P j (.del key) ∧ s1.srv = Dict.erase s.srv key) := by
        cases hst with
        | @cmd c k hc hs =>
          rw [hc] at hj
          have hw := hw _ _ _ hj
          cases c with
          | set key o => exact .inr (.inl ⟨key, o, hw, rfl⟩)
          | del key => exact .inr (.inr ⟨key, hw, rfl⟩)
          | get => exact .inl rfl
          | exist => exact .inl rfl
          | scan => exact absurd trivial hs
        | scanBegins => exact .inl rfl
        | scanEnds => exact .inl rfl
      rcases hsrv with e | ⟨k, o1, hP, e⟩ | ⟨k, hP, e⟩
      · rw [e] at i1 i2 i3
        exact ⟨i1, i2, i3⟩
      · rw [e] at i1 i2 i3
        refine ⟨fun key o ho => ?_, fun key o ho => ?_, fun key o ho hn => ?_⟩
        · rcases i1 key o ho with h | h
          · rw [Dict.get?_set] at h
            split at h
            · rename_i hk; cases h; exact .inr ⟨j, hk ▸ hP⟩
            · exact .inl h
          · exact .inr h
        · by_cases hk : k = key
          · exact .inr (.inr ⟨j, o1, hk ▸ hP⟩)
          · exact i2 key o (by rw [Dict.get?_set_ne _ hk]; exact ho)
        · by_cases hk : k = key
          · exact i3 key o1 (by rw [hk, Dict.get?_set_self]) hn
          · exact i3 key o (by rw [Dict.get?_set_ne _ hk]; exact ho) hn
      · rw [e] at i1 i2 i3
        refine ⟨fun key o ho => ?_, fun key o ho => ?_, fun key o ho hn => ?_⟩
        · rcases i1 key o ho with h | h
          · rw [Dict.get?_erase] at h
            split at h
            · cases h
            · exact .inl h
          · exact .inr h
        · by_cases hk : k = key
          · exact .inr (.inl ⟨j, hk ▸ hP⟩)
          · exact i2 key o (by rw [Dict.get?_erase, if_neg (by simpa using hk)]; exact ho)
        · by_cases hk : k = key
          · exact ⟨j, hk ▸ hP⟩
          · exact i3 key o (by rw [Dict.get?_erase, if_neg (by simpa using hk)]; exact ho) hn

/-- What the clients do to the server: nothing but what they are allowed. -/
theorem talks_exec {Q : String → Option (Obj V) → Prop} {P : Nat → Cmd V → Prop} {s s' : Sys V α} {l : List (Sys V α)} (he : Exec s l s') (hQ : ∀ t ∈ l, ∀ key, Q key (Dict.get? t.srv key))
    (h : ∀ j, (s.cl j).All (Talks Q (P j) fun _ => True)) :
    ∀ s1 ∈ l, (∀ key o, Dict.get? s1.srv key = some o → Dict.get? s.srv key = some o ∨ ∃ j, P j (.set key o)) ∧
      (∀ key o, Dict.get? s.srv key = some o → Dict.get? s1.srv key = some o ∨ (∃ j, P j (.del key)) ∨ ∃ j o', P j (.set key o')) ∧
      (∀ key o, Dict.get? s.srv key = some o → Dict.get? s1.srv key = none → ∃ j, P j (.del key)) := by
  refine effects_exec (I := fun j x => x.All (Talks Q (P j) fun _ => True)) (M := fun t => ∀ key, Q key (Dict.get? t.srv key)) (fun j s s1 hq _ hst h j' => ?_)
    (fun j c k hj => by cases hj with | cmd hw _ => exact hw) he hQ h
  have hj := h j
  cases hst with
  | cmd hc hs =>
    rw [hc] at hj
    dsimp only
    split
    · rename_i hjj
      subst hjj
      cases hj with
      | cmd _ hk => exact hk _ (answer_exec hs hq)
    · exact (h j').see _
  | scanBegins hc =>
    rw [hc] at hj
    dsimp only
    split
    · rename_i hjj; subst hjj; exact hj
    · exact h j'
  | scanEnds hc ks h1 h2 =>
    rw [hc] at hj
    dsimp only
    split
    · rename_i hjj
      subst hjj
      cases hj with
      | cmd _ hk => exact hk _ (fun x hx => (h2 x hx).2)
    · exact h j'

/-- What a sync job does to keys of its store. -/
def SyncDoes (Q : String → Option (Obj V) → Prop) (sid : String) (J : SyncJob V E) : Cmd V → Prop
  | .set key o => Q key none ∧ key = redisKey sid o.m.type o.m.uid ∧ ∃ e u, InTree e J.diff.kids ∧ CreatesAs J.ctx.dst e o.m ∧ ElemKey J.ctx.dst e (e.type, u)
  | .del key => (∃ e t u, InTree e J.diff.kids ∧ e.action = some .delete ∧ ElemKey J.ctx.dst e (t, u) ∧ redisKey sid t u = key) ∨
      AlongWith J.ctx.dst (fun key o => Q key (some o)) sid J.diff.kids key
  | _ => True

theorem job_talks {Q : String → Option (Obj V) → Prop} {sid : String} {J : SyncJob V E} (hJ : J.Into sid) (hq : Right sid Q) : Talks Q (SyncDoes Q sid J) (fun _ => True) (J.client sid) := by
  refine ClT.performSync (g := True) hJ.store (fun _ => hJ.valid.names) (fun _ => hq) (fun _ => hJ.diff.del) ?_ J.depth J.mem
  exact ⟨fun _ _ => trivial, fun _ _ => trivial, trivial, fun _ _ _ _ => trivial, fun o _ h1 h2 => ⟨h2, rfl, h1⟩, fun t u h => h trivial⟩

/-- **C88** Any number of syncs into the same Redis store at the same time, each of which may be killed at any point, while other clients do anything but write
to that store: at every time, what is stored under a key of the store was stored there before exactly like that, or is an object, under its own key, that an element of one
of the diffs creates, with the values that the element gives; and what was stored before is still there like that, unless an element of one of the diffs
deletes it, or it goes along with an object flagged SKIP_CHILDREN_ON_DELETE that an element of one of the diffs deletes. -/
theorem C88_same_store {sid : String} {jobs : Nat → Option (SyncJob V E)} {s s' : Sys V (Except Err Bool × World V E)} {l : List (Sys V (Except Err Bool × World V E))} (he : Exec s l s')
    (hp : Plain sid) (hk : KeysRight s.srv) (hj : ∀ j J, jobs j = some J → J.Into sid ∧ s.cl j = .at (J.client sid))
    (ho : ∀ j, jobs j = none → (s.cl j).All (Sends (Cmd.Outside sid)) ∧ (s.cl j).All (Sends Cmd.Proper)) {key : String} (hkey : OfStore sid key) {o : Obj V} :
    (Dict.get? s'.srv key = some o → Dict.get? s.srv key = some o ∨
      key = redisKey sid o.m.type o.m.uid ∧ ∃ j J e, jobs j = some J ∧ InTree e J.diff.kids ∧ ElemKey J.ctx.dst e (o.m.type, o.m.uid) ∧ CreatesAs J.ctx.dst e o.m) ∧
    (Dict.get? s.srv key = some o → Dict.get? s'.srv key = some o ∨ ∃ j J, jobs j = some J ∧
      ((∃ e t u, InTree e J.diff.kids ∧ e.action = some .delete ∧ ElemKey J.ctx.dst e (t, u) ∧ key = redisKey sid t u) ∨
        AlongWith J.ctx.dst (StoredDuring l) sid J.diff.kids key)) := by
  have hprop : ∀ j, (s.cl j).All (Sends Cmd.Proper) := fun j => by
    cases h : jobs j with
    | none => exact (ho j h).2
    | some J =>
      obtain ⟨h1, h2⟩ := hj j J h
      rw [h2]
      exact sync_proper h1.store hp h1.valid h1.plain _ _ _
  have hright := C65_keys_right he hprop hk
  let Q : String → Option (Obj V) → Prop := fun key x => ∃ t ∈ l, Dict.get? t.srv key = x
  have hq : Right sid Q := by
    rintro t u o ⟨x, hx, h⟩
    obtain ⟨sid2, h1, _, h3, _⟩ := hright x hx _ _ h
    have := ofStore_inj hp h1 (ofStore_key sid t u) (h3 ▸ ofStore_key sid2 _ _)
    subst this
    exact h3
  let P : Nat → Cmd V → Prop := fun j c => match jobs j with
    | none => Cmd.Outside sid c
    | some J => SyncDoes Q sid J c
  have hP : ∀ j, (s.cl j).All (Talks Q (P j) fun _ => True) := fun j => by
    show (s.cl j).All (Talks Q (fun c => match jobs j with
      | none => Cmd.Outside sid c
      | some J => SyncDoes Q sid J c) fun _ => True)
    cases h : jobs j with
    | none =>
      have := (ho j h).1
      cases hc : s.cl j with
      | «at» p => rw [hc] at this; exact this.talks
      | scanning => rw [hc] at this; exact this.talks
    | some J =>
      obtain ⟨h1, h2⟩ := hj j J h
      rw [h2]
      exact job_talks h1 hq
  have hset : ∀ j o, P j (.set key o) → ∃ J, jobs j = some J ∧ SyncDoes Q sid J (.set key o) := by
    intro j o hs
    change (match jobs j with
      | none => Cmd.Outside sid _
      | some J => SyncDoes Q sid J _) at hs
    cases h : jobs j with
    | none => rw [h] at hs; exact (hs hkey).elim
    | some J => rw [h] at hs; exact ⟨J, rfl, hs⟩
  have hdel : ∀ j, P j (.del key) → ∃ J, jobs j = some J ∧ SyncDoes Q sid J (.del key) := by
    intro j hs
    change (match jobs j with
      | none => Cmd.Outside sid _
      | some J => SyncDoes Q sid J _) at hs
    cases h : jobs j with
    | none => rw [h] at hs; exact (hs hkey).elim
    | some J => rw [h] at hs; exact ⟨J, rfl, hs⟩
  have hmain := talks_exec he (Q := Q) (P := P) (fun t ht key => ⟨t, ht, rfl⟩) hP
  obtain ⟨m1, m2, _⟩ := hmain s' he.last
  have hgone : (∃ j, P j (.del key)) → ∃ j J, jobs j = some J ∧
      ((∃ e t u, InTree e J.diff.kids ∧ e.action = some .delete ∧ ElemKey J.ctx.dst e (t, u) ∧ key = redisKey sid t u) ∨
        AlongWith J.ctx.dst (StoredDuring l) sid J.diff.kids key) := by
    rintro ⟨j, h⟩
    obtain ⟨J, h1, h2⟩ := hdel j h
    refine ⟨j, J, h1, h2.imp ?_ id⟩
    rintro ⟨e, t, u, a1, a2, a3, a4⟩
    exact ⟨e, t, u, a1, a2, a3, a4.symm⟩
  constructor
  · intro h
    refine (m1 key o h).imp id ?_
    rintro ⟨j, hs⟩
    obtain ⟨J, h1, _, h3, e, u, h4, ⟨h5, c, h6, h7⟩, c', u', h8, h9, h10⟩ := hset j o hs
    have hI := (hj j J h1).1
    rw [h6] at h8
    cases h8
    cases h10
    refine ⟨h3, j, J, e, h1, h4, ⟨c, u, h6, h9, ?_⟩, h5, c, h6, h7⟩
    have hu := construct_uid (hI.valid.valid _ _ h6) h7 (hI.diff.ids e h4 h5 c h6) h9
    have ht : o.m.type = e.type := by
      unfold Model.type
      rw [(construct_good (hI.valid.valid _ _ h6) _ h7).1, hI.valid.names _ _ h6]
    rw [hu, ht]
  · intro h
    rcases m2 key o h with h' | h' | ⟨j, o', hs⟩
    · exact .inl h'
    · exact .inr (hgone h')
    · obtain ⟨J, _, ⟨t, ht, hn⟩, _⟩ := hset j o' hs
      exact .inr (hgone ((hmain t ht).2.2 key o h hn))

/-- **C88** And at every time each object on the server is stored under its own type and unique id, without adapter. -/
theorem C88_keys_right {sid : String} {jobs : Nat → Option (SyncJob V E)} {s s' : Sys V (Except Err Bool × World V E)} {l : List (Sys V (Except Err Bool × World V E))} (he : Exec s l s')
    (hp : Plain sid) (hk : KeysRight s.srv) (hj : ∀ j J, jobs j = some J → J.Into sid ∧ s.cl j = .at (J.client sid))
    (ho : ∀ j, jobs j = none → (s.cl j).All (Sends Cmd.Proper)) : ∀ s1 ∈ l, KeysRight s1.srv := by
  refine C65_keys_right he (fun j => ?_) hk
  cases h : jobs j with
  | none => exact ho j h
  | some J =>
    obtain ⟨h1, h2⟩ := hj j J h
    rw [h2]
    exact sync_proper h1.store hp h1.valid h1.plain _ _ _

end DS
