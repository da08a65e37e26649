import Verif.Lemmas.SyncTrace
import Verif.Props.Store
/-! `perform_sync` and `sync_from` as a whole. -/
set_option linter.unusedSectionVars false

namespace DS
variable {V E : Type} [PyVal V]

section
variable {A : Adapter V} {Gr : Key → Key → Prop} {SkipK X : Key → Prop} {Fin : Event V → Prop}

theorem FrameEnv.sub {es es' : List (Elem V)} (h : FrameEnv A Gr SkipK X Fin es) (hs : ∀ x, InTree x es' → InTree x es) : FrameEnv A Gr SkipK X Fin es' where
  valid := h.valid
  plain e he := h.plain e (hs e he)
  del e he := h.del e (hs e he)
  ids e he := h.ids e (hs e he)
  dflt := h.dflt
  closed := h.closed
  root e he := h.root e (hs e he)
  edge e he := h.edge e (hs e he)

theorem inTree_single {e x : Elem V} {l : List (Elem V)} (he : e ∈ l) (h : InTree x [e]) : InTree x l :=
  h.mono (fun _ h => by rw [List.mem_singleton] at h; rw [h]; exact he)
end

section
variable {S : SyncCtx V E}
  {b : Ref} {X : Key → Prop} {Gr : Key → Key → Prop} {SkipK : Key → Prop} {Fin : Event V → Prop} {D : Prop} {N : Key → Option Nat}

theorem GPar.none (k : Key) (w : World V E) : GPar S.dst b Gr none k w := by
  refine ⟨?_, ?_⟩
  · intro _ h; cases h
  · intro _ _ _ h; cases h

/-- A list of elements at the top. -/
theorem syncList_fr {n : Nat} {l : List (Elem V)} {acc : Bool} {w w' : World V E} {res : Except Err Bool}
    (h : KidsRun (fun k w w' res => syncElem S n k none w = (res, w')) l acc w w' res) (env : FrameEnv S.dst Gr SkipK X Fin l)
    (hi : GInv S.dst Gr SkipK w) (hb : b ≤ w.next) (hfin : NewIn Fin w w') : GFr S.dst b (keysOf S.dst l) (fun _ => False) X Gr SkipK w w' := by
  refine kidsRun_gfr (Q := fun _ _ => True) ?_ (fun _ _ _ _ _ _ => trivial) (kidsRun_fin (S := S) n h hi.refs hfin) hi hb (fun _ _ => trivial)
  intro e he w w' res hr hi hb _
  exact (syncElem_fr (S := S) n e none w w' res hr.1 (env.sub (fun x hx => inTree_single he hx)) hi hb (fun k _ => GPar.none k w) hr.2).mono
    (fun a k ⟨x, h1, h2, h3⟩ => ⟨x, inTree_single he h1, h2, h3⟩) (fun _ h => by cases h)

theorem syncList_tr (hreo : D → S.dc.Reorders) {n : Nat} {l : List (Elem V)} {acc : Bool} {w w' : World V E} {res : Except Err Bool}
    (h : KidsRun (fun k w w' res => syncElem S n k none w = (res, w')) l acc w w' res) (env : FrameEnv S.dst Gr SkipK X Fin l)
    (hi : GInv S.dst Gr SkipK w) (hD : D → DistinctKeys S.dst l ∧ Agree S.dst N X w l) (hfin : NewIn Fin w w') :
    ∃ evs y, w'.trace = w.trace ++ evs ∧ Tr (trOf S D N X SkipK w.stotal) l w.sproc evs w'.sproc y ∧ res = orRes acc y ∧ w'.stotal = w.stotal := by
  replace h := kidsRun_fin (S := S) n h hi.refs hfin
  clear hfin
  induction h with
  | nil => exact ⟨[], _, by simp, .nil, by simp [orRes], rfl⟩
  | @err k l acc w1 w2 x h1 =>
    have ek := env.sub (es' := [k]) (fun x hx => inTree_single (by simp) hx)
    obtain ⟨evs, t1, t2, t3⟩ := syncElem_tr (S := S) hreo (b := w1.next) n k none w1 w2 _ h1.1 ek hi (Nat.le_refl _) (fun k _ => GPar.none k w1)
      (fun d => ⟨(hD d).1.cons.1, (hD d).2.mono (fun x hx => inTree_single (by simp) hx)⟩) h1.2
    exact ⟨evs, _, t1, t2.cons_err l, rfl, t3⟩
  | @cons k l acc w1 w3 w4 bb res h1 h2 ih =>
    have ek := env.sub (es' := [k]) (fun x hx => inTree_single (by simp) hx)
    obtain ⟨evs, t1, t2, t3⟩ := syncElem_tr (S := S) hreo (b := w1.next) n k none w1 w3 _ h1.1 ek hi (Nat.le_refl _) (fun k _ => GPar.none k w1)
      (fun d => ⟨(hD d).1.cons.1, (hD d).2.mono (fun x hx => inTree_single (by simp) hx)⟩) h1.2
    have f := syncElem_fr (S := S) (b := w1.next) n k none w1 w3 _ h1.1 ek hi (Nat.le_refl _) (fun k _ => GPar.none k w1) h1.2
    obtain ⟨evs2, y0, u1, u2, u3, u4⟩ := ih (env.sub (fun x hx => hx.mono (fun _ h => by simp [h]))) f.inv
      (fun d => ⟨(hD d).1.cons.2.1, ((hD d).2.mono (fun x hx => hx.mono (fun _ h => by simp [h]))).move hi f
        (fun x hx kx hkx a ⟨z, hz, _, hzk⟩ => (hD d).1.cons.2.2 z kx hz hzk x hx hkx)⟩)
    rw [t3] at u2 u4
    exact ⟨evs ++ evs2, _, by rw [u1, t1, List.append_assoc], t2.cons u2, by rw [u3, orRes_orRes], u4⟩
end

/-! ## the sets a sync starts with -/

theorem SInv.start {A : Adapter V} {sid : Nat} (hA : A.ref.store = .local sid) {w : World V E} (hw : w.OK) (hin : Instances A sid w) (hv : A.Valid)
    (hk : ∀ t u m, (snap A w).find t u = some m → (Dict.keys m.cls.children).Nodup) (es : List (Elem V)) :
    SInv A sid (EdgeIn A (snap A w) es) (SkipsChildren A (snap A w)) w where
  ok := hw
  inst := hin
  edges t u r hf c hc := by
    have hs : (snap A w).find t u = some (w.heap r).m := by unfold snap; rw [hA]; simp [hf]
    exact .inl ⟨_, hs, (mem_childRefs (hk _ _ _ hs) c.1 c.2).1 hc⟩
  skip t u r hf h := .inl ⟨(w.heap r).m, by unfold snap; rw [hA]; simp [hf], h⟩

theorem SyncReady.dst {A : Adapter V} {sid : Nat} {w : World V E} (h : SyncReady A sid w) : DstReady A w where
  valid := h.valid
  ok := h.ok
  inst t u m c hf hc := by
    unfold snap at hf; rw [h.store] at hf
    obtain ⟨r, h1, rfl⟩ := Option.map_eq_some_iff.1 hf
    exact h.inst _ _ _ _ h1 hc
  children := h.children
  redis s hs := by rw [h.store] at hs; cases hs

theorem DstReady.syncReady {A : Adapter V} {sid : Nat} {w : World V E} (h : DstReady A w) (hA : A.ref.store = .local sid) : SyncReady A sid w where
  store := hA
  valid := h.valid
  ok := h.ok
  inst t u r c hf hc := h.inst t u _ c (by unfold snap; rw [hA]; simp [hf]) hc
  children := h.children

theorem GInv.start {A : Adapter V} {w : World V E} (hr : DstReady A w) (es : List (Elem V)) :
    GInv A (EdgeIn A (snap A w) es) (SkipsChildren A (snap A w)) w := by
  cases hA : A.ref.store with
  | «local» sid => exact (GInv.local hA).2 (SInv.start hA hr.ok (hr.syncReady hA).inst hr.valid hr.children es)
  | redis sid =>
    obtain ⟨h1, h2⟩ := hr.redis sid hA
    have hf : ∀ t u o, Plain t → Dict.get? w.redis (redisKey sid t u) = some o → (snap A w).find t u = some o.m := by
      intro t u o hp ho
      unfold snap; rw [hA]
      dsimp only
      rw [if_pos hp, ho]; rfl
    refine (GInv.redis hA).2 ⟨hr.ok.refs_lt, h1, h2, fun t u o c hp ho hc => hr.inst t u _ c (hf t u o hp ho) hc, fun t u o hp ho c hc => ?_, fun t u o hp ho h => ?_⟩
    · have hs := hf t u o hp ho
      exact .inl ⟨_, hs, (mem_childRefs (hr.children _ _ _ hs) c.1 c.2).1 hc⟩
    · exact .inl ⟨_, hf t u o hp ho, h⟩

theorem FrameEnv.start {A : Adapter V} (hv : A.Valid) (D : Snap V) {es : List (Elem V)} (hp : PlainUpdates A es) (hd : DelClosed es) (hk : KeptIds A es) (evs : List (Event V)) :
    FrameEnv A (EdgeIn A D es) (SkipsChildren A D) (TakenAlong A D es evs) (· ∈ evs) es where
  valid := hv
  plain := hp
  del := hd
  ids := hk
  dflt t u c hc hf := .inr ⟨c, hc, hf⟩
  closed k k' h1 h2 := .down h1 h2
  root e he ha k hk hs ho := .root he ha hk hs ho
  edge e he e' he' k k' h1 h2 := .inr ⟨e, e', he, he', h1, h2⟩

theorem flagsAt_local {A : Adapter V} {sid : Nat} (hA : A.ref.store = .local sid) (w : World V E) (k : Key) :
    (snap A w).flagsAt k = (findRef w sid k.1 k.2).map (fun r => (w.heap r).m.flags) := by
  unfold Snap.flagsAt snap; rw [hA]; simp [Option.map_map]; rfl

theorem snap_local_find {A : Adapter V} {sid : Nat} (hA : A.ref.store = .local sid) (w : World V E) (t u : String) :
    (snap A w).find t u = (findRef w sid t u).map (fun r => (w.heap r).m) := by
  unfold snap; rw [hA]

/-! ## before syncing -/

/-- Only progress reports of the comparison. -/
def OnlyDiffProgress (evs : List (Event V)) : Prop := ∀ ev ∈ evs, ∃ a b, ev = .diffProgress a b

theorem Chain.only {tot a c : Nat} {evs : List (Event V)} (h : Chain tot a evs c) : OnlyDiffProgress evs := by
  induction h with
  | nil => intro ev h; cases h
  | step _ _ ih =>
    intro ev hev
    rcases List.mem_cons.1 hev with rfl | hev
    · exact ⟨_, _, rfl⟩
    · exact ih ev hev

theorem DRel.still' {dst src : Adapter V} {w w' : World V E} (h : DRel (startDiff dst src w) w') :
    Still w w' ∧ w'.env = w.env ∧ ∃ evs, w'.trace = w.trace ++ evs ∧ OnlyDiffProgress evs := by
  refine ⟨⟨h.next_le, h.redis_eq, fun s t => h.tbl_eq s t, fun s hs => (h.touched s).wf hs, fun r hr => by rw [h.heap_eq r hr]; rfl⟩, h.env_eq, ?_⟩
  obtain ⟨evs, h1, h2⟩ := h.trace
  exact ⟨evs, h1, h2.only⟩

/-- The state in which the elements of the diff are visited. -/
def startSync (d : Diff V) (w : World V E) : World V E := { w with sproc := 0, stotal := d.len, sact := none, scls := none, slog := ⟨none, "", ""⟩ }

theorem startSync_still (d : Diff V) (w : World V E) : Still w (startSync d w) := Still.of_eq (w := w) (w' := startSync d w) rfl rfl rfl rfl

theorem syncElem_list {S : SyncCtx V E} (n : Nat) (l : List (Elem V)) (acc : Bool) (w : World V E) (hw : RefsLt w) :
    KidsRun (fun k w w' res => syncElem S n k none w = (res, w')) l acc w (M.orEach (fun e => syncElem S n e none) l acc w).2
      (M.orEach (fun e => syncElem S n e none) l acc w).1 :=
  (orEach_kidsRun (I := RefsLt) (fun e w hw => ⟨rfl, (syncElem_grows (S := S) n e none w hw).refs hw⟩) l acc w hw).1

/-- The world at the end of a sync that did not raise. -/
def World.complete (w : World V E) (ch : Bool) (dst src : Adapter V) : World V E :=
  if ch then { w with trace := w.trace ++ [.syncComplete dst.ref.id src.ref.id] } else w

theorem Diff.truthy_iff (d : Diff V) : d.truthy = true ↔ d.len ≠ 0 := by unfold Diff.truthy; simp

/-- `sync_from`, split: nothing is touched before the elements of the diff used are visited. -/
theorem syncFrom_cases (n rl : Nat) (hooks : Hooks V E) (dst src : Adapter V) (dc : DiffClass V) (flags : Nat) (diff : Option (Diff V)) (w : World V E)
    (hw : RefsLt w) (hwf : TblWF w) :
    (∃ x w', syncFrom n rl hooks dst src dc flags diff w = (.error x, w') ∧ Still w w' ∧ (∃ evs, w'.trace = w.trace ++ evs ∧ OnlyDiffProgress evs) ∧
      ((∃ d, diff = some d ∧ d.len ≠ 0 ∧ d.cls.bases.contains dc.id = false ∧ x = .diffClassMismatch ∧ w' = w) ∨
        ((∀ d, diff = some d → d.len = 0) ∧ diffFrom n dst src dc flags w = (.error x, w')))) ∨
    ∃ d w0 evs0 res w1, UsedDiff n dst src dc flags diff w d ∧ Still w w0 ∧ w0.env = w.env ∧ w0.trace = w.trace ++ evs0 ∧ OnlyDiffProgress evs0 ∧
      ((diff = some d → d.len ≠ 0 → w0 = w) ∧ ∀ r, r < w.next → w0.heap r = w.heap r) ∧ (∀ d', diff = some d' → d'.len ≠ 0 → d'.cls.bases.contains dc.id = true) ∧
      M.orEach (fun e => syncElem ⟨src, dst, flags, d.cls, hooks, rl⟩ n e none) (getChildren d.cls d.kids) false (startSync d w0) = (res, w1) ∧
      syncFrom n rl hooks dst src dc flags diff w = match res with
        | .error x => (.error x, w1)
        | .ok ch => (.ok d, w1.complete ch dst src) := by
  have comp : (∀ d', diff = some d' → d'.len = 0) →
      (∃ x w', syncFrom n rl hooks dst src dc flags diff w = (.error x, w') ∧ Still w w' ∧ (∃ evs, w'.trace = w.trace ++ evs ∧ OnlyDiffProgress evs) ∧
        ((∃ d, diff = some d ∧ d.len ≠ 0 ∧ d.cls.bases.contains dc.id = false ∧ x = .diffClassMismatch ∧ w' = w) ∨
        ((∀ d, diff = some d → d.len = 0) ∧ diffFrom n dst src dc flags w = (.error x, w')))) ∨
      ∃ d w0 evs0 res w1, UsedDiff n dst src dc flags diff w d ∧ Still w w0 ∧ w0.env = w.env ∧ w0.trace = w.trace ++ evs0 ∧ OnlyDiffProgress evs0 ∧
        ((diff = some d → d.len ≠ 0 → w0 = w) ∧ ∀ r, r < w.next → w0.heap r = w.heap r) ∧ (∀ d', diff = some d' → d'.len ≠ 0 → d'.cls.bases.contains dc.id = true) ∧
        M.orEach (fun e => syncElem ⟨src, dst, flags, d.cls, hooks, rl⟩ n e none) (getChildren d.cls d.kids) false (startSync d w0) = (res, w1) ∧
        syncFrom n rl hooks dst src dc flags diff w = match res with
          | .error x => (.error x, w1)
          | .ok ch => (.ok d, w1.complete ch dst src) := by
    intro hz
    have hck : (checkDiffClass dc diff : M V E Unit) = pure () := by
      unfold checkDiffClass
      cases diff with
      | none => rfl
      | some d => simp [Diff.truthy, hz d rfl]
    have hch : (chooseDiff n dst src dc flags diff : M V E (Diff V)) = diffFrom n dst src dc flags := by
      unfold chooseDiff
      cases diff with
      | none => rfl
      | some d => simp [Diff.truthy, hz d rfl]
    have hd := (diffFrom_drel n dst src dc flags w hw hwf).1.still'
    have hhp : ∀ r, r < w.next → (diffFrom n dst src dc flags w).2.heap r = w.heap r := (diffFrom_drel n dst src dc flags w hw hwf).1.heap_eq
    unfold syncFrom
    rw [hck, hch, M.pure_bind']
    cases hdf : diffFrom n dst src dc flags w with
    | mk y w0 =>
      rw [hdf] at hd hhp
      obtain ⟨h1, h2, evs0, h3, h4⟩ := hd
      cases y with
      | error x => exact .inl ⟨x, w0, M.bind_err hdf, h1, ⟨evs0, h3, h4⟩, .inr ⟨hz, rfl⟩⟩
      | ok d =>
        right
        rw [M.bind_ok hdf]
        cases hr : M.orEach (fun e => syncElem ⟨src, dst, flags, d.cls, hooks, rl⟩ n e none) (getChildren d.cls d.kids) false (startSync d w0) with
        | mk res w1 =>
          refine ⟨d, w0, evs0, res, w1, .inr ⟨hz, by rw [hdf]⟩, h1, h2, h3, h4, ⟨fun h5 h6 => absurd (hz d h5) h6, hhp⟩, fun d' h5 h6 => absurd (hz d' h5) h6, hr, ?_⟩
          have hp : performSync ⟨src, dst, flags, d.cls, hooks, rl⟩ n d w0 = (res, w1) := by
            unfold performSync
            rw [M.modify_bind]
            exact hr
          cases res with
          | error x => exact M.bind_err hp
          | ok ch =>
            rw [M.bind_ok hp]
            cases ch <;> rfl
  by_cases hz : ∀ d', diff = some d' → d'.len = 0
  · exact comp hz
  · cases diff with
    | none => exact absurd (fun d' h => by cases h) hz
    | some d =>
      have hl : d.len ≠ 0 := fun h => hz (fun d' hd' => by cases hd'; exact h)
      have ht : d.truthy = true := d.truthy_iff.2 hl
      unfold syncFrom
      by_cases hc : d.cls.bases.contains dc.id = true
      · right
        have hck : (checkDiffClass dc (some d) : M V E Unit) = pure () := by
          simp only [checkDiffClass, ht, hc]; rfl
        have hch : (chooseDiff n dst src dc flags (some d) : M V E (Diff V)) = pure d := by
          simp only [chooseDiff, ht]; rfl
        rw [hck, hch, M.pure_bind', M.pure_bind']
        cases hr : M.orEach (fun e => syncElem ⟨src, dst, flags, d.cls, hooks, rl⟩ n e none) (getChildren d.cls d.kids) false (startSync d w) with
        | mk res w1 =>
          refine ⟨d, w, [], res, w1, .inl ⟨rfl, hl⟩, Still.refl w, rfl, by simp, fun _ h => (by cases h), ⟨fun _ _ => rfl, fun _ _ => rfl⟩, fun d' h5 _ => by cases h5; exact hc, hr, ?_⟩
          have hp : performSync ⟨src, dst, flags, d.cls, hooks, rl⟩ n d w = (res, w1) := by
            unfold performSync
            rw [M.modify_bind]
            exact hr
          cases res with
          | error x => exact M.bind_err hp
          | ok ch =>
            rw [M.bind_ok hp]
            cases ch <;> rfl
      · left
        have hc' : d.cls.bases.contains dc.id = false := by simpa using hc
        have hck : (checkDiffClass dc (some d) : M V E Unit) = M.raise .diffClassMismatch := by
          simp only [checkDiffClass, ht, hc']; rfl
        rw [hck, M.raise_bind]
        exact ⟨_, w, rfl, Still.refl w, ⟨[], by simp, fun _ h => by cases h⟩, .inl ⟨d, rfl, hl, hc', rfl, rfl⟩⟩

theorem UsedDiff.unique {n : Nat} {dst src : Adapter V} {dc : DiffClass V} {flags : Nat} {diff : Option (Diff V)} {w : World V E} {d d' : Diff V}
    (h : UsedDiff n dst src dc flags diff w d) (h' : UsedDiff n dst src dc flags diff w d') : d = d' := by
  rcases h with ⟨h1, h2⟩ | ⟨h1, h2⟩ <;> rcases h' with ⟨h3, h4⟩ | ⟨h3, h4⟩
  · rw [h1] at h3; cases h3; rfl
  · exact absurd (h3 d h1) h2
  · exact absurd (h1 d' h3) h4
  · rw [h2] at h4; cases h4; rfl

theorem keysOf_mono {A : Adapter V} {es es' : List (Elem V)} (h : ∀ x, InTree x es → InTree x es') {a : Option Action} {k : Key} (hk : keysOf A es a k) :
    keysOf A es' a k := by
  obtain ⟨x, h1, h2⟩ := hk; exact ⟨x, h x h1, h2⟩

theorem World.complete_still (w : World V E) (ch : Bool) (dst src : Adapter V) : Still w (w.complete ch dst src) := by
  unfold World.complete; split
  · exact Still.emit w _
  · exact Still.refl w

/-- What a sync that got as far as applying its diff has done. -/
structure Ran (n rl : Nat) (hooks : Hooks V E) (dst src : Adapter V) (flags : Nat) (D : Prop) (d : Diff V) (w w' : World V E)
    (res : Except Err (Diff V)) (evs0 evs : List (Event V)) (p : Nat) (y : Except Err Bool) : Prop where
  only : OnlyDiffProgress evs0
  trace : w'.trace = w.trace ++ (evs0 ++ (evs ++ if y = .ok true then [.syncComplete dst.ref.id src.ref.id] else []))
  res_eq : res = y.map (fun _ => d)
  frame : GFrame dst w.next (keysOf dst d.kids) (fun _ => False) (TakenAlong dst (snap dst w) d.kids evs) (· ∈ evs) w w'
  inv : GInv dst (EdgeIn dst (snap dst w) d.kids) (SkipsChildren dst (snap dst w)) w'
  tr : Tr (trOf ⟨src, dst, flags, d.cls, hooks, rl⟩ D (snap dst w).flagsAt (TakenAlong dst (snap dst w) d.kids evs) (SkipsChildren dst (snap dst w)) d.len)
    (getChildren d.cls d.kids) 0 evs p y

theorem syncFrom_run_fresh {n rl : Nat} {hooks : Hooks V E} {dst src : Adapter V} {dc : DiffClass V} {flags : Nat} {diff : Option (Diff V)} {w w' : World V E}
    {res : Except Err (Diff V)} {d : Diff V} (hr : DstReady dst w) (hu : UsedDiff n dst src dc flags diff w d) (hg : GoodDiff dst d.kids)
    {D : Prop} (hD : D → d.cls.Reorders ∧ DistinctKeys dst d.kids)
    (h : syncFrom n rl hooks dst src dc flags diff w = (res, w')) :
    (res = .error .diffClassMismatch ∧ w' = w ∧ diff = some d ∧ d.cls.bases.contains dc.id = false ∧ d.len ≠ 0) ∨
    ∃ evs0 evs p y, Ran n rl hooks dst src flags D d w w' res evs0 evs p y ∧ (diff = some d → d.len ≠ 0 → evs0 = []) := by
  rcases syncFrom_cases n rl hooks dst src dc flags diff w hr.ok.refs_lt hr.ok.tbl_wf with ⟨x, w1, h1, h2, h3, h4⟩ | ⟨d', w0, evs0, y, w1, h1, h2, h3, h4, h5, h6, hcl, h7, h8⟩
  · left
    rw [h] at h1
    cases h1
    rcases h4 with ⟨d', h5, h6, h7, h8, h9⟩ | ⟨h5, h6⟩
    · rcases hu with ⟨u1, u2⟩ | ⟨u1, u2⟩
      · rw [h5] at u1; cases u1; exact ⟨by rw [h8], h9, h5, h7, u2⟩
      · exact absurd (u1 d' h5) h6
    · rcases hu with ⟨u1, u2⟩ | ⟨u1, u2⟩
      · exact absurd (h5 d u1) u2
      · rw [h6] at u2; cases u2
  · right
    cases hu.unique h1
    have hs : Still w (startSync d w0) := h2.trans (startSync_still d w0)
    have hsub : ∀ x, InTree x (getChildren d.cls d.kids) → InTree x d.kids := fun x hx => hx.mono (fun k hk => mem_of_getChildren hk)
    have inv := GInv.start hr d.kids
    have hrun := syncElem_list (S := ⟨src, dst, flags, d.cls, hooks, rl⟩) n (getChildren d.cls d.kids) false (startSync d w0) (hs.grows.refs hr.ok.refs_lt)
    rw [h7] at hrun
    dsimp only at hrun
    obtain ⟨evs, hevs⟩ := kidsRun_ext (S := ⟨src, dst, flags, d.cls, hooks, rl⟩) n (syncElem_ext n) hrun (hs.grows.refs hr.ok.refs_lt)
    have hfin : NewIn (· ∈ evs) (startSync d w0) w1 := fun evs' he ev hev => by rw [List.append_cancel_left (hevs.symm.trans he)]; exact hev
    have env := FrameEnv.start hr.valid (snap dst w) hg.plain hg.del hg.ids evs
    have hf := syncList_fr (S := ⟨src, dst, flags, d.cls, hooks, rl⟩) (b := w.next) hrun (env.sub hsub) (hs.ginv inv) hs.next_le hfin
    have hag : Agree dst (snap dst w).flagsAt (TakenAlong dst (snap dst w) d.kids evs) w d.kids := by
      intro x _ k _
      unfold Snap.flagsAt
      exact ⟨fun m hm => by rw [hm]; rfl, fun hn => .inl (by rw [hn]; rfl)⟩
    obtain ⟨evs2, y0, t1, t2, t3, t4⟩ := syncList_tr (S := ⟨src, dst, flags, d.cls, hooks, rl⟩) (D := D) (N := (snap dst w).flagsAt) (fun hd => (hD hd).1) hrun (env.sub hsub)
      (hs.ginv inv) (fun hd => ⟨(hD hd).2.perm (getChildren_perm (hD hd).1 d.kids).symm, (hag.still inv hs (evs := evs0) h4).mono hsub⟩) hfin
    rw [orRes_false] at t3
    subst t3
    have f3 := hf.inv
    obtain ⟨evs', f1, f2⟩ := hf.frame
    have he : evs' = evs := List.append_cancel_left (f1.symm.trans hevs)
    have he2 : evs2 = evs := List.append_cancel_left (t1.symm.trans hevs)
    subst he2
    subst he
    have t1' : w1.trace = w.trace ++ (evs0 ++ evs') := by rw [t1]; show w0.trace ++ evs' = _; rw [h4, List.append_assoc]
    have f4 : GFrame dst w.next (keysOf dst d.kids) (fun _ => False) (TakenAlong dst (snap dst w) d.kids evs') (· ∈ evs') w w1 :=
      (hs.gframe (Nat.le_refl _)).trans (f2.mono (fun _ _ hk => keysOf_mono hsub hk)) (Nat.le_refl _)
    have hfresh : diff = some d → d.len ≠ 0 → evs0 = [] := fun g1 g2 => by
      rw [h6.1 g1 g2] at h4
      simpa using h4
    rw [h] at h8
    cases y with
    | error x =>
      cases h8
      exact ⟨evs0, evs', _, _, ⟨h5, by rw [t1']; simp, rfl, f4, f3, t2⟩, hfresh⟩
    | ok ch =>
      cases h8
      have hc := World.complete_still w1 ch dst src
      refine ⟨evs0, evs', _, _, ⟨h5, ?_, rfl, f4.trans (hc.gframe f4.next_le) (Nat.le_refl _), hc.ginv f3, t2⟩, hfresh⟩
      unfold World.complete
      cases ch
      · simp [t1']
      · simp [t1']

theorem syncFrom_run {n rl : Nat} {hooks : Hooks V E} {dst src : Adapter V} {dc : DiffClass V} {flags : Nat} {diff : Option (Diff V)} {w w' : World V E}
    {res : Except Err (Diff V)} {d : Diff V} (hr : DstReady dst w) (hu : UsedDiff n dst src dc flags diff w d) (hg : GoodDiff dst d.kids)
    {D : Prop} (hD : D → d.cls.Reorders ∧ DistinctKeys dst d.kids)
    (h : syncFrom n rl hooks dst src dc flags diff w = (res, w')) :
    (res = .error .diffClassMismatch ∧ w' = w ∧ diff = some d ∧ d.cls.bases.contains dc.id = false ∧ d.len ≠ 0) ∨
    ∃ evs0 evs p y, Ran n rl hooks dst src flags D d w w' res evs0 evs p y := by
  rcases syncFrom_run_fresh hr hu hg hD h with h1 | ⟨evs0, evs, p, y, h1, _⟩
  · exact .inl h1
  · exact .inr ⟨evs0, evs, p, y, h1⟩

end DS
