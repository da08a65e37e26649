import Verif.Lemmas.OpenSync
import Verif.Spec.Open
import Verif.Lemmas.Render
/-! What follows from the grammar of syncs with arbitrary user code. -/
set_option linter.unusedSectionVars false

namespace DS
variable {V E α β : Type} [PyVal V]

/-! ## the events of a comparison -/

/-- Only progress of a comparison is reported. -/
def Compares (w w' : World V E) : Prop := ∃ evs, w'.trace = w.trace ++ evs ∧ ∀ ev ∈ evs, ∃ a b, ev = .diffProgress a b

theorem Compares.preOrd : PreOrd (Compares (V := V) (E := E)) := by
  refine ⟨fun _ => ⟨[], (List.append_nil _).symm, fun _ h => by cases h⟩, fun a b c h k => ?_⟩
  obtain ⟨ws, h1, h2⟩ := h
  obtain ⟨vs, k1, k2⟩ := k
  refine ⟨ws ++ vs, by rw [k1, h1, List.append_assoc], fun ev hm => ?_⟩
  rcases List.mem_append.1 hm with hm | hm
  · exact h2 ev hm
  · exact k2 ev hm

theorem Pres.cmp {m : M V E α} (h : Pres Mute m) : Pres Compares m := fun w => ⟨[], by rw [(h w).trace_eq, List.append_nil], fun _ h => by cases h⟩

theorem mute_getAll (A : Adapter V) (t : String) : Pres Mute (getAll A t : M V E _) := by
  unfold getAll
  split
  · exact Pres.bind Mute.preOrd (mute_localModel _ _) (fun _ => Pres.pure Mute.preOrd _)
  · refine Pres.bind Mute.preOrd (Pres.read Mute.preOrd) (fun w => Pres.mapEach Mute.preOrd _ (fun k _ => ?_))
    intro w
    unfold redisLoad
    split
    · exact mute_alloc _ w
    · exact Mute.preOrd.refl _

theorem mute_derefs (rs : List Ref) : Pres Mute (M.mapEach (fun r => do let o ← deref r; pure o.m) rs : M V E (List (Model V))) :=
  Pres.mapEach Mute.preOrd _ (fun _ _ => Pres.bind Mute.preOrd (mute_deref _) (fun _ => Pres.pure Mute.preOrd _))

theorem mute_getAllModels (A : Adapter V) (t : String) : Pres Mute (getAllModels A t : M V E _) := by
  unfold getAllModels
  exact Pres.bind Mute.preOrd (mute_getAll _ _) (fun rs => mute_derefs rs)

theorem mute_getModelsByUids (A : Adapter V) (us : List String) (t : String) : Pres Mute (getModelsByUids A us t : M V E _) := by
  unfold getModelsByUids getByUids
  exact Pres.bind Mute.preOrd (Pres.mapEach Mute.preOrd _ (fun _ _ => mute_getRaw _ _ _)) (fun rs => mute_derefs rs)

theorem cmp_incrModels (k : Nat) : Pres Compares (incrModels k : M V E Unit) := by
  unfold incrModels
  split
  · exact Pres.pure Compares.preOrd _
  · intro w
    exact ⟨[_], rfl, fun ev h => ⟨_, _, List.mem_singleton.1 h⟩⟩

theorem cmp_childrenMapping (s d : Option (Model V)) : Pres Compares (childrenMapping s d : M V E _) := by
  unfold childrenMapping
  split
  · refine Pres.bind Compares.preOrd (Pres.forEach Compares.preOrd _ (fun p _ => ?_)) (fun _ =>
      Pres.bind Compares.preOrd (Pres.forEach Compares.preOrd _ (fun p _ => ?_)) (fun _ => Pres.pure Compares.preOrd _))
    all_goals
      split
      · exact Pres.pure Compares.preOrd _
      · exact cmp_incrModels _
  · exact Pres.pure Compares.preOrd _
  · exact Pres.pure Compares.preOrd _
  · exact Pres.raise Compares.preOrd _

theorem cmp_childModels (A : Adapter V) (o : Option (Model V)) (ct f : String) : Pres Compares (childModels A o ct f : M V E _) := by
  unfold childModels
  split
  · exact Pres.pure Compares.preOrd _
  · exact Pres.bind Compares.preOrd (Pres.ofOption Compares.preOrd _ _) (fun us => (mute_getModelsByUids _ _ _).cmp)

theorem cmp_diffChildLoop (C : DiffCtx V) {rec : List (Model V) → List (Model V) → M V E (List (Elem V))} (hr : ∀ a b, Pres Compares (rec a b))
    (s d : Option (Model V)) : ∀ (l : Dict String) (kids : List (Elem V)), Pres Compares (diffChildLoop C rec s d l kids)
  | [], _ => Pres.pure Compares.preOrd _
  | (ct, f) :: rest, kids => by
    unfold diffChildLoop
    exact Pres.bind Compares.preOrd (cmp_childModels _ _ _ _) (fun so => Pres.bind Compares.preOrd (cmp_childModels _ _ _ _) (fun d' =>
      Pres.bind Compares.preOrd (hr _ _) (fun es => Pres.bind Compares.preOrd (Pres.ofExcept Compares.preOrd _) (fun _ => cmp_diffChildLoop C hr s d rest _))))

theorem cmp_diffPair (C : DiffCtx V) {rec : List (Model V) → List (Model V) → M V E (List (Elem V))} (hr : ∀ a b, Pres Compares (rec a b))
    (s d : Option (Model V)) : Pres Compares (diffPair C rec s d) := by
  unfold diffPair
  split
  · exact Pres.raise Compares.preOrd _
  · split
    · exact Pres.bind Compares.preOrd (cmp_incrModels _) (fun _ => Pres.pure Compares.preOrd _)
    · exact Pres.bind Compares.preOrd (cmp_incrModels _) (fun _ => Pres.bind Compares.preOrd (cmp_childrenMapping _ _) (fun m =>
        Pres.bind Compares.preOrd (cmp_diffChildLoop C hr _ _ _ _) (fun _ => Pres.pure Compares.preOrd _)))

theorem cmp_diffPairs {pair : Option (Model V) → Option (Model V) → M V E (Option (Elem V))} (hp : ∀ s d, Pres Compares (pair s d)) :
    ∀ (l : List (Option (Model V) × Option (Model V))), Pres Compares (diffPairs pair l)
  | [] => Pres.pure Compares.preOrd _
  | (s, d) :: ps => by
    unfold diffPairs
    exact Pres.bind Compares.preOrd (hp _ _) (fun e => Pres.bind Compares.preOrd (cmp_diffPairs hp ps) (fun _ => Pres.pure Compares.preOrd _))

theorem cmp_diffList (C : DiffCtx V) : ∀ (n : Nat) (s d : List (Model V)), Pres Compares (diffList C n s d : M V E _)
  | 0, _, _ => Pres.raise Compares.preOrd _
  | n + 1, s, d => by
    unfold diffList
    exact Pres.bind Compares.preOrd (cmp_incrModels _) (fun _ => Pres.bind Compares.preOrd (Pres.ofExcept Compares.preOrd _) (fun _ =>
      cmp_diffPairs (fun s d => cmp_diffPair C (cmp_diffList C n) s d) _))

theorem cmp_countSkippedType (C : DiffCtx V) (t : String) : Pres Compares (countSkippedType C t : M V E Unit) := by
  unfold countSkippedType
  split
  · exact Pres.bind Compares.preOrd (mute_getAll _ _).cmp (fun _ => cmp_incrModels _)
  · split
    · exact Pres.bind Compares.preOrd (mute_getAll _ _).cmp (fun _ => cmp_incrModels _)
    · exact Pres.pure Compares.preOrd _

theorem cmp_diffTypes (C : DiffCtx V) (n : Nat) : ∀ (l : List String) (kids : List (Elem V)), Pres Compares (diffTypes C n l kids : M V E _)
  | [], _ => Pres.pure Compares.preOrd _
  | t :: ts, kids => by
    unfold diffTypes
    exact Pres.bind Compares.preOrd (mute_getAllModels _ _).cmp (fun s => Pres.bind Compares.preOrd (mute_getAllModels _ _).cmp (fun d =>
      Pres.bind Compares.preOrd (cmp_diffList C n s d) (fun es => Pres.bind Compares.preOrd (Pres.ofExcept Compares.preOrd _) (fun _ => cmp_diffTypes C n ts _))))

theorem cmp_diffFrom (n : Nat) (dst src : Adapter V) (dc : DiffClass V) (flags : Nat) : Pres Compares (diffFrom n dst src dc flags : M V E _) := by
  unfold diffFrom
  have hlen : ∀ A : Adapter V, Pres Compares (lenAdapter A : M V E _) := fun A w => Compares.preOrd.refl _
  refine Pres.bind Compares.preOrd (hlen _) (fun ls => Pres.bind Compares.preOrd (hlen _) (fun ld => Pres.bind Compares.preOrd
    (Pres.modify (fun w => ⟨[], (List.append_nil _).symm, fun _ h => by cases h⟩)) (fun _ => ?_)))
  exact Pres.bind Compares.preOrd (Pres.forEach Compares.preOrd _ (fun t _ => cmp_countSkippedType _ t)) (fun _ =>
    Pres.bind Compares.preOrd (cmp_diffTypes _ _ _ _) (fun kids => Pres.bind Compares.preOrd (Pres.read Compares.preOrd) (fun _ => Pres.pure Compares.preOrd _)))

/-! ## a whole run -/

/-- A sync that went as far as applying the diff. -/
structure ORan (rl : Nat) (hooks : OpenHooks V E) (dst src : Adapter V) (flags : Nat) (d : Diff V) (w w' : World V E) (res : Except Err (Diff V))
    (evs0 evs : List (Event V)) (p : Nat) (y : Except Err Bool) : Prop where
  only : ∀ ev ∈ evs0, ∃ a b, ev = .diffProgress a b
  tr : OTr (OpenCtx.tr (E := E) ⟨src, dst, flags, d.cls, hooks, rl⟩ d.len) (getChildren d.cls d.kids) 0 evs p y
  new : newEvents w w' = evs0 ++ evs ++ (if y.toOption = some true then [Event.syncComplete dst.ref.id src.ref.id] else [])
  ret : ∀ d', res = .ok d' → d' = d ∧ ∃ b, y = .ok b
  err : ∀ x, y = .error x → res = .error x

theorem OpenRun.cases {n rl : Nat} {hooks : OpenHooks V E} {dst src : Adapter V} {dc : DiffClass V} {flags : Nat} {diff : Option (Diff V)} {w w' : World V E}
    {res : Except Err (Diff V)} {d : Diff V} (h : OpenRun n rl hooks dst src dc flags diff w d res w') :
    (res = .error .diffClassMismatch ∧ w' = w) ∨
    ∃ evs0 evs p y, ORan rl hooks dst src flags d w w' res evs0 evs p y ∧ (diff = some d → d.len ≠ 0 → evs0 = []) := by
  have hrun := h.run
  unfold oSyncFrom at hrun
  cases hck : checkDiffClass dc diff w with
  | mk rc wc =>
    have hck' : wc = w ∧ ∀ x, rc = .error x → x = .diffClassMismatch := by
      unfold checkDiffClass at hck
      split at hck
      · split at hck
        · cases hck; exact ⟨rfl, fun x hx => by cases hx; rfl⟩
        · cases hck; exact ⟨rfl, fun x hx => by cases hx⟩
      · cases hck; exact ⟨rfl, fun x hx => by cases hx⟩
    obtain ⟨hwc, hx⟩ := hck'
    have hwc := hwc.symm; subst hwc
    cases rc with
    | error x =>
      rw [M.bind_err hck] at hrun
      cases hrun
      exact .inl ⟨by rw [hx x rfl], rfl⟩
    | ok _ =>
      rw [M.bind_ok hck] at hrun
      right
      have hch : ∃ w0 evs0, chooseDiff n dst src dc flags diff w = (.ok d, w0) ∧ w0.trace = w.trace ++ evs0 ∧ (∀ ev ∈ evs0, ∃ a b, ev = Event.diffProgress a b) ∧
          (diff = some d → d.len ≠ 0 → evs0 = []) := by
        have hcomp : (diffFrom n dst src dc flags w).1 = .ok d → ∃ w0 evs0, diffFrom n dst src dc flags w = (.ok d, w0) ∧ w0.trace = w.trace ++ evs0 ∧ (∀ ev ∈ evs0, ∃ a b, ev = Event.diffProgress a b) := by
          intro h2
          obtain ⟨evs0, g1, g2⟩ := cmp_diffFrom n dst src dc flags w
          exact ⟨_, evs0, Prod.ext h2 rfl, g1, g2⟩
        rcases h.used with ⟨rfl, hl⟩ | ⟨h1, h2⟩
        · refine ⟨w, [], ?_, (List.append_nil _).symm, (fun _ h => by cases h), fun _ _ => rfl⟩
          unfold chooseDiff
          have : d.truthy = true := by unfold Diff.truthy; simpa using hl
          dsimp only
          rw [if_pos this]; rfl
        · obtain ⟨w0, evs0, g1, g2, g3⟩ := hcomp h2
          refine ⟨w0, evs0, ?_, g2, g3, fun hd hl => absurd (h1 d hd) hl⟩
          unfold chooseDiff
          cases diff with
          | none => exact g1
          | some d' =>
            have : ¬ d'.truthy = true := by unfold Diff.truthy; simp [h1 d' rfl]
            dsimp only
            rw [if_neg this]; exact g1
      obtain ⟨w0, evs0, g1, g2, g3, g4⟩ := hch
      rw [M.bind_ok g1] at hrun
      have hps : ∀ y w1, oPerformSync ⟨src, dst, flags, d.cls, hooks, rl⟩ n d w0 = (y, w1) →
          ∃ evs p, w1.trace = w0.trace ++ evs ∧ OTr (OpenCtx.tr (E := E) ⟨src, dst, flags, d.cls, hooks, rl⟩ d.len) (getChildren d.cls d.kids) 0 evs p y := by
        intro y w1 hy
        unfold oPerformSync at hy
        rw [M.modify_bind] at hy
        have hkid : ∀ k ∈ getChildren d.cls d.kids, DelClosed [k] := by
          intro k hk x hx ha
          refine h.del x ?_ ha
          exact hx.mono (fun z hz => by rw [List.mem_singleton] at hz; subst hz; exact mem_of_getChildren hk)
        obtain ⟨res0, ⟨evs, k1, _, k3⟩, k4⟩ := orEach_tr (T := OpenCtx.tr (E := E) ⟨src, dst, flags, d.cls, hooks, rl⟩ d.len) _
          (fun k hk w w' res ht hf => oSyncElem_tr _ d.len n k none w w' res (hkid k hk) ht hf) false _ _ _ rfl hy
        rw [orRes_false] at k4
        subst k4
        exact ⟨evs, _, k1, k3⟩
      cases hp : oPerformSync ⟨src, dst, flags, d.cls, hooks, rl⟩ n d w0 with
      | mk y w1 =>
        obtain ⟨evs, p, k1, k2⟩ := hps _ _ hp
        refine ⟨evs0, evs, p, y, ?_, g4⟩
        have tr1 : w1.trace = w.trace ++ (evs0 ++ evs) := by rw [k1, g2, List.append_assoc]
        cases y with
        | error x =>
          rw [M.bind_err hp] at hrun
          cases hrun
          exact ⟨g3, k2, by unfold newEvents; rw [tr1]; simp [Except.toOption], (fun d' h => by cases h), fun x hx => by cases hx; rfl⟩
        | ok b =>
          rw [M.bind_ok hp] at hrun
          cases b with
          | false =>
            cases hrun
            exact ⟨g3, k2, by unfold newEvents; rw [tr1]; simp [Except.toOption], (fun d' h => by cases h; exact ⟨rfl, _, rfl⟩), fun x hx => by cases hx⟩
          | true =>
            have hr' : (runUser (hooks.complete d) >>= fun _ => (pure d : M V E (Diff V))) { w1 with trace := w1.trace ++ [.syncComplete dst.ref.id src.ref.id] } = (res, w') := hrun
            cases hu : runUser (hooks.complete d) { w1 with trace := w1.trace ++ [.syncComplete dst.ref.id src.ref.id] } with
            | mk r2 w2 =>
              have hm := mute_runUser (hooks.complete d) { w1 with trace := w1.trace ++ [.syncComplete dst.ref.id src.ref.id] }
              rw [hu] at hm
              have tr2 : w2.trace = w.trace ++ (evs0 ++ evs ++ [.syncComplete dst.ref.id src.ref.id]) := by
                rw [hm.trace_eq]; show w1.trace ++ _ = _; rw [tr1, List.append_assoc]
              cases r2 with
              | error x =>
                rw [M.bind_err hu] at hr'
                cases hr'
                exact ⟨g3, k2, by unfold newEvents; rw [tr2]; simp [Except.toOption], (fun d' h => by cases h), fun x hx => by cases hx⟩
              | ok _ =>
                rw [M.bind_ok hu] at hr'
                cases hr'
                exact ⟨g3, k2, by unfold newEvents; rw [tr2]; simp [Except.toOption], (fun d' h => by cases h; exact ⟨rfl, _, rfl⟩), fun x hx => by cases hx⟩

/-! ## calls -/

def Served.pair (q : Served V) : CrudCall V × Outcome := (q.call, q.out)

theorem made_asks {T : OCtx V} (hN : ∀ t c, Dict.get? T.A.classes t = some c → c.name = t) {e : Elem V} {a : Action} {c : ModelClass V} {t : String} {call : CrudCall V}
    (ha : e.action = some a) (hc : Dict.get? T.A.classes e.type = some c) (ht : a = .create → t = c.name) (hm : Made a t e call) : Asks e call := by
  cases a with
  | create =>
    have hm : call = .create t e.keys (e.plus.getD []) := hm
    subst hm
    exact ⟨ha, (ht rfl).trans (hN _ _ hc), rfl, rfl⟩
  | update =>
    obtain ⟨t', u, rfl⟩ := hm
    exact ⟨ha, rfl⟩
  | delete =>
    obtain ⟨t', u, rfl⟩ := hm
    exact ha

theorem OwnO.calls {T : OCtx V} (hN : ∀ t c, Dict.get? T.A.classes t = some c → c.name = t) {e : Elem V} {evs : List (Event V)} {r : Except Err Bool} (h : OwnO T e evs r) :
    callsOf evs = [] ∨ ∃ call out, callsOf evs = [(call, out)] ∧ Asks e call ∧ (r = .ok true → out.result = .object) := by
  cases h with
  | idle ha hl =>
    left
    unfold callsOf
    rw [List.filterMap_eq_nil_iff]
    intro ev hm
    obtain ⟨ctx, rfl⟩ := hl ev hm
    rfl
  | stale ha => exact .inl rfl
  | crud ha hc ht hm ho hx => exact .inr ⟨_, _, rfl, made_asks hN ha hc ht hm, fun h => by unfold failRes at h; split at h <;> cases h⟩
  | fatal ha hc ht hm ho hx => exact .inr ⟨_, _, rfl, made_asks hN ha hc ht hm, fun h => by cases h⟩
  | failed ha hc ht hm ho => exact .inr ⟨_, _, rfl, made_asks hN ha hc ht hm, fun h => by cases h⟩
  | done ha hc ht hm ho => exact .inr ⟨_, _, rfl, made_asks hN ha hc ht hm, fun _ => ho⟩

theorem callsOf_warns {ws : List (Event V)} (h : ChildWarn ws) : callsOf ws = [] := by
  unfold callsOf
  rw [List.filterMap_eq_nil_iff]
  intro ev hm
  obtain ⟨a, b, c, d, rfl⟩ := h ev hm
  rfl

theorem BodyO.calls {T : OCtx V} (hN : ∀ t c, Dict.get? T.A.classes t = some c → c.name = t) {e : Elem V} {evs : List (Event V)} {r : Except Err Bool} (h : BodyO T e evs r) :
    callsOf evs = [] ∨ ∃ call out, callsOf evs = [(call, out)] ∧ Asks e call ∧ (r = .ok true → out.result = .object) := by
  cases h with
  | raised h => exact h.calls hN
  | noObject h =>
    rw [callsOf_append]
    rcases h.calls hN with h | ⟨c, o, h1, h2, _⟩
    · exact .inl (by rw [h]; rfl)
    · exact .inr ⟨c, o, by rw [h1]; rfl, h2, fun h => by cases h⟩
  | storeFail h hw =>
    rw [callsOf_append, callsOf_warns hw, List.append_nil]
    rcases h.calls hN with h | ⟨c, o, h1, h2, _⟩
    · exact .inl h
    · exact .inr ⟨c, o, h1, h2, fun h => by cases h⟩
  | obj h hw =>
    rw [callsOf_append, callsOf_warns hw, List.append_nil]
    exact h.calls hN

/-- The calls of a part of a sync, each with its element. -/
structure OCalls (l : List (Elem V)) (evs : List (Event V)) (ps : List (Served V)) : Prop where
  each : SubPerm (ps.map Served.elem) (nodesL l)
  calls : callsOf evs = ps.map Served.pair
  asks : ∀ q ∈ ps, Asks q.elem q.call
  nested : (nodesL l).Nodup → ps.Pairwise (fun q q' => (InTree q'.elem q.elem.kids → q.out.result = .object) ∧ (InTree q.elem q'.elem.kids → q'.elem.action = some .delete))

theorem SubPerm.mem {α : Type} {a b : List α} (h : SubPerm a b) {x : α} (hx : x ∈ a) : x ∈ b := by
  obtain ⟨l, h1, h2⟩ := h
  exact h2.subset (h1.subset hx)

theorem OCalls.mem {l : List (Elem V)} {evs : List (Event V)} {ps : List (Served V)} (h : OCalls l evs ps) {q : Served V} (hq : q ∈ ps) : InTree q.elem l :=
  (mem_nodesL_iff _ _).1 (h.each.mem (List.mem_map.2 ⟨q, hq, rfl⟩))

theorem nodesL_single (e : Elem V) : nodesL [e] = e :: nodesL e.kids := by rw [nodesL_eq]; simp [Elem.nodes_eq]

theorem nodesL_children {dc : DiffClass V} (hR : dc.Reorders) (e : Elem V) : (nodesL (getChildren dc e.kids)).Perm (nodesL e.kids) := by
  rw [nodesL_eq, nodesL_eq]; exact (getChildren_perm hR _).flatMap_right _

theorem OCalls.append {l l' : List (Elem V)} {evs evs' : List (Event V)} {ps ps' : List (Served V)} (h : OCalls l evs ps) (h' : OCalls l' evs' ps') :
    OCalls (l ++ l') (evs ++ evs') (ps ++ ps') := by
  have hn : nodesL (l ++ l') = nodesL l ++ nodesL l' := by simp [nodesL_eq]
  refine ⟨?_, by simp [h.calls, h'.calls], ?_, fun hd => ?_⟩
  · rw [hn, List.map_append]; exact h.each.append h'.each
  · intro q hq
    rcases List.mem_append.1 hq with hq | hq
    · exact h.asks q hq
    · exact h'.asks q hq
  · rw [hn, List.nodup_append] at hd
    obtain ⟨hd1, hd2, hd3⟩ := hd
    rw [List.pairwise_append]
    refine ⟨h.nested hd1, h'.nested hd2, fun q hq q' hq' => ⟨fun hi => ?_, fun hi => ?_⟩⟩
    · exact absurd rfl (hd3 q'.elem ((mem_nodesL_iff _ _).2 (((h.mem hq).trans hi))) q'.elem ((mem_nodesL_iff _ _).2 (h'.mem hq')))
    · exact absurd rfl (hd3 q.elem ((mem_nodesL_iff _ _).2 (h.mem hq)) q.elem ((mem_nodesL_iff _ _).2 ((h'.mem hq').trans hi)))

theorem OCalls.nil (l : List (Elem V)) {evs : List (Event V)} (h : callsOf evs = []) : OCalls l evs [] :=
  ⟨.nil _, h, (fun _ h => by cases h), fun _ => .nil⟩

/-- No calls. -/
theorem OCalls.pad {l : List (Elem V)} {a evs b : List (Event V)} {ps : List (Served V)} (h : OCalls l evs ps) (ha : callsOf a = []) (hb : callsOf b = []) : OCalls l (a ++ evs ++ b) ps :=
  ⟨h.each, by simp [ha, hb, h.calls], h.asks, h.nested⟩

theorem InTree.self_kids {e : Elem V} (hd : (nodesL [e]).Nodup) : ¬ InTree e e.kids := by
  intro h
  rw [nodesL_single, List.nodup_cons] at hd
  exact hd.1 ((mem_nodesL_iff _ _).2 h)

theorem OCalls.under {dc : DiffClass V} (hR : dc.Reorders) {e : Elem V} {evs : List (Event V)} {ps : List (Served V)} (h : OCalls (getChildren dc e.kids) evs ps) : OCalls [e] evs ps := by
  refine ⟨?_, h.calls, h.asks, fun hd => h.nested ?_⟩
  · rw [nodesL_single]
    obtain ⟨l, h1, h2⟩ := h.each.permR (nodesL_children hR e)
    exact ⟨l, h1, h2.cons e⟩
  · rw [nodesL_single, List.nodup_cons] at hd
    exact (nodesL_children hR e).nodup_iff.2 hd.2

theorem OCalls.leaf {T : OCtx V} (hN : ∀ t c, Dict.get? T.A.classes t = some c → c.name = t) {e : Elem V} {evs : List (Event V)} {r : Except Err Bool} (h : BodyO T e evs r) :
    ∃ ps, OCalls [e] evs ps ∧ (∀ q ∈ ps, q.elem = e ∧ (r = .ok true → q.out.result = .object)) ∧ ps.length ≤ 1 := by
  rcases h.calls hN with h | ⟨c, o, h1, h2, h3⟩
  · exact ⟨[], .nil _ h, (fun _ h => by cases h), by simp⟩
  · refine ⟨[⟨e, c, o⟩], ⟨?_, h1, ?_, fun _ => List.pairwise_singleton _ _⟩, ?_, by simp⟩
    · rw [nodesL_single]
      exact ⟨[e], .refl _, (List.nil_sublist _).cons_cons e⟩
    · intro q hq; rw [List.mem_singleton] at hq; subst hq; exact h2
    · intro q hq; rw [List.mem_singleton] at hq; subst hq; exact ⟨rfl, h3⟩

theorem OCalls.nat {dc : DiffClass V} (hR : dc.Reorders) {e : Elem V} {evs evs' : List (Event V)} {ps ps' : List (Served V)} (he : e.action = some .delete)
    (h : OCalls (getChildren dc e.kids) evs ps) (h' : OCalls [e] evs' ps') (ho : ∀ q ∈ ps', q.elem = e) (hl : ps'.length ≤ 1) : OCalls [e] (evs ++ evs') (ps ++ ps') := by
  have hmap : (ps'.map Served.elem).Sublist [e] := by
    match ps', hl with
    | [], _ => exact List.nil_sublist _
    | [q], _ => rw [List.map_singleton, ho q (by simp)]; exact .refl _
  refine ⟨?_, by simp [h.calls, h'.calls], ?_, fun hd => ?_⟩
  · rw [nodesL_single, List.map_append]
    have := SubPerm.append (b := [e]) ⟨_, List.Perm.refl _, hmap⟩ (h.each.permR (nodesL_children hR e))
    exact this.permL List.perm_append_comm
  · intro q hq
    rcases List.mem_append.1 hq with hq | hq
    · exact h.asks q hq
    · exact h'.asks q hq
  · rw [List.pairwise_append]
    refine ⟨(h.under hR).nested hd, h'.nested hd, fun q hq q' hq' => ?_⟩
    have hq0 : InTree q.elem e.kids := (h.mem hq).mono (fun _ hk => mem_of_getChildren hk)
    rw [ho q' hq']
    exact ⟨fun hi => absurd (hq0.trans hi) (InTree.self_kids hd), fun _ => he⟩

theorem OCalls.pre {dc : DiffClass V} (hR : dc.Reorders) {e : Elem V} {evs evs' : List (Event V)} {ps ps' : List (Served V)}
    (h : OCalls (getChildren dc e.kids) evs ps) (h' : OCalls [e] evs' ps') (ho : ∀ q ∈ ps', q.elem = e ∧ q.out.result = .object) (hl : ps'.length ≤ 1) : OCalls [e] (evs' ++ evs) (ps' ++ ps) := by
  have hmap : (ps'.map Served.elem).Sublist [e] := by
    match ps', hl with
    | [], _ => exact List.nil_sublist _
    | [q], _ => rw [List.map_singleton, (ho q (by simp)).1]; exact .refl _
  refine ⟨?_, by simp [h.calls, h'.calls], ?_, fun hd => ?_⟩
  · rw [nodesL_single, List.map_append]
    exact SubPerm.append (b := [e]) ⟨_, List.Perm.refl _, hmap⟩ (h.each.permR (nodesL_children hR e))
  · intro q hq
    rcases List.mem_append.1 hq with hq | hq
    · exact h'.asks q hq
    · exact h.asks q hq
  · rw [List.pairwise_append]
    refine ⟨h'.nested hd, (h.under hR).nested hd, fun q hq q' hq' => ?_⟩
    have hq0 : InTree q'.elem e.kids := (h.mem hq').mono (fun _ hk => mem_of_getChildren hk)
    rw [(ho q hq).1]
    exact ⟨fun _ => (ho q hq).2, fun hi => absurd (hq0.trans hi) (InTree.self_kids hd)⟩

theorem OTr.calls {T : OCtx V} (hR : T.dc.Reorders) (hN : ∀ t c, Dict.get? T.A.classes t = some c → c.name = t) {l : List (Elem V)} {p p' : Nat} {evs : List (Event V)}
    {res : Except Err Bool} (h : OTr T l p evs p' res) : ∃ ps, OCalls l evs ps := by
  induction h with
  | nil => exact ⟨[], .nil _ rfl⟩
  | @seqErr e l p evs p' x _ ih =>
    obtain ⟨ps, h⟩ := ih
    have := h.append (OCalls.nil l (evs := []) rfl)
    rw [List.append_nil, List.append_nil] at this
    exact ⟨ps, this⟩
  | seq _ _ ih ih' =>
    obtain ⟨ps, h⟩ := ih
    obtain ⟨ps', h'⟩ := ih'
    exact ⟨_, h.append h'⟩
  | bad => exact ⟨[], .nil _ rfl⟩
  | natFail _ _ ih =>
    obtain ⟨ps, h⟩ := ih
    exact ⟨ps, h.under hR⟩
  | nat hd _ hb _ ih =>
    obtain ⟨ps, h⟩ := ih
    obtain ⟨ps', h', ho, hl⟩ := OCalls.leaf hN hb
    exact ⟨_, h.nat hR hd h' (fun q hq => (ho q hq).1) hl⟩
  | @natObj e p evs p1 b evs' res hd _ hb _ ih =>
    obtain ⟨ps, h⟩ := ih
    obtain ⟨ps', h', ho, hl⟩ := OCalls.leaf hN hb
    have := (h.nat hR hd h' (fun q hq => (ho q hq).1) hl).pad (a := []) (b := [.syncProgress (p1 + 1) T.total]) rfl rfl
    rw [List.nil_append, List.append_assoc] at this
    exact ⟨_, this⟩
  | leaf hb _ =>
    obtain ⟨ps', h', _⟩ := OCalls.leaf hN hb
    exact ⟨_, h'⟩
  | preStop hb _ =>
    obtain ⟨ps', h', _⟩ := OCalls.leaf hN hb
    exact ⟨_, h'.pad (a := []) rfl rfl⟩
  | @pre e p evs evs' p' r hb _ _ ih =>
    obtain ⟨ps, h⟩ := ih
    obtain ⟨ps', h', ho, hl⟩ := OCalls.leaf hN hb
    have := (h.pad (a := [.syncProgress (p + 1) T.total]) (b := []) rfl rfl).pre hR h' (fun q hq => ⟨(ho q hq).1, (ho q hq).2 rfl⟩) hl
    rw [List.append_nil, List.singleton_append] at this
    exact ⟨_, this⟩

/-! ## progress -/

theorem BodyO.no_progress {T : OCtx V} {e : Elem V} {evs : List (Event V)} {r : Except Err Bool} (h : BodyO T e evs r) : progressOf evs = [] := by
  have own : ∀ {evs : List (Event V)} {r : Except Err Bool}, OwnO T e evs r → progressOf evs = [] := by
    intro evs r h
    cases h with
    | idle ha hl =>
      unfold progressOf
      rw [List.filterMap_eq_nil_iff]
      intro ev hm
      obtain ⟨ctx, rfl⟩ := hl ev hm
      rfl
    | _ => rfl
  cases h with
  | raised h => exact own h
  | noObject h => rw [progressOf_append, own h]; rfl
  | storeFail h hw => rw [progressOf_append, own h, progressOf_warn hw]; rfl
  | obj h hw => rw [progressOf_append, own h, progressOf_warn hw]; rfl

theorem OTr.progress {T : OCtx V} {l : List (Elem V)} {p p' : Nat} {evs : List (Event V)} {res : Except Err Bool} (h : OTr T l p evs p' res) :
    ∃ k, p' = p + k ∧ progressOf evs = countUp T.total p k ∧ k ≤ (l.map (Elem.len T.dc)).sum := by
  have hone : ∀ e : Elem V, ([e].map (Elem.len T.dc)).sum = 1 + ((getChildren T.dc e.kids).map (Elem.len T.dc)).sum := by
    intro e; rw [List.map_singleton, List.sum_singleton, Elem.len_eq]
  induction h with
  | nil => exact ⟨0, rfl, rfl, Nat.zero_le _⟩
  | seqErr _ ih =>
    obtain ⟨k, h1, h2, h3⟩ := ih
    refine ⟨k, h1, h2, ?_⟩
    simp at h3 ⊢; omega
  | seq _ _ ih ih' =>
    obtain ⟨k, rfl, h2, h3⟩ := ih
    obtain ⟨k', rfl, h2', h3'⟩ := ih'
    refine ⟨k + k', by omega, by rw [progressOf_append, h2, h2', countUp_add], ?_⟩
    simp at h3 h3' ⊢; omega
  | bad => exact ⟨0, rfl, rfl, Nat.zero_le _⟩
  | natFail _ _ ih =>
    obtain ⟨k, h1, h2, h3⟩ := ih
    exact ⟨k, h1, h2, by rw [hone]; omega⟩
  | nat hd _ hb _ ih =>
    obtain ⟨k, h1, h2, h3⟩ := ih
    exact ⟨k, h1, by rw [progressOf_append, h2, hb.no_progress, List.append_nil], by rw [hone]; omega⟩
  | natObj hd _ hb _ ih =>
    obtain ⟨k, rfl, h2, h3⟩ := ih
    refine ⟨k + 1, by omega, ?_, by rw [hone]; omega⟩
    rw [progressOf_append, progressOf_append, h2, hb.no_progress, countUp_add]; rfl
  | leaf hb _ => exact ⟨0, rfl, hb.no_progress, Nat.zero_le _⟩
  | preStop hb _ => exact ⟨1, rfl, by rw [progressOf_append, hb.no_progress]; rfl, by rw [hone]; omega⟩
  | pre hb _ _ ih =>
    obtain ⟨k, rfl, h2, h3⟩ := ih
    exact ⟨k + 1, by omega, by rw [progressOf_append, hb.no_progress, progressOf_progress, h2]; rfl, by rw [hone]; omega⟩

/-! ## exceptions -/

theorem OwnO.stopsAt {T : OCtx V} {e : Elem V} {evs : List (Event V)} {r : Except Err Bool} (h : OwnO T e evs r) : StopsAt T.flags evs r := by
  have one : ∀ {A B : List (Event V)} {c c' : CrudCall V} {out out' : Outcome} {tl : List (Event V)}, (Event.call c out :: tl = A ++ .call c' out' :: B) → callsOf tl = [] →
      out' = out ∧ B = tl := by
    intro A B c c' out out' tl h ht
    cases A with
    | nil => cases h; exact ⟨rfl, rfl⟩
    | cons a A =>
      rw [List.cons_append] at h
      injection h with _ h
      rw [h] at ht; simp at ht
  cases h with
  | idle ha hl =>
    refine .quiet ?_
    unfold callsOf
    rw [List.filterMap_eq_nil_iff]
    intro ev hm
    obtain ⟨ctx, rfl⟩ := hl ev hm
    rfl
  | stale ha => exact .quiet rfl
  | crud ha hc ht hm ho hx =>
    intro A c out B x hs hr hf
    obtain ⟨rfl, rfl⟩ := one hs rfl
    rw [ho] at hr; cases hr
    refine ⟨rfl, ?_⟩
    unfold failRes; rw [if_neg (by rw [hf hx]; simp)]
  | fatal ha hc ht hm ho hx =>
    intro A c out B x hs hr hf
    obtain ⟨rfl, rfl⟩ := one hs rfl
    rw [ho] at hr; cases hr
    exact ⟨rfl, rfl⟩
  | failed ha hc ht hm ho =>
    intro A c out B x hs hr hf
    obtain ⟨rfl, rfl⟩ := one hs rfl
    rw [ho] at hr; cases hr
  | done ha hc ht hm ho =>
    intro A c out B x hs hr hf
    obtain ⟨rfl, rfl⟩ := one hs rfl
    rw [ho] at hr; cases hr

theorem BodyO.stopsAt {T : OCtx V} {e : Elem V} {evs : List (Event V)} {r : Except Err Bool} (h : BodyO T e evs r) : StopsAt T.flags evs r := by
  cases h with
  | raised h => exact h.stopsAt
  | noObject h => exact h.stopsAt.seq (res := .ok true) (.quiet rfl) (fun x h => by cases h)
  | storeFail h hw => exact h.stopsAt.seq (res := .ok true) (.quiet (callsOf_warns hw)) (fun x h => by cases h)
  | obj h hw => exact h.stopsAt.seq (res := .ok true) (.quiet (callsOf_warns hw)) (fun x h => by cases h)

theorem OTr.stopsAt {T : OCtx V} {l : List (Elem V)} {p p' : Nat} {evs : List (Event V)} {res : Except Err Bool} (h : OTr T l p evs p' res) : StopsAt T.flags evs res := by
  induction h with
  | nil => exact .quiet rfl
  | seqErr _ ih => exact ih
  | seq _ _ ih ih' => exact ih.seq ih' (by rintro x rfl; rfl)
  | bad => exact .quiet rfl
  | natFail _ _ ih => exact ih
  | nat hd _ hb _ ih => exact ih.seq hb.stopsAt (by rintro x rfl; rfl)
  | natObj hd _ hb _ ih => exact ih.seq (hb.stopsAt.seq (res := .ok true) (res' := .ok true) (.quiet rfl) (fun x h => by cases h)) (fun x h => by cases h)
  | @leaf e p evs rb hb _ =>
    intro A c out B x hs ho hx
    obtain ⟨h1, rfl⟩ := hb.stopsAt A c out B x hs ho hx
    exact ⟨h1, rfl⟩
  | preStop hb _ => exact hb.stopsAt.seq (res := .ok true) (.quiet rfl) (fun x h => by cases h)
  | @pre e p evs evs' p' r hb _ _ ih =>
    refine hb.stopsAt.seq (res := r) ?_ (by rintro x rfl; rfl)
    have : StopsAt T.flags ([.syncProgress (p + 1) T.total] ++ evs') r := StopsAt.seq (b := true) (.quiet rfl) ih (fun _ h => h)
    simpa using this

/-! ## whether anything was attempted -/

theorem attempt_append (a b : List (Event V)) : (∃ ev ∈ a ++ b, Attempt ev) ↔ (∃ ev ∈ a, Attempt ev) ∨ ∃ ev ∈ b, Attempt ev := by
  constructor
  · rintro ⟨ev, h1, h2⟩
    rcases List.mem_append.1 h1 with h | h
    · exact .inl ⟨ev, h, h2⟩
    · exact .inr ⟨ev, h, h2⟩
  · rintro (⟨ev, h1, h2⟩ | ⟨ev, h1, h2⟩)
    · exact ⟨ev, by simp [h1], h2⟩
    · exact ⟨ev, by simp [h1], h2⟩

theorem BodyO.attempt {T : OCtx V} {e : Elem V} {evs : List (Event V)} {r : Except Err Bool} (h : BodyO T e evs r) : e.action.isSome = true ↔ ∃ ev ∈ evs, Attempt ev := by
  have own : ∀ {evs : List (Event V)} {r : Except Err Bool}, OwnO T e evs r → (e.action.isSome = true ↔ ∃ ev ∈ evs, Attempt ev) := by
    intro evs r h
    cases h with
    | idle ha hl =>
      rw [ha]
      refine ⟨(fun h => by cases h), ?_⟩
      rintro ⟨ev, hm, hev⟩
      obtain ⟨ctx, rfl⟩ := hl ev hm
      simp [Attempt] at hev
    | stale ha => rw [ha]; simp [Attempt]
    | crud ha => rw [ha]; simp [Attempt]
    | fatal ha => rw [ha]; simp [Attempt]
    | failed ha => rw [ha]; simp [Attempt]
    | done ha => rw [ha]; simp [Attempt]
  have warn : ∀ {ws : List (Event V)}, ChildWarn ws → ¬ ∃ ev ∈ ws, Attempt ev := by
    rintro ws hw ⟨ev, hm, hev⟩
    obtain ⟨a, b, c, d, rfl⟩ := hw ev hm
    simp [Attempt] at hev
  cases h with
  | raised h => exact own h
  | noObject h => rw [attempt_append, own h]; simp [Attempt]
  | storeFail h hw => rw [attempt_append, own h]; simp [warn hw]
  | obj h hw => rw [attempt_append, own h]; simp [warn hw]

theorem OTr.changed {T : OCtx V} {l : List (Elem V)} {p p' : Nat} {evs : List (Event V)} {res : Except Err Bool} (h : OTr T l p evs p' res) :
    ∀ b, res = .ok b → (b = true ↔ ∃ ev ∈ evs, Attempt ev) := by
  induction h with
  | nil => rintro b h; cases h; simp
  | seqErr _ _ => intro b h; cases h
  | seq _ _ ih ih' =>
    intro c hc
    obtain ⟨d, rfl, rfl⟩ := orRes_ok hc
    rw [attempt_append, ← ih _ rfl, ← ih' d rfl]; simp
  | bad => intro b h; cases h
  | natFail _ _ _ => intro b h; cases h
  | nat hd _ hb _ ih =>
    rename_i rb _ _
    intro c hc
    cases rb with
    | error => cases hc
    | ok rb =>
      cases hc
      have := hb.attempt
      rw [hd] at this
      rw [attempt_append, ← this]
      simp
  | natObj hd _ hb hr ih =>
    intro c hc
    have : c = true := by
      rcases hr with ⟨h, _⟩ | ⟨x, h, _⟩
      · rw [h] at hc; cases hc; rfl
      · rw [h] at hc; cases hc
    subst this
    have := hb.attempt
    rw [hd] at this
    rw [attempt_append, attempt_append, ← this]
    simp
  | @leaf e p evs rb hb _ =>
    intro c hc
    cases rb with
    | error => cases hc
    | ok rb => cases hc; exact hb.attempt
  | preStop _ _ => intro b h; cases h
  | @pre e p evs evs' p' r hb _ _ ih =>
    intro c hc
    obtain ⟨d, rfl, rfl⟩ := orRes_ok hc
    have := attempt_append [.syncProgress (p + 1) T.total] evs'
    rw [List.singleton_append] at this
    rw [attempt_append, this, ← ih d rfl, ← hb.attempt]
    simp [Attempt]

/-! ## the callback -/

/-- A callback that does not return ends the sync. -/
def CbAt (T : OCtx V) (evs : List (Event V)) (res : Except Err Bool) : Prop :=
  ∀ A B k t, evs = A ++ .syncProgress k t :: B → ¬ T.passes k t → B = [] ∧ ∃ x, res = .error x ∧ T.stops k t x

theorem CbAt.seq {T : OCtx V} {evs evs' : List (Event V)} {b : Bool} {res res' : Except Err Bool} (h : CbAt T evs (.ok b)) (h' : CbAt T evs' res)
    (he : ∀ x, res = .error x → res' = .error x) : CbAt T (evs ++ evs') res' := by
  intro A B k t hs hp
  rcases split_append hs with ⟨A', _, hs⟩ | ⟨B', _, hs⟩
  · obtain ⟨h1, x, h2, h3⟩ := h' _ _ _ _ hs hp
    exact ⟨h1, x, he _ h2, h3⟩
  · obtain ⟨_, x, h2, _⟩ := h _ _ _ _ hs hp
    cases h2

theorem CbAt.quiet {T : OCtx V} {evs : List (Event V)} {res : Except Err Bool} (h : progressOf evs = []) : CbAt T evs res := by
  intro A B k t hs
  rw [hs] at h; simp at h

theorem CbAt.one {T : OCtx V} {k t : Nat} {res : Except Err Bool} (h : ¬ T.passes k t → ∃ x, res = .error x ∧ T.stops k t x) : CbAt T [.syncProgress k t] res := by
  intro A B k' t' hs hp
  cases A with
  | nil => cases hs; exact ⟨rfl, h hp⟩
  | cons a A => simp at hs

theorem OTr.cbAt {T : OCtx V} {l : List (Elem V)} {p p' : Nat} {evs : List (Event V)} {res : Except Err Bool} (h : OTr T l p evs p' res) : CbAt T evs res := by
  induction h with
  | nil => exact .quiet rfl
  | seqErr _ ih => exact ih
  | seq _ _ ih ih' => exact ih.seq ih' (by rintro x rfl; rfl)
  | bad => exact .quiet rfl
  | natFail _ _ ih => exact ih
  | nat hd _ hb _ ih => exact ih.seq (res := .ok true) (.quiet hb.no_progress) (fun x h => by cases h)
  | natObj hd _ hb hr ih =>
    refine ih.seq (CbAt.seq (b := true) (.quiet hb.no_progress) (.one ?_) (fun _ h => h)) (fun _ h => h)
    intro hn
    rcases hr with ⟨_, h⟩ | h
    · exact absurd h hn
    · exact h
  | leaf hb _ => exact .quiet hb.no_progress
  | preStop hb hs => exact CbAt.seq (b := true) (.quiet hb.no_progress) (.one (fun _ => ⟨_, rfl, hs⟩)) (fun _ h => h)
  | @pre e p evs evs' p' r hb hp _ ih =>
    refine CbAt.seq (b := true) (.quiet hb.no_progress) (res := r) ?_ (by rintro x rfl; rfl)
    have : CbAt T ([.syncProgress (p + 1) T.total] ++ evs') r := CbAt.seq (b := true) (.one (fun hn => absurd hp hn)) ih (fun _ h => h)
    simpa using this

theorem OTr.no_complete {T : OCtx V} {l : List (Elem V)} {p p' : Nat} {evs : List (Event V)} {res : Except Err Bool} (h : OTr T l p evs p' res) :
    ∀ ev ∈ evs, ∀ a b, ev ≠ .syncComplete a b ∧ ev ≠ .diffProgress a b := by
  have own : ∀ {e : Elem V} {evs : List (Event V)} {r : Except Err Bool}, OwnO T e evs r → ∀ ev ∈ evs, ∀ a b, ev ≠ .syncComplete a b ∧ ev ≠ .diffProgress a b := by
    intro e evs r h ev hm a b
    cases h with
    | idle ha hl => obtain ⟨ctx, rfl⟩ := hl ev hm; exact ⟨nofun, nofun⟩
    | stale ha => simp at hm; subst hm; exact ⟨nofun, nofun⟩
    | fatal ha => simp at hm; subst hm; exact ⟨nofun, nofun⟩
    | crud ha => simp at hm; rcases hm with rfl | rfl <;> exact ⟨nofun, nofun⟩
    | failed ha => simp at hm; rcases hm with rfl | rfl <;> exact ⟨nofun, nofun⟩
    | done ha => simp at hm; rcases hm with rfl | rfl <;> exact ⟨nofun, nofun⟩
  have body : ∀ {e : Elem V} {evs : List (Event V)} {r : Except Err Bool}, BodyO T e evs r → ∀ ev ∈ evs, ∀ a b, ev ≠ .syncComplete a b ∧ ev ≠ .diffProgress a b := by
    intro e evs r h ev hm a b
    cases h with
    | raised h => exact own h ev hm a b
    | noObject h =>
      rcases List.mem_append.1 hm with hm | hm
      · exact own h ev hm a b
      · simp at hm; subst hm; exact ⟨nofun, nofun⟩
    | storeFail h hw =>
      rcases List.mem_append.1 hm with hm | hm
      · exact own h ev hm a b
      · obtain ⟨_, _, _, _, rfl⟩ := hw ev hm; exact ⟨nofun, nofun⟩
    | obj h hw =>
      rcases List.mem_append.1 hm with hm | hm
      · exact own h ev hm a b
      · obtain ⟨_, _, _, _, rfl⟩ := hw ev hm; exact ⟨nofun, nofun⟩
  have app : ∀ {x y : List (Event V)}, (∀ ev ∈ x, ∀ a b, ev ≠ .syncComplete a b ∧ ev ≠ .diffProgress a b) → (∀ ev ∈ y, ∀ a b, ev ≠ .syncComplete a b ∧ ev ≠ .diffProgress a b) →
      ∀ ev ∈ x ++ y, ∀ a b, ev ≠ .syncComplete a b ∧ ev ≠ .diffProgress a b := by
    intro x y hx hy ev hm
    rcases List.mem_append.1 hm with hm | hm
    · exact hx ev hm
    · exact hy ev hm
  have prog : ∀ k t, ∀ ev ∈ [Event.syncProgress (V := V) k t], ∀ a b, ev ≠ .syncComplete a b ∧ ev ≠ .diffProgress a b := by
    intro k t ev hm a b
    simp at hm; subst hm; exact ⟨nofun, nofun⟩
  induction h with
  | nil => intro ev h; cases h
  | seqErr _ ih => exact ih
  | seq _ _ ih ih' => exact app ih ih'
  | bad => intro ev h; cases h
  | natFail _ _ ih => exact ih
  | nat hd _ hb _ ih => exact app ih (body hb)
  | natObj hd _ hb hr ih => exact app ih (app (body hb) (prog _ _))
  | leaf hb _ => exact body hb
  | preStop hb hs => exact app (body hb) (prog _ _)
  | pre hb hp _ ih => exact app (body hb) (app (prog _ _) ih)

end DS
