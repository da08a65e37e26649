import Verif.Lemmas.SyncKilled
import Verif.Props.SyncRedis
/-! # C86: syncs into a Redis store that are killed -/
set_option linter.unusedSectionVars false

namespace DS
variable {V E : Type} [PyVal V]

/-- **C86** A sync into a Redis store as a sequence of commands, if nothing interrupts it, is the sync: it ends with the same result or exception, memory and
contents of the server. -/
theorem C86_alone {S : SyncCtx V E} {sid : String} (hS : S.dst.ref.store = .redis sid) {n : Nat} {diff : Diff V} {w : World V E} :
    ∃ res w1, performSync S n diff w = (res, w1) ∧ Solo (cPerformSync S sid n diff w, w.redis) (.ret (.ok (res, w1.onServer w.redis)), w1.redis) ∧
      ∀ r d1, Solo (cPerformSync S sid n diff w, w.redis) (.ret r, d1) → r = .ok (res, w1.onServer w.redis) ∧ d1 = w1.redis := by
  have h := runs_performSync S hS n diff w w.redis
  refine ⟨_, _, rfl, ?_, h⟩
  have hs := solo_run (cPerformSync S sid n diff w) w.redis
  obtain ⟨h1, h2⟩ := h _ _ hs
  rw [h1, h2] at hs
  exact hs

/-- **C86** A sync into a Redis store that is killed between any two commands leaves the server as a sync does that was not killed, but whose user code gave up at
some call (or that ended): the effects of a call are there for all calls before and for none after, except that of the objects that are removed along with one
that is flagged SKIP_CHILDREN_ON_DELETE a part may be left. -/
theorem C86_killed {S : SyncCtx V E} {sid : String} (hS : S.dst.ref.store = .redis sid) {n : Nat} {diff : Diff V} {w : World V E} {d' : Dict (Obj V)}
    (h : KilledLeaves (cPerformSync S sid n diff w) w.redis d') :
    (performSync S n diff w).2.redis = d' ∨
    ∃ k w1, performSync S.upTo n diff (w.upTo k) = (.error (.user 0), w1) ∧ (w1.redis = d' ∨ AmidRemoval S.dst diff.kids sid w1 d') := by
  rcases kills_performSync S hS n diff w w.redis trivial d' h with h | h
  · exact h
  · exact h.elim

/-! ## What may be there and what may be missing -/

theorem performSync_ran {n rl : Nat} {hooks : Hooks V E} {dst src : Adapter V} {flags : Nat} {w w1 : World V E} {y : Except Err Bool} {d : Diff V} (hr : DstReady dst w)
    (hg : GoodDiff dst d.kids) (h : performSync ⟨src, dst, flags, d.cls, hooks, rl⟩ n d w = (y, w1)) :
    ∃ evs, w1.trace = w.trace ++ evs ∧ GFrame dst w.next (keysOf dst d.kids) (fun _ => False) (TakenAlong dst (snap dst w) d.kids evs) (· ∈ evs) w w1 ∧
      GInv dst (EdgeIn dst (snap dst w) d.kids) (SkipsChildren dst (snap dst w)) w1 ∧
      ∀ c out, Event.call c out ∈ evs → ∃ e, InTree e d.kids ∧ Prescribes dst e c := by
  have hs : Still w (startSync d w) := startSync_still d w
  have hsub : ∀ x, InTree x (getChildren d.cls d.kids) → InTree x d.kids := fun x hx => hx.mono (fun k hk => mem_of_getChildren hk)
  have inv := GInv.start hr d.kids
  have hrun := syncElem_list (S := ⟨src, dst, flags, d.cls, hooks, rl⟩) n (getChildren d.cls d.kids) false (startSync d w) (hs.grows.refs hr.ok.refs_lt)
  have h7 : M.orEach (fun e => syncElem ⟨src, dst, flags, d.cls, hooks, rl⟩ n e none) (getChildren d.cls d.kids) false (startSync d w) = (y, w1) := by
    unfold performSync at h
    rw [M.modify_bind] at h
    exact h
  rw [h7] at hrun
  dsimp only at hrun
  obtain ⟨evs, hevs⟩ := kidsRun_ext (S := ⟨src, dst, flags, d.cls, hooks, rl⟩) n (syncElem_ext n) hrun (hs.grows.refs hr.ok.refs_lt)
  have hfin : NewIn (· ∈ evs) (startSync d w) w1 := fun evs' he ev hev => by rw [List.append_cancel_left (hevs.symm.trans he)]; exact hev
  have env := FrameEnv.start hr.valid (snap dst w) hg.plain hg.del hg.ids evs
  have hf := syncList_fr (S := ⟨src, dst, flags, d.cls, hooks, rl⟩) (b := w.next) hrun (env.sub hsub) (hs.ginv inv) hs.next_le hfin
  obtain ⟨evs2, y0, t1, t2, t3, t4⟩ := syncList_tr (S := ⟨src, dst, flags, d.cls, hooks, rl⟩) (D := False) (N := (snap dst w).flagsAt) (fun hd => hd.elim) hrun (env.sub hsub)
    (hs.ginv inv) (fun hd => hd.elim) hfin
  obtain ⟨evs', f1, f2⟩ := hf.frame
  have he : evs' = evs := List.append_cancel_left (f1.symm.trans hevs)
  have he2 : evs2 = evs := List.append_cancel_left (t1.symm.trans hevs)
  subst he2
  subst he
  refine ⟨evs', hevs, (hs.gframe (Nat.le_refl _)).trans (f2.mono (fun _ _ hk => keysOf_mono hsub hk)) (Nat.le_refl _), hf.inv, fun c out hc => ?_⟩
  obtain ⟨x, h1, h2, _⟩ := t2.mem_call c out hc
  exact ⟨x, hsub x h1, h2⟩

theorem World.upTo_ok {w : World V E} (h : w.OK) (k : Nat) : (w.upTo k).OK where
  loc_wf := h.loc_wf
  refs_lt := h.refs_lt
  tbl_wf := h.tbl_wf
  key_ok := h.key_ok

theorem DstReady.upTo {dst : Adapter V} {w : World V E} (h : DstReady dst w) (k : Nat) : DstReady dst (w.upTo k) where
  valid := h.valid
  ok := World.upTo_ok h.ok k
  inst := h.inst
  children := h.children
  redis sid hs := ⟨⟨⟨(h.redis sid hs).1.wf, (h.redis sid hs).1.keys⟩, (h.redis sid hs).1.sid_ok, (h.redis sid hs).1.key_ok, (h.redis sid hs).1.kids_ok⟩, (h.redis sid hs).2⟩

theorem TakenAlong.goes {A : Adapter V} {D : Snap V} {es : List (Elem V)} {evs : List (Event V)} {k : Key} (h : TakenAlong A D es evs k) : GoesWith A D es k := by
  induction h with
  | root h1 h2 h3 h4 _ => exact .root h1 h2 h3 h4
  | down _ h ih => exact .down ih h

/-- The contents `d'` differ from `d` only in objects of the store `sid` that elements create or delete, or that may go along. -/
def OnlyBy (A : Adapter V) (sid : String) (D : Snap V) (es : List (Elem V)) (d d' : Dict (Obj V)) : Prop :=
  (∀ key, (∀ t u, Plain t → key ≠ redisKey sid t u) → Dict.get? d' key = Dict.get? d key) ∧
  (∀ t u o, Plain t → Dict.get? d' (redisKey sid t u) = some o → Dict.get? d (redisKey sid t u) = some o ∨ ∃ e, InTree e es ∧ e.action = some .create ∧ ElemKey A e (t, u)) ∧
  (∀ t u o, Plain t → Dict.get? d (redisKey sid t u) = some o →
    Dict.get? d' (redisKey sid t u) = some o ∨ (∃ e, InTree e es ∧ e.action = some .delete ∧ ElemKey A e (t, u)) ∨ GoesWith A D es (t, u))

theorem onlyBy_ran {n rl : Nat} {hooks : Hooks V E} {dst src : Adapter V} {flags : Nat} {w w1 : World V E} {y : Except Err Bool} {d : Diff V} {sid : String} (hr : DstReady dst w)
    (hg : GoodDiff dst d.kids) (hA : dst.ref.store = .redis sid) (h : performSync ⟨src, dst, flags, d.cls, hooks, rl⟩ n d w = (y, w1)) :
    OnlyBy dst sid (snap dst w) d.kids w.redis w1.redis ∧ RInv dst sid (EdgeIn dst (snap dst w) d.kids) (SkipsChildren dst (snap dst w)) w1 := by
  obtain ⟨evs, _, h2, h3, _⟩ := performSync_ran hr hg h
  have f := (GFrame.redis hA).1 h2
  refine ⟨⟨f.others, fun t u o ht ho => (f.come t u o ht ho).imp id fun h => ?_, fun t u o ht ho => (f.gone t u o ht ho).imp id fun h => h.imp (fun h => ?_) TakenAlong.goes⟩, ?_⟩
  · obtain ⟨⟨e, h1, h2, h3⟩, _⟩ := h
    exact ⟨e, h1, h2, h3⟩
  · unfold GInv at h3
    rw [hA] at h3
    exact h3
  · obtain ⟨⟨e, h1, h2, h3⟩, _⟩ := h
    exact ⟨e, h1, h2, h3⟩

theorem OnlyBy.amid {dst : Adapter V} {sid : String} {D : Snap V} {es : List (Elem V)} {d d' : Dict (Obj V)} {w1 : World V E} (h : OnlyBy dst sid D es d w1.redis)
    (hi : RInv dst sid (EdgeIn dst D es) (SkipsChildren dst D) w1) (hv : dst.Valid) (ha : AmidRemoval dst es sid w1 d') : OnlyBy dst sid D es d d' := by
  obtain ⟨e, c, u, o, l, h1, h2, h3, h4, h5, h6, _, h8, h9⟩ := ha
  have hn : c.name = e.type := hv.names _ _ h3
  have hp : Plain c.name := hn ▸ hi.names _ _ h3
  have hk := hi.store.key_ok _ _ _ hp h5
  have taken : ∀ x ∈ l, Plain x.type ∧ (∃ ox, Dict.get? w1.redis (redisKey sid x.type x.uid) = some ox ∧ ox.m = x) ∧ GoesWith dst D es (x.type, x.uid) := by
    clear h9
    induction h8 with
    | none => intro x hx; cases hx
    | first =>
      intro x hx
      rw [List.mem_singleton] at hx
      subst hx
      rw [hk.1, hk.2]
      exact ⟨hp, ⟨o, h5, rfl⟩, .root h1 h2 ⟨c, u, h3, h4, by rw [hn]⟩ (hi.skip _ _ _ hp h5 h6)⟩
    | @next l y t u' o' _ hy hl ho ih =>
      intro x hx
      rcases List.mem_append.1 hx with hx | hx
      · exact ih x hx
      · rw [List.mem_singleton] at hx
        subst hx
        obtain ⟨g1, ⟨oy, g2, g3⟩, g4⟩ := ih y hy
        have hc : (t, u') ∈ childRefs oy.m := by
          rw [g3]
          obtain ⟨f, l, a1, a2, a3⟩ := hl
          exact mem_childRefs_iff.2 ⟨f, a1, l, a2, a3⟩
        have hpt : Plain t := hi.store.kids_ok _ _ _ g1 g2 _ hc
        obtain ⟨k1, k2⟩ := hi.store.key_ok _ _ _ hpt ho
        rw [k1, k2]
        exact ⟨hpt, ⟨o', ho, rfl⟩, .down g4 (hi.edges _ _ _ g1 g2 _ hc)⟩
  refine ⟨fun key hkey => ?_, fun t u o ht ho => ?_, fun t u o ht ho => ?_⟩
  · rw [(h9 key).2 (fun hm => ?_)]
    · exact h.1 key hkey
    · obtain ⟨x, hx, rfl⟩ := List.mem_map.1 hm
      exact hkey _ _ (taken x hx).1 rfl
  · by_cases hm : redisKey sid t u ∈ l.map (fun x => redisKey sid x.type x.uid)
    · rw [(h9 _).1 hm] at ho; cases ho
    · rw [(h9 _).2 hm] at ho
      exact h.2.1 t u o ht ho
  · by_cases hm : redisKey sid t u ∈ l.map (fun x => redisKey sid x.type x.uid)
    · obtain ⟨x, hx, he⟩ := List.mem_map.1 hm
      obtain ⟨g1, _, g3⟩ := taken x hx
      obtain ⟨_, k1, k2⟩ := redisKey_inj hi.store.sid_ok hi.store.sid_ok g1 ht he
      rw [← k1, ← k2]
      exact .inr (.inr g3)
    · rw [(h9 _).2 hm]
      exact h.2.2 t u o ht ho

theorem killed_onlyBy {n rl : Nat} {hooks : Hooks V E} {dst src : Adapter V} {flags : Nat} {w : World V E} {d : Diff V} {sid : String} {d' : Dict (Obj V)} (hr : DstReady dst w)
    (hg : GoodDiff dst d.kids) (hA : dst.ref.store = .redis sid) (h : KilledLeaves (cPerformSync ⟨src, dst, flags, d.cls, hooks, rl⟩ sid n d w) w.redis d') :
    OnlyBy dst sid (snap dst w) d.kids w.redis d' := by
  rcases C86_killed hA h with rfl | ⟨k, w1, h1, h2⟩
  · exact (onlyBy_ran hr hg hA rfl).1
  · obtain ⟨g1, g2⟩ := onlyBy_ran (hr.upTo k) hg hA (hooks := hooks.upTo) h1
    rcases h2 with rfl | h2
    · exact g1
    · exact g1.amid g2 hr.valid h2

section
variable {n rl : Nat} {hooks : Hooks V E} {dst src : Adapter V} {flags : Nat} {w : World V E} {d : Diff V} {sid : String} {d' : Dict (Obj V)}

/-- **C86** Wherever a sync into a Redis store is killed, what is stored afterwards was stored before exactly like that (same values, same child lists), or an element of
the diff creates it; what was stored before is still there like that, unless an element of the diff deletes it or it goes along with a deleted object flagged
SKIP_CHILDREN_ON_DELETE. -/
theorem C86_adds_and_removes (hr : DstReady dst w) (hg : GoodDiff dst d.kids) (hA : dst.ref.store = .redis sid)
    (h : KilledLeaves (cPerformSync ⟨src, dst, flags, d.cls, hooks, rl⟩ sid n d w) w.redis d') {t u : String} {m : Model V} :
    ((snap dst (w.onServer d')).find t u = some m → (snap dst w).find t u = some m ∨ ∃ e, InTree e d.kids ∧ e.action = some .create ∧ ElemKey dst e (t, u)) ∧
    ((snap dst w).find t u = some m → (snap dst (w.onServer d')).find t u = some m ∨ (∃ e, InTree e d.kids ∧ e.action = some .delete ∧ ElemKey dst e (t, u)) ∨
      GoesWith dst (snap dst w) d.kids (t, u)) := by
  have ho := killed_onlyBy hr hg hA h
  constructor
  · intro hm
    obtain ⟨hp, o, h1, rfl⟩ := (redis_find hA).1 hm
    exact (ho.2.1 t u o hp h1).imp (fun h => (redis_find hA).2 ⟨hp, o, h, rfl⟩) id
  · intro hm
    obtain ⟨hp, o, h1, rfl⟩ := (redis_find hA).1 hm
    exact (ho.2.2 t u o hp h1).imp (fun h => (redis_find hA).2 ⟨hp, o, h, rfl⟩) id

/-- **C86** Other stores on the server, and other keys, are untouched. -/
theorem C86_others (hr : DstReady dst w) (hg : GoodDiff dst d.kids) (hA : dst.ref.store = .redis sid)
    (h : KilledLeaves (cPerformSync ⟨src, dst, flags, d.cls, hooks, rl⟩ sid n d w) w.redis d') {A : Adapter V} (hs : Separate A dst w) :
    ∀ t u, (snap A (w.onServer d')).find t u = (snap A w).find t u := by
  have ho := killed_onlyBy hr hg hA h
  intro t u
  unfold Separate at hs
  cases hAs : A.ref.store with
  | «local» s => unfold snap; rw [hAs]; rfl
  | redis s =>
    rw [hAs, hA] at hs
    unfold snap
    rw [hAs]
    dsimp only
    split
    · rename_i hp
      congr 1
      refine ho.1 _ fun t' u' ht' he => ?_
      exact hs.1 (redisKey_inj hs.2 (hr.redis sid hA).1.sid_ok hp ht' he).1
    · rfl

end

end DS
