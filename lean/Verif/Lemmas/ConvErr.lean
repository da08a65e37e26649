import Verif.Lemmas.ConvEnd
/-! What a sync between adapters that can converge raises: only what user code raised. -/
set_option linter.unusedSectionVars false

namespace DS
variable {V E : Type} [PyVal V]

/-- The last call of user code raised `x`. -/
def ErrBy (flags : Nat) (evs : List (Event V)) (x : Err) : Prop :=
  ∃ L c out R, evs = L ++ .call c out :: R ∧ callsOf R = [] ∧ out.result = .raises x ∧ (flagOn flags GF.CONTINUE_ON_FAILURE = true → x.isCrud = false)

/-- Every record of an attempt follows a call at once. -/
def NoRef (evs : List (Event V)) : Prop :=
  ∀ L lv ctx st R, evs = L ++ .log lv ctx st :: R → lv ≠ .debug → ∃ L' c out, L = L' ++ [.call c out]

theorem AllSucceed.left {a b : List (Event V)} (h : AllSucceed (a ++ b)) : AllSucceed a := fun c out hm => h c out (List.mem_append_left _ hm)
theorem AllSucceed.right {a b : List (Event V)} (h : AllSucceed (a ++ b)) : AllSucceed b := fun c out hm => h c out (List.mem_append_right _ hm)
theorem NoMissing.append {a b : List (Event V)} (ha : NoMissing a) (hb : NoMissing b) : NoMissing (a ++ b) := fun ctx hm => by
  rcases List.mem_append.1 hm with h | h
  · exact ha ctx h
  · exact hb ctx h

theorem goodEv_of {evs : List (Event V)} (h : AllSucceed evs) : ∀ ev ∈ evs, GoodEv ev := by
  intro ev hev
  cases ev with
  | call c out => exact h c out hev
  | _ => trivial

/-- Objects are missing only where a call has not made them. -/
structure Miss (evs : List (Event V)) : Prop where
  found : AllSucceed evs → NoMissing evs
  acts : ∀ ctx, Event.noObject ctx ∈ evs → ctx.action ≠ none

theorem NoMissing.miss {evs : List (Event V)} (h : NoMissing evs) : Miss evs := ⟨fun _ => h, fun ctx hm => absurd hm (h ctx)⟩
theorem Miss.append {a b : List (Event V)} (ha : Miss a) (hb : Miss b) : Miss (a ++ b) :=
  ⟨fun h => (ha.found h.left).append (hb.found h.right), fun ctx hm => (List.mem_append.1 hm).elim (ha.acts ctx) (hb.acts ctx)⟩
theorem Miss.nil : Miss ([] : List (Event V)) := NoMissing.miss fun _ h => by cases h

/-- Nothing but user code makes the sync fail, no action is refused, and objects are missing only where a call has not made them. -/
def Clean (flags : Nat) (w w' : World V E) (res : Except Err Bool) : Prop :=
  ∃ evs, w'.trace = w.trace ++ evs ∧ NoRef evs ∧ (∀ x, res = .error x → ErrBy flags evs x) ∧ Miss evs

theorem NoRef.append {a b : List (Event V)} (ha : NoRef a) (hb : NoRef b) : NoRef (a ++ b) := by
  intro L lv ctx st R h hl
  rcases split_append h with ⟨L', h1, h2⟩ | ⟨B', h1, h2⟩
  · obtain ⟨L1, c, out, h3⟩ := hb _ _ _ _ _ h2 hl
    exact ⟨a ++ L1, c, out, by rw [h1, h3, List.append_assoc]⟩
  · exact ha _ _ _ _ _ h2 hl

theorem NoRef.of_none {a : List (Event V)} (h : ∀ lv ctx st, Event.log lv ctx st ∉ a) : NoRef a := by
  intro L lv ctx st R hs
  exact absurd (by rw [hs]; simp) (h lv ctx st)

theorem Clean.same {flags : Nat} {w w' : World V E} {res : Except Err Bool} (h : w'.trace = w.trace) (hr : ∀ x, res ≠ .error x) : Clean flags w w' res :=
  ⟨[], by simp [h], .of_none (fun _ _ _ h => by cases h), fun x hx => absurd hx (hr x), .nil⟩

theorem Clean.after {flags : Nat} {w w1 w' : World V E} {res : Except Err Bool} {evs : List (Event V)} (h : w1.trace = w.trace ++ evs) (hn : NoRef evs) (hm : Miss evs)
    (h' : Clean flags w1 w' res) : Clean flags w w' res := by
  obtain ⟨evs', e', n', x', m'⟩ := h'
  refine ⟨evs ++ evs', by rw [e', h, List.append_assoc], hn.append n', fun x hx => ?_, hm.append m'⟩
  obtain ⟨L, c, out, R, h1, h2⟩ := x' x hx
  exact ⟨evs ++ L, c, out, R, by rw [h1, List.append_assoc], h2⟩

theorem Clean.trans {flags : Nat} {w w1 w' : World V E} {r res : Except Err Bool} (h : Clean flags w w1 r) (h' : Clean flags w1 w' res) : Clean flags w w' res := by
  obtain ⟨evs, e, n, _, m⟩ := h
  exact h'.after e n m

section
variable {X : SyncCtx V E} {S D : Key → Option (Model V)} {es : List (Elem V)} {sid : Nat} {T : Key → Option Ref} {w1 w2 : World V E}
  {e : Elem V} {c : ModelClass V} {k0 : Key} {dst parent : Option Ref} {evs : List (Event V)} {res : Except Err (Bool × Option Ref)}

theorem noRef_call {c : CrudCall V} {out : Outcome} {lv : Level} {ctx : LogCtx} {st : Status} : NoRef [Event.call c out, .log lv ctx st] := by
  intro L lv' ctx' st' R hs _
  cases L with
  | nil => cases hs
  | cons a L =>
    injection hs with h1 h2
    subst h1
    cases L with
    | nil => exact ⟨[], c, out, rfl⟩
    | cons b L => injection h2 with _ h3; exact (not_split_nil h3).elim

/-- The action on one element. -/
theorem CAt.clean (h : CAt X S D es sid T e c k0 dst parent w1) (o : Own X (w1.scls.getD c) e.keys (e.plus.getD []) w1 w2 w1.sact dst evs res)
    (hpre : PreAt sid e k0 w1) : NoRef evs ∧ (∀ x, res = .error x → ErrBy X.flags evs x) ∧ NoMissing evs := by
  have hdst := h.dst
  have hact := h.act
  have hcf : ∀ {a}, w1.sact = some a → callFor (w1.scls.getD c) a (dst.map (fun r => (w1.heap r).m)) e.keys (e.plus.getD []) ≠ none := by
    intro a ha
    have ha' := hact.symm.trans ha
    cases a with
    | create => rw [hdst, hpre.2 ha']; simp [callFor]
    | update =>
      cases hd : fr sid w1 k0 with
      | none => exact absurd hd (h.inv.present h.env h.tree h.key (.inr ha'))
      | some r => rw [hdst, hd]; simp [callFor]
    | delete =>
      cases hd : fr sid w1 k0 with
      | none => exact absurd hd (hpre.1 ha')
      | some r => rw [hdst, hd]; simp [callFor]
  generalize hsa : w1.sact = sa at o
  cases o with
  | idle _ _ =>
    refine ⟨?_, fun x hx => (by cases hx), fun ctx hm => ?_⟩
    rotate_left
    · split at hm
      · rcases List.mem_cons.1 hm with h | h <;> cases h
      · cases hm
    intro L lv ctx st R hs hl
    split at hs
    · cases L with
      | nil => injection hs with h1 _; injection h1 with h1 _ _; exact absurd h1.symm hl
      | cons a L => injection hs with _ h2; exact (not_split_nil h2).elim
    · exact (not_split_nil hs).elim
  | stale h1 _ _ => exact absurd h1 (hcf hsa)
  | @crud a dst call out x h1 _ h3 h4 _ =>
    refine ⟨noRef_call, fun y hy => ?_, by simp [NoMissing]⟩
    split at hy
    · cases hy
    · rename_i hf
      cases hy
      exact ⟨[], call, out, [.log .error w1.slog .error], rfl, rfl, h3, fun hf' => absurd hf' hf⟩
  | @fatal a dst call out x h1 _ h2 h4 _ =>
    refine ⟨.of_none (by simp), fun y hy => ?_, by simp [NoMissing]⟩
    cases hy
    refine ⟨[], call, out, [], rfl, rfl, ?_, fun _ => h2⟩
    rcases h4 with h4 | ⟨ha, _, h4⟩ | ⟨r, ha, hd, _, h4⟩
    · exact h4
    · subst ha
      have ha' : e.action = some .create := hact.symm.trans hsa
      have hs : w1.scls = some c := by
        rcases h.scls with h' | h'
        · exact h'
        · rw [ha'] at h'; cases h'
      obtain ⟨m, hm⟩ := h.env.build e c h.tree ha' h.cls
      rw [hs] at h4
      cases h4.symm.trans hm
    · subst ha
      have hu : e.action = some .update := hact.symm.trans hsa
      have hr : fr sid w1 k0 = some r := hdst.symm.trans hd
      obtain ⟨c', u, h1, h2, h3⟩ := h.key
      cases h.cls.symm.trans h1
      have hrc : (w1.heap r).m.cls = c := h.inv.sinv.inst k0.1 k0.2 r c hr (by rw [h3]; exact h.cls)
      have := (setattrs_all (w1.heap r).m _ (h.env.plus_wf e h.tree) (by
        intro x hx
        rw [hrc]
        exact (h.env.valid.valid _ _ h.cls).attrs_fields x (h.env.plain e h.tree hu c h.cls x hx))).1
      rw [this] at h4; cases h4
  | @failed a dst call out _ _ _ _ => exact ⟨noRef_call, fun x hx => (by cases hx), by simp [NoMissing]⟩
  | @created out m r st => exact ⟨noRef_call, fun x hx => (by cases hx), by simp [NoMissing]⟩
  | @kept a r call out st _ _ _ _ _ _ => exact ⟨noRef_call, fun x hx => (by cases hx), by simp [NoMissing]⟩

/-- An element that needs no action has no object only if none was found. -/
theorem Own.idle_found {cl : ModelClass V} {ids attrs : Dict V} {a : Option Action} {ch : Bool} (o : Own X cl ids attrs w1 w2 a dst evs (.ok (ch, none))) (ha : a = none)
    (hd : dst ≠ none) : False := by
  generalize hres : (Except.ok (ch, none) : Except Err (Bool × Option Ref)) = res at o
  subst ha
  cases o with
  | idle _ _ => exact hd (Prod.mk.inj (Except.ok.inj hres)).2.symm

/-- A loop over elements. -/
theorem kids_clean {Kk : Elem V → World V E → World V E → Except Err Bool → Prop} {l : List (Elem V)} {acc : Bool} {w w' : World V E} {res : Except Err Bool}
    (hk : KidsRun Kk l acc w w' res) (hl : ∀ x ∈ l, InTree x es)
    (hK : ∀ x ∈ l, ∀ w w' res, Kk x w w' res → J X.dst S D es sid T w → J X.dst S D es sid T w' ∧ Fme X.dst es sid (InK X.dst x) w w' ∧ (Pre X.dst sid x w → Clean X.flags w w' res))
    (hj : J X.dst S D es sid T w) (hd : DistinctKeys X.dst l) (hp : ∀ x ∈ l, Pre X.dst sid x w) : Clean X.flags w w' res := by
  induction hk with
  | nil => exact .same rfl (fun _ h => by cases h)
  | @err x l acc w w' er h => exact (hK x (by simp) _ _ _ h hj).2.2 (hp x (by simp))
  | @cons x l acc w w1 w' b res h hk ih =>
    obtain ⟨h1, h2, h3⟩ := hK x (by simp) _ _ _ h hj
    obtain ⟨d1, d2, d3⟩ := hd.cons
    refine (h3 (hp x (by simp))).trans (ih (fun y hy => hl y (by simp [hy])) (fun y hy => hK y (by simp [hy])) h1 d2 ?_)
    intro y hy z k hz hzk
    refine (hp y (by simp [hy]) z k hz hzk).fme h2 ⟨z, hz.of_self (hl y (by simp [hy])), hzk⟩ ?_
    rintro ⟨z', hz', hzk'⟩
    exact d3 z' k hz' hzk' z (hz.mono (fun v hv => by rw [List.mem_singleton] at hv; rw [hv]; exact hy)) hzk

variable (hA : X.dst.ref.store = .local sid)
include hA

/-- A sync of one element raises only what user code raised, and refuses nothing. -/
theorem syncElem_clean (hc : CEnv X.dst S D es) (hre : X.dc.Reorders) (n : Nat) : ∀ (e : Elem V) (parent : Option Ref) (T : Key → Option Ref) (w w' : World V E) (res : Except Err Bool),
    syncElem X n e parent w = (res, w') → InTree e es → J X.dst S D es sid T w → Par X.dst es T parent e → Out X.dst es T e → Deep X.dst S D n X.rlimit e →
    Pre X.dst sid e w → Clean X.flags w w' res := by
  induction n with
  | zero =>
    intro e parent T w w' res _ he _ _ _ hdeep
    obtain ⟨k0, hk0⟩ := hc.keyed e he
    have := (hdeep k0 hk0 0 k0 .refl).1
    omega
  | succ n ih =>
    intro e parent T w w' res h he hj hpar hout hdeep hpre
    have hw : RefsLt w := hj.sinv.ok.refs_lt
    have hs := syncElem_step hA n e parent w hw
    rw [h] at hs
    dsimp only at hs
    obtain ⟨k0, hk0⟩ := hc.keyed e he
    obtain ⟨c0, u0, hc0, hu0, hkq⟩ := hk0
    have hk0 : ElemKey X.dst e k0 := ⟨c0, u0, hc0, hu0, hkq⟩
    have hT0 : T k0 = none := hout.self hk0
    have hek0 : EK X.dst es k0 := ⟨e, he, hk0⟩
    have hkid : ∀ {ke : Elem V}, ke ∈ e.kids → ∀ k, InK X.dst ke k → k ≠ k0 := by
      rintro ke hke k ⟨x, hx, hxk⟩ rfl
      exact hc.dist.below he (hx.mono (fun y hy => by rw [List.mem_singleton] at hy; rw [hy]; exact hke)) hk0 hxk
    have hperm := getChildren_perm hre e.kids
    have hdk : DistinctKeys X.dst (getChildren X.dc e.kids) := (distinct_sub hc.dist he).kids.1.perm hperm.symm
    have one : ∀ {q : Ref} {x}, x ∈ getChildren X.dc e.kids → ∀ wa wb r, syncElem X n x (some q) wa = (r, wb) → J X.dst S D es sid (setT T k0 q) wa →
        J X.dst S D es sid (setT T k0 q) wb ∧ Fme X.dst es sid (InK X.dst x) wa wb ∧ (Pre X.dst sid x wa → Clean X.flags wa wb r) := by
      intro q x hx wa wb r hr hja
      have hx' := mem_of_getChildren hx
      have hp' : Par X.dst es (setT T k0 q) (some q) x := .inr ⟨q, e, k0, rfl, he, hx', hk0, setT_self T k0 q⟩
      obtain ⟨g1, g2, _⟩ := syncElem_conv hA hc n x (some q) (setT T k0 q) wa wb r hr (he.kid hx') hja hp' (hout.setT hc he hk0 hx') (hdeep.kid hc he hx')
      exact ⟨g1, g2, ih x (some q) (setT T k0 q) wa wb r hr (he.kid hx') hja hp' (hout.setT hc he hk0 hx') (hdeep.kid hc he hx')⟩
    have kids : ∀ {q : Ref} {acc w1 w2 y}, KidsRun (fun k w w' res => syncElem X n k (some q) w = (res, w')) (getChildren X.dc e.kids) acc w1 w2 y →
        J X.dst S D es sid (setT T k0 q) w1 → (∀ x ∈ e.kids, Pre X.dst sid x w1) → Clean X.flags w1 w2 y := by
      intro q acc w1 w2 y hk hj1 hp
      exact kids_clean hk (fun x hx => he.kid (mem_of_getChildren hx)) (fun x hx => one hx) hj1 hdk (fun x hx => hp x (mem_of_getChildren hx))
    have kidsJ : ∀ {q : Ref} {acc w1 w2 y}, KidsRun (fun k w w' res => syncElem X n k (some q) w = (res, w')) (getChildren X.dc e.kids) acc w1 w2 y →
        J X.dst S D es sid (setT T k0 q) w1 → J X.dst S D es sid (setT T k0 q) w2 ∧ fr sid w2 k0 = fr sid w1 k0 := by
      intro q acc w1 w2 y hk hj1
      obtain ⟨a1, a2, _, _⟩ := kids_conv hk (fun x hx => he.kid (mem_of_getChildren hx)) (fun x hx wa wb r hr hja => by
        have hx' := mem_of_getChildren hx
        exact ⟨syncElem_conv hA hc n x (some q) (setT T k0 q) wa wb r hr (he.kid hx') hja (.inr ⟨q, e, k0, rfl, he, hx', hk0, setT_self T k0 q⟩) (hout.setT hc he hk0 hx')
          (hdeep.kid hc he hx'), syncElem_ext (S := X) n _ _ _ _ _ hja.sinv.ok.refs_lt hr⟩) hj1
      exact ⟨a1, a2.pres k0 hek0 (by rintro ⟨x, hx, hk⟩; exact hkid (mem_of_getChildren hx) k0 hk rfl)⟩
    have body : ∀ {c dst nat sk w1}, CAt X S D es sid T e c k0 dst parent w1 →
        Body X (fun q k w w' res => syncElem X n k q w = (res, w')) e c parent dst nat sk w1 w' res → PreAt sid e k0 w1 → w1.slog.action = w1.sact →
        ((nat = true ∧ sk = false ∧ e.action = some .delete) ∨ Pre X.dst sid e w1) → Clean X.flags w1 w' res := by
      intro c dst nat sk w1 hat hb hp hsl hcase
      have hrl : ∀ j y, Down S D j k0 y → j < X.rlimit := fun j y hd => (hdeep k0 hk0 j y hd).2
      have quiet : ∀ {w2 w3 : World V E} {r y}, applyStore X w1.sact parent r sk w2 = (y, w3) → ∃ ws, w3.trace = w2.trace ++ ws ∧ NoRef ws ∧ NoMissing ws := by
        intro w2 w3 r y hap
        obtain ⟨_, ⟨ws, q2, q3⟩, _⟩ := applyStore_quiet hA w1.sact parent r sk w2
        rw [hap] at q2
        refine ⟨ws, q2, .of_none (fun lv ctx st hm => ?_), fun ctx hm => ?_⟩ <;>
        · obtain ⟨_, _, _, _, h⟩ := q3 _ hm
          cases h
      have tick : ∀ w3 : World V E, ∃ ws, w3.tick.trace = w3.trace ++ ws ∧ NoRef ws ∧ NoMissing ws :=
        fun w3 => ⟨[.syncProgress (w3.sproc + 1) w3.stotal], rfl, .of_none (by simp), by simp [NoMissing]⟩
      cases hb with
      | @raised evs x o _ ht =>
        obtain ⟨n1, x1, m1⟩ := hat.clean o hp
        exact ⟨evs, ht, n1, fun y hy => x1 y (by cases hy; rfl), m1.miss⟩
      | @noObject evs w2 ch o rg ht hw' =>
        obtain ⟨n1, x1, m1⟩ := hat.clean o hp
        subst hw'
        refine ⟨evs ++ [.noObject w2.slog], by rw [← List.append_assoc, ← ht], n1.append (.of_none (by simp)), fun _ h => (by cases h), fun hall => ?_, fun ctx hm hn => ?_⟩
        rotate_left
        · rcases List.mem_append.1 hm with hm | hm
          · exact m1 ctx hm
          · cases List.mem_singleton.1 hm
            rw [rg.slog_eq, hsl] at hn
            exact o.idle_found hn (fun hd => hat.inv.present hat.env hat.tree hat.key (.inl (hat.act.symm.trans hn)) (hat.dst.symm.trans hd))
        obtain ⟨⟨ch, r, hr⟩, _⟩ := hat.good o hp (goodEv_of hall.left)
        cases hr
      | @storeFail evs w2 ch r x o _ ht hap =>
        obtain ⟨w3, e3, _⟩ := hat.store hA (sk := sk) o hrl
        cases e3.symm.trans hap
      | @shortcut evs w2 ch r o _ ht hap hdel hsk =>
        obtain ⟨n1, _, m1⟩ := hat.clean o hp
        obtain ⟨ws, q1, q2, q3⟩ := quiet hap
        exact Clean.after ht n1 m1.miss ⟨ws, q1, q2, fun _ h => (by cases h), q3.miss⟩
      | @leaf evs w2 w3 ch r o _ ht hap hdel hsk hn hw' =>
        obtain ⟨n1, _, m1⟩ := hat.clean o hp
        obtain ⟨ws, q1, q2, q3⟩ := quiet hap
        obtain ⟨ws', t1, t2, t3⟩ := tick w3
        subst hw'
        exact Clean.after ht n1 m1.miss (Clean.after q1 q2 q3.miss ⟨ws', t1, t2, fun _ h => (by cases h), t3.miss⟩)
      | @kids evs w2 w3 ch r _ o _ ht hap hcs hk =>
        obtain ⟨n1, _, m1⟩ := hat.clean o hp
        obtain ⟨ws, q1, q2, q3⟩ := quiet hap
        obtain ⟨ws', t1, t2, t3⟩ := tick w3
        obtain ⟨w3', e3, s1, s2, s3, s4⟩ := hat.store hA (sk := sk) o hrl
        cases e3.symm.trans hap
        have hnd : ¬ (e.action = some .delete ∧ sk = true) := by
          rintro ⟨h1, h2⟩
          have := (hcs (hat.act.trans h1)).2
          rw [h2] at this; cases this
        have j3 := s2 hnd
        have f3 : Fme X.dst es sid (fun k => k = k0) w1 w3.tick := (s3.mono (fun k hk => by
          rcases hk with h | ⟨h1, h2, _⟩
          · exact h
          · exact absurd ⟨h1, h2⟩ hnd)).trans ((tick_still w3).fme j3)
        have hpre1 : Pre X.dst sid e w1 := by
          rcases hcase with h' | h'
          · have := (hcs (hat.act.trans h'.2.2)).1
            rw [h'.1] at this; cases this
          · exact h'
        refine Clean.after ht n1 m1.miss (Clean.after q1 q2 q3.miss (Clean.after t1 t2 t3.miss (kids hk (j3.still (tick_still w3)) ?_)))
        intro ke hke x k hx hxk
        exact (hpre1 x k (inTree_kid hke hx) hxk).fme f3 ⟨x, hx.of_self (he.kid hke), hxk⟩ (hkid hke k ⟨x, hx, hxk⟩)
    have enter : ∀ {c u dst w1}, Entered X sid e c u dst w w1 → c = c0 ∧ dst = fr sid w k0 := by
      intro c u dst w1 ent
      cases hc0.symm.trans ent.cls
      cases hu0.symm.trans ent.uid
      refine ⟨rfl, ?_⟩
      rw [ent.dst, hkq]
      unfold fr
      rw [hc.valid.names _ _ hc0]
    have pre1 : ∀ {w1}, Still w w1 → Pre X.dst sid e w1 := by
      intro w1 hst x k hx hxk
      exact (hpre x k hx hxk).fme (K := fun _ => False) (hst.fme hj) ⟨x, hx.of_self he, hxk⟩ (fun h => h)
    have nil : NoRef ([] : List (Event V)) := .of_none (by simp)
    have nilm : Miss ([] : List (Event V)) := .nil
    cases hs with
    | noClass h1 _ => cases hc0.symm.trans h1
    | @noKey c h1 h2 _ => cases hc0.symm.trans h1; cases hu0.symm.trans h2
    | @natFail c u dst w1 x ent hn hsk ha hk =>
      obtain ⟨rfl, hd⟩ := enter ent
      cases hdst : dst with
      | none => rw [hdst] at hn; cases hn
      | some q =>
        rw [hdst] at hk hd
        have hq : fr sid w1 k0 = some q := by rw [ent.still.fr_eq]; exact hd.symm
        exact Clean.after (evs := []) (by simp [ent.trace]) nil nilm (kids hk ((hj.still ent.still).remember hq (by rw [hkq]; rw [hc0]; simp))
          (fun ke hke x k hx hxk => pre1 ent.still x k (inTree_kid hke hx) hxk))
    | @natural c u dst w1 w2 b res ent hn hsk ha hk hb =>
      obtain ⟨rfl, hd⟩ := enter ent
      cases hdst : dst with
      | none => rw [hdst] at hn; cases hn
      | some q =>
        rw [hdst] at hk hd hb
        have j1 := hj.still ent.still
        have hq : fr sid w1 k0 = some q := by rw [ent.still.fr_eq]; exact hd.symm
        have jr := j1.remember hq (T := T) (by rw [hkq]; rw [hc0]; simp)
        obtain ⟨a1, a2⟩ := kidsJ hk jr
        have hq2 : fr sid w2 k0 = some q := a2.trans hq
        have hw1 := ent.still.grows.refs hw
        have hsact : w2.sact = some .delete := kidsRun_sact hA hk hw1 (ent.sact.trans ha) (fun k hk => hc.del e he ha k (.here (mem_of_getChildren hk)))
          (fun k hk x hx hxa y hy => hc.del x (hx.of_self (he.kid (mem_of_getChildren hk))) hxa y hy)
        have hat : CAt X S D es sid T e c k0 (some q) parent w2 := {
          env := hc, inv := a1.forget (setT_forget T q hT0), tree := he, key := hk0, cls := hc0, act := hsact.trans ha.symm, scls := .inr ha
          dst := hq2.symm, par := hpar, out := hout }
        refine Clean.after (evs := []) (by simp [ent.trace]) nil nilm ((kids hk jr (fun ke hke x k hx hxk => pre1 ent.still x k (inTree_kid hke hx) hxk)).trans ?_)
        exact body hat hb ⟨fun _ => by rw [hq2]; simp, fun hcr => by rw [ha] at hcr; cases hcr⟩
          (kidsRun_slog_sact (S := X) n hk hw1 (by rw [ent.slog, ent.sact])) (.inl ⟨rfl, rfl, ha⟩)
    | @plain c u dst w1 res ent hcase hb =>
      obtain ⟨rfl, hd⟩ := enter ent
      have hat : CAt X S D es sid T e c k0 dst parent w1 := {
        env := hc, inv := hj.still ent.still, tree := he, key := hk0, cls := hc0, act := ent.sact, scls := .inl ent.scls
        dst := by rw [hd, ent.still.fr_eq], par := hpar, out := hout }
      have hp1 := pre1 ent.still
      exact Clean.after (evs := []) (by simp [ent.trace]) nil nilm (body hat hb (hp1 e k0 (inTree_self e) hk0) (by rw [ent.slog, ent.sact]) (.inr hp1))
end

section
variable {n : Nat} {src dst : Adapter V} {sid : Nat} {w w' : World V E}

/-- A whole sync. -/
theorem CanConverge.clean (h : CanConverge n src dst sid w) {rl : Nat} (hrl : n ≤ rl) {hooks : Hooks V E} {dc : DiffClass V} (hre : dc.Reorders) {flags : Nat} {res : Except Err (Diff V)}
    (hs : syncFrom n rl hooks dst src dc flags none w = (res, w')) :
    ∃ d, (∃ w1, diffFrom n dst src dc flags w = (.ok d, w1)) ∧ NoRef (newEvents w w') ∧ Miss (newEvents w w') ∧
      ((∃ x, res = .error x ∧ ErrBy flags (newEvents w w') x) ∨ res = .ok d) := by
  obtain ⟨d, ⟨wd, hd⟩, hdes, hcls, hc, -, -⟩ := h.sync hrl hs
  refine ⟨d, ⟨wd, hd⟩, ?_⟩
  rcases syncFrom_cases n rl hooks dst src dc flags none w h.ready.ok.refs_lt h.ready.ok.tbl_wf with ⟨x, w1, h1, h2, h3, h4⟩ | ⟨d', w0, evs0, y, w1, h1, h2, h3, h4, h5, h6, hcl, h7, h8⟩
  · rcases h4 with ⟨_, h4, _⟩ | ⟨_, h4⟩
    · cases h4
    · rw [hd] at h4; cases h4
  · have hdd : d' = d := by
      rcases h1 with ⟨h1, _⟩ | ⟨_, h1⟩
      · cases h1
      · rw [hd] at h1; cases h1; rfl
    subst hdd
    have st : Still w (startSync d' w0) := h2.trans (startSync_still d' w0)
    have hj0 := (J.start h.ready h.reconcilable hc).still st
    have hX : (⟨src, dst, flags, d'.cls, hooks, rl⟩ : SyncCtx V E).dst.ref.store = .local sid := h.ready.store
    have hw0 := hj0.sinv.ok.refs_lt
    have hk := syncElem_list (S := ⟨src, dst, flags, d'.cls, hooks, rl⟩) n (getChildren d'.cls d'.kids) false (startSync d' w0) hw0
    rw [h7] at hk
    have hre' : d'.cls.Reorders := by rw [hcls]; exact hre
    have hperm := getChildren_perm hre' d'.kids
    have hdeep : ∀ {x}, x ∈ d'.kids → Deep dst (snap src w).at (snap dst w).at n rl x := by
      intro x hx k hk j y hdn
      obtain ⟨_, _, ps, hdp, hi', hl, hz⟩ := hdes
      obtain ⟨p, hp, hep⟩ := zip_mem_left hl hx
      have ht := ((hi' p).1 hp).1
      have pl := Placed.of_top h.reconcilable ht
      cases pl.key_of h.reconcilable h.ready.instOf h.comparable.src_ok h.comparable.dst_ok (hz _ hep).header hk
      have := h.reconcilable.depth _ _ (pl.top.down' hdn)
      exact ⟨by omega, by omega⟩
    have hcl : Clean flags (startSync d' w0) w1 y := by
      refine kids_clean (X := ⟨src, dst, flags, d'.cls, hooks, rl⟩) (T := fun _ => none) hk (fun x hx => .here (mem_getChildren hx)) (fun x hx wa wb r hr hj => ?_) hj0 (hc.dist.perm hperm.symm) ?_
      · have hx' := mem_getChildren hx
        have hpar : Par dst d'.kids (fun _ => none) none x := .inl ⟨rfl, hx'⟩
        have hout : Out dst d'.kids (fun _ => none) x := fun k hk => absurd rfl hk
        obtain ⟨g1, g2, _⟩ := syncElem_conv hX hc n x none _ wa wb r hr (.here hx') hj hpar hout (hdeep hx')
        exact ⟨g1, g2, syncElem_clean hX hc hre' n x none _ wa wb r hr (.here hx') hj hpar hout (hdeep hx')⟩
      · intro x hx y k hy hk
        have hyt : InTree y d'.kids := inTree_single (mem_getChildren hx) hy
        constructor
        · intro ha hn
          have := (hc.delete y k hyt hk ha).2
          rw [st.fr_eq] at hn
          exact this (by rw [snap_at h.ready.store, hn]; rfl)
        · intro ha
          have := (hc.create y k hyt hk ha).2
          rw [snap_at h.ready.store] at this
          rw [st.fr_eq]
          simpa using this
    have hn0 : NoRef evs0 := .of_none (fun lv ctx st hm => by
      obtain ⟨_, _, h⟩ := h5 _ hm
      cases h)
    have hm0 : NoMissing evs0 := fun ctx hm => by
      obtain ⟨_, _, h⟩ := h5 _ hm
      cases h
    obtain ⟨evs, e1, e2, e3, e4⟩ := hcl.after (w := w) h4 hn0 hm0.miss
    rw [hs] at h8
    cases y with
    | error x =>
      cases h8
      have : newEvents w w' = evs := by unfold newEvents; rw [e1, List.drop_left]
      rw [this]
      exact ⟨e2, e4, .inl ⟨x, rfl, e3 x rfl⟩⟩
    | ok ch =>
      cases h8
      refine and_assoc.1 ⟨?_, .inr rfl⟩
      unfold World.complete
      cases ch
      · have : newEvents w w1 = evs := by unfold newEvents; rw [e1, List.drop_left]
        exact this ▸ ⟨e2, e4⟩
      · have : newEvents w { w1 with trace := w1.trace ++ [.syncComplete dst.ref.id src.ref.id] } = evs ++ [.syncComplete dst.ref.id src.ref.id] := by
          unfold newEvents
          dsimp only
          rw [e1, List.append_assoc, List.drop_left]
        exact this ▸ ⟨e2.append (.of_none (by simp)), e4.append (NoMissing.miss (by simp [NoMissing]))⟩
end
end DS
