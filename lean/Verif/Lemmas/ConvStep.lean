import Verif.Lemmas.ConvStore
/-! A sync of an element keeps the invariant of `Verif.Lemmas.Conv`; when all calls succeed, it does what the element says. -/
set_option linter.unusedSectionVars false

namespace DS
variable {V E : Type} [PyVal V]

/-- A path of the given length through the child lists of both sides. -/
inductive Down (S D : Key → Option (Model V)) : Nat → Key → Key → Prop where
  | refl {k} : Down S D 0 k k
  | step {j k c y} : UE S D k c → Down S D j c y → Down S D (j + 1) k y

/-- A call that did its work. -/
def GoodEv : Event V → Prop
  | .call c out => out.result = .object ∧ (c.act = .update → out.applied = true)
  | _ => True

/-- What is there before an element is synced. -/
def PreAt (sid : Nat) (x : Elem V) (k : Key) (w : World V E) : Prop :=
  (x.action = some .delete → fr sid w k ≠ none) ∧ (x.action = some .create → fr sid w k = none)

/-- What an element says has been done. -/
def DoneAt (sid : Nat) (x : Elem V) (k : Key) (w : World V E) : Prop :=
  match x.action with
  | none => True
  | some .delete => fr sid w k = none
  | some .create => fr sid w k ≠ none
  | some .update => ∃ r, fr sid w k = some r ∧ ∀ f v, Dict.get? (x.plus.getD []) f = some v → Dict.get? (w.heap r).m.vals f = some v

def Pre (A : Adapter V) (sid : Nat) (e : Elem V) (w : World V E) : Prop := ∀ x k, InTree x [e] → ElemKey A x k → PreAt sid x k w
def Done (A : Adapter V) (sid : Nat) (e : Elem V) (w : World V E) : Prop := ∀ x k, InTree x [e] → ElemKey A x k → DoneAt sid x k w

/-- Remembered objects belong to elements outside a subtree. -/
def Out (A : Adapter V) (es : List (Elem V)) (T : Key → Option Ref) (e : Elem V) : Prop := ∀ k, T k ≠ none → EK A es k ∧ ¬ InK A e k

/-- The depth below an element is within the limits. -/
def Deep (A : Adapter V) (S D : Key → Option (Model V)) (n rl : Nat) (e : Elem V) : Prop :=
  ∀ k, ElemKey A e k → ∀ j y, Down S D j k y → j < n ∧ j < rl

section
variable {A : Adapter V} {S D : Key → Option (Model V)} {es : List (Elem V)} {sid : Nat} {T : Key → Option Ref} {w w' : World V E} {K : Key → Prop}

theorem PreAt.fme (hf : Fme A es sid K w w') {x : Elem V} {k : Key} (h : PreAt sid x k w) (hk : EK A es k) (hn : ¬ K k) : PreAt sid x k w' := by
  unfold PreAt at h ⊢; rw [hf.pres k hk hn]; exact h

theorem DoneAt.fme (hf : Fme A es sid K w w') {x : Elem V} {k : Key} (h : DoneAt sid x k w) (hk : EK A es k) (hn : ¬ K k) : DoneAt sid x k w' := by
  unfold DoneAt at h ⊢
  split at h
  · trivial
  · rw [hf.pres k hk hn]; exact h
  · rw [hf.pres k hk hn]; exact h
  · obtain ⟨r, h1, h2⟩ := h
    refine ⟨r, by rw [hf.pres k hk hn]; exact h1, ?_⟩
    rw [hf.vals k r hk hn h1]; exact h2

theorem Deep.kid (hc : CEnv A S D es) {n rl : Nat} {e ke : Elem V} (h : Deep A S D (n + 1) rl e) (he : InTree e es) (hk : ke ∈ e.kids) : Deep A S D n rl ke := by
  intro k hkk j y hd
  obtain ⟨k0, hk0⟩ := hc.keyed e he
  have := h k0 hk0 (j + 1) y (.step (hc.edge _ _ ⟨e, ke, he, hk, hk0, hkk⟩) hd)
  omega

theorem Out.setT (hc : CEnv A S D es) {e ke : Elem V} {k0 : Key} {r : Ref} (h : Out A es T e) (he : InTree e es) (hk : ElemKey A e k0) (hke : ke ∈ e.kids) :
    Out A es (DS.setT T k0 r) ke := by
  intro k hk'
  by_cases hkk : k = k0
  · subst hkk
    refine ⟨⟨e, he, hk⟩, ?_⟩
    rintro ⟨x, hx, hxk⟩
    exact hc.dist.below he (hx.mono (fun y hy => by rw [List.mem_singleton] at hy; rw [hy]; exact hke)) hk hxk
  · rw [setT_ne T r hkk] at hk'
    obtain ⟨h1, h2⟩ := h k hk'
    exact ⟨h1, fun ⟨x, hx, hxk⟩ => h2 ⟨x, inTree_kid hke hx, hxk⟩⟩

theorem Out.self {e : Elem V} {k0 : Key} (h : Out A es T e) (hk : ElemKey A e k0) : T k0 = none := by
  cases ht : T k0 with
  | none => rfl
  | some r => exact absurd ⟨e, inTree_self e, hk⟩ (h k0 (by rw [ht]; simp)).2

theorem Par.setT (hc : CEnv A S D es) {e : Elem V} {k0 : Key} {r : Ref} {parent : Option Ref} (h : Par A es T parent e) (hk : ElemKey A e k0) :
    Par A es (DS.setT T k0 r) parent e := by
  rcases h with h | ⟨p, ep, kp, h1, h2, h3, h4, h5⟩
  · exact .inl h
  · refine .inr ⟨p, ep, kp, h1, h2, h3, h4, ?_⟩
    rw [setT_ne T r]
    · exact h5
    · rintro rfl
      exact hc.noloop ⟨ep, e, h2, h3, h4, hk⟩

theorem ek_inK {e : Elem V} (he : InTree e es) {k : Key} (h : InK A e k) : EK A es k := by
  obtain ⟨x, hx, hxk⟩ := h
  exact ⟨x, hx.of_self he, hxk⟩

/-- What is stored for elements without deletion or creation. -/
theorem J.present (hc : CEnv A S D es) (h : J A S D es sid T w) {e : Elem V} {k : Key} (he : InTree e es) (hk : ElemKey A e k)
    (ha : e.action = none ∨ e.action = some .update) : fr sid w k ≠ none := by
  intro hn
  have : S k ≠ none ∧ D k ≠ none := by
    rcases ha with ha | ha
    · exact hc.quiet e k he hk ha
    · exact hc.update e k he hk ha
  exact this.1 (h.keep k this.2 hn)
end

section
variable {X : SyncCtx V E} {S D : Key → Option (Model V)} {es : List (Elem V)} {sid : Nat} {T : Key → Option Ref} {w1 w2 : World V E}
  {e : Elem V} {c : ModelClass V} {k0 : Key} {dst parent : Option Ref} {evs : List (Event V)} {res : Except Err (Bool × Option Ref)}

/-- When the action on an element is about to be performed. -/
structure CAt (X : SyncCtx V E) (S D : Key → Option (Model V)) (es : List (Elem V)) (sid : Nat) (T : Key → Option Ref) (e : Elem V) (c : ModelClass V) (k0 : Key)
    (dst parent : Option Ref) (w1 : World V E) : Prop where
  env : CEnv X.dst S D es
  inv : J X.dst S D es sid T w1
  tree : InTree e es
  key : ElemKey X.dst e k0
  cls : Dict.get? X.dst.classes e.type = some c
  act : w1.sact = e.action
  scls : w1.scls = some c ∨ e.action = some .delete
  dst : dst = fr sid w1 k0
  par : Par X.dst es T parent e
  out : Out X.dst es T e

theorem CAt.class (h : CAt X S D es sid T e c k0 dst parent w1) : Dict.get? X.dst.classes k0.1 ≠ none := by
  obtain ⟨c', u, h1, _, rfl⟩ := h.key
  rw [h1]; simp

theorem CAt.own (h : CAt X S D es sid T e c k0 dst parent w1) (o : Own X (w1.scls.getD c) e.keys (e.plus.getD []) w1 w2 w1.sact dst evs res) :
    J X.dst S D es sid T w2 ∧ Fme X.dst es sid (fun k => k = k0) w1 w2 ∧ ∀ k, fr sid w2 k = fr sid w1 k := by
  have still : Still w1 w2 → J X.dst S D es sid T w2 ∧ Fme X.dst es sid (fun k => k = k0) w1 w2 ∧ ∀ k, fr sid w2 k = fr sid w1 k :=
    fun hs => ⟨h.inv.still hs, hs.fme h.inv, fun k => hs.fr_eq k⟩
  have ce : ∀ {a' out}, w1.sact = some a' → CallEff a' dst (e.plus.getD []) out w1 w2 →
      J X.dst S D es sid T w2 ∧ Fme X.dst es sid (fun k => k = k0) w1 w2 ∧ ∀ k, fr sid w2 k = fr sid w1 k := by
    intro a' out ha hce
    unfold CallEff at hce
    split at hce
    · rename_i r
      split at hce
      · have hr : fr sid w1 k0 = some r := h.dst.symm
        have hfr : ∀ k, fr sid w2 k = fr sid w1 k := fun k => hce.tbl_eq.findRef sid k.1 k.2
        refine ⟨h.inv.update h.env h.tree h.key (h.act.symm.trans ha) hr hce, ⟨fun k _ _ => hfr k, fun k r' _ hk hr' => ?_⟩, hfr⟩
        have hne : r' ≠ r := by
          rintro rfl
          exact hk (h.inv.inj (.inl hr') (.inl hr))
        rw [hce.heap_m r' (h.inv.lt (.inl hr')) hne]
      · exact still hce
    · exact still hce
  generalize hsa : w1.sact = sa at o
  cases o with
  | idle h _ => exact still h
  | stale _ h _ => exact still h
  | crud _ _ _ _ h2 => exact ce hsa h2
  | fatal _ _ _ _ h2 => exact ce hsa h2
  | failed _ _ _ h2 => exact ce hsa h2
  | created _ _ _ h4 _ _ _ _ => exact still h4
  | kept _ _ _ _ h2 _ => exact ce hsa h2

/-- When the calls succeed and the object is there (or not) as it should, there is a result. -/
theorem CAt.good (h : CAt X S D es sid T e c k0 dst parent w1) (o : Own X (w1.scls.getD c) e.keys (e.plus.getD []) w1 w2 w1.sact dst evs res)
    (hpre : PreAt sid e k0 w1) (hg : ∀ ev ∈ evs, GoodEv ev) :
    (∃ ch r, res = .ok (ch, some r)) ∧ (e.action = some .update → DoneAt sid e k0 w2) := by
  have hfr := (h.own o).2.2
  have hdst := h.dst
  have hact := h.act
  have hcf : ∀ {a}, w1.sact = some a → callFor (w1.scls.getD c) a (dst.map (fun r => (w1.heap r).m)) e.keys (e.plus.getD []) ≠ none := by
    intro a ha
    have ha' := hact.symm.trans ha
    cases a with
    | create => rw [hdst, hpre.2 ha']; simp [callFor]
    | update =>
      cases hd : fr sid w1 k0 with
      | none => exact absurd hd (h.inv.present h.env h.tree h.key (.inr ha'))
      | some r => rw [hdst, hd]; simp [callFor]
    | delete =>
      cases hd : fr sid w1 k0 with
      | none => exact absurd hd (hpre.1 ha')
      | some r => rw [hdst, hd]; simp [callFor]
  have hcact : ∀ {a m call}, callFor (w1.scls.getD c) a m e.keys (e.plus.getD []) = some call → call.act = a := by
    intro a m call hc
    unfold callFor at hc
    split at hc <;> cases hc <;> rfl
  have hset : ∀ r, e.action = some .update → dst = some r → ((w1.heap r).m.setattrs (e.plus.getD [])).2 = none ∧
      ∀ f v, Dict.get? (e.plus.getD []) f = some v → Dict.get? ((w1.heap r).m.setattrs (e.plus.getD [])).1.vals f = some v := by
    intro r ha hd
    have hr : fr sid w1 k0 = some r := hdst.symm.trans hd
    obtain ⟨c', u, h1, h2, h3⟩ := h.key
    cases h.cls.symm.trans h1
    have hrc : (w1.heap r).m.cls = c := h.inv.sinv.inst k0.1 k0.2 r c hr (by rw [h3]; exact h.cls)
    apply setattrs_all _ _ (h.env.plus_wf e h.tree)
    intro x hx
    rw [hrc]
    exact (h.env.valid.valid _ _ h.cls).attrs_fields x (h.env.plain e h.tree ha c h.cls x hx)
  generalize hsa : w1.sact = sa at o
  cases o with
  | idle _ _ =>
    have ha : e.action = none := hact.symm.trans hsa
    refine ⟨?_, fun hu => by rw [ha] at hu; cases hu⟩
    cases hd : fr sid w1 k0 with
    | none => exact absurd hd (h.inv.present h.env h.tree h.key (.inl ha))
    | some r => exact ⟨false, r, by rw [hdst, hd]⟩
  | stale h1 _ _ => exact absurd h1 (hcf hsa)
  | @crud a dst call out x h1 _ h3 _ _ =>
    have := hg (.call call out) (by simp)
    simp only [GoodEv] at this
    rw [h3] at this; cases this.1
  | @fatal a dst call out x h1 _ _ h4 _ =>
    have hgc := hg (.call call out) (by simp)
    simp only [GoodEv] at hgc
    rcases h4 with h4 | ⟨ha, _, h4⟩ | ⟨r, ha, hd, _, h4⟩
    · rw [h4] at hgc; cases hgc.1
    · subst ha
      have ha' : e.action = some .create := hact.symm.trans hsa
      have hs : w1.scls = some c := by
        rcases h.scls with h' | h'
        · exact h'
        · rw [ha'] at h'; cases h'
      obtain ⟨m, hm⟩ := h.env.build e c h.tree ha' h.cls
      rw [hs] at h4
      cases h4.symm.trans hm
    · subst ha
      rw [(hset r (hact.symm.trans hsa) hd).1] at h4; cases h4
  | @failed a dst call out h1 _ h3 _ =>
    have := hg (.call call out) (by simp)
    simp only [GoodEv] at this
    rw [h3] at this; cases this.1
  | @created out m r st =>
    exact ⟨⟨true, r, rfl⟩, fun hu => by rw [hu, hsa] at hact; cases hact⟩
  | @kept a r call out st h1 _ h3 _ h5 _ =>
    refine ⟨⟨true, r, rfl⟩, fun hu => ?_⟩
    have ha : a = .update := by rw [hu, hsa] at hact; cases hact; rfl
    subst ha
    have hgc := hg (.call call out) (by simp)
    simp only [GoodEv] at hgc
    have hap := hgc.2 (hcact h1)
    unfold CallEff at h5
    simp only [hap, if_true] at h5
    unfold DoneAt
    rw [hu]
    dsimp only
    refine ⟨r, by rw [hfr]; exact hdst.symm, ?_⟩
    rw [h5.heap_r]
    exact (hset r hu rfl).2

variable (hA : X.dst.ref.store = .local sid)
include hA

/-- The bookkeeping after the action. -/
theorem CAt.store (h : CAt X S D es sid T e c k0 dst parent w1) {ch : Bool} {r : Ref} {sk : Bool}
    (o : Own X (w1.scls.getD c) e.keys (e.plus.getD []) w1 w2 w1.sact dst evs (.ok (ch, some r))) (hrl : ∀ j y, Down S D j k0 y → j < X.rlimit) :
    ∃ w3, applyStore X w1.sact parent r sk w2 = (.ok (), w3) ∧
      (e.action = some .delete ∧ sk = true → J X.dst S D es sid T w3 ∧ ((∀ k, InK X.dst e k → fr sid w1 k ≠ none) → ∀ k, InK X.dst e k → fr sid w3 k = none)) ∧
      (¬ (e.action = some .delete ∧ sk = true) → J X.dst S D es sid (setT T k0 r) w3) ∧
      Fme X.dst es sid (fun k => k = k0 ∨ (e.action = some .delete ∧ sk = true ∧ InK X.dst e k)) w1 w3 ∧
      ((e.action = some .update → DoneAt sid e k0 w2) → DoneAt sid e k0 w3) := by
  obtain ⟨hJ2, hF2, hfr2⟩ := h.own o
  have hT0 : T k0 = none := h.out.self h.key
  have hact := h.act
  have hpath : ∀ (G : Key → Option (Model V)), (∀ k m, G k = some m → ∀ c ∈ childRefs m, UE S D k c) → ∀ j y, Path (fun t u => (t, u)) G j k0 y → j < X.rlimit := by
    intro G hG j y hp
    apply hrl j y
    clear hrl
    revert hp
    generalize k0 = k
    intro hp
    induction hp with
    | refl => exact .refl
    | step h1 h2 _ ih => exact .step (hG _ _ h1 _ h2) ih
  rcases o.fate with ⟨ha, hd, hst⟩ | ⟨ha, hd⟩ | ⟨ha, hd, out, m, hev, hob, hm, hst, hn1, hn2, hhm⟩ | ⟨ha, hd, hst, out, hev, hob⟩
  · refine ⟨w2, by rw [ha]; rfl, ?_, fun _ => hJ2.remember (by rw [hfr2]; exact h.dst.symm.trans hd) h.class, hF2.mono (fun _ h => .inl h), ?_⟩
    · intro hdel; rw [← hact, ha] at hdel; cases hdel.1
    · intro _; unfold DoneAt; rw [← hact, ha]; trivial
  · refine ⟨w2, by rw [ha]; rfl, ?_, fun _ => hJ2.remember (by rw [hfr2]; exact h.dst.symm.trans hd) h.class, hF2.mono (fun _ h => .inl h), ?_⟩
    · intro hdel; rw [← hact, ha] at hdel; cases hdel.1
    · intro hdone; exact hdone (hact.symm.trans ha)
  · have ha' : e.action = some .create := hact.symm.trans ha
    have hs : w1.scls = some c := by
      rcases h.scls with h' | h'
      · exact h'
      · rw [ha'] at h'; cases h'
    rw [hs, Option.getD_some] at hm
    obtain ⟨w3, e3, j3, f3, n3⟩ := store_create hA h.env h.inv (skip := sk) h.tree h.key ha' h.par hT0 (h.dst.symm.trans hd) h.cls (by rw [hhm]; exact hm) hst hn1 hn2
    refine ⟨w3, by rw [ha]; exact e3, ?_, fun _ => j3.remember n3 h.class, f3.mono (fun _ h => .inl h), ?_⟩
    · intro hdel; rw [ha'] at hdel; cases hdel.1
    · intro _; unfold DoneAt; rw [ha']; show fr sid w3 k0 ≠ none; rw [n3]; simp
  · have ha' : e.action = some .delete := hact.symm.trans ha
    have hr2 : fr sid w2 k0 = some r := by rw [hfr2]; exact h.dst.symm.trans hd
    have hek : EK X.dst es k0 := ⟨e, h.tree, h.key⟩
    cases hsk : sk with
    | true =>
      obtain ⟨w3, e3, j3, f3, n3, a3⟩ := store_delete hA h.env hJ2 (skip := true) h.tree h.key ha' hr2 h.par (fun k hk => (h.out k hk).1) (fun _ k hk => by
        cases hTk : T k with
        | none => rfl
        | some x => exact absurd hk (h.out k (by rw [hTk]; simp)).2) hpath
      refine ⟨w3, by rw [ha]; exact e3, fun _ => ⟨j3, fun hp => a3 rfl (fun k hk => by rw [hfr2]; exact hp k hk)⟩, fun hn => absurd ⟨ha', rfl⟩ hn, ?_, ?_⟩
      · exact (hF2.mono (fun _ h => .inl h)).trans (f3.mono (fun k hk => hk.imp id (fun h => ⟨ha', h⟩)))
      · intro _; unfold DoneAt; rw [ha']; exact n3
    | false =>
      obtain ⟨w3, e3, j3, f3, n3, a3⟩ := store_delete hA h.env (hJ2.remember hr2 h.class) (skip := false) h.tree h.key ha' hr2 (h.par.setT h.env h.key) (by
        intro k hk
        by_cases hkk : k = k0
        · rw [hkk]; exact hek
        · rw [setT_ne T r hkk] at hk; exact (h.out k hk).1) (fun h => by cases h) hpath
      refine ⟨w3, by rw [ha]; exact e3, fun hdel => (by cases hdel.2), fun _ => j3, ?_, ?_⟩
      · exact (hF2.mono (fun _ h => .inl h)).trans (f3.mono (fun k hk => hk.imp id (fun h => (by cases h.1))))
      · intro _; unfold DoneAt; rw [ha']; exact n3

/-- What a sync of one element does. -/
def Conv (X : SyncCtx V E) (S D : Key → Option (Model V)) (es : List (Elem V)) (sid : Nat) (T : Key → Option Ref) (e : Elem V) (w w' : World V E) (res : Except Err Bool) : Prop :=
  J X.dst S D es sid T w' ∧ Fme X.dst es sid (InK X.dst e) w w' ∧
    (X.dc.Reorders → Pre X.dst sid e w → NewIn GoodEv w w' → (∃ b, res = .ok b) ∧ Done X.dst sid e w')

omit hA in
/-- A loop over elements. -/
theorem kids_conv {Kk : Elem V → World V E → World V E → Except Err Bool → Prop} {l : List (Elem V)} {acc : Bool} {w w' : World V E} {res : Except Err Bool}
    (hk : KidsRun Kk l acc w w' res) (hl : ∀ x ∈ l, InTree x es)
    (hK : ∀ x ∈ l, ∀ w w' res, Kk x w w' res → J X.dst S D es sid T w → Conv X S D es sid T x w w' res ∧ TrExt w w') (hj : J X.dst S D es sid T w) :
    J X.dst S D es sid T w' ∧ Fme X.dst es sid (fun k => ∃ x ∈ l, InK X.dst x k) w w' ∧ TrExt w w' ∧
      (X.dc.Reorders → DistinctKeys X.dst l → (∀ x ∈ l, Pre X.dst sid x w) → NewIn GoodEv w w' → (∃ b, res = .ok b) ∧ ∀ x ∈ l, Done X.dst sid x w') := by
  induction hk with
  | nil => exact ⟨hj, Fme.refl _, TrExt.refl _, fun _ _ _ _ => ⟨⟨_, rfl⟩, fun _ h => by cases h⟩⟩
  | @err x l acc w w' er h =>
    obtain ⟨⟨h1, h2, h3⟩, h4⟩ := hK x (by simp) _ _ _ h hj
    refine ⟨h1, h2.mono (fun k hk => ⟨x, by simp, hk⟩), h4, fun hr _ hp hg => ?_⟩
    obtain ⟨⟨b, hb⟩, _⟩ := h3 hr (hp x (by simp)) hg
    cases hb
  | @cons x l acc w w1 w' b res h hk ih =>
    obtain ⟨⟨h1, h2, h3⟩, h4⟩ := hK x (by simp) _ _ _ h hj
    obtain ⟨i1, i2, i3, i4⟩ := ih (fun y hy => hl y (by simp [hy])) (fun y hy => hK y (by simp [hy])) h1
    refine ⟨i1, (h2.mono (fun k hk => ⟨x, by simp, hk⟩)).trans (i2.mono (fun k ⟨y, hy, hk⟩ => ⟨y, by simp [hy], hk⟩)), h4.trans i3, fun hr hd hp hg => ?_⟩
    obtain ⟨d1, d2, d3⟩ := hd.cons
    obtain ⟨_, g2⟩ := h3 hr (hp x (by simp)) (hg.left i3)
    obtain ⟨g3, g4⟩ := i4 hr d2 (by
      intro y hy z k hz hzk
      refine (hp y (by simp [hy]) z k hz hzk).fme h2 ⟨z, hz.of_self (hl y (by simp [hy])), hzk⟩ ?_
      rintro ⟨z', hz', hzk'⟩
      exact d3 z' k hz' hzk' z (hz.mono (fun v hv => by rw [List.mem_singleton] at hv; rw [hv]; exact hy)) hzk) (hg.right h4)
    refine ⟨g3, fun y hy => ?_⟩
    rcases List.mem_cons.1 hy with rfl | hy
    · intro z k hz hzk
      refine (g2 z k hz hzk).fme i2 ⟨z, hz.of_self (hl y (by simp)), hzk⟩ ?_
      rintro ⟨y', hy', z', hz', hzk'⟩
      exact d3 z k hz hzk z' (hz'.mono (fun v hv => by rw [List.mem_singleton] at hv; rw [hv]; exact hy')) hzk'
    · exact g4 y hy

theorem kidsRun_sact {n : Nat} {q : Option Ref} {l : List (Elem V)} {acc b : Bool} {w1 w2 : World V E}
    (hk : KidsRun (fun k w w' res => syncElem X n k q w = (res, w')) l acc w1 w2 (.ok b)) (hw1 : RefsLt w1) (hs : w1.sact = some .delete)
    (hl : ∀ k ∈ l, k.action = some .delete) (hd : ∀ k ∈ l, DelClosed [k]) : w2.sact = some .delete := by
  generalize hres : (Except.ok b : Except Err Bool) = res at hk
  induction hk with
  | nil => exact hs
  | err _ => cases hres
  | @cons k l acc w1 w3 w4 bb res h1 h2 ih2 =>
    have hw3 : RefsLt w3 := by have := (syncElem_grows (S := X) n k q w1 hw1).refs hw1; rw [h1] at this; exact this
    exact ih2 hw3 (sact_delete (S := X) n k q w1 w3 bb hw1 (hd k (by simp)) (hl k (by simp)) h1) (fun k' hk' => hl k' (by simp [hk'])) (fun k' hk' => hd k' (by simp [hk'])) hres

/-- A sync of one element, whatever user code does, keeps the invariant and touches only what the element is about; when all calls
succeed, everything the element says is done. -/
theorem syncElem_conv (hc : CEnv X.dst S D es) (n : Nat) : ∀ (e : Elem V) (parent : Option Ref) (T : Key → Option Ref) (w w' : World V E) (res : Except Err Bool),
    syncElem X n e parent w = (res, w') → InTree e es → J X.dst S D es sid T w → Par X.dst es T parent e → Out X.dst es T e → Deep X.dst S D n X.rlimit e →
    Conv X S D es sid T e w w' res := by
  induction n with
  | zero =>
    intro e parent T w w' res _ he _ _ _ hdeep
    obtain ⟨k0, hk0⟩ := hc.keyed e he
    have := (hdeep k0 hk0 0 k0 .refl).1
    omega
  | succ n ih =>
    intro e parent T w w' res h he hj hpar hout hdeep
    have hw : RefsLt w := hj.sinv.ok.refs_lt
    have hs := syncElem_step hA n e parent w hw
    rw [h] at hs
    dsimp only at hs
    obtain ⟨k0, hk0⟩ := hc.keyed e he
    obtain ⟨c0, u0, hc0, hu0, hkq⟩ := hk0
    have hk0 : ElemKey X.dst e k0 := ⟨c0, u0, hc0, hu0, hkq⟩
    have hT0 : T k0 = none := hout.self hk0
    have hek0 : EK X.dst es k0 := ⟨e, he, hk0⟩
    have hin0 : InK X.dst e k0 := ⟨e, inTree_self e, hk0⟩
    have hkid : ∀ {ke : Elem V}, ke ∈ e.kids → ∀ k, InK X.dst ke k → InK X.dst e k ∧ k ≠ k0 := by
      rintro ke hke k ⟨x, hx, hxk⟩
      refine ⟨⟨x, inTree_kid hke hx, hxk⟩, ?_⟩
      rintro rfl
      exact hc.dist.below he (hx.mono (fun y hy => by rw [List.mem_singleton] at hy; rw [hy]; exact hke)) hk0 hxk
    have hsub : ∀ x, InTree x [e] → x = e ∨ ∃ ke ∈ e.kids, InTree x [ke] := by
      intro x hx
      cases hx with
      | here hx => exact .inl (List.mem_singleton.1 hx)
      | under hy hx =>
        rw [List.mem_singleton] at hy; subst hy
        right
        clear hkid
        cases hx with
        | here hx => exact ⟨x, hx, inTree_self x⟩
        | under hy hx => exact ⟨_, hy, .under (by simp) hx⟩
    -- the children
    have kids : ∀ {q : Ref} {acc w1 w2 y}, KidsRun (fun k w w' res => syncElem X n k (some q) w = (res, w')) (getChildren X.dc e.kids) acc w1 w2 y →
        J X.dst S D es sid (setT T k0 q) w1 →
        J X.dst S D es sid (setT T k0 q) w2 ∧ Fme X.dst es sid (fun k => ∃ x ∈ getChildren X.dc e.kids, InK X.dst x k) w1 w2 ∧ TrExt w1 w2 ∧
          (X.dc.Reorders → (∀ x ∈ e.kids, Pre X.dst sid x w1) → NewIn GoodEv w1 w2 → (∃ b, y = .ok b) ∧ ∀ x ∈ e.kids, Done X.dst sid x w2) := by
      intro q acc w1 w2 y hk hj1
      obtain ⟨a1, a2, a3, a4⟩ := kids_conv hk (fun x hx => he.kid (mem_of_getChildren hx)) (fun x hx wa wb r hr hja => by
        have hx' := mem_of_getChildren hx
        exact ⟨ih x (some q) (setT T k0 q) wa wb r hr (he.kid hx') hja (.inr ⟨q, e, k0, rfl, he, hx', hk0, setT_self T k0 q⟩) (hout.setT hc he hk0 hx')
          (hdeep.kid hc he hx'), syncElem_ext (S := X) n _ _ _ _ _ hja.sinv.ok.refs_lt hr⟩) hj1
      refine ⟨a1, a2, a3, fun hr hp hg => ?_⟩
      have hperm := getChildren_perm hr e.kids
      obtain ⟨b1, b2⟩ := a4 hr ((distinct_sub hc.dist he).kids.1.perm hperm.symm) (fun x hx => hp x (mem_of_getChildren hx)) hg
      exact ⟨b1, fun x hx => b2 x (hperm.mem_iff.2 hx)⟩
    have kme : ∀ {w1 w2 : World V E}, Fme X.dst es sid (fun k => ∃ x ∈ getChildren X.dc e.kids, InK X.dst x k) w1 w2 →
        Fme X.dst es sid (fun k => InK X.dst e k ∧ k ≠ k0) w1 w2 := fun hf => hf.mono (fun k ⟨x, hx, hk⟩ => hkid (mem_of_getChildren hx) k hk)
    -- the action and what follows
    have body : ∀ {c dst nat sk w1}, CAt X S D es sid T e c k0 dst parent w1 →
        Body X (fun q k w w' res => syncElem X n k q w = (res, w')) e c parent dst nat sk w1 w' res → (nat = true → sk = false → e.action = some .delete → ∀ x ∈ e.kids, NewIn GoodEv w w' → X.dc.Reorders → Pre X.dst sid e w → Done X.dst sid x w1) →
        J X.dst S D es sid T w' ∧ Fme X.dst es sid (InK X.dst e) w1 w' ∧ TrExt w1 w' ∧
          (X.dc.Reorders → PreAt sid e k0 w1 → ((nat = true ∧ sk = false ∧ e.action = some .delete) ∨ Pre X.dst sid e w1) → (NewIn GoodEv w w' ∧ Pre X.dst sid e w) → NewIn GoodEv w1 w' → (∃ b, res = .ok b) ∧ Done X.dst sid e w') := by
      intro c dst nat sk w1 hat hb hnat
      have hd1 : ∀ r, dst = some r → r < w1.next := fun r hr => hat.inv.lt (.inl (hat.dst.symm.trans hr))
      have hext := body_ext (S := X) n hb hat.inv.sinv.ok.refs_lt hd1
      have hrl : ∀ j y, Down S D j k0 y → j < X.rlimit := fun j y hd => (hdeep k0 hk0 j y hd).2
      have quiet : ∀ {w2 w3 : World V E} {r y}, applyStore X w1.sact parent r sk w2 = (y, w3) → TrExt w2 w3 := by
        intro w2 w3 r y hap
        obtain ⟨_, ⟨ws, q2, _⟩, _⟩ := applyStore_quiet hA w1.sact parent r sk w2
        rw [hap] at q2
        exact ⟨ws, q2⟩
      have fsub : ∀ k, (k = k0 ∨ (e.action = some .delete ∧ sk = true ∧ InK X.dst e k)) → InK X.dst e k := by
        rintro k (rfl | ⟨_, _, h⟩)
        · exact hin0
        · exact h
      cases hb with
      | @raised evs x o _ ht =>
        obtain ⟨j2, f2, _⟩ := hat.own o
        refine ⟨j2, f2.mono (fun k hk => by rw [hk]; exact hin0), hext, fun _ hp _ _ hg => ?_⟩
        obtain ⟨⟨ch, r, hr⟩, _⟩ := hat.good o hp (hg _ ht)
        cases hr
      | @noObject evs w2 ch o _ ht hw' =>
        obtain ⟨j2, f2, _⟩ := hat.own o
        subst hw'
        have hst := Still.emit w2 [.noObject w2.slog]
        refine ⟨j2.still hst, (f2.mono (fun k hk => by rw [hk]; exact hin0)).trans (hst.fme j2), hext, fun _ hp _ _ hg => ?_⟩
        obtain ⟨⟨ch, r, hr⟩, _⟩ := hat.good o hp (hg.left ⟨[.noObject w2.slog], rfl⟩ _ ht)
        cases hr
      | @storeFail evs w2 ch r x o _ ht hap =>
        obtain ⟨w3, e3, _⟩ := hat.store hA (sk := sk) o hrl
        cases e3.symm.trans hap
      | @shortcut evs w2 ch r o _ ht hap hdel hsk =>
        obtain ⟨w3, e3, s1, s2, s3, s4⟩ := hat.store hA (sk := sk) o hrl
        cases e3.symm.trans hap
        have hdel' : e.action = some .delete := hat.act.symm.trans hdel
        obtain ⟨t1, t2⟩ := s1 ⟨hdel', hsk⟩
        refine ⟨t1, s3.mono fsub, hext, fun _ hp hpre _ hg => ⟨⟨ch, rfl⟩, ?_⟩⟩
        have hpre : Pre X.dst sid e w1 := by
          rcases hpre with h' | h'
          · rw [hsk] at h'; cases h'.2.1
          · exact h'
        have hall : ∀ x, InTree x [e] → x.action = some .delete := by
          intro x hx
          rcases hsub x hx with rfl | ⟨ke, hke, hx⟩
          · exact hdel'
          · exact hc.del e he hdel' x (hx.mono (fun y hy => by rw [List.mem_singleton] at hy; rw [hy]; exact hke))
        intro x k hx hxk
        unfold DoneAt
        rw [hall x hx]
        exact t2 (fun k' ⟨y, hy, hyk⟩ => (hpre y k' hy hyk).1 (hall y hy)) k ⟨x, hx, hxk⟩
      | @leaf evs w2 w3 ch r o _ ht hap hdel hsk hn hw' =>
        obtain ⟨w3', e3, s1, s2, s3, s4⟩ := hat.store hA (sk := sk) o hrl
        cases e3.symm.trans hap
        subst hw'
        have hdel' : e.action = some .delete := hat.act.symm.trans hdel
        have hnd : ¬ (e.action = some .delete ∧ sk = true) := by rw [hsk]; rintro ⟨_, h⟩; cases h
        have j3 := s2 hnd
        have f3 : Fme X.dst es sid (fun k => k = k0) w1 w3.tick := (s3.mono (fun k hk => by
          rcases hk with h | ⟨h1, h2, _⟩
          · exact h
          · exact absurd ⟨h1, h2⟩ hnd)).trans ((tick_still w3).fme j3)
        refine ⟨(j3.still (tick_still w3)).forget (setT_forget T r hT0), f3.mono (fun k hk => by rw [hk]; exact hin0), hext, fun hr hp _ hg0 hg => ⟨⟨ch, rfl⟩, ?_⟩⟩
        intro x k hx hxk
        rcases hsub x hx with rfl | ⟨ke, hke, hx⟩
        · have hkk : k = k0 := elemKey_unique hxk hk0
          subst hkk
          have hd3 := s4 (fun hu => by rw [hdel'] at hu; cases hu)
          unfold DoneAt at hd3 ⊢
          rw [hdel'] at hd3 ⊢
          dsimp only at hd3 ⊢
          rw [(tick_still w3).fr_eq]; exact hd3
        · exact (hnat hn hsk hdel' ke hke hg0.1 hr hg0.2 x k hx hxk).fme f3 ⟨x, hx.of_self (he.kid hke), hxk⟩ (hkid hke k ⟨x, hx, hxk⟩).2
      | @kids evs w2 w3 ch r _ o _ ht hap hcase hk =>
        obtain ⟨w3', e3, s1, s2, s3, s4⟩ := hat.store hA (sk := sk) o hrl
        cases e3.symm.trans hap
        have hnd : ¬ (e.action = some .delete ∧ sk = true) := by
          rintro ⟨h1, h2⟩
          have := (hcase (hat.act.trans h1)).2
          rw [h2] at this; cases this
        have j3 := s2 hnd
        have f3 : Fme X.dst es sid (fun k => k = k0) w1 w3.tick := (s3.mono (fun k hk => by
          rcases hk with h | ⟨h1, h2, _⟩
          · exact h
          · exact absurd ⟨h1, h2⟩ hnd)).trans ((tick_still w3).fme j3)
        obtain ⟨a1, a2, a3, a4⟩ := kids hk (j3.still (tick_still w3))
        have a2 := kme a2
        refine ⟨a1.forget (setT_forget T r hT0), (f3.mono (fun k hk => by rw [hk]; exact hin0)).trans (a2.mono (fun _ h => h.1)), hext, fun hr hp hpre hg0 hg => ?_⟩
        have hpre : Pre X.dst sid e w1 := by
          rcases hpre with h' | h'
          · have := (hcase (hat.act.trans h'.2.2)).1
            rw [h'.1] at this; cases this
          · exact h'
        have x3 : TrExt w2 w3.tick := (quiet hap).trans ⟨[.syncProgress (w3.sproc + 1) w3.stotal], rfl⟩
        obtain ⟨_, hu⟩ := hat.good o hp (hg.left (x3.trans a3) _ ht)
        have hd3 := s4 hu
        obtain ⟨b1, b2⟩ := a4 hr (by
          intro ke hke x k hx hxk
          exact (hpre x k (inTree_kid hke hx) hxk).fme f3 ⟨x, hx.of_self (he.kid hke), hxk⟩ (hkid hke k ⟨x, hx, hxk⟩).2) (hg.right (TrExt.trans ⟨evs, ht⟩ x3))
        refine ⟨b1, fun x k hx hxk => ?_⟩
        rcases hsub x hx with rfl | ⟨ke, hke, hx⟩
        · have hkk : k = k0 := elemKey_unique hxk hk0
          subst hkk
          have ht3 : Fme X.dst es sid (fun _ => False) w3 w3.tick := (tick_still w3).fme j3
          exact (hd3.fme ht3 hek0 (fun h => h)).fme a2 hek0 (fun h => h.2 rfl)
        · exact b2 ke hke x k hx hxk
    have enter : ∀ {c u dst w1}, Entered X sid e c u dst w w1 → c = c0 ∧ dst = fr sid w k0 := by
      intro c u dst w1 ent
      cases hc0.symm.trans ent.cls
      cases hu0.symm.trans ent.uid
      refine ⟨rfl, ?_⟩
      rw [ent.dst, hkq]
      unfold fr
      rw [hc.valid.names _ _ hc0]
    cases hs with
    | noClass h1 _ => cases hc0.symm.trans h1
    | @noKey c h1 h2 _ => cases hc0.symm.trans h1; cases hu0.symm.trans h2
    | @natFail c u dst w1 x ent hn hsk ha hk =>
      obtain ⟨rfl, hd⟩ := enter ent
      cases hdst : dst with
      | none => rw [hdst] at hn; cases hn
      | some q =>
        rw [hdst] at hk hd
        have j1 := hj.still ent.still
        have hq : fr sid w1 k0 = some q := by rw [ent.still.fr_eq]; exact hd.symm
        obtain ⟨a1, a2, a3, a4⟩ := kids hk (j1.remember hq (by rw [hkq]; rw [hc0]; simp))
        refine ⟨a1.forget (setT_forget T q hT0), (ent.still.fme hj).trans ((kme a2).mono (fun _ h => h.1)), fun hr hp hg => ?_⟩
        obtain ⟨⟨b, hb⟩, _⟩ := a4 hr (by
          intro ke hke x k hx hxk
          exact (hp x k (inTree_kid hke hx) hxk).fme (K := fun _ => False) (ent.still.fme hj) ⟨x, hx.of_self (he.kid hke), hxk⟩ (fun h => h)) (hg.right (TrExt.of_eq ent.trace))
        cases hb
    | @natural c u dst w1 w2 b res ent hn hsk ha hk hb =>
      obtain ⟨rfl, hd⟩ := enter ent
      cases hdst : dst with
      | none => rw [hdst] at hn; cases hn
      | some q =>
        rw [hdst] at hk hd hb
        have j1 := hj.still ent.still
        have hq : fr sid w1 k0 = some q := by rw [ent.still.fr_eq]; exact hd.symm
        obtain ⟨a1, a2, a3, a4⟩ := kids hk (j1.remember hq (by rw [hkq]; rw [hc0]; simp))
        have a2 := kme a2
        have hq2 : fr sid w2 k0 = some q := (a2.pres k0 hek0 (fun h => h.2 rfl)).trans hq
        have hw1 := ent.still.grows.refs hw
        have hsact : w2.sact = some .delete := kidsRun_sact hA hk hw1 (ent.sact.trans ha) (fun k hk => hc.del e he ha k (.here (mem_of_getChildren hk)))
          (fun k hk x hx hxa y hy => hc.del x (hx.of_self (he.kid (mem_of_getChildren hk))) hxa y hy)
        have hat : CAt X S D es sid T e c k0 (some q) parent w2 := {
          env := hc, inv := a1.forget (setT_forget T q hT0), tree := he, key := hk0, cls := hc0, act := hsact.trans ha.symm, scls := .inr ha
          dst := hq2.symm, par := hpar, out := hout }
        have hx2 : TrExt w w2 := (TrExt.of_eq ent.trace).trans a3
        have hprek : Pre X.dst sid e w → ∀ ke ∈ e.kids, Pre X.dst sid ke w1 := by
          intro hp ke hke x k hx hxk
          exact (hp x k (inTree_kid hke hx) hxk).fme (K := fun _ => False) (ent.still.fme hj) ⟨x, hx.of_self (he.kid hke), hxk⟩ (fun h => h)
        have hext := body_ext (S := X) n hb hat.inv.sinv.ok.refs_lt (fun r hr => hat.inv.lt (.inl (hat.dst.symm.trans hr)))
        obtain ⟨b1, b2, b3, b4⟩ := body hat hb (by
          intro _ _ _ x hx hg hr hp
          exact (a4 hr (hprek hp) ((hg.left hext).right (TrExt.of_eq ent.trace))).2 x hx)
        refine ⟨b1, ((ent.still.fme hj).trans (a2.mono (fun _ h => h.1))).trans b2, fun hr hp hg => ?_⟩
        exact b4 hr ⟨fun _ => by rw [hq2]; simp, fun hcr => by rw [ha] at hcr; cases hcr⟩ (.inl ⟨rfl, rfl, ha⟩) ⟨hg, hp⟩ (hg.right hx2)
    | @plain c u dst w1 res ent hcase hb =>
      obtain ⟨rfl, hd⟩ := enter ent
      have hat : CAt X S D es sid T e c k0 dst parent w1 := {
        env := hc, inv := hj.still ent.still, tree := he, key := hk0, cls := hc0, act := ent.sact, scls := .inl ent.scls
        dst := by rw [hd, ent.still.fr_eq], par := hpar, out := hout }
      obtain ⟨b1, b2, b3, b4⟩ := body hat hb (by
        intro h1 h2 h3
        exact absurd ⟨h1, h2, h3⟩ hcase)
      refine ⟨b1, (ent.still.fme hj).trans b2, fun hr hp hg => ?_⟩
      have hp1 : Pre X.dst sid e w1 := by
        intro x k hx hxk
        exact (hp x k hx hxk).fme (K := fun _ => False) (ent.still.fme hj) ⟨x, hx.of_self he, hxk⟩ (fun h => h)
      exact b4 hr (hp1 e k0 (inTree_self e) hk0) (.inr hp1) ⟨hg, hp⟩ (hg.right (TrExt.of_eq ent.trace))
end

end DS
