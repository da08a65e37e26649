import Verif.Lemmas.ConvEnd
/-! What is below an object flagged SKIP_CHILDREN_ON_DELETE goes with it as a whole, or stays as a whole, at every moment of a sync. -/
set_option linter.unusedSectionVars false

namespace DS
variable {V E : Type} [PyVal V]

/-- The object takes along what is below it when it is deleted. -/
def FlaggedAt (D : Key → Option (Model V)) (k : Key) : Prop := ∃ m, D k = some m ∧ flagOn m.flags MF.SKIP_CHILDREN_ON_DELETE = true

/-- Such an object and everything below it are there, or none of it is. -/
def WholeSub (S D : Key → Option (Model V)) (sid : Nat) (w : World V E) : Prop :=
  ∀ k1, FlaggedAt D k1 → S k1 = none → (fr sid w k1 ≠ none ∧ ∀ k, Bel D k1 k → fr sid w k ≠ none) ∨ (fr sid w k1 = none ∧ ∀ k, Bel D k1 k → fr sid w k = none)

/-- A delete call for the object did its work. -/
def DelEv (evs : List (Event V)) (k : Key) : Prop := ∃ out, Event.call (.delete k.1 k.2) out ∈ evs ∧ out.result = .object

/-- And what is gone was deleted by a call of its own after the first `b` events, or was below such an object that was. -/
structure Whole (b : Nat) (S D : Key → Option (Model V)) (sid : Nat) (w : World V E) : Prop where
  len : b ≤ w.trace.length
  sub : WholeSub S D sid w
  gone : ∀ k, D k ≠ none → fr sid w k = none → ∃ k0, (k = k0 ∨ (FlaggedAt D k0 ∧ Bel D k0 k)) ∧ DelEv (w.trace.drop b) k0

/-- No such object is above. -/
def NoneAbove (S D : Key → Option (Model V)) (k : Key) : Prop := ∀ k1, FlaggedAt D k1 → S k1 = none → ¬ Bel D k1 k

section
variable {A : Adapter V} {S D : Key → Option (Model V)} {es : List (Elem V)} {sid : Nat} {w w' : World V E}

theorem Bel.trans {a b c : Key} (h : Bel D a b) (h' : Bel D b c) : Bel D a c := by
  induction h' with
  | child hl => exact .step h hl
  | step _ hl ih => exact .step ih hl

theorem Bel.none (hc : CEnv A S D es) {a x : Key} (h : Bel D a x) (ha : S a = none) : S x = none := by
  have one : ∀ {y c : Key}, listsO (D y) c.1 c.2 = true → S y = .none → S c = .none := by
    intro y c hl hy
    cases hSc : S c with
    | none => rfl
    | some s =>
      have := hc.dst_place y c hl (by rw [hSc]; simp)
      rw [hy] at this; cases this
  induction h with
  | child hl => exact one hl ha
  | step _ hl ih => exact one hl ih

/-- Of two objects above a third, one is above the other. -/
theorem Bel.line (hc : CEnv A S D es) {a b x : Key} (h : Bel D a x) (h' : Bel D b x) : a = b ∨ Bel D a b ∨ Bel D b a := by
  induction h with
  | @child x hl =>
    cases h' with
    | child hl' => exact .inl (hc.parent _ _ _ (.inr hl) (.inr hl'))
    | @step y _ hb hl' =>
      cases hc.parent _ _ _ (.inr hl) (.inr hl')
      exact .inr (.inr hb)
  | @step y x hb hl ih =>
    cases h' with
    | child hl' =>
      cases hc.parent _ _ _ (.inr hl) (.inr hl')
      exact .inr (.inl hb)
    | @step y' _ hb' hl' =>
      cases hc.parent _ _ _ (.inr hl) (.inr hl')
      exact ih hb'

theorem WholeSub.same (h : WholeSub S D sid w) (hs : ∀ k1, FlaggedAt D k1 → S k1 = none → ∀ x, x = k1 ∨ Bel D k1 x → fr sid w' x = fr sid w x) : WholeSub S D sid w' := by
  intro k1 h1 h2
  have hx := hs k1 h1 h2
  rw [hx k1 (.inl rfl)]
  refine (h k1 h1 h2).imp (fun g => ⟨g.1, fun k hk => ?_⟩) (fun g => ⟨g.1, fun k hk => ?_⟩)
  · rw [hx k (.inr hk)]; exact g.2 k hk
  · rw [hx k (.inr hk)]; exact g.2 k hk

theorem WholeSub.create (hc : CEnv A S D es) (h : WholeSub S D sid w) {k0 : Key} (hS : S k0 ≠ none) (hst : ∀ k, k ≠ k0 → fr sid w' k = fr sid w k) : WholeSub S D sid w' := by
  refine h.same (fun k1 _ h2 x hx => hst x ?_)
  rintro rfl
  rcases hx with rfl | hx
  · exact hS h2
  · exact hS (hx.none hc h2)

theorem WholeSub.delete (hc : CEnv A S D es) (h : WholeSub S D sid w) {k0 : Key} {skip : Bool} (h0 : fr sid w k0 ≠ none) (hS : S k0 = none) (hg : fr sid w' k0 = none)
    (hch : ∀ k, fr sid w' k ≠ fr sid w k → fr sid w' k = none ∧ (k = k0 ∨ (skip = true ∧ Bel D k0 k)))
    (hall : skip = true → (∀ k, Bel D k0 k → fr sid w k ≠ none) → ∀ k, Bel D k0 k → fr sid w' k = none)
    (hsk : skip = true ↔ FlaggedAt D k0) (hno : NoneAbove S D k0) : WholeSub S D sid w' := by
  have hgone : skip = true → ∀ k, Bel D k0 k → fr sid w' k = none := by
    intro hs
    apply hall hs
    rcases h k0 (hsk.1 hs) hS with g | g
    · exact g.2
    · exact absurd g.1 h0
  intro k1 h1 h2
  by_cases hk : k1 = k0
  · subst hk
    exact .inr ⟨hg, hgone (hsk.2 h1)⟩
  by_cases hb : skip = true ∧ Bel D k0 k1
  · exact .inr ⟨hgone hb.1 _ hb.2, fun k hk' => hgone hb.1 _ (hb.2.trans hk')⟩
  have hx : ∀ x, x = k1 ∨ Bel D k1 x → fr sid w' x = fr sid w x := by
    intro x hx
    refine Classical.byContradiction (fun hne => ?_)
    rcases (hch x hne).2 with rfl | ⟨hs, hbx⟩
    · rcases hx with hx | hx
      · exact hk hx.symm
      · exact hno k1 h1 h2 hx
    · rcases hx with rfl | hx
      · exact hb ⟨hs, hbx⟩
      · rcases hx.line hc hbx with h' | h' | h'
        · exact hk h'
        · exact hno k1 h1 h2 h'
        · exact hb ⟨hs, h'⟩
  rw [hx k1 (.inl rfl)]
  refine (h k1 h1 h2).imp (fun g => ⟨g.1, fun k hk => ?_⟩) (fun g => ⟨g.1, fun k hk => ?_⟩)
  · rw [hx k (.inr hk)]; exact g.2 k hk
  · rw [hx k (.inr hk)]; exact g.2 k hk

theorem DelEv.ext {b : Nat} (h : TrExt w w') {k : Key} (hd : DelEv (w.trace.drop b) k) : DelEv (w'.trace.drop b) k := by
  obtain ⟨evs, e⟩ := h
  obtain ⟨out, h1, h2⟩ := hd
  exact ⟨out, by rw [e, List.drop_append]; exact List.mem_append.2 (.inl h1), h2⟩

theorem TrExt.len (h : TrExt w w') : w.trace.length ≤ w'.trace.length := by
  obtain ⟨evs, e⟩ := h
  rw [e]; simp

theorem Whole.pass {b : Nat} (h : Whole b S D sid w) (hf : ∀ x, fr sid w' x = fr sid w x) (ht : TrExt w w') : Whole b S D sid w' where
  len := Nat.le_trans h.len ht.len
  sub := h.sub.same (fun _ _ _ x _ => hf x)
  gone := fun k hk hn => by
    obtain ⟨k0, h1, h2⟩ := h.gone k hk (by rw [← hf]; exact hn)
    exact ⟨k0, h1, h2.ext ht⟩

theorem Whole.still {b : Nat} (h : Whole b S D sid w) (hs : Still w w') (ht : TrExt w w') : Whole b S D sid w' := h.pass (fun x => hs.fr_eq x) ht

/-- Below an element whose object does not take along what is below it. -/
theorem NoneAbove.kid (hc : CEnv A S D es) {k0 c : Key} (h : NoneAbove S D k0) (hke : KE A es k0 c) (hn : ¬ (FlaggedAt D k0 ∧ S k0 = none)) : NoneAbove S D c := by
  intro k1 h1 h2 hb
  cases hb with
  | child hl =>
    cases hc.parent _ _ _ (.inr hl) (hc.edge _ _ hke)
    exact hn ⟨h1, h2⟩
  | step hb hl =>
    cases hc.parent _ _ _ (.inr hl) (hc.edge _ _ hke)
    exact h k1 h1 h2 hb
end

section
variable {X : SyncCtx V E} {S D : Key → Option (Model V)} {es : List (Elem V)} {sid : Nat} {T : Key → Option Ref} {w1 w2 : World V E}
  {e : Elem V} {c : ModelClass V} {k0 : Key} {dst parent : Option Ref} {evs : List (Event V)}

/-- The stored object of a key has the flags it had. -/
theorem J.flagged {A : Adapter V} (h : J A S D es sid T w1) {r : Ref} (hr : fr sid w1 k0 = some r) (hD : D k0 ≠ none) :
    flagOn (w1.heap r).m.flags MF.SKIP_CHILDREN_ON_DELETE = true ↔ FlaggedAt D k0 := by
  obtain ⟨m0, hm0⟩ := Option.ne_none_iff_exists'.1 hD
  rw [(h.orig k0 r m0 hr hm0).flags_eq]
  constructor
  · exact fun g => ⟨m0, hm0, g⟩
  · rintro ⟨m, h1, h2⟩
    cases hm0.symm.trans h1
    exact h2

theorem CEnv.deletes (hc : CEnv X.dst S D es) (he : InTree e es) (hk : ElemKey X.dst e k0) (hS : S k0 = none) : e.action = some .delete := by
  cases ha : e.action with
  | none => exact absurd hS (hc.quiet e k0 he hk ha).1
  | some a =>
    cases a with
    | create => exact absurd hS (hc.create e k0 he hk ha).1
    | update => exact absurd hS (hc.update e k0 he hk ha).1
    | delete => rfl

variable (hA : X.dst.ref.store = .local sid)
include hA

theorem CAt.whole_store (h : CAt X S D es sid T e c k0 dst parent w1) {ch : Bool} {r : Ref} {sk : Bool} {w3 : World V E}
    (o : Own X (w1.scls.getD c) e.keys (e.plus.getD []) w1 w2 w1.sact dst evs (.ok (ch, some r))) (hrl : ∀ j y, Down S D j k0 y → j < X.rlimit)
    (hap : applyStore X w1.sact parent r sk w2 = (.ok (), w3)) (hsk : ∀ q, dst = some q → e.action = some .delete → (sk = true ↔ FlaggedAt D k0))
    (hno : NoneAbove S D k0) (ht : w2.trace = w1.trace ++ evs) {b : Nat} (hW : Whole b S D sid w1) : Whole b S D sid w3 := by
  obtain ⟨hJ2, hF2, hfr2⟩ := h.own o
  have hW2 : Whole b S D sid w2 := hW.pass hfr2 ⟨evs, ht⟩
  have hx3 : TrExt w2 w3 := by
    obtain ⟨_, ⟨ws, q2, _⟩, _⟩ := applyStore_quiet hA w1.sact parent r sk w2
    rw [hap] at q2
    exact ⟨ws, q2⟩
  have hT0 : T k0 = none := h.out.self h.key
  have hact := h.act
  have hpath : ∀ (G : Key → Option (Model V)), (∀ k m, G k = some m → ∀ c ∈ childRefs m, UE S D k c) → ∀ j y, Path (fun t u => (t, u)) G j k0 y → j < X.rlimit := by
    intro G hG j y hp
    apply hrl j y
    clear hrl
    revert hp
    generalize k0 = k
    intro hp
    induction hp with
    | refl => exact .refl
    | step h1 h2 _ ih => exact .step (hG _ _ h1 _ h2) ih
  rcases o.fate with ⟨ha, hd, hst⟩ | ⟨ha, hd⟩ | ⟨ha, hd, out, m, hev, hob, hm, hst, hn1, hn2, hhm⟩ | ⟨ha, hd, hst, out, hev, hob⟩
  · rw [ha] at hap; cases hap; exact hW2
  · rw [ha] at hap; cases hap; exact hW2
  · have ha' : e.action = some .create := hact.symm.trans ha
    have hs : w1.scls = some c := by
      rcases h.scls with h' | h'
      · exact h'
      · rw [ha'] at h'; cases h'
    rw [hs, Option.getD_some] at hm
    obtain ⟨w3', e3, _, _, _, f3⟩ := store_create_full hA h.env h.inv (skip := sk) h.tree h.key ha' h.par hT0 (h.dst.symm.trans hd) h.cls (by rw [hhm]; exact hm) hst hn1 hn2
    rw [ha] at hap
    cases e3.symm.trans hap
    have hcr := h.env.create e k0 h.tree h.key ha'
    refine ⟨Nat.le_trans hW2.len hx3.len, hW2.sub.create h.env hcr.1 (fun k hk => (f3 k hk).trans (hfr2 k).symm), fun k hk hn => ?_⟩
    have hne : k ≠ k0 := by rintro rfl; exact hk hcr.2
    obtain ⟨k1, g1, g2⟩ := hW2.gone k hk (by rw [hfr2, ← f3 k hne]; exact hn)
    exact ⟨k1, g1, g2.ext hx3⟩
  · have ha' : e.action = some .delete := hact.symm.trans ha
    have hr2 : fr sid w2 k0 = some r := by rw [hfr2]; exact h.dst.symm.trans hd
    have hek : EK X.dst es k0 := ⟨e, h.tree, h.key⟩
    rw [ha] at hap
    have fin : ∀ {T' : Key → Option Ref}, J X.dst S D es sid T' w2 → Par X.dst es T' parent e → (∀ k, T' k ≠ none → EK X.dst es k) → (sk = true → ∀ k, InK X.dst e k → T' k = none) →
        Whole b S D sid w3 := by
      intro T' hj hp hTE hTK
      obtain ⟨w3', e3, _, _, n3, _, p1, p2⟩ := store_delete_full hA h.env hj (skip := sk) h.tree h.key ha' hr2 hp hTE hTK hpath
      cases e3.symm.trans hap
      refine ⟨Nat.le_trans hW2.len hx3.len, hW2.sub.delete h.env (by rw [hr2]; simp) (h.env.delete e k0 h.tree h.key ha').1 n3 p1 p2 (hsk r hd ha') hno, fun k hk hn => ?_⟩
      by_cases hch : fr sid w3 k = fr sid w2 k
      · obtain ⟨k1, g1, g2⟩ := hW2.gone k hk (by rw [← hch]; exact hn)
        exact ⟨k1, g1, g2.ext hx3⟩
      · refine ⟨k0, ((p1 k hch).2).imp id (fun g => ⟨(hsk r hd ha').1 g.1, g.2⟩), DelEv.ext hx3 ⟨out, ?_, hob⟩⟩
        have hkey : (w1.heap r).m.key = k0 := h.inv.key (.inl (h.dst.symm.trans hd))
        rw [ht, List.drop_append_of_le_length hW.len, ← hkey]
        exact List.mem_append.2 (.inr hev)
    cases hsk' : sk with
    | true =>
      exact fin hJ2 h.par (fun k hk => (h.out k hk).1) (fun _ k hk => by
        cases hTk : T k with
        | none => rfl
        | some x => exact absurd hk (h.out k (by rw [hTk]; simp)).2)
    | false =>
      refine fin (hJ2.remember hr2 h.class) (h.par.setT h.env h.key) (by
        intro k hk
        by_cases hkk : k = k0
        · rw [hkk]; exact hek
        · rw [setT_ne T r hkk] at hk; exact (h.out k hk).1) (fun h => by rw [hsk'] at h; cases h)

omit hA in
theorem kids_whole {b : Nat} {Kk : Elem V → World V E → World V E → Except Err Bool → Prop} {l : List (Elem V)} {acc : Bool} {w w' : World V E} {res : Except Err Bool}
    (hk : KidsRun Kk l acc w w' res)
    (hK : ∀ x ∈ l, ∀ w w' res, Kk x w w' res → J X.dst S D es sid T w → Whole b S D sid w → J X.dst S D es sid T w' ∧ Whole b S D sid w')
    (hj : J X.dst S D es sid T w) (hW : Whole b S D sid w) : J X.dst S D es sid T w' ∧ Whole b S D sid w' := by
  induction hk with
  | nil => exact ⟨hj, hW⟩
  | err h => exact hK _ (by simp) _ _ _ h hj hW
  | cons h _ ih =>
    obtain ⟨h1, h2⟩ := hK _ (by simp) _ _ _ h hj hW
    exact ih (fun y hy => hK y (by simp [hy])) h1 h2

/-- A sync of one element, whatever user code does. -/
theorem syncElem_whole {b : Nat} (hc : CEnv X.dst S D es) (n : Nat) : ∀ (e : Elem V) (parent : Option Ref) (T : Key → Option Ref) (w w' : World V E) (res : Except Err Bool),
    syncElem X n e parent w = (res, w') → InTree e es → J X.dst S D es sid T w → Par X.dst es T parent e → Out X.dst es T e → Deep X.dst S D n X.rlimit e →
    (∀ k, ElemKey X.dst e k → NoneAbove S D k) → Whole b S D sid w → Whole b S D sid w' := by
  induction n with
  | zero =>
    intro e parent T w w' res _ he _ _ _ hdeep
    obtain ⟨k0, hk0⟩ := hc.keyed e he
    have := (hdeep k0 hk0 0 k0 .refl).1
    omega
  | succ n ih =>
    intro e parent T w w' res h he hj hpar hout hdeep hna hW
    have hw : RefsLt w := hj.sinv.ok.refs_lt
    have hs := syncElem_step hA n e parent w hw
    rw [h] at hs
    dsimp only at hs
    obtain ⟨k0, hk0⟩ := hc.keyed e he
    obtain ⟨c0, u0, hc0, hu0, hkq⟩ := hk0
    have hk0 : ElemKey X.dst e k0 := ⟨c0, u0, hc0, hu0, hkq⟩
    have hno := hna k0 hk0
    have hT0 : T k0 = none := hout.self hk0
    have kids : ∀ {q : Ref} {acc w1 w2 y}, KidsRun (fun k w w' res => syncElem X n k (some q) w = (res, w')) (getChildren X.dc e.kids) acc w1 w2 y →
        ¬ (FlaggedAt D k0 ∧ S k0 = none) → J X.dst S D es sid (setT T k0 q) w1 → Whole b S D sid w1 → J X.dst S D es sid (setT T k0 q) w2 ∧ Whole b S D sid w2 := by
      intro q acc w1 w2 y hk hnf hj1 hW1
      refine kids_whole (X := X) hk (fun x hx wa wb r hr hja hWa => ?_) hj1 hW1
      have hx' := mem_of_getChildren hx
      have p1 : Par X.dst es (setT T k0 q) (some q) x := .inr ⟨q, e, k0, rfl, he, hx', hk0, setT_self T k0 q⟩
      have p2 := hout.setT hc he hk0 hx' (r := q)
      exact ⟨(syncElem_conv hA hc n x (some q) (setT T k0 q) wa wb r hr (he.kid hx') hja p1 p2 (hdeep.kid hc he hx')).1,
        ih x (some q) (setT T k0 q) wa wb r hr (he.kid hx') hja p1 p2 (hdeep.kid hc he hx') (fun k hk => hno.kid hc ⟨e, x, he, hx', hk0, hk⟩ hnf) hWa⟩
    have body : ∀ {c dst nat sk w1}, CAt X S D es sid T e c k0 dst parent w1 →
        Body X (fun q k w w' res => syncElem X n k q w = (res, w')) e c parent dst nat sk w1 w' res →
        (∀ q, dst = some q → e.action = some .delete → (sk = true ↔ FlaggedAt D k0)) → Whole b S D sid w1 → Whole b S D sid w' := by
      intro c dst nat sk w1 hat hb hsk hW1
      have hrl : ∀ j y, Down S D j k0 y → j < X.rlimit := fun j y hd => (hdeep k0 hk0 j y hd).2
      cases hb with
      | @raised evs x o _ ht =>
        obtain ⟨_, _, f2⟩ := hat.own o
        exact hW1.pass f2 ⟨evs, ht⟩
      | @noObject evs w2 ch o _ ht hw' =>
        obtain ⟨_, _, f2⟩ := hat.own o
        subst hw'
        exact (hW1.pass f2 ⟨evs, ht⟩ : Whole b S D sid w2).still (Still.emit w2 [.noObject w2.slog]) ⟨_, rfl⟩
      | @storeFail evs w2 ch r x o _ ht hap =>
        obtain ⟨w3, e3, _⟩ := hat.store hA (sk := sk) o hrl
        cases e3.symm.trans hap
      | @shortcut evs w2 ch r o _ ht hap hdel hsk' => exact hat.whole_store hA o hrl hap hsk hno ht hW1
      | @leaf evs w2 w3 ch r o _ ht hap hdel hsk' hn hw' =>
        subst hw'
        exact (hat.whole_store hA o hrl hap hsk hno ht hW1).still (tick_still w3) ⟨_, rfl⟩
      | @kids evs w2 w3 ch r _ o _ ht hap hcase hk =>
        obtain ⟨w3', e3, s1, s2, s3, s4⟩ := hat.store hA (sk := sk) o hrl
        cases e3.symm.trans hap
        have hnd : ¬ (e.action = some .delete ∧ sk = true) := by
          rintro ⟨h1, h2⟩
          have := (hcase (hat.act.trans h1)).2
          rw [h2] at this; cases this
        refine (kids hk ?_ ((s2 hnd).still (tick_still w3)) ((hat.whole_store hA o hrl hap hsk hno ht hW1).still (tick_still w3) ⟨_, rfl⟩)).2
        rintro ⟨hf, hS⟩
        have hdel := hc.deletes he hk0 hS
        have hdst : ∃ q, dst = some q := by
          rcases o.fate with ⟨ha, hd, _⟩ | ⟨ha, hd⟩ | ⟨ha, _⟩ | ⟨ha, hd, _⟩
          · exact ⟨_, hd⟩
          · exact ⟨_, hd⟩
          · rw [hat.act, hdel] at ha; cases ha
          · exact ⟨_, hd⟩
        obtain ⟨q, hq⟩ := hdst
        exact hnd ⟨hdel, (hsk q hq hdel).2 hf⟩
    have enter : ∀ {c u dst w1}, Entered X sid e c u dst w w1 → c = c0 ∧ dst = fr sid w k0 := by
      intro c u dst w1 ent
      cases hc0.symm.trans ent.cls
      cases hu0.symm.trans ent.uid
      refine ⟨rfl, ?_⟩
      rw [ent.dst, hkq]
      unfold fr
      rw [hc.valid.names _ _ hc0]
    have flg : ∀ {q : Ref}, fr sid w k0 = some q → e.action = some .delete → (skipOf (some q) w = true ↔ FlaggedAt D k0) :=
      fun hq ha => hj.flagged hq (hc.delete e k0 he hk0 ha).2
    cases hs with
    | noClass h1 _ => cases hc0.symm.trans h1
    | @noKey c h1 h2 _ => cases hc0.symm.trans h1; cases hu0.symm.trans h2
    | @natFail c u dst w1 x ent hn hsk ha hk =>
      obtain ⟨rfl, hd⟩ := enter ent
      cases hdst : dst with
      | none => rw [hdst] at hn; cases hn
      | some q =>
        rw [hdst] at hk hd hsk
        have j1 := hj.still ent.still
        have hq : fr sid w1 k0 = some q := by rw [ent.still.fr_eq]; exact hd.symm
        refine (kids hk ?_ (j1.remember hq (by rw [hkq]; rw [hc0]; simp)) (hW.still ent.still (.of_eq ent.trace))).2
        rintro ⟨hf, _⟩
        rw [(flg hd.symm ha).2 hf] at hsk; cases hsk
    | @natural c u dst w1 w2 b res ent hn hsk ha hk hb =>
      obtain ⟨rfl, hd⟩ := enter ent
      cases hdst : dst with
      | none => rw [hdst] at hn; cases hn
      | some q =>
        rw [hdst] at hk hd hb hsk
        have j1 := hj.still ent.still
        have hq : fr sid w1 k0 = some q := by rw [ent.still.fr_eq]; exact hd.symm
        have hnf : ¬ (FlaggedAt D k0 ∧ S k0 = none) := by
          rintro ⟨hf, _⟩
          rw [(flg hd.symm ha).2 hf] at hsk; cases hsk
        obtain ⟨a1, a2⟩ := kids hk hnf (j1.remember hq (by rw [hkq]; rw [hc0]; simp)) (hW.still ent.still (.of_eq ent.trace))
        have hw1 := ent.still.grows.refs hw
        have hsact : w2.sact = some .delete := kidsRun_sact hA hk hw1 (ent.sact.trans ha) (fun k hk => hc.del e he ha k (.here (mem_of_getChildren hk)))
          (fun k hk x hx hxa y hy => hc.del x (hx.of_self (he.kid (mem_of_getChildren hk))) hxa y hy)
        have hq2 : fr sid w2 k0 = some q := by
          obtain ⟨_, f, _⟩ := kids_conv hk (fun x hx => he.kid (mem_of_getChildren hx)) (fun x hx wa wb r hr hja => by
            have hx' := mem_of_getChildren hx
            exact ⟨syncElem_conv hA hc n x (some q) (setT T k0 q) wa wb r hr (he.kid hx') hja (.inr ⟨q, e, k0, rfl, he, hx', hk0, setT_self T k0 q⟩) (hout.setT hc he hk0 hx')
              (hdeep.kid hc he hx'), syncElem_ext (S := X) n _ _ _ _ _ hja.sinv.ok.refs_lt hr⟩) (j1.remember hq (by rw [hkq]; rw [hc0]; simp))
          refine (f.pres k0 ⟨e, he, hk0⟩ ?_).trans hq
          rintro ⟨x, hx, y, hy, hyk⟩
          exact hc.dist.below he (hy.mono (fun z hz => by rw [List.mem_singleton] at hz; rw [hz]; exact mem_of_getChildren hx)) hk0 hyk
        have hat : CAt X S D es sid T e c k0 (some q) parent w2 := {
          env := hc, inv := a1.forget (setT_forget T q hT0), tree := he, key := hk0, cls := hc0, act := hsact.trans ha.symm, scls := .inr ha
          dst := hq2.symm, par := hpar, out := hout }
        refine body hat hb (fun _ _ _ => ?_) a2
        constructor
        · intro h'; cases h'
        · intro hf; exact absurd ⟨hf, (hc.delete e k0 he hk0 ha).1⟩ hnf
    | @plain c u dst w1 res ent hcase hb =>
      obtain ⟨rfl, hd⟩ := enter ent
      have hat : CAt X S D es sid T e c k0 dst parent w1 := {
        env := hc, inv := hj.still ent.still, tree := he, key := hk0, cls := hc0, act := ent.sact, scls := .inl ent.scls
        dst := by rw [hd, ent.still.fr_eq], par := hpar, out := hout }
      refine body hat hb (fun q hq ha => ?_) (hW.still ent.still (.of_eq ent.trace))
      rw [hq]
      exact flg (hd.symm.trans hq) ha
end

section
variable {src dst : Adapter V} {n sid : Nat} {w w' : World V E}

/-- It holds at the start of a sync. -/
theorem Whole.start {S : Snap V} (hr : SyncReady dst sid w) (R : Reconcilable src dst n S (snap dst w)) : Whole w.trace.length S.at (snap dst w).at sid w := by
  have hnone : ∀ k, (snap dst w).at k = none ↔ fr sid w k = none := by
    intro k; rw [snap_at hr.store]; simp
  refine ⟨Nat.le_refl _, fun k1 h1 _ => .inl ⟨fun hn => ?_, fun k hb hn => ?_⟩, fun k hk hn => absurd ((hnone k).2 hn) hk⟩
  · obtain ⟨m, hm, _⟩ := h1
    rw [(hnone k1).2 hn] at hm; cases hm
  · cases hb with
    | child hl => exact R.dst_stored _ k hl ((hnone k).2 hn)
    | step _ hl => exact R.dst_stored _ k hl ((hnone k).2 hn)

/-- And at its end, whatever its calls return or raise and whether it returns or raises. -/
theorem CanConverge.whole (h : CanConverge n src dst sid w) {rl : Nat} (hrl : n ≤ rl) {hooks : Hooks V E} {dc : DiffClass V} {flags : Nat} {res : Except Err (Diff V)}
    (hs : syncFrom n rl hooks dst src dc flags none w = (res, w')) : Whole w.trace.length (snap src w).at (snap dst w).at sid w' := by
  obtain ⟨d, wd, hd⟩ := h.diff dc flags
  obtain ⟨hdes, hcls⟩ := diffFrom_describes h.comparable.ok h.comparable.src_ok h.comparable.dst_ok h.comparable.fields h.comparable.src_types h.comparable.dst_types h.comparable.top_nodup hd
  have hc := hdes.cenv h.reconcilable h.ready.instOf h.comparable.src_ok h.comparable.dst_ok h.ready.valid (computed_good h.comparable h.ready.dst h.keepsIds hd)
  rcases syncFrom_cases n rl hooks dst src dc flags none w h.ready.ok.refs_lt h.ready.ok.tbl_wf with ⟨x, w1, h1, h2, h3, h4⟩ | ⟨d', w0, evs0, y, w1, h1, h2, h3, h4, h5, h6, hcl, h7, h8⟩
  · rcases h4 with ⟨_, h4, _⟩ | ⟨_, h4⟩
    · cases h4
    · rw [hd] at h4; cases h4
  · have hdd : d' = d := by
      rcases h1 with ⟨h1, _⟩ | ⟨_, h1⟩
      · cases h1
      · rw [hd] at h1; cases h1; rfl
    subst hdd
    have st : Still w (startSync d' w0) := h2.trans (startSync_still d' w0)
    have hj0 := (J.start h.ready h.reconcilable hc).still st
    have hW0 : Whole w.trace.length (snap src w).at (snap dst w).at sid (startSync d' w0) := (Whole.start h.ready h.reconcilable).still st ⟨evs0, h4⟩
    have hX : (⟨src, dst, flags, d'.cls, hooks, rl⟩ : SyncCtx V E).dst.ref.store = .local sid := h.ready.store
    have hk := syncElem_list (S := ⟨src, dst, flags, d'.cls, hooks, rl⟩) n (getChildren d'.cls d'.kids) false (startSync d' w0) hj0.sinv.ok.refs_lt
    rw [h7] at hk
    have a1 := (kids_whole (X := ⟨src, dst, flags, d'.cls, hooks, rl⟩) hk (fun x hx wa wb r hr hj hW => by
      have hx' := mem_getChildren hx
      have hdeep : Deep dst (snap src w).at (snap dst w).at n rl x := by
        intro k hk j y hdn
        obtain ⟨_, _, ps, hdp, hi', hl, hz⟩ := hdes
        obtain ⟨p, hp, hep⟩ := zip_mem_left hl hx'
        have ht := ((hi' p).1 hp).1
        have pl := Placed.of_top h.reconcilable ht
        cases pl.key_of h.reconcilable h.ready.instOf h.comparable.src_ok h.comparable.dst_ok (hz _ hep).header hk
        have := h.reconcilable.depth _ _ (pl.top.down' hdn)
        exact ⟨by omega, by omega⟩
      refine ⟨(syncElem_conv hX hc n x none _ wa wb r hr (.here hx') hj (.inl ⟨rfl, hx'⟩) (fun k hk => absurd rfl hk) hdeep).1,
        syncElem_whole hX hc n x none _ wa wb r hr (.here hx') hj (.inl ⟨rfl, hx'⟩) (fun k hk => absurd rfl hk) hdeep ?_ hW⟩
      intro k hk k1 _ _ hb
      cases hb with
      | child hl => exact hc.root x k hx' hk _ (.inr hl)
      | step _ hl => exact hc.root x k hx' hk _ (.inr hl)) hj0 hW0).2
    rw [hs] at h8
    cases y with
    | error x => cases h8; exact a1
    | ok ch =>
      cases h8
      unfold World.complete
      cases ch
      · exact a1
      · exact a1.still (Still.emit _ _) ⟨_, rfl⟩
end

end DS
