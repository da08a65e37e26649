import Verif.Lemmas.RedisErr
import Verif.Lemmas.OpenSync
/-! One element of a sync into a Redis store: it raises only what user code raised. -/
set_option linter.unusedSectionVars false

namespace DS
variable {V E : Type} [PyVal V]

/-- When the action on an element begins; `b` is the number of objects when the element was entered. -/
structure RAt (X : SyncCtx V E) (sid : String) (S D : Key → Option (Model V)) (es : List (Elem V)) (e : Elem V) (c : ModelClass V) (k0 : Key) (dst parent : Option Ref) (b : Nat)
    (nat sk : Bool) (w1 : World V E) : Prop where
  env : CEnv X.dst S D es
  inv : RInv X.dst sid (UE S D) (fun _ => True) w1
  tree : InTree e es
  key : ElemKey X.dst e k0
  cls : Dict.get? X.dst.classes e.type = some c
  act : w1.sact = e.action
  scls : w1.scls = some c ∨ e.action = some .delete
  par : RPar X.dst D es parent e w1
  stored : (snap X.dst w1).at k0 = D k0
  absent : dst = none → D k0 = none
  found : ∀ r, dst = some r → D k0 ≠ none ∧ b ≤ r ∧ r < w1.next ∧ parent ≠ some r ∧ (w1.heap r).m.key = k0 ∧ (w1.heap r).m.cls = c
  mode : (∀ r, dst = some r → D k0 = some (w1.heap r).m) ∨ (e.action = some .delete ∧ sk = false ∧ nat = true)
  next : b ≤ w1.next

section
variable {X : SyncCtx V E} {S D : Key → Option (Model V)} {es : List (Elem V)} {sid : String} {w1 w2 : World V E} {b : Nat} {nat sk : Bool}
  {e : Elem V} {c : ModelClass V} {k0 : Key} {dst parent : Option Ref} {evs : List (Event V)} {res : Except Err (Bool × Option Ref)}

/-- The action on one element. -/
theorem RAt.clean (h : RAt X sid S D es e c k0 dst parent b nat sk w1) (o : Own X (w1.scls.getD c) e.keys (e.plus.getD []) w1 w2 w1.sact dst evs res) :
    NoRef evs ∧ (∀ x, res = .error x → ErrBy X.flags evs x) ∧ NoMissing evs ∧ ∀ ch, res = .ok (ch, none) → ¬ AllSucceed evs := by
  have hact := h.act
  have hcf : ∀ {a}, w1.sact = some a → callFor (w1.scls.getD c) a (dst.map (fun r => (w1.heap r).m)) e.keys (e.plus.getD []) ≠ none := by
    intro a ha
    have ha' := hact.symm.trans ha
    cases a with
    | create =>
      cases hd : dst with
      | none => simp [callFor]
      | some r => exact absurd (h.env.create e k0 h.tree h.key ha').2 (h.found r hd).1
    | update =>
      cases hd : dst with
      | none => exact absurd (h.absent hd) (h.env.update e k0 h.tree h.key ha').2
      | some r => simp [callFor]
    | delete =>
      cases hd : dst with
      | none => exact absurd (h.absent hd) (h.env.delete e k0 h.tree h.key ha').2
      | some r => simp [callFor]
  have hcases : e.action = none → dst ≠ none := fun ha hd => (h.env.quiet e k0 h.tree h.key ha).2 (h.absent hd)
  generalize hsa : w1.sact = sa at o
  cases o with
  | idle _ _ =>
    refine ⟨?_, fun x hx => (by cases hx), ?_, fun ch hx => ?_⟩
    · intro L lv ctx st R hs hl
      split at hs
      · cases L with
        | nil => injection hs with h1 _; injection h1 with h1 _ _; exact absurd h1.symm hl
        | cons a L => injection hs with _ h2; exact (not_split_nil h2).elim
      · exact (not_split_nil hs).elim
    · intro ctx hm
      split at hm <;> simp at hm
    · exact absurd (Prod.mk.inj (Except.ok.inj hx)).2 (hcases (hact.symm.trans hsa))
  | stale h1 _ _ => exact absurd h1 (hcf hsa)
  | @crud a dst call out x h1 _ h3 h4 _ =>
    refine ⟨noRef_call, fun y hy => ?_, fun ctx hm => by simp at hm, fun ch _ ha => ?_⟩
    · split at hy
      · cases hy
      · rename_i hf
        cases hy
        exact ⟨[], call, out, [.log .error w1.slog .error], rfl, rfl, h3, fun hf' => absurd hf' hf⟩
    · have := (ha call out (by simp)).1
      rw [h3] at this; cases this
  | @fatal a dst call out x h1 _ h2 h4 _ =>
    refine ⟨.of_none (by simp), fun y hy => ?_, fun ctx hm => by simp at hm, fun ch hx => by cases hx⟩
    cases hy
    refine ⟨[], call, out, [], rfl, rfl, ?_, fun _ => h2⟩
    rcases h4 with h4 | ⟨ha, _, h4⟩ | ⟨r, ha, hd, _, h4⟩
    · exact h4
    · subst ha
      have ha' : e.action = some .create := hact.symm.trans hsa
      have hs : w1.scls = some c := by
        rcases h.scls with h' | h'
        · exact h'
        · rw [ha'] at h'; cases h'
      obtain ⟨m, hm⟩ := h.env.build e c h.tree ha' h.cls
      rw [hs] at h4
      cases h4.symm.trans hm
    · subst ha
      have hu : e.action = some .update := hact.symm.trans hsa
      have hrc := (h.found r hd).2.2.2.2.2
      have := (setattrs_all (w1.heap r).m _ (h.env.plus_wf e h.tree) (by
        intro x hx
        rw [hrc]
        exact (h.env.valid.valid _ _ h.cls).attrs_fields x (h.env.plain e h.tree hu c h.cls x hx))).1
      rw [this] at h4; cases h4
  | @failed a dst call out _ _ h3 _ =>
    refine ⟨noRef_call, fun x hx => (by cases hx), fun ctx hm => by simp at hm, fun ch _ ha => ?_⟩
    have := (ha call out (by simp)).1
    rw [h3] at this; cases this
  | @created out m r st => exact ⟨noRef_call, fun x hx => (by cases hx), fun ctx hm => by simp at hm, fun ch hx => by cases hx⟩
  | @kept a r call out st _ _ _ _ _ _ => exact ⟨noRef_call, fun x hx => (by cases hx), fun ctx hm => by simp at hm, fun ch hx => by cases hx⟩

theorem CallEff.heap_del {attrs : Dict V} {out : Outcome} {r : Ref} (h : CallEff .delete dst attrs out w1 w2) (hr : r < w1.next) : (w2.heap r).m = (w1.heap r).m := by
  unfold CallEff at h
  exact h.heap_m r hr

/-- The action changes nothing in the store. -/
theorem RAt.own (hA : X.dst.ref.store = .redis sid) (h : RAt X sid S D es e c k0 dst parent b nat sk w1) (o : Own X (w1.scls.getD c) e.keys (e.plus.getD []) w1 w2 w1.sact dst evs res)
    (ht : w2.trace = w1.trace ++ evs) : RPart X.dst sid S D es parent (fun _ => False) w1 w2 := by
  obtain ⟨_, _, f, i⟩ := o.rfr (A := X.dst) (sid := sid) (b := 0) (K := fun _ _ => False) (X := fun _ => False) ht (Nat.zero_le _) h.inv (fun _ _ => Nat.zero_le _) (by
    intro ha r hr x hx
    rw [(h.found r hr).2.2.2.2.2]
    intro hid
    have := h.env.plain e h.tree (h.act.symm.trans ha) c h.cls x hx
    exact (h.env.valid.valid _ _ h.cls).ids_attrs _ hid this)
  exact .of_frame hA f i o.listsKept (fun _ _ _ => ⟨fun _ h => h, fun h => h⟩)

/-- What is known of the object of an element when it is the parent of those below. -/
structure RObj (X : SyncCtx V E) (D : Key → Option (Model V)) (e : Elem V) (c : ModelClass V) (k0 : Key) (r : Ref) (w : World V E) : Prop where
  lt : r < w.next
  key : (w.heap r).m.key = k0
  cls : (w.heap r).m.cls = c
  full : FullKids (w.heap r).m
  lists : ∀ ke ∈ e.kids, ∀ kc, ElemKey X.dst ke kc → ((w.heap r).m.lists kc.1 kc.2 = true ↔ D kc ≠ none)

theorem RObj.move {r : Ref} {K : Key → Prop} {w w' : World V E} (h : RObj X D e c k0 r w) (f : RPart X.dst sid S D es parent K w w') (hp : parent ≠ some r) : RObj X D e c k0 r w' := by
  obtain ⟨g1, g2, g3⟩ := f.lists.2 r h.lt
  refine ⟨Nat.lt_of_lt_of_le h.lt f.lists.1, (f.key r h.lt).trans h.key, g1.trans h.cls, g2 h.full, fun ke hke kc hkc => ?_⟩
  rw [g3 kc (fun hh => absurd hh hp)]
  exact h.lists ke hke kc hkc

theorem RObj.rpar {r : Ref} {w : World V E} (h : RObj X D e c k0 r w) (he : InTree e es) (hk : ElemKey X.dst e k0) (hc : Dict.get? X.dst.classes e.type = some c)
    {ke : Elem V} (hke : ke ∈ e.kids) : RPar X.dst D es (some r) ke w := by
  intro p hp
  cases hp
  obtain ⟨c', u, _, _, hkq⟩ := id hk
  refine ⟨e, k0, he, hke, hk, h.lt, h.key, ?_, h.full, h.lists ke hke⟩
  rw [h.cls, hkq]; exact hc

theorem CEnv.kid_lists (hc : CEnv X.dst S D es) (he : InTree e es) (hk : ElemKey X.dst e k0) {ke : Elem V} (hke : ke ∈ e.kids) {kc : Key} (hkc : ElemKey X.dst ke kc) :
    listsO (D k0) kc.1 kc.2 = true ↔ D kc ≠ none := by
  refine ⟨hc.dst_stored _ _, fun hd => ?_⟩
  rcases hc.edge _ _ ⟨e, ke, he, hke, hk, hkc⟩ with h | h
  · exact hc.src_place _ _ h hd
  · exact h

variable (hA : X.dst.ref.store = .redis sid)
include hA

/-- Storing or removing the object of an element. -/
theorem RAt.store (h : RAt X sid S D es e c k0 dst parent b nat sk w1) (hfull : ∀ k m, D k = some m → FullKids m) {ch : Bool} {r : Ref}
    (o : Own X (w1.scls.getD c) e.keys (e.plus.getD []) w1 w2 w1.sact dst evs (.ok (ch, some r))) (ht : w2.trace = w1.trace ++ evs)
    (hrl : ∀ j y, Down S D j k0 y → j < X.rlimit) :
    ∃ w3, applyStore X w1.sact parent r sk w2 = (.ok (), w3) ∧ RPart X.dst sid S D es parent (fun k => k = k0 ∨ (e.action = some .delete ∧ sk = true ∧ InK X.dst e k)) w1 w3 ∧
      b ≤ r ∧ (¬ (e.action = some .delete ∧ nat = true) → RObj X D e c k0 r w3) := by
  have hown := h.own hA o ht
  have hpar2 := h.par.move hown (fun _ _ _ h => h)
  have hst2 : (snap X.dst w2).at k0 = D k0 := (hown.pres k0 ⟨e, h.tree, h.key⟩ (fun h => h)).trans h.stored
  have hact := h.act
  -- an object from before
  have old : dst = some r → (nat = true → e.action ≠ some .delete) → RObj X D e c k0 r w1 := by
    intro hd hm
    obtain ⟨s1, s2, s3, s4, s5, s6⟩ := h.found r hd
    have hD : D k0 = some (w1.heap r).m := by
      rcases h.mode with h' | h'
      · exact h' r hd
      · exact absurd h'.1 (hm h'.2.2)
    refine ⟨s3, s5, s6, hfull _ _ hD, fun ke hke kc hkc => ?_⟩
    rw [← h.env.kid_lists h.tree h.key hke hkc, hD]; rfl
  have hpr : parent = some r → r < w1.next := fun hp => by
    obtain ⟨_, _, _, _, _, g, _⟩ := h.par r hp
    exact g
  have plain : e.action ≠ some .create → e.action ≠ some .delete → dst = some r →
      ∃ w3, applyStore X w1.sact parent r sk w2 = (.ok (), w3) ∧ RPart X.dst sid S D es parent (fun k => k = k0 ∨ (e.action = some .delete ∧ sk = true ∧ InK X.dst e k)) w1 w3 ∧
      b ≤ r ∧ (¬ (e.action = some .delete ∧ nat = true) → RObj X D e c k0 r w3) := by
    intro h1 h2 hd
    refine ⟨w2, ?_, hown.mono (fun _ h => h.elim), (h.found r hd).2.1, fun _ => (old hd (fun _ => h2)).move hown (h.found r hd).2.2.2.1⟩
    rw [hact]
    unfold applyStore
    cases ha : e.action with
    | none => rfl
    | some a =>
      cases a with
      | create => exact absurd ha h1
      | update => rfl
      | delete => exact absurd ha h2
  have del : e.action = some .delete → dst = some r →
      ∃ w3, applyStore X w1.sact parent r sk w2 = (.ok (), w3) ∧ RPart X.dst sid S D es parent (fun k => k = k0 ∨ (e.action = some .delete ∧ sk = true ∧ InK X.dst e k)) w1 w3 ∧
      b ≤ r ∧ (¬ (e.action = some .delete ∧ nat = true) → RObj X D e c k0 r w3) := by
    intro ha hd
    obtain ⟨s1, s2, s3, s4, s5, s6⟩ := h.found r hd
    have hsame : (w2.heap r).m = (w1.heap r).m := by
      have hsa : w1.sact = some .delete := hact.trans ha
      rw [hsa] at o
      generalize hres : (Except.ok (ch, some r) : Except Err (Bool × Option Ref)) = res at o
      cases o with
      | stale _ h1 _ => exact h1.heap_m r s3
      | crud _ _ _ _ h5 => exact CallEff.heap_del h5 s3
      | fatal _ _ _ _ h5 => exact CallEff.heap_del h5 s3
      | failed _ _ _ h5 => exact CallEff.heap_del h5 s3
      | kept _ _ _ _ h5 _ => exact CallEff.heap_del h5 s3
    obtain ⟨w3, e1, e2, e3⟩ := rstore_delete hA h.env (skip := sk) hown.inv h.tree h.key ha (Nat.lt_of_lt_of_le s3 hown.lists.1) ((hown.key r s3).trans s5) hpar2 s4 hst2
      (by
        intro hsk
        rw [hsame]
        rcases h.mode with h' | h'
        · exact h' r hd
        · rw [h'.2.1] at hsk; cases hsk) hrl
    have hp : RPart X.dst sid S D es parent (fun k => k = k0 ∨ (e.action = some .delete ∧ sk = true ∧ InK X.dst e k)) w2 w3 := e2.mono (fun k hk => hk.imp id (fun hh => ⟨ha, hh⟩))
    refine ⟨w3, by rw [hact, ha]; exact e1, (hown.mono (fun _ h => h.elim)).trans hp, s2, fun hn => ?_⟩
    exact ((old hd (fun hn' ha' => hn ⟨ha', hn'⟩)).move hown s4).move hp s4
  generalize hsa : w1.sact = sa at o
  rw [hsa] at plain del
  generalize hres : (Except.ok (ch, some r) : Except Err (Bool × Option Ref)) = res at o
  cases o with
  | stale _ _ _ => split at hres <;> cases hres
  | crud _ _ _ _ _ => split at hres <;> cases hres
  | fatal _ _ _ _ _ => cases hres
  | failed _ _ _ _ => cases hres
  | idle _ _ =>
    cases hres
    have ha : e.action = none := hact.symm.trans hsa
    exact plain (by rw [ha]; simp) (by rw [ha]; simp) rfl
  | @created out m _ st h1 h2 h3 h4 h5 h6 h7 _ =>
    cases hres
    have ha : e.action = some .create := hact.symm.trans hsa
    have hs : w1.scls = some c := by
      rcases h.scls with h' | h'
      · exact h'
      · rw [ha] at h'; cases h'
    rw [hs] at h3
    obtain ⟨w3, e1, e2, e3, e4, e5⟩ := rstore_create hA h.env (r := r) (skip := sk) hown.inv h.tree h.key ha h.cls (by rw [h7]; exact h3) hpar2
      (fun hp => absurd (hpr hp) (Nat.not_lt.2 h5)) hst2
    have hlt : r < w3.next := Nat.lt_of_lt_of_le h6 e2.lists.1
    obtain ⟨f1, f2⟩ := construct_full (h.env.valid.valid _ _ h.cls) h3
    refine ⟨w3, e1, (hown.mono (fun _ h => h.elim)).trans (e2.mono (fun k hk => .inl hk)), Nat.le_trans h.next h5, fun _ => ⟨hlt, by rw [e3]; exact e4, by rw [e3]; exact e5,
      by rw [e3, h7]; exact f1, fun ke hke kc hkc => ?_⟩⟩
    rw [e3, h7, f2, ← h.env.kid_lists h.tree h.key hke hkc, (h.env.create e k0 h.tree h.key ha).2]
    simp [listsO]
  | @kept a _ call out st h1 _ _ _ h5 _ =>
    cases hres
    have ha : e.action = some a := hact.symm.trans hsa
    cases a with
    | create => exact absurd (h.env.create e k0 h.tree h.key ha).2 (h.found r rfl).1
    | update => exact plain (by rw [ha]; simp) (by rw [ha]; simp) rfl
    | delete => exact del ha rfl

/-- A sync of one element raises only what user code raised, refuses nothing, and misses objects only where a call has not made them. -/
theorem syncElem_cleanR (hc : CEnv X.dst S D es) (hre : X.dc.Reorders) (hfull : ∀ k m, D k = some m → FullKids m) (n : Nat) :
    ∀ (e : Elem V) (parent : Option Ref) (w w' : World V E) (res : Except Err Bool), syncElem X n e parent w = (res, w') → InTree e es →
    RInv X.dst sid (UE S D) (fun _ => True) w → AtStart X.dst D e w → RPar X.dst D es parent e w → Deep X.dst S D n X.rlimit e →
    CleanR X.flags w w' res ∧ RPart X.dst sid S D es parent (InK X.dst e) w w' := by
  induction n with
  | zero =>
    intro e parent w w' res _ he _ _ _ hdeep
    obtain ⟨k0, hk0⟩ := hc.keyed e he
    have := (hdeep k0 hk0 0 k0 .refl).1
    omega
  | succ n ih =>
    intro e parent w w' res h he hi hat0 hpar hdeep
    have hw : RefsLt w := hi.refs
    have hs := syncElem_gstep (S := X) n e parent w hw
    rw [h] at hs
    dsimp only at hs
    obtain ⟨k0, hk0⟩ := hc.keyed e he
    obtain ⟨c0, u0, hc0, hu0, hkq⟩ := hk0
    have hk0 : ElemKey X.dst e k0 := ⟨c0, u0, hc0, hu0, hkq⟩
    have hkt : k0.1 = e.type := by rw [hkq]
    have hku : k0.2 = u0 := by rw [hkq]
    have hpl : Plain k0.1 := by rw [hkt]; exact hi.names _ _ hc0
    have hin0 : InK X.dst e k0 := ⟨e, inTree_self e, hk0⟩
    have hkid : ∀ {ke : Elem V}, ke ∈ e.kids → ∀ k, InK X.dst ke k → k ≠ k0 := by
      rintro ke hke k ⟨x, hx, hxk⟩ rfl
      exact hc.dist.below he (hx.mono (fun y hy => by rw [List.mem_singleton] at hy; rw [hy]; exact hke)) hk0 hxk
    have hsub : ∀ {ke : Elem V}, ke ∈ e.kids → ∀ k, InK X.dst ke k → InK X.dst e k := fun hke k ⟨x, hx, hxk⟩ => ⟨x, inTree_kid hke hx, hxk⟩
    have hperm := getChildren_perm hre e.kids
    have hdk : DistinctKeys X.dst (getChildren X.dc e.kids) := (distinct_sub hc.dist he).kids.1.perm hperm.symm
    have hrl : ∀ j y, Down S D j k0 y → j < X.rlimit := fun j y hd => (hdeep k0 hk0 j y hd).2
    have kids : ∀ {q : Ref} {acc w1 w2 y}, KidsRun (fun k w w' res => syncElem X n k (some q) w = (res, w')) (getChildren X.dc e.kids) acc w1 w2 y →
        RInv X.dst sid (UE S D) (fun _ => True) w1 → (∀ x ∈ e.kids, AtStart X.dst D x w1) → RObj X D e c0 k0 q w1 →
        CleanR X.flags w1 w2 y ∧ RPart X.dst sid S D es (some q) (fun k => ∃ x ∈ getChildren X.dc e.kids, InK X.dst x k) w1 w2 := by
      intro q acc w1 w2 y hk hi1 ha ho
      exact kids_cleanR hk (fun x hx => he.kid (mem_of_getChildren hx)) (fun x hx wa wb r hr hia haa hpa =>
        ih x (some q) wa wb r hr (he.kid (mem_of_getChildren hx)) hia haa hpa (hdeep.kid hc he (mem_of_getChildren hx))) hi1 hdk
        (fun x hx => ha x (mem_of_getChildren hx)) (fun x hx => ho.rpar he hk0 hc0 (mem_of_getChildren hx))
    have hup : ∀ {q : Option Ref} {w1 w2 : World V E}, RPart X.dst sid S D es q (fun k => ∃ x ∈ getChildren X.dc e.kids, InK X.dst x k) w1 w2 → RPart X.dst sid S D es q (InK X.dst e) w1 w2 :=
      fun f => f.mono (fun k ⟨x, hx, hk⟩ => hsub (mem_of_getChildren hx) k hk)
    have body : ∀ {dst nat sk w1}, RAt X sid S D es e c0 k0 dst parent w.next nat sk w1 →
        Body X (fun q k w w' res => syncElem X n k q w = (res, w')) e c0 parent dst nat sk w1 w' res → RPart X.dst sid S D es parent (InK X.dst e) w w1 → w1.slog.action = w1.sact →
        (¬ (e.action = some .delete ∧ nat = true) → ∀ x ∈ e.kids, AtStart X.dst D x w1) → CleanR X.flags w1 w' res ∧ RPart X.dst sid S D es parent (InK X.dst e) w w' := by
      intro dst nat sk w1 hat hb hp hsl hst
      have quiet : ∀ {w2 w3 : World V E} {r y}, applyStore X w1.sact parent r sk w2 = (y, w3) → ∃ ws, w3.trace = w2.trace ++ ws ∧ NoRef ws ∧ NoMissing ws := by
        intro w2 w3 r y hap
        obtain ⟨⟨ws, q3, q2⟩, _⟩ := warns_applyStore X w1.sact parent r sk w2
        rw [hap] at q2
        refine ⟨ws, q2, .of_none (fun lv ctx st hm => ?_), fun ctx hm => ?_⟩
        · obtain ⟨_, _, _, _, h⟩ := q3 _ hm
          cases h
        · obtain ⟨_, _, _, _, h⟩ := q3 _ hm
          cases h
      have tick : ∀ w3 : World V E, ∃ ws, w3.tick.trace = w3.trace ++ ws ∧ NoRef ws ∧ NoMissing ws :=
        fun w3 => ⟨[.syncProgress (w3.sproc + 1) w3.stotal], rfl, .of_none (by simp), fun ctx hm => by simp at hm⟩
      have sub : ∀ {w3}, RPart X.dst sid S D es parent (fun k => k = k0 ∨ (e.action = some .delete ∧ sk = true ∧ InK X.dst e k)) w1 w3 → RPart X.dst sid S D es parent (InK X.dst e) w w3 :=
        fun f => hp.trans (f.mono (fun k hk => by
          rcases hk with rfl | hk
          · exact hin0
          · exact hk.2.2))
      cases hb with
      | @raised evs x o _ ht =>
        obtain ⟨n1, x1, m1, _⟩ := hat.clean o
        exact ⟨⟨evs, ht, n1, fun y hy => x1 y (by cases hy; rfl), m1.miss⟩, hp.trans ((hat.own hA o ht).mono (fun _ h => h.elim))⟩
      | @noObject evs w2 ch o rg ht hw' =>
        obtain ⟨n1, x1, m1, s1⟩ := hat.clean o
        have ho := hat.own hA o ht
        subst hw'
        refine ⟨⟨evs ++ [.noObject w2.slog], by rw [show ({ w2 with trace := w2.trace ++ [Event.noObject w2.slog] } : World V E).trace = w2.trace ++ [.noObject w2.slog] from rfl, ht, List.append_assoc],
          n1.append (.of_none (by simp)), fun _ h => (by cases h), fun ha => absurd ha.left (s1 ch rfl), fun ctx hm hn => ?_⟩, ?_⟩
        · rcases List.mem_append.1 hm with hm | hm
          · exact m1 ctx hm
          · cases List.mem_singleton.1 hm
            rw [rg.slog_eq, hsl] at hn
            exact o.idle_found hn (fun hd => (hat.env.quiet e k0 hat.tree hat.key (hat.act.symm.trans hn)).2 (hat.absent hd))
        have st : Still w2 { w2 with trace := w2.trace ++ [.noObject w2.slog] } := ⟨Nat.le_refl _, rfl, fun _ _ => rfl, fun _ h => h, fun _ _ => rfl⟩
        exact (hp.trans (ho.mono (fun _ h => h.elim))).trans (st.rpart hA ho.inv)
      | @storeFail evs w2 ch r x o _ ht hap =>
        obtain ⟨w3, e3, _⟩ := hat.store hA hfull o ht hrl
        cases e3.symm.trans hap
      | @shortcut evs w2 ch r o _ ht hap hdel hsk =>
        obtain ⟨n1, _, m1, _⟩ := hat.clean o
        obtain ⟨ws, q1, q2, q3⟩ := quiet hap
        obtain ⟨w3, e3, p3, _⟩ := hat.store hA hfull o ht hrl
        cases e3.symm.trans hap
        exact ⟨CleanR.after ht n1 m1.miss ⟨ws, q1, q2, fun _ h => (by cases h), q3.miss⟩, sub p3⟩
      | @leaf evs w2 w3 ch r o _ ht hap hdel hsk hn hw' =>
        obtain ⟨n1, _, m1, _⟩ := hat.clean o
        obtain ⟨ws, q1, q2, q3⟩ := quiet hap
        obtain ⟨ws', t1, t2, t3⟩ := tick w3
        obtain ⟨w3', e3, p3, _⟩ := hat.store hA hfull o ht hrl
        cases e3.symm.trans hap
        subst hw'
        exact ⟨CleanR.after ht n1 m1.miss (CleanR.after q1 q2 q3.miss ⟨ws', t1, t2, fun _ h => (by cases h), t3.miss⟩), (sub p3).trans ((tick_still w3).rpart hA p3.inv)⟩
      | @kids evs w2 w3 ch r _ o _ ht hap hcs hk =>
        obtain ⟨n1, _, m1, _⟩ := hat.clean o
        obtain ⟨ws, q1, q2, q3⟩ := quiet hap
        obtain ⟨ws', t1, t2, t3⟩ := tick w3
        obtain ⟨w3', e3, p3, hbr, hob⟩ := hat.store hA hfull o ht hrl
        cases e3.symm.trans hap
        have hnn : ¬ (e.action = some .delete ∧ nat = true) := by
          rintro ⟨h1, h2⟩
          have := (hcs (hat.act.trans h1)).1
          rw [h2] at this; cases this
        have hnd : ¬ (e.action = some .delete ∧ sk = true) := by
          rintro ⟨h1, h2⟩
          have := (hcs (hat.act.trans h1)).2
          rw [h2] at this; cases this
        have p4 : RPart X.dst sid S D es parent (InK X.dst e) w3 w3.tick := (tick_still w3).rpart hA p3.inv
        have p4' : RPart X.dst sid S D es none (InK X.dst e) w3 w3.tick := (tick_still w3).rpart hA p3.inv
        have p5 : RPart X.dst sid S D es parent (fun k => k = k0) w1 w3.tick := (p3.mono (fun k hk => by
          rcases hk with hk | hk
          · exact hk
          · exact absurd ⟨hk.1, hk.2.1⟩ hnd)).trans ((tick_still w3).rpart hA p3.inv)
        obtain ⟨k1, k2⟩ := kids hk p4.inv (fun x hx => (hst hnn x hx).move p5 (he.kid hx) (hkid hx)) ((hob hnn).move p4' (by simp))
        exact ⟨CleanR.after ht n1 m1.miss (CleanR.after q1 q2 q3.miss (CleanR.after t1 t2 t3.miss k1)), ((sub p3).trans p4).trans_new (hup k2) (fun r' hr' => by cases hr'; exact hbr)⟩
    -- the object of the element
    have enter : ∀ {c u dst w1}, GEntered X e c u dst w w1 → c = c0 ∧ (dst = none → D k0 = none) ∧
        ∀ r, dst = some r → D k0 = some (w1.heap r).m ∧ w.next ≤ r ∧ r < w1.next ∧ parent ≠ some r ∧ (w1.heap r).m.key = k0 ∧ (w1.heap r).m.cls = c0 := by
      intro c u dst w1 ent
      cases hc0.symm.trans ent.cls
      cases hu0.symm.trans ent.uid
      have hd := ent.dst
      unfold DstAt at hd
      rw [hA] at hd
      dsimp only at hd
      rw [hc.valid.names _ _ hc0, ← hkt, ← hku] at hd
      have hst := hat0 k0 hin0
      rw [rsnap_at hA hpl] at hst
      refine ⟨rfl, ?_, ?_⟩
      · intro hn
        rcases hd with ⟨h1, _⟩ | ⟨o, r, h1, h2, _⟩
        · rw [h1] at hst; exact hst.symm
        · rw [hn] at h2; cases h2
      · intro r hr
        rcases hd with ⟨_, h2⟩ | ⟨o, r', h1, h2, h3, h4, h5⟩
        · rw [hr] at h2; cases h2
        · cases hr.symm.trans h2
          rw [h1] at hst
          obtain ⟨g1, g2⟩ := hi.store.key_ok _ _ _ hpl h1
          refine ⟨by rw [h5]; exact hst.symm, h3, h4, fun hp => ?_, by rw [h5]; exact Prod.ext g1 g2, by rw [h5]; exact hi.inst _ _ _ _ hpl h1 (by rw [hkt]; exact hc0)⟩
          obtain ⟨_, _, _, _, _, g, _⟩ := hpar r hp
          exact absurd g (Nat.not_lt.2 h3)
    have obj : ∀ {c u dst w1 q}, GEntered X e c u dst w w1 → dst = some q → RObj X D e c0 k0 q w1 := by
      intro c u dst w1 q ent hq
      obtain ⟨_, _, g⟩ := enter ent
      obtain ⟨g1, g2, g3, g4, g5, g6⟩ := g q hq
      refine ⟨g3, g5, g6, hfull _ _ g1, fun ke hke kc hkc => ?_⟩
      rw [← hc.kid_lists he hk0 hke hkc, g1]; rfl
    have st1 : ∀ {w1} {q : Option Ref} {K : Key → Prop}, Still w w1 → RPart X.dst sid S D es q K w w1 := fun hst => hst.rpart hA hi
    have nil : NoRef ([] : List (Event V)) := .of_none (by simp)
    have nilm : Miss ([] : List (Event V)) := .nil
    have at1 : ∀ {w1}, Still w w1 → ∀ x ∈ e.kids, AtStart X.dst D x w1 := fun hst x hx =>
      AtStart.move (K := fun _ => False) (parent := none) (fun k hk => hat0 k (hsub hx k hk)) (st1 hst) (he.kid hx) (fun _ _ h => h)
    cases hs with
    | noClass h1 _ => cases hc0.symm.trans h1
    | @noKey c h1 h2 _ => cases hc0.symm.trans h1; cases hu0.symm.trans h2
    | @natFail c u dst w1 x ent hn hsk ha hk =>
      obtain ⟨rfl, hd⟩ := enter ent
      cases hdst : dst with
      | none => rw [hdst] at hn; cases hn
      | some q =>
        have ho := obj ent hdst
        rw [hdst] at hk
        obtain ⟨k1, k2⟩ := kids hk ((st1 (q := none) (K := fun _ => False) ent.still).inv) (at1 ent.still) ho
        exact ⟨CleanR.after (evs := []) (by simp [ent.trace]) nil nilm k1, (st1 ent.still).trans_new (hup k2) (fun r hr => by cases hr; exact (hd.2 q hdst).2.1)⟩
    | @natural c u dst w1 w2 b res ent hn hsk ha hk hb =>
      obtain ⟨rfl, hd⟩ := enter ent
      cases hdst : dst with
      | none => rw [hdst] at hn; cases hn
      | some q =>
        have ho := obj ent hdst
        obtain ⟨g1, g2, g3, g4, g5, g6⟩ := hd.2 q hdst
        rw [hdst] at hk hb
        have i1 := (st1 (q := none) (K := fun _ => False) ent.still).inv
        have hsact := kidsRun_del_sact (S := X) n (fun x hx => hc.del x (hx.of_self he)) ha hk i1.refs (ent.sact.trans ha)
        obtain ⟨k1, k2⟩ := kids hk i1 (at1 ent.still) ho
        have p2 : RPart X.dst sid S D es parent (InK X.dst e) w w2 := (st1 ent.still).trans_new (hup k2) (fun r hr => by cases hr; exact g2)
        have hat : RAt X sid S D es e c k0 (some q) parent w.next true false w2 := {
          env := hc, inv := k2.inv, tree := he, key := hk0, cls := hc0, act := hsact.trans ha.symm, scls := .inr ha
          par := (hpar.move (st1 (q := none) (K := fun _ => False) ent.still) (fun _ _ _ h => h)).move k2 (fun hq => absurd hq.symm g4)
          stored := by
            rw [k2.pres k0 ⟨e, he, hk0⟩ (fun ⟨x, hx, hk⟩ => hkid (mem_of_getChildren hx) k0 hk rfl),
              (st1 (q := none) (K := fun _ => False) ent.still).pres k0 ⟨e, he, hk0⟩ (fun h => h)]
            exact hat0 k0 hin0
          absent := fun h => by cases h
          found := fun r hr => by
            cases hr
            exact ⟨by rw [g1]; simp, g2, Nat.lt_of_lt_of_le g3 k2.lists.1, g4, (k2.key q g3).trans g5, ((k2.lists.2 q g3).1).trans g6⟩
          mode := .inr ⟨ha, rfl, rfl⟩
          next := p2.lists.1 }
        obtain ⟨b1, b2⟩ := body hat hb p2 (kidsRun_slog_sact (S := X) n hk i1.refs (by rw [ent.slog, ent.sact])) (fun hn => absurd ⟨ha, rfl⟩ hn)
        exact ⟨CleanR.after (evs := []) (by simp [ent.trace]) nil nilm (k1.trans b1), b2⟩
    | @plain c u dst w1 res ent hcase hb =>
      obtain ⟨rfl, hd⟩ := enter ent
      have p1 : RPart X.dst sid S D es parent (InK X.dst e) w w1 := st1 ent.still
      have hat : RAt X sid S D es e c k0 dst parent w.next (natOf dst w1) (skipOf dst w1) w1 := {
        env := hc, inv := p1.inv, tree := he, key := hk0, cls := hc0, act := ent.sact, scls := .inl ent.scls
        par := hpar.move (st1 (q := none) (K := fun _ => False) ent.still) (fun _ _ _ h => h)
        stored := by
          rw [(st1 (q := none) (K := fun _ => False) ent.still).pres k0 ⟨e, he, hk0⟩ (fun h => h)]
          exact hat0 k0 hin0
        absent := hd.1
        found := fun r hr => by
          obtain ⟨g1, g2⟩ := hd.2 r hr
          exact ⟨by rw [g1]; simp, g2⟩
        mode := .inl (fun r hr => (hd.2 r hr).1)
        next := p1.lists.1 }
      obtain ⟨b1, b2⟩ := body hat hb p1 (by rw [ent.slog, ent.sact]) (fun _ => at1 ent.still)
      exact ⟨CleanR.after (evs := []) (by simp [ent.trace]) nil nilm b1, b2⟩

end
end DS
