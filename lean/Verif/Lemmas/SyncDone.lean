import Verif.Lemmas.SyncFacts
import Verif.Spec.SyncDone
/-! Successful calls take effect. -/
set_option linter.unusedSectionVars false

namespace DS
variable {V E : Type} [PyVal V]

section
variable {A : Adapter V} {b : Ref} {K : Option Action → Key → Prop} {P : Ref → Prop} {X : Key → Prop} {Gr : Key → Key → Prop} {SkipK : Key → Prop}

theorem snap_find_local {sid : Nat} (hA : A.ref.store = .local sid) (w : World V E) (t u : String) :
    (snap A w).find t u = (findRef w sid t u).map (fun r => (w.heap r).m) := by
  unfold snap; rw [hA]

/-- What is not concerned stays, with its values, unless it goes along with others. -/
theorem GFr.keep {w w' : World V E} (hi : GInv A Gr SkipK w) (h : GFr A b K P X Gr SkipK w w') {k : Key} {c : ModelClass V}
    (hc : Dict.get? A.classes k.1 = some c) (hK : ∀ a, ¬ K a k) {m : Model V} (hm : (snap A w).find k.1 k.2 = some m) :
    (∃ m', (snap A w').find k.1 k.2 = some m' ∧ m'.vals = m.vals ∧ m'.cls = m.cls) ∨ X k := by
  unfold snap at hm ⊢
  cases hA : A.ref.store with
  | «local» sid =>
    rw [hA] at hm
    obtain ⟨r, h1, rfl⟩ := Option.map_eq_some_iff.1 hm
    obtain ⟨_, _, f, _⟩ := (GFr.local hA).1 h
    have hok := ((GInv.local hA).1 hi).ok
    rcases f.gone _ _ _ h1 with h2 | ⟨h2, _⟩ | h2
    · left
      refine ⟨_, by simp [h2], ?_, (f.ident r (hok.refs_lt _ _ _ _ h1)).1⟩
      rcases f.upd r (hok.refs_lt _ _ _ _ h1) with h3 | ⟨h3, _⟩
      · exact h3
      · obtain ⟨k1, k2⟩ := hok.key_ok _ _ _ _ h1
        have : (w.heap r).m.key = k := Prod.ext k1 k2
        rw [this] at h3
        exact absurd h3 (hK _)
    · exact absurd h2 (hK _)
    · exact .inr h2
  | redis sid =>
    rw [hA] at hm
    have hp := ((GInv.redis hA).1 hi).names _ _ hc
    dsimp only at hm ⊢
    rw [if_pos hp] at hm ⊢
    obtain ⟨o, h1, rfl⟩ := Option.map_eq_some_iff.1 hm
    obtain ⟨_, _, f, _⟩ := (GFr.redis hA).1 h
    rcases f.gone _ _ _ hp h1 with h2 | ⟨h2, _⟩ | h2
    · exact .inl ⟨o.m, by rw [h2]; rfl, rfl, rfl⟩
    · exact absurd h2 (hK _)
    · exact .inr h2

/-- What is stored and not concerned was there before, with the same values. -/
theorem GFr.back {w w' : World V E} (hi : GInv A Gr SkipK w) (h : GFr A b K P X Gr SkipK w w') {k : Key} {c : ModelClass V}
    (hc : Dict.get? A.classes k.1 = some c) (hK : ∀ a, ¬ K a k) {m' : Model V} (hm : (snap A w').find k.1 k.2 = some m') :
    ∃ m, (snap A w).find k.1 k.2 = some m ∧ m'.vals = m.vals ∧ m'.cls = m.cls := by
  unfold snap at hm ⊢
  cases hA : A.ref.store with
  | «local» sid =>
    rw [hA] at hm
    obtain ⟨r, h1, rfl⟩ := Option.map_eq_some_iff.1 hm
    obtain ⟨_, _, f, _⟩ := (GFr.local hA).1 h
    have hok := ((GInv.local hA).1 hi).ok
    rcases f.come _ _ _ h1 with h2 | ⟨_, h2, _⟩
    · refine ⟨_, by simp [h2], ?_, (f.ident r (hok.refs_lt _ _ _ _ h2)).1⟩
      rcases f.upd r (hok.refs_lt _ _ _ _ h2) with h3 | ⟨h3, _⟩
      · exact h3
      · obtain ⟨k1, k2⟩ := hok.key_ok _ _ _ _ h2
        have : (w.heap r).m.key = k := Prod.ext k1 k2
        rw [this] at h3
        exact absurd h3 (hK _)
    · exact absurd h2 (hK _)
  | redis sid =>
    rw [hA] at hm
    have hp := ((GInv.redis hA).1 hi).names _ _ hc
    dsimp only at hm ⊢
    rw [if_pos hp] at hm ⊢
    obtain ⟨o, h1, rfl⟩ := Option.map_eq_some_iff.1 hm
    obtain ⟨_, _, f, _⟩ := (GFr.redis hA).1 h
    rcases f.come _ _ _ hp h1 with h2 | ⟨h2, _⟩
    · exact ⟨o.m, by rw [h2]; rfl, rfl, rfl⟩
    · exact absurd h2 (hK _)

/-- What is absent and not concerned stays absent. -/
theorem GFr.absent {w w' : World V E} (hi : GInv A Gr SkipK w) (h : GFr A b K P X Gr SkipK w w') {k : Key} {c : ModelClass V}
    (hc : Dict.get? A.classes k.1 = some c) (hK : ∀ a, ¬ K a k) (hn : (snap A w).find k.1 k.2 = none) : (snap A w').find k.1 k.2 = none := by
  cases hf : (snap A w').find k.1 k.2 with
  | none => rfl
  | some m' =>
    obtain ⟨m, h1, _⟩ := h.back hi hc hK hf
    rw [hn] at h1; cases h1

/-- For the elements of `es` to be updated, what is stored is what was stored at the start, up to child lists. -/
def AsBefore (A : Adapter V) (D0 : Snap V) (w : World V E) (es : List (Elem V)) : Prop :=
  ∀ x, InTree x es → x.action = some .update → ∀ k, ElemKey A x k → ∀ m, (snap A w).find k.1 k.2 = some m → ∃ m0, D0.find k.1 k.2 = some m0 ∧ m.vals = m0.vals ∧ m.cls = m0.cls

theorem AsBefore.mono {D0 : Snap V} {w : World V E} {es es' : List (Elem V)} (h : AsBefore A D0 w es) (hs : ∀ x, InTree x es' → InTree x es) :
    AsBefore A D0 w es' := fun x hx => h x (hs x hx)

theorem AsBefore.move {D0 : Snap V} {w w' : World V E} {es : List (Elem V)} (h : AsBefore A D0 w es) (hi : GInv A Gr SkipK w) (f : GFr A b K P X Gr SkipK w w')
    (hd : ∀ x, InTree x es → ∀ k, ElemKey A x k → ∀ a, ¬ K a k) : AsBefore A D0 w' es := by
  intro x hx hxu k hk m hm
  obtain ⟨c, hc⟩ := hk.cls
  obtain ⟨m1, h1, h2, h3⟩ := f.back hi hc (hd x hx k hk) hm
  obtain ⟨m0, h4, h5, h6⟩ := h x hx hxu k hk m1 h1
  exact ⟨m0, h4, h2.trans h5, h3.trans h6⟩

theorem AsBefore.still {D0 : Snap V} {w w' : World V E} {es : List (Elem V)} (h : AsBefore A D0 w es) (hi : GInv A Gr SkipK w) (hs : Still w w')
    {evs : List (Event V)} (ht : w'.trace = w.trace ++ evs) : AsBefore A D0 w' es :=
  h.move hi (hs.gfr (b := w.next) (K := fun _ _ => False) (P := fun _ => False) (X := fun _ => False) ht (Nat.le_refl _) hi) (fun _ _ _ _ _ h => h)

/-- The calls among some events that succeeded are in effect, or their object went along with others. -/
def Kept (A : Adapter V) (X : Key → Prop) (D0 D : Snap V) (evs : List (Event V)) : Prop :=
  ∀ c out, Event.call c out ∈ evs → Took c out → (c.act = .update → KeepsObjects A) →
    InEffect A D0 D c ∨ (c.act ≠ .delete ∧ ∃ k, CallKey A c k ∧ X k)

theorem InEffect.move {D0 : Snap V} {w w' : World V E} {call : CrudCall V} (h : InEffect A D0 (snap A w) call) (hi : GInv A Gr SkipK w) (f : GFr A b K P X Gr SkipK w w')
    {k : Key} (hk : CallKey A call k) {c : ModelClass V} (hc : Dict.get? A.classes k.1 = some c) (hK : ∀ a, ¬ K a k) :
    InEffect A D0 (snap A w') call ∨ (call.act ≠ .delete ∧ ∃ k, CallKey A call k ∧ X k) := by
  cases call with
  | create t ids attrs =>
    obtain ⟨c1, u, m, h1, h2, h3, h4, h5⟩ := h
    obtain ⟨c2, u2, g1, g2, rfl⟩ := hk
    cases h1.symm.trans g1
    cases h2.symm.trans g2
    rcases f.keep hi hc hK h3 with ⟨m', k1, k2, k3⟩ | hx
    · exact .inl ⟨c1, u, m', h1, h2, k1, k3.trans h4, by rw [k2]; exact h5⟩
    · exact .inr ⟨by simp [CrudCall.act], _, ⟨c1, u, h1, h2, rfl⟩, hx⟩
  | update t u attrs =>
    obtain ⟨m0, m, h1, h2, h3, h4⟩ := h
    have hk' : k = (t, u) := hk
    subst hk'
    rcases f.keep hi hc hK h2 with ⟨m', k1, k2, k3⟩ | hx
    · exact .inl ⟨m0, m', h1, k1, k3.trans h3, by rw [k2]; exact h4⟩
    · exact .inr ⟨by simp [CrudCall.act], _, rfl, hx⟩
  | delete t u =>
    have hk' : k = (t, u) := hk
    subst hk'
    exact .inl (f.absent hi hc hK h)

theorem Kept.move {D0 : Snap V} {w w' : World V E} {evs : List (Event V)} (h : Kept A X D0 (snap A w) evs) (hi : GInv A Gr SkipK w) (f : GFr A b K P X Gr SkipK w w')
    (hd : ∀ c out, Event.call c out ∈ evs → ∃ k cl, CallKey A c k ∧ Dict.get? A.classes k.1 = some cl ∧ ∀ a, ¬ K a k) : Kept A X D0 (snap A w') evs := by
  intro c out hc hs hu
  rcases h c out hc hs hu with h1 | h1
  · obtain ⟨k, cl, h2, h3, h4⟩ := hd c out hc
    exact h1.move hi f h2 h3 h4
  · exact .inr h1

theorem Kept.append {D0 D : Snap V} {evs evs' : List (Event V)} (h : Kept A X D0 D evs) (h' : Kept A X D0 D evs') : Kept A X D0 D (evs ++ evs') := by
  intro c out hc
  rcases List.mem_append.1 hc with hc | hc
  · exact h c out hc
  · exact h' c out hc

theorem Kept.of_noCalls {D0 D : Snap V} {evs : List (Event V)} (h : ∀ c out, Event.call c out ∉ evs) : Kept A X D0 D evs :=
  fun c out hc => absurd hc (h c out)

theorem Succeeded.took {c : CrudCall V} {out : Outcome} (h : Succeeded c out) : Took c out := by
  by_cases hc : c.act = .update
  · exact .inl ⟨hc, h.2 hc⟩
  · exact .inr ⟨hc, h.1⟩
end

theorem ChildWarn.noCalls {evs : List (Event V)} (h : ChildWarn evs) (c : CrudCall V) (out : Outcome) : Event.call c out ∉ evs := by
  intro hc
  obtain ⟨_, _, _, _, h1⟩ := h _ hc
  cases h1

theorem Prescribes.key {A : Adapter V} {x : Elem V} {c : CrudCall V} (h : Prescribes A x c) :
    ∃ k, ElemKey A x k ∧ CallKey A c k := by
  obtain ⟨u, hk, h2⟩ := h
  refine ⟨_, hk, ?_⟩
  obtain ⟨c', u', h3, h4, h5⟩ := hk
  cases ha : x.action with
  | none => rw [ha] at h2; exact h2.elim
  | some a =>
    rw [ha] at h2
    cases a with
    | create => dsimp only at h2; subst h2; exact ⟨c', u', h3, h4, h5⟩
    | update => dsimp only at h2; subst h2; rfl
    | delete => dsimp only at h2; subst h2; rfl

/-! ## bookkeeping -/

section
variable {S : SyncCtx V E}

theorem applyStore_create_find {k : Key} {parent : Option Ref} {r : Ref} {skip : Bool} {w2 w3 : World V E}
    (h : applyStore S (some .create) parent r skip w2 = (.ok (), w3)) (hp : ∀ p, parent = some p → p ≠ r)
    (hkey : (w2.heap r).m.key = k) (hn : (snap S.dst w2).find k.1 k.2 = none) (hpl : ∀ sid, S.dst.ref.store = .redis sid → Plain k.1) :
    (snap S.dst w3).find k.1 k.2 = some (w2.heap r).m := by
  have fin : ∀ w : World V E, (w.heap r).m = (w2.heap r).m → (snap S.dst w).find k.1 k.2 = none → add S.dst r w = (.ok (), w3) →
      (snap S.dst w3).find k.1 k.2 = some (w2.heap r).m := by
    intro w hm hn ha
    rw [← hm] at hkey ⊢
    have h1 : (w.heap r).m.type = k.1 := congrArg Prod.fst hkey
    have h2 : (w.heap r).m.uid = k.2 := congrArg Prod.snd hkey
    unfold snap at hn ⊢
    cases hA : S.dst.ref.store with
    | «local» sid =>
      rw [hA] at hn
      rw [Option.map_eq_none_iff] at hn
      obtain ⟨w', e3, f3, t3, _⟩ := add_local_none hA r w (by rw [h1, h2]; exact hn)
      rw [ha] at e3
      cases e3
      rw [h1, h2] at t3
      dsimp only
      rw [t3.findRef]
      simp [f3.heap_m]
    | redis sid =>
      rw [hA] at hn
      have hp := hpl sid hA
      dsimp only at hn ⊢
      rw [if_pos hp, Option.map_eq_none_iff] at hn
      rw [add_redis hA, h1, h2, hn] at ha
      cases ha
      rw [if_pos hp]
      simp [Dict.get?_set]
  unfold applyStore at h
  simp only at h
  cases parent with
  | none => exact fin w2 rfl hn h
  | some p =>
    unfold withParent at h
    simp only at h
    have hc := addChildRef_eq p r w2
    cases ha : (w2.heap p).m.addChild (w2.heap r).m.type (w2.heap r).m.uid with
    | error e =>
      rw [ha] at hc
      rw [M.bind_err hc] at h
      cases h
    | ok m =>
      rw [ha] at hc
      rw [M.bind_ok hc] at h
      have hpr := hp p rfl
      refine fin _ ?_ ?_ h
      · simp only [World.setObj, if_neg (Ne.symm hpr)]
      · unfold snap at hn ⊢
        cases hA : S.dst.ref.store with
        | «local» sid =>
          rw [hA] at hn
          rw [Option.map_eq_none_iff] at hn
          dsimp only
          rw [Option.map_eq_none_iff]
          exact hn
        | redis sid => rw [hA] at hn; exact hn

theorem applyStore_delete_find {k : Key} {parent : Option Ref} {r : Ref} {skip : Bool} {w2 w3 : World V E}
    (h : applyStore S (some .delete) parent r skip w2 = (.ok (), w3)) (hkey : (w2.heap r).m.key = k) (hlt : r < w2.next) :
    (snap S.dst w3).find k.1 k.2 = none := by
  have fin : ∀ w : World V E, (w.heap r).m.key = k → r < w.next → remove S.dst S.rlimit r skip w = (.ok (), w3) → (snap S.dst w3).find k.1 k.2 = none := by
    intro w hkey hlt hr
    have h1 : (w.heap r).m.type = k.1 := congrArg Prod.fst hkey
    have h2 : (w.heap r).m.uid = k.2 := congrArg Prod.snd hkey
    unfold snap
    cases hA : S.dst.ref.store with
    | «local» sid =>
      have := (remove_removed hA (fun _ => True) skip S.rlimit r w trivial (fun _ _ _ => trivial) (fun _ _ _ _ _ _ => ⟨trivial, fun _ _ => trivial⟩)).2.2
      rw [hr, h1, h2] at this
      dsimp only
      rw [(this rfl).2]; rfl
    | redis sid =>
      have := (rremove_removed hA (fun _ => True) skip S.rlimit r w hlt trivial (fun _ _ _ => trivial) (fun _ _ _ _ _ _ => ⟨trivial, fun _ _ => trivial⟩)).2.2
      rw [hr, h1, h2] at this
      dsimp only
      split
      · rw [(this rfl).2]; rfl
      · rfl
  unfold applyStore at h
  simp only at h
  cases parent with
  | none => exact fin w2 hkey hlt h
  | some p =>
    unfold withParent at h
    simp only at h
    have hc := removeChildRef_eq p r w2
    cases ha : (w2.heap p).m.removeChild (w2.heap r).m.type (w2.heap r).m.uid with
    | error e =>
      rw [ha] at hc
      rw [M.bind_err hc] at h
      cases h
    | ok m =>
      rw [ha] at hc
      rw [M.bind_ok hc] at h
      refine fin (w2.setObj p { w2.heap p with m := m }) ?_ hlt h
      simp only [World.setObj]
      split
      · rename_i hpr
        subst hpr
        exact (removeChild_kidsOnly ha).key_eq.trans hkey
      · exact hkey

/-! ## one element -/

variable {X : Key → Prop} {Gr : Key → Key → Prop} {SkipK : Key → Prop} {Fin : Event V → Prop} {b : Ref}
  {K : Option Action → Key → Prop} {e : Elem V} {parent dst : Option Ref} {c : ModelClass V} {u : String} {sk nat : Bool} {w w1 : World V E} {D0 : Snap V}

theorem callFor_act {c : ModelClass V} {a : Action} {o : Option (Model V)} {ids attrs : Dict V} {call : CrudCall V}
    (h : callFor c a o ids attrs = some call) : call.act = a := by
  cases a <;> cases o <;> cases h <;> rfl

/-- An update that passed the new values on. -/
theorem GAtBody.updated (at1 : GAtBody S Gr SkipK X Fin b e parent dst c u sk nat w1) (hf : AsBefore S.dst D0 w1 [e]) {w2 : World V E}
    (hsa : w1.sact = some .update) {call : CrudCall V} {out : Outcome}
    (h1 : callFor (w1.scls.getD c) .update (dst.map (fun r => (w1.heap r).m)) e.keys (e.plus.getD []) = some call)
    (h5 : CallEff .update dst (e.plus.getD []) out w1 w2) (happ : out.applied = true) (hk : KeepsObjects S.dst) : InEffect S.dst D0 (snap S.dst w2) call := by
  obtain ⟨env, hc, hu, hi1, hb1, ⟨hpar1, hpar2⟩, hact, hdst, hmode⟩ := at1
  have hek : ElemKey S.dst e (e.type, u) := ⟨c, u, hc, hu, rfl⟩
  obtain ⟨sid, hA⟩ := hk
  cases dst with
  | none => cases h1
  | some r =>
    cases h1
    obtain ⟨d1, d2, d3, d4⟩ := hdst r rfl
    have k1 : (w1.heap r).m.type = e.type := congrArg Prod.fst d2
    have k2 : (w1.heap r).m.uid = u := congrArg Prod.snd d2
    unfold CallEff at h5
    simp only [happ, if_true] at h5
    rcases hmode with ⟨hdf, _, _⟩ | ⟨hdel, _⟩
    · have hfr : findRef w1 sid e.type u = some r := ((AtKey.local hA).1 hdf).symm
      obtain ⟨m0, g1, g2, g3⟩ := hf e (inTree_self e) (hact.symm.trans hsa) _ hek (w1.heap r).m (by rw [snap_find_local hA]; simp [hfr])
      have hfields : ∀ k ∈ Dict.keys (e.plus.getD []), k ∈ (w1.heap r).m.cls.fieldNames := fun k hk => by
        rw [d3]
        exact (env.valid.valid _ _ hc).attrs_fields k (env.plain e (inTree_self e) (hact.symm.trans hsa) c hc k hk)
      obtain ⟨s1, _, _, s4⟩ := setattrs_spec (w1.heap r).m (e.plus.getD [])
      rw [k1, k2]
      refine ⟨m0, (w2.heap r).m, g1, by rw [snap_find_local hA, h5.tbl_eq.findRef, hfr]; rfl, ?_, fun hwf f => ?_⟩
      · rw [h5.heap_r, s1, g3]
      · rw [h5.heap_r]
        cases hg : Dict.get? (e.plus.getD []) f with
        | some v => rw [(setattrs_all _ _ hwf hfields).2 f v hg]; rfl
        | none => rw [s4 f (Dict.get?_eq_none_iff.1 hg), g2]; rfl
    · rw [hdel] at hact; rw [hact] at hsa; cases hsa

/-- The call for an element that gives no object. -/
theorem GAtBody.effect_fail (at1 : GAtBody S Gr SkipK X Fin b e parent dst c u sk nat w1) (hf : AsBefore S.dst D0 w1 [e]) {w2 : World V E}
    {evs : List (Event V)} {res : Except Err (Bool × Option Ref)} (o : Own S (w1.scls.getD c) e.keys (e.plus.getD []) w1 w2 w1.sact dst evs res)
    (hr : ∀ ch r, res ≠ .ok (ch, some r)) : Kept S.dst X D0 (snap S.dst w2) evs ∨
      ((∃ x, res = .error x ∧ x.isCrud = false) ∧ ∀ call out, Event.call call out ∈ evs → out.result = .object ∧ call.act ≠ .update) := by
  have up : ∀ {a call out}, w1.sact = some a → callFor (w1.scls.getD c) a (dst.map (fun r => (w1.heap r).m)) e.keys (e.plus.getD []) = some call →
      CallEff a dst (e.plus.getD []) out w1 w2 → (out.result = .object → a = .update) → Took call out → (call.act = .update → KeepsObjects S.dst) →
      InEffect S.dst D0 (snap S.dst w2) call := by
    intro a call out hsa h1 h5 hn ht hk
    rcases ht with ⟨h2, h3⟩ | ⟨h2, h3⟩
    · cases a with
      | update => exact at1.updated hf hsa h1 h5 h3 (hk h2)
      | create => cases hd : dst with
        | none => rw [hd] at h1; cases h1; cases h2
        | some r => rw [hd] at h1; cases h1
      | delete => cases hd : dst with
        | none => rw [hd] at h1; cases h1
        | some r => rw [hd] at h1; cases h1; cases h2
    · have ha := hn h3
      subst ha
      exact absurd (callFor_act h1) h2
  generalize hsa : w1.sact = act at o
  cases o with
  | idle _ _ => left; intro call out hev; split at hev <;> simp at hev
  | stale _ _ _ => left; intro call out hev; simp at hev
  | crud h1 _ h3 _ h5 =>
    left
    intro call out hev ht hk
    simp at hev
    obtain ⟨rfl, rfl⟩ := hev
    exact .inl (up hsa h1 h5 (fun h => by rw [h3] at h; cases h) ht hk)
  | @fatal a _ call out x h1 _ h2 h3 h5 =>
    by_cases hn : out.result = .object ∧ a ≠ .update
    · right
      refine ⟨⟨x, rfl, h2⟩, fun call out hev => ?_⟩
      simp at hev
      obtain ⟨rfl, rfl⟩ := hev
      exact ⟨hn.1, by rw [callFor_act h1]; exact hn.2⟩
    · left
      intro call out hev ht hk
      simp at hev
      obtain ⟨rfl, rfl⟩ := hev
      exact .inl (up hsa h1 h5 (fun h => Classical.byContradiction (fun h' => hn ⟨h, h'⟩)) ht hk)
  | failed h1 _ h3 h5 =>
    left
    intro call out hev ht hk
    simp at hev
    obtain ⟨rfl, rfl⟩ := hev
    exact .inl (up hsa h1 h5 (fun h => by rw [h3] at h; cases h) ht hk)
  | created => exact absurd rfl (hr _ _)
  | kept => exact absurd rfl (hr _ _)

theorem GAtBody.effect (at1 : GAtBody S Gr SkipK X Fin b e parent dst c u sk nat w1) (hf : AsBefore S.dst D0 w1 [e])
    {w2 w3 : World V E} {evs : List (Event V)} {ch : Bool} {r : Ref} (o : Own S (w1.scls.getD c) e.keys (e.plus.getD []) w1 w2 w1.sact dst evs (.ok (ch, some r)))
    (hap : applyStore S w1.sact parent r sk w2 = (.ok (), w3)) : Kept S.dst X D0 (snap S.dst w3) evs := by
  obtain ⟨env, hc, hu, hi1, hb1, ⟨hpar1, hpar2⟩, hact, hdst, hmode⟩ := at1
  have hname : c.name = e.type := env.valid.names _ _ hc
  have hek : ElemKey S.dst e (e.type, u) := ⟨c, u, hc, hu, rfl⟩
  have hpl : ∀ sid, S.dst.ref.store = .redis sid → Plain e.type := fun sid hA => ((GInv.redis hA).1 hi1).names _ _ hc
  intro call out hev hs hupd
  left
  generalize hres : (Except.ok (ch, some r) : Except Err (Bool × Option Ref)) = res at o
  generalize hsa : w1.sact = act at o hap
  cases o with
  | idle _ _ => split at hev <;> simp at hev
  | stale _ _ _ => simp at hev
  | crud _ _ h1 _ _ => split at hres <;> cases hres
  | fatal _ _ _ _ _ => cases hres
  | failed _ _ h1 _ => cases hres
  | @created out' m r' st h1 h2 h3 h4 h5 h6 h7 _ =>
    cases hres
    simp at hev
    obtain ⟨rfl, rfl⟩ := hev
    rcases hmode with ⟨hdf, hscls, _⟩ | ⟨hdel, _⟩
    · rw [hscls, Option.getD_some] at h3 ⊢
      obtain ⟨m1, m2, m3⟩ := construct_spec h3
      have hkey : (w2.heap r).m.key = (e.type, u) := by
        rw [h7]; unfold Model.key Model.type
        rw [m1, hname, construct_uid (env.valid.valid _ _ hc) h3 (env.ids e (inTree_self e) (hact.symm.trans hsa) c hc) hu]
      have hn1 : (snap S.dst w1).find e.type u = none := (hdf.find hi1 (k := (e.type, u)) hc).symm
      have hn : (snap S.dst w2).find e.type u = none := by
        unfold snap at hn1 ⊢
        cases hA : S.dst.ref.store with
        | «local» sid =>
          rw [hA] at hn1
          rw [Option.map_eq_none_iff] at hn1
          dsimp only
          rw [Option.map_eq_none_iff, h4.tbl_eq.findRef]
          exact hn1
        | redis sid =>
          rw [hA] at hn1
          dsimp only at hn1 ⊢
          rw [h4.redis_eq]; exact hn1
      have hst := applyStore_create_find (k := (e.type, u)) hap (fun p hp h => absurd (hpar1 p hp).1 (by rw [h]; exact Nat.not_lt.2 h5)) hkey hn hpl
      refine ⟨c, u, _, by rw [hname]; exact hc, hu, by rw [hname]; exact hst, by rw [h7]; exact m1, fun f d hfd => ?_⟩
      rw [h7, construct_get? (env.valid.valid _ _ hc) h3 hfd]
    · rw [hdel] at hact; rw [hact] at hsa; cases hsa
  | @kept a r' call' out' st h1 h2 h3 h4 h5 _ =>
    cases hres
    simp at hev
    obtain ⟨rfl, rfl⟩ := hev
    obtain ⟨d1, d2, d3, d4⟩ := hdst r rfl
    have k1 : (w1.heap r).m.type = e.type := congrArg Prod.fst d2
    have k2 : (w1.heap r).m.uid = u := congrArg Prod.snd d2
    cases a with
    | create => cases h1
    | delete =>
      cases h1
      have h5' : Still w1 w2 := h5
      rw [k1, k2]
      exact applyStore_delete_find (k := (e.type, u)) hap (by rw [h5'.heap_m r d1]; exact d2) (Nat.lt_of_lt_of_le d1 h5'.next_le)
    | update =>
      cases hap
      rcases hs with ⟨_, happ⟩ | ⟨hn, _⟩
      · exact GAtBody.updated ⟨env, hc, hu, hi1, hb1, ⟨hpar1, hpar2⟩, hact, hdst, hmode⟩ hf hsa h1 h5 happ (hupd (by cases h1; rfl))
      · cases h1; exact absurd rfl hn

theorem GAtBody.callKey (at1 : GAtBody S Gr SkipK X Fin b e parent dst c u sk nat w1)
    {w2 : World V E} {evs : List (Event V)} {ch : Bool} {r : Ref} (o : Own S (w1.scls.getD c) e.keys (e.plus.getD []) w1 w2 w1.sact dst evs (.ok (ch, some r)))
    {call : CrudCall V} {out : Outcome} (hev : Event.call call out ∈ evs) :
    ∃ k cl, CallKey S.dst call k ∧ Dict.get? S.dst.classes k.1 = some cl ∧ k = (e.type, u) := by
  obtain ⟨env, hc, hu, hi1, hb1, ⟨hpar1, hpar2⟩, hact, hdst, hmode⟩ := at1
  have hname : c.name = e.type := env.valid.names _ _ hc
  refine ⟨(e.type, u), c, ?_, hc, rfl⟩
  generalize hres : (Except.ok (ch, some r) : Except Err (Bool × Option Ref)) = res at o
  generalize hsa : w1.sact = act at o
  cases o with
  | idle _ _ => split at hev <;> simp at hev
  | stale _ _ _ => simp at hev
  | crud _ _ h1 _ _ => split at hres <;> cases hres
  | fatal _ _ _ _ _ => cases hres
  | failed _ _ h1 _ => cases hres
  | created =>
    simp at hev
    obtain ⟨rfl, rfl⟩ := hev
    rcases hmode with ⟨hdf, hscls, _⟩ | ⟨hdel, _⟩
    · rw [hscls, Option.getD_some]
      exact ⟨c, u, by rw [hname]; exact hc, hu, by rw [hname]⟩
    · rw [hdel] at hact; rw [hact] at hsa; cases hsa
  | @kept a r' call' out' st h1 h2 h3 h4 h5 _ =>
    cases hres
    simp at hev
    obtain ⟨rfl, rfl⟩ := hev
    have d2 := (hdst r rfl).2.1
    have k1 : (w1.heap r).m.type = e.type := congrArg Prod.fst d2
    have k2 : (w1.heap r).m.uid = u := congrArg Prod.snd d2
    cases a with
    | create => cases h1
    | delete => cases h1; rw [k1, k2]; rfl
    | update => cases h1; rw [k1, k2]; rfl

/-! ## the whole tree -/

/-- The calls between two worlds that did their work are in effect in the second, except that the last call need not be after an
exception that is not about object handling, if that call was a `create` or `delete` and returned an object. -/
def KeptTo (A : Adapter V) (X : Key → Prop) (D0 : Snap V) (w w' : World V E) (res : Except Err Bool) : Prop :=
  ∃ evs1 evs2, w'.trace = w.trace ++ (evs1 ++ evs2) ∧ Kept A X D0 (snap A w') evs1 ∧ (callsOf evs2).length ≤ 1 ∧
    ((∀ x, res = .error x → x.isCrud = true) → callsOf evs2 = []) ∧ ∀ c out, Event.call c out ∈ evs2 → out.result = .object ∧ c.act ≠ .update

theorem KeptTo.of_all {A : Adapter V} {D0 : Snap V} {w w' : World V E} {res : Except Err Bool} {evs : List (Event V)}
    (ht : w'.trace = w.trace ++ evs) (h : Kept A X D0 (snap A w') evs) : KeptTo A X D0 w w' res :=
  ⟨evs, [], by simpa using ht, h, by simp, fun _ => rfl, fun _ _ h => by cases h⟩

theorem KeptTo.all {A : Adapter V} {D0 : Snap V} {w w' : World V E} {res : Except Err Bool} (h : KeptTo A X D0 w w' res)
    (hx : ∀ x, res = .error x → x.isCrud = true) {evs : List (Event V)} (ht : w'.trace = w.trace ++ evs) : Kept A X D0 (snap A w') evs := by
  obtain ⟨evs1, evs2, h1, h2, _, h3, _⟩ := h
  rw [List.append_cancel_left (ht.symm.trans h1)]
  refine h2.append (.of_noCalls fun c out hc => ?_)
  rw [← mem_callsOf, h3 hx] at hc; cases hc

theorem KeptTo.prepend {A : Adapter V} {D0 : Snap V} {w w1 w' : World V E} {res : Except Err Bool} {evs : List (Event V)} (ht : w1.trace = w.trace ++ evs)
    (h : Kept A X D0 (snap A w') evs) (h' : KeptTo A X D0 w1 w' res) : KeptTo A X D0 w w' res := by
  obtain ⟨evs1, evs2, h1, h2, h3, h4⟩ := h'
  exact ⟨evs ++ evs1, evs2, by rw [h1, ht]; simp, h.append h2, h3, h4⟩

theorem Own.calls_le {c : ModelClass V} {ids attrs : Dict V} {w w' : World V E} {a : Option Action} {dst : Option Ref}
    {evs : List (Event V)} {res : Except Err (Bool × Option Ref)} (h : Own S c ids attrs w w' a dst evs res) : (callsOf evs).length ≤ 1 := by
  cases h with
  | idle => rw [callsOf_ite]; simp
  | _ => simp

theorem Own.object {c : ModelClass V} {ids attrs : Dict V} {w w' : World V E} {a : Option Action} {dst : Option Ref}
    {evs : List (Event V)} {ch : Bool} {r : Ref} (h : Own S c ids attrs w w' a dst evs (.ok (ch, some r))) {call : CrudCall V} {out : Outcome}
    (hev : Event.call call out ∈ evs) : out.result = .object := by
  generalize hres : (Except.ok (ch, some r) : Except Err (Bool × Option Ref)) = res at h
  cases h with
  | idle _ _ => split at hev <;> simp at hev
  | stale _ _ _ => simp at hev
  | crud _ _ _ _ _ => split at hres <;> cases hres
  | fatal _ _ _ _ _ => cases hres
  | failed _ _ _ _ => cases hres
  | created _ h _ _ _ _ _ _ => simp at hev; obtain ⟨rfl, rfl⟩ := hev; exact h
  | kept _ _ h _ _ _ => simp at hev; obtain ⟨rfl, rfl⟩ := hev; exact h

theorem Own.act {c : ModelClass V} {ids attrs : Dict V} {w w' : World V E} {a : Option Action} {dst : Option Ref}
    {evs : List (Event V)} {res : Except Err (Bool × Option Ref)} (h : Own S c ids attrs w w' a dst evs res) {call : CrudCall V} {out : Outcome}
    (hev : Event.call call out ∈ evs) {b : Action} (hb : call.act = b) : a = some b := by
  subst hb
  cases h with
  | idle _ _ => split at hev <;> simp at hev
  | stale _ _ _ => simp at hev
  | crud h _ _ _ _ => simp at hev; obtain ⟨rfl, rfl⟩ := hev; rw [callFor_act h]
  | fatal h _ _ _ _ => simp at hev; obtain ⟨rfl, rfl⟩ := hev; rw [callFor_act h]
  | failed h _ _ _ => simp at hev; obtain ⟨rfl, rfl⟩ := hev; rw [callFor_act h]
  | created => simp at hev; obtain ⟨rfl, rfl⟩ := hev; rfl
  | kept h _ _ _ _ _ => simp at hev; obtain ⟨rfl, rfl⟩ := hev; rw [callFor_act h]

theorem syncElem_calls (n : Nat) {e : Elem V} {parent : Option Ref} {w w' : World V E} {res : Except Err Bool}
    (h : syncElem S n e parent w = (res, w')) (env : FrameEnv S.dst Gr SkipK X Fin [e]) (hi : GInv S.dst Gr SkipK w) (hb : b ≤ w.next)
    (hpar : ∀ k, ElemKey S.dst e k → GPar S.dst b Gr parent k w) (hfin : NewIn Fin w w') :
    ∀ evs, w'.trace = w.trace ++ evs → ∀ c out, Event.call c out ∈ evs → ∃ x k, InTree x [e] ∧ ElemKey S.dst x k ∧ CallKey S.dst c k := by
  intro evs ht c out hc
  obtain ⟨evs', t1, t2, _⟩ := syncElem_tr (S := S) (D := False) (N := fun _ => none) (fun h => h.elim) (b := b) n e parent w w' res h env hi hb hpar (fun h => h.elim) hfin
  have : evs' = evs := List.append_cancel_left (t1.symm.trans ht)
  subst this
  obtain ⟨x, h1, h2, _⟩ := t2.mem_call c out hc
  obtain ⟨k, h3, h4⟩ := h2.key
  exact ⟨x, k, h1, h3, h4⟩

/-- The calls made for an element. -/
theorem syncElem_done (hreo : S.dc.Reorders) (n : Nat) : ∀ (e : Elem V) (parent : Option Ref) (w w' : World V E) (res : Except Err Bool),
    syncElem S n e parent w = (res, w') → FrameEnv S.dst Gr SkipK X Fin [e] → GInv S.dst Gr SkipK w → b ≤ w.next →
    (∀ k, ElemKey S.dst e k → GPar S.dst b Gr parent k w) → DistinctKeys S.dst [e] → AsBefore S.dst D0 w [e] → NewIn Fin w w' → KeptTo S.dst X D0 w w' res := by
  induction n with
  | zero =>
    intro e parent w w' res h _ _ _ _ _ _ _
    cases h
    exact .of_all (evs := []) (by simp) (fun _ _ h => by cases h)
  | succ n ih =>
    intro e parent w w' res h env hi hb hpar hD hF hfin
    have hw : RefsLt w := hi.refs
    have hs := syncElem_gstep (S := S) n e parent w hw
    rw [h] at hs
    dsimp only at hs
    -- lists of children
    have kids' : ∀ {q acc l w1 w2 y}, KidsRun (fun k w w' res => syncElem S n k q w = (res, w') ∧ NewIn Fin w w') l acc w1 w2 y →
        (∀ k ∈ l, k ∈ e.kids) → GInv S.dst Gr SkipK w1 → b ≤ w1.next →
        (∀ k ∈ e.kids, ∀ x, ElemKey S.dst k x → GPar S.dst b Gr q x w1) → DistinctKeys S.dst l → AsBefore S.dst D0 w1 l →
        TrExt w1 w2 ∧ GFr S.dst b (keysOf S.dst l) (fun p => q = some p) X Gr SkipK w1 w2 ∧ KeptTo S.dst X D0 w1 w2 y ∧
          (∀ evs, w2.trace = w1.trace ++ evs → ∀ c out, Event.call c out ∈ evs → ∃ x k, InTree x l ∧ ElemKey S.dst x k ∧ CallKey S.dst c k) := by
      intro q acc l w1 w2 y hk
      induction hk with
      | nil =>
        intro _ hi1 hb1 _ _ _
        refine ⟨.of_eq rfl, GFr.refl hb1 hi1, .of_all (evs := []) (by simp) (fun _ _ h => by cases h), ?_⟩
        · intro evs he; have : evs = [] := by simpa using he
          subst this; intro _ _ h; cases h
      | @err k l acc w1 w2 x h1 =>
        intro hmem hi1 hb1 hq hd hf1
        have hkk := hmem k (by simp)
        have hsub : ∀ x, InTree x [k] → InTree x (k :: l) := fun x hx => hx.mono (fun _ h => by rw [List.mem_singleton] at h; simp [h])
        refine ⟨?_, ?_, ?_, ?_⟩
        · exact syncElem_ext (S := S) n k q w1 _ _ hi1.refs h1.1
        · exact (syncElem_fr (S := S) (b := b) n k q w1 w2 _ h1.1 (env.kid hkk) hi1 hb1 (hq k hkk) h1.2).mono
            (fun a x ⟨z, g1, g2⟩ => ⟨z, hsub z g1, g2⟩) (fun _ h => h)
        · exact ih k q w1 w2 _ h1.1 (env.kid hkk) hi1 hb1 (hq k hkk) hd.cons.1 (hf1.mono hsub) h1.2
        · intro evs he c out hc
          obtain ⟨x, kx, g1, g2⟩ := syncElem_calls n h1.1 (env.kid hkk) hi1 hb1 (hq k hkk) h1.2 evs he c out hc
          exact ⟨x, kx, hsub x g1, g2⟩
      | @cons k l acc w1 w3 w4 bb res h1 h2 ih2 =>
        intro hmem hi1 hb1 hq hd hf1
        have hkk := hmem k (by simp)
        have hsub : ∀ x, InTree x [k] → InTree x (k :: l) := fun x hx => hx.mono (fun _ h => by rw [List.mem_singleton] at h; simp [h])
        have hsub2 : ∀ x, InTree x l → InTree x (k :: l) := fun x hx => hx.mono (fun _ h => by simp [h])
        have x1 : TrExt w1 w3 := by exact syncElem_ext (S := S) n k q w1 _ _ hi1.refs h1.1
        have f := syncElem_fr (S := S) (b := b) n k q w1 w3 _ h1.1 (env.kid hkk) hi1 hb1 (hq k hkk) h1.2
        have d1 := ih k q w1 w3 _ h1.1 (env.kid hkk) hi1 hb1 (hq k hkk) hd.cons.1 (hf1.mono hsub) h1.2
        have c1 := syncElem_calls n h1.1 (env.kid hkk) hi1 hb1 (hq k hkk) h1.2
        obtain ⟨x2, f2, d2, c2⟩ := ih2 (fun k' hk' => hmem k' (by simp [hk'])) f.inv (Nat.le_trans hb1 f.next_le)
          (fun k' hk' x hx => f.par (hq k' hk' x hx)) hd.cons.2.1
          ((hf1.mono hsub2).move hi1 f (fun x hx kx hkx a ⟨z, hz, _, hzk⟩ => hd.cons.2.2 z kx hz hzk x hx hkx))
        obtain ⟨evs1, t1⟩ := x1
        obtain ⟨evs2, t2⟩ := x2
        have t12 : w4.trace = w1.trace ++ (evs1 ++ evs2) := by rw [t2, t1, List.append_assoc]
        refine ⟨⟨_, t12⟩, (f.mono (fun a x ⟨z, g1, g2⟩ => ⟨z, hsub z g1, g2⟩) (fun _ h => h)).trans
          (f2.mono (fun a x ⟨z, g1, g2⟩ => ⟨z, hsub2 z g1, g2⟩) (fun _ h => h)) hb1, ?_, ?_⟩
        · refine KeptTo.prepend t1 ((d1.all (fun x h => by cases h) t1).move f.inv f2 ?_) d2
          intro c out hc
          obtain ⟨x, kx, g1, g2, g3⟩ := c1 evs1 t1 c out hc
          obtain ⟨cl, hcl⟩ := g2.cls
          exact ⟨kx, cl, g3, hcl, fun a ⟨z, hz, _, hzk⟩ => hd.cons.2.2 x kx g1 g2 z hz hzk⟩
        · intro evs he c out hc
          have : evs = evs1 ++ evs2 := List.append_cancel_left (he.symm.trans t12)
          subst this
          rcases List.mem_append.1 hc with hc | hc
          · obtain ⟨x, kx, g1, g2⟩ := c1 evs1 t1 c out hc
            exact ⟨x, kx, hsub x g1, g2⟩
          · obtain ⟨x, kx, g1, g2⟩ := c2 evs2 t2 c out hc
            exact ⟨x, kx, hsub2 x g1, g2⟩
    have kids := fun {q acc l w1 w2 y} (hk : KidsRun (fun k w w' res => syncElem S n k q w = (res, w')) l acc w1 w2 y) hm (hi1 : GInv S.dst Gr SkipK w1) hb1 hq hd hf1 (hf : NewIn Fin w1 w2) =>
      kids' (kidsRun_fin (S := S) n hk hi1.refs hf) hm hi1 hb1 hq hd hf1
    have hgc : ∀ k ∈ getChildren S.dc e.kids, k ∈ e.kids := fun k hk => mem_of_getChildren hk
    have hgD : DistinctKeys S.dst (getChildren S.dc e.kids) ∧ ∀ k, ElemKey S.dst e k → ∀ x, InTree x (getChildren S.dc e.kids) → ¬ ElemKey S.dst x k := by
      obtain ⟨h1, h2⟩ := hD.kids
      have hp := getChildren_perm hreo e.kids
      exact ⟨h1.perm hp.symm, fun k hk x hx => h2 k hk x (hx.mono (fun y hy => hp.mem_iff.1 hy))⟩
    have hgT : ∀ x, InTree x (getChildren S.dc e.kids) → InTree x [e] := fun x hx => .under (by simp) (hx.mono hgc)
    -- the part from `sync_model` on
    have body : ∀ {c u dst nat sk w1}, GAtBody S Gr SkipK X Fin b e parent dst c u sk nat w1 → AsBefore S.dst D0 w1 [e] →
        Body S (fun q k w w' res => syncElem S n k q w = (res, w')) e c parent dst nat sk w1 w' res → NewIn Fin w1 w' →
        KeptTo S.dst X D0 w1 w' res ∧ (nat = true → sk = false → e.action = some .delete →
          GFr S.dst b (fun _ k => k = (e.type, u)) (fun p => parent = some p) X Gr SkipK w1 w') := by
      intro c u dst nat sk w1 at1 hF1 hbody hf1
      have hlt : ∀ r, dst = some r → r < w1.next := fun r hr => (at1.found r hr).1
      have hb1 := at1.le
      have quiet : ∀ {w2 w3 : World V E} {r y}, r < w2.next → applyStore S w1.sact parent r sk w2 = (y, w3) →
          (∃ ws, w3.trace = w2.trace ++ ws ∧ ChildWarn ws) ∧ (∀ x, y = .error x → x.isCrud = false) := by
        intro w2 w3 r y hr hap
        obtain ⟨_, _, q2, q4⟩ := applyStore_calm (S := S) w1.sact parent r sk w2 hr
        rw [hap] at q2 q4
        exact ⟨q2, q4⟩
      cases hbody with
      | @raised evs x o _ ht =>
        refine ⟨?_, fun _ _ _ => at1.own rfl o ht⟩
        rcases at1.effect_fail hF1 o (fun ch r h => by cases h) with hk | ⟨⟨y, hy, hyc⟩, ho⟩
        · exact .of_all ht hk
        · cases hy
          exact ⟨[], evs, ht, fun _ _ h => (by cases h), o.calls_le, fun h => absurd (h _ rfl) (by rw [hyc]; simp), ho⟩
      | @noObject evs w2 ch o _ ht hw' =>
        subst hw'
        have fo := at1.own (K := fun _ k => k = (e.type, u)) rfl o ht
        refine ⟨?_, fun _ _ _ => fo.trans ((Still.emit w2 [.noObject w2.slog]).gfr rfl (Nat.le_trans hb1 fo.next_le) fo.inv) hb1⟩
        refine .of_all (evs := evs ++ [Event.noObject w2.slog]) (by show w2.trace ++ [_] = _; rw [ht, List.append_assoc]) ?_
        rcases at1.effect_fail hF1 o (fun ch r h => by cases h) with hk | ⟨⟨y, hy, _⟩, _⟩
        · exact Kept.append hk (.of_noCalls (fun c out h => by simp at h))
        · cases hy
      | @storeFail evs w2 x ch r o _ ht hap =>
        obtain ⟨⟨ws, q1, q2⟩, q3⟩ := quiet (o.ref_lt hlt) hap
        have f13 := (at1.store (K := fun _ k => k = (e.type, u)) rfl o ht (hf1.left ⟨ws, q1⟩ _ ht)).1
        rw [hap] at f13
        refine ⟨⟨[], evs ++ ws, by rw [q1, ht]; simp, fun _ _ h => (by cases h), ?_, fun h => ?_, fun call out hc => ?_⟩, fun _ _ _ => f13⟩
        · rw [callsOf_append, callsOf_warn q2, List.append_nil]; exact o.calls_le
        · have := h _ rfl
          rw [q3 _ rfl] at this; cases this
        · rcases List.mem_append.1 hc with hc | hc
          · refine ⟨o.object hc, fun hu => ?_⟩
            rw [o.act hc hu] at hap
            cases hap
          · exact absurd hc (q2.noCalls _ _)
      | @shortcut evs w2 ch r o _ ht hap _ hsk =>
        obtain ⟨⟨ws, q1, q2⟩, _⟩ := quiet (o.ref_lt hlt) hap
        refine ⟨?_, fun _ h _ => by rw [hsk] at h; cases h⟩
        refine .of_all (evs := evs ++ ws) (by rw [q1, ht, List.append_assoc]) ?_
        exact (at1.effect hF1 o hap).append (.of_noCalls q2.noCalls)
      | @leaf evs w2 w3 ch r o _ ht hap _ hsk hnt hw' =>
        subst hw'
        obtain ⟨⟨ws, q1, q2⟩, _⟩ := quiet (o.ref_lt hlt) hap
        have f13 := (at1.store (K := fun _ k => k = (e.type, u)) rfl o ht (hf1.left (TrExt.trans ⟨ws, q1⟩ ⟨[.syncProgress (w3.sproc + 1) w3.stotal], rfl⟩) _ ht)).1
        rw [hap] at f13
        have ft := (tick_still w3).gfr (b := b) (K := fun _ k => k = (e.type, u)) (P := fun p => parent = some p) (X := X) (evs := [.syncProgress (w3.sproc + 1) w3.stotal]) rfl (Nat.le_trans hb1 f13.next_le) f13.inv
        refine ⟨?_, fun _ _ _ => f13.trans ft hb1⟩
        refine .of_all (evs := evs ++ (ws ++ [Event.syncProgress (w3.sproc + 1) w3.stotal])) (by show w3.trace ++ [_] = _; rw [q1, ht]; simp) ?_
        have ft' := (tick_still w3).gfr (b := b) (K := fun _ _ => False) (P := fun _ => False) (X := X) (evs := [.syncProgress (w3.sproc + 1) w3.stotal]) rfl (Nat.le_trans hb1 f13.next_le) f13.inv
        refine Kept.append ?_ (.of_noCalls ?_)
        · refine (at1.effect hF1 o hap).move f13.inv ft' ?_
          intro c' out hc'
          obtain ⟨kx, cl, g1, g2, _⟩ := at1.callKey o hc'
          exact ⟨kx, cl, g1, g2, fun _ h => h⟩
        · intro c' out hc'
          rcases List.mem_append.1 hc' with h | h
          · exact q2.noCalls _ _ h
          · simp at h
      | @kids evs w2 w3 ch r res o _ ht hap hcon hk =>
        obtain ⟨⟨ws, q1, q2⟩, _⟩ := quiet (o.ref_lt hlt) hap
        have g4 := applyStore_grows (S := S) w1.sact parent r sk w2 (o.ref_lt hlt)
        rw [hap] at g4
        have x3 : TrExt w2 w3.tick := TrExt.trans ⟨ws, q1⟩ ⟨[.syncProgress (w3.sproc + 1) w3.stotal], rfl⟩
        have x4 : TrExt w3.tick w' := kidsRun_ext (S := S) n (syncElem_ext (S := S) n) hk ((tick_still w3).grows.refs (g4.refs (o.grows.refs at1.inv.refs)))
        obtain ⟨f13, hr, hrk, hrc, hro, hrb⟩ := at1.store (K := fun _ k => k = (e.type, u)) rfl o ht (hf1.left (x3.trans x4) _ ht)
        rw [hap] at f13 hr hrk hrc
        have f3 := f13.trans ((tick_still w3).gfr (evs := [.syncProgress (w3.sproc + 1) w3.stotal]) rfl (Nat.le_trans hb1 f13.next_le) f13.inv) hb1
        have hek : ElemKey S.dst e (e.type, u) := ⟨c, u, at1.cls, at1.uid, rfl⟩
        have hF3 : AsBefore S.dst D0 w3.tick (getChildren S.dc e.kids) := (hF1.mono hgT).move at1.inv f3 (fun x hx' kx hkx a hz => by
          subst hz
          exact hgD.2 _ hek x hx' hkx)
        obtain ⟨_, fk, dk, ck⟩ := kids hk hgc f3.inv (Nat.le_trans hb1 f3.next_le) (at1.par_kids (w3 := w3.tick) hr hrk hrc hrb) hgD.1 hF3
          (hf1.right (TrExt.trans ⟨evs, ht⟩ x3))
        refine ⟨?_, fun h1 h2 h3 => by rw [(hcon (at1.act.trans h3)).1] at h1; cases h1⟩
        refine KeptTo.prepend (evs := evs ++ (ws ++ [Event.syncProgress (w3.sproc + 1) w3.stotal])) (by show w3.trace ++ [_] = _; rw [q1, ht]; simp) ?_ dk
        have ft' := (tick_still w3).gfr (b := b) (K := fun _ _ => False) (P := fun _ => False) (X := X) (evs := [.syncProgress (w3.sproc + 1) w3.stotal]) rfl (Nat.le_trans hb1 f13.next_le) f13.inv
        refine Kept.append ?_ (.of_noCalls ?_)
        · refine ((at1.effect hF1 o hap).move f13.inv ft' ?_).move f3.inv fk ?_
          · intro c' out hc'
            obtain ⟨kx, cl, g1, g2, _⟩ := at1.callKey o hc'
            exact ⟨kx, cl, g1, g2, fun _ h => h⟩
          · intro c' out hc'
            obtain ⟨kx, cl, g1, g2, g3⟩ := at1.callKey o hc'
            refine ⟨kx, cl, g1, g2, fun a ⟨z, hz, _, hzk⟩ => ?_⟩
            rw [g3] at hzk
            exact hgD.2 _ hek z hz hzk
        · intro c' out hc'
          rcases List.mem_append.1 hc' with h | h
          · exact q2.noCalls _ _ h
          · simp at h
    have enter : ∀ {c u dst w1}, GEntered S e c u dst w w1 → GFr S.dst b (fun _ _ => False) (fun _ => False) X Gr SkipK w w1 :=
      fun {c u dst w1} ent => ent.still.gfr (evs := []) (by rw [ent.trace]; simp) hb hi
    cases hs with
    | noClass _ hw' => subst hw'; exact .of_all (evs := []) (by simp) (fun _ _ h => by cases h)
    | noKey _ _ hw' => subst hw'; exact .of_all (evs := []) (by simp) (fun _ _ h => by cases h)
    | natFail ent h1 h2 h3 hk =>
      have f1 := enter ent
      obtain ⟨_, _, dk, _⟩ := kids hk hgc f1.inv (Nat.le_trans hb f1.next_le) (ent.par_kids env hi hb) hgD.1
        ((hF.mono hgT).move hi f1 (fun _ _ _ _ _ h => h)) (hfin.right (.of_eq ent.trace))
      exact .prepend (evs := []) (by rw [ent.trace]; simp) (fun _ _ h => by cases h) dk
    | @natural c u dst w1 w2 bb _ ent h1 h2 hact hk hbody =>
      have f1 := enter ent
      have hek : ElemKey S.dst e (e.type, u) := ⟨c, u, ent.cls, ent.uid, rfl⟩
      obtain ⟨hat, hdd, hd0⟩ := ent.facts (b := b) env.valid hi hb
      have hw1 := ent.still.grows.refs hw
      have gk := kidsRun_grows (S := S) n hk hw1
      have x1 : TrExt w1 w2 := kidsRun_ext (S := S) n (syncElem_ext (S := S) n) hk hw1
      have x2 : TrExt w2 w' := body_ext (S := S) n hbody (gk.refs hw1) (fun r hr => Nat.lt_of_lt_of_le (hdd r hr).1 gk.next_le)
      obtain ⟨_, fk, dk, ck⟩ := kids hk hgc f1.inv (Nat.le_trans hb f1.next_le) (ent.par_kids env hi hb) hgD.1
        ((hF.mono hgT).move hi f1 (fun _ _ _ _ _ h => h)) ((hfin.left x2).right (.of_eq ent.trace))
      have at2 : GAtBody S Gr SkipK X Fin b e parent dst c u false true w2 := by
        refine ⟨env, ent.cls, ent.uid, fk.inv, Nat.le_trans (Nat.le_trans hb f1.next_le) fk.next_le, fk.par (f1.par (hpar _ hek)),
          (kidsRun_del_sact n env.del hact hk hw1 (ent.sact.trans hact)).trans hact.symm, ?_, .inr ⟨hact, rfl, rfl⟩⟩
        intro r hr
        obtain ⟨d1, d2, d3, _, d4⟩ := hdd r hr
        obtain ⟨i1, _, i3⟩ := fk.ident r d1
        exact ⟨Nat.lt_of_lt_of_le d1 fk.next_le, i3.trans d2, i1.trans d3, d4⟩
      have hF2 : AsBefore S.dst D0 w2 [e] := by
        intro x hx' hxu
        cases hx' with
        | here h => rw [List.mem_singleton.1 h, hact] at hxu; cases hxu
        | under h h' =>
          rw [List.mem_singleton.1 h] at h'
          rw [env.del e (inTree_self e) hact x h'] at hxu; cases hxu
      obtain ⟨d3, f3⟩ := body at2 hF2 hbody (hfin.right ((TrExt.of_eq ent.trace).trans x1))
      have f3 := f3 rfl rfl hact
      obtain ⟨evs1, t1⟩ := x1
      refine .prepend (evs := evs1) (by rw [t1, ent.trace]) ((dk.all (fun x h => by cases h) t1).move fk.inv f3 ?_) d3
      intro c' out hc'
      obtain ⟨x, kx, g1, g2, g3⟩ := ck evs1 t1 c' out hc'
      obtain ⟨cl, hcl⟩ := g2.cls
      exact ⟨kx, cl, g3, hcl, fun a h => by subst h; exact hgD.2 _ hek x g1 g2⟩
    | @plain c u dst w1 _ ent _ hbody =>
      obtain ⟨hat, hdd, hd0⟩ := ent.facts (b := b) env.valid hi hb
      have f1 := enter ent
      have at1 : GAtBody S Gr SkipK X Fin b e parent dst c u (skipOf dst w1) (natOf dst w1) w1 := by
        refine ⟨env, ent.cls, ent.uid, f1.inv, Nat.le_trans hb f1.next_le, f1.par (hpar _ ⟨c, u, ent.cls, ent.uid, rfl⟩), ent.sact,
          fun r hr => ⟨(hdd r hr).1, (hdd r hr).2.1, (hdd r hr).2.2.1, (hdd r hr).2.2.2.2⟩, .inl ⟨hat, ent.scls, ?_⟩⟩
        intro hsk _
        cases hdst : dst with
        | none => rw [hdst] at hsk; cases hsk
        | some r => rw [hdst] at hsk; exact (hdd r hdst).2.2.2.1 hsk
      obtain ⟨d3, _⟩ := body at1 (hF.move hi f1 (fun _ _ _ _ _ h => h)) hbody (hfin.right (.of_eq ent.trace))
      exact .prepend (evs := []) (by rw [ent.trace]; simp) (fun _ _ h => by cases h) d3
end

end DS
