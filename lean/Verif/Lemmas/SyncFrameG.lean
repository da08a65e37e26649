import Verif.Lemmas.SyncFrameR
import Verif.Lemmas.StoreOps
/-! What a sync can change, for either kind of store. -/
set_option linter.unusedSectionVars false

namespace DS
variable {V E : Type} [PyVal V]

/-- What holds of the destination store all along a sync. -/
def GInv (A : Adapter V) (Gr : Key → Key → Prop) (SkipK : Key → Prop) (w : World V E) : Prop :=
  match A.ref.store with
  | .local sid => SInv A sid Gr SkipK w
  | .redis sid => RInv A sid Gr SkipK w

/-- A part of a sync with its events: frame and invariant. -/
def GFr (A : Adapter V) (b : Ref) (K : Option Action → Key → Prop) (P : Ref → Prop) (X : Key → Prop) (Gr : Key → Key → Prop) (SkipK : Key → Prop)
    (w w' : World V E) : Prop :=
  match A.ref.store with
  | .local sid => Fr A sid b K P X Gr SkipK w w'
  | .redis sid => RFr A sid b K X Gr SkipK w w'

/-- The object passed as parent may list `k`; if it comes from a Redis store, it is a copy made during the sync. -/
def GPar (A : Adapter V) (b : Ref) (Gr : Key → Key → Prop) (parent : Option Ref) (k : Key) (w : World V E) : Prop :=
  ParOK A Gr parent k w ∧ ∀ sid, A.ref.store = .redis sid → ∀ p, parent = some p → b ≤ p

/-- An object of the local store with one of the keys concerned. -/
def GOwned (A : Adapter V) (K : Option Action → Key → Prop) (w : World V E) (r : Ref) : Prop :=
  ∃ sid t u a, A.ref.store = .local sid ∧ findRef w sid t u = some r ∧ a ≠ some Action.create ∧ K a (t, u)

/-- `dst` is the object stored under `k`, or a copy of it. -/
def AtKey (A : Adapter V) (dst : Option Ref) (k : Key) (w : World V E) : Prop :=
  match A.ref.store with
  | .local sid => dst = findRef w sid k.1 k.2
  | .redis sid => (Dict.get? w.redis (redisKey sid k.1 k.2) = none ∧ dst = none) ∨
      ∃ o r, Dict.get? w.redis (redisKey sid k.1 k.2) = some o ∧ dst = some r ∧ (w.heap r).m = o.m

section
variable {A : Adapter V} {b : Ref} {K : Option Action → Key → Prop} {P : Ref → Prop} {X : Key → Prop} {Gr : Key → Key → Prop} {SkipK : Key → Prop}

theorem GInv.local {sid : Nat} (hA : A.ref.store = .local sid) {w : World V E} : GInv A Gr SkipK w ↔ SInv A sid Gr SkipK w := by unfold GInv; rw [hA]
theorem GInv.redis {sid : String} (hA : A.ref.store = .redis sid) {w : World V E} : GInv A Gr SkipK w ↔ RInv A sid Gr SkipK w := by unfold GInv; rw [hA]
theorem GFr.local {sid : Nat} (hA : A.ref.store = .local sid) {w w' : World V E} : GFr A b K P X Gr SkipK w w' ↔ Fr A sid b K P X Gr SkipK w w' := by unfold GFr; rw [hA]
theorem GFr.redis {sid : String} (hA : A.ref.store = .redis sid) {w w' : World V E} : GFr A b K P X Gr SkipK w w' ↔ RFr A sid b K X Gr SkipK w w' := by unfold GFr; rw [hA]
theorem AtKey.local {sid : Nat} (hA : A.ref.store = .local sid) {dst : Option Ref} {k : Key} {w : World V E} : AtKey A dst k w ↔ dst = findRef w sid k.1 k.2 := by
  unfold AtKey; rw [hA]
theorem AtKey.redis {sid : String} (hA : A.ref.store = .redis sid) {dst : Option Ref} {k : Key} {w : World V E} :
    AtKey A dst k w ↔ (Dict.get? w.redis (redisKey sid k.1 k.2) = none ∧ dst = none) ∨
      ∃ o r, Dict.get? w.redis (redisKey sid k.1 k.2) = some o ∧ dst = some r ∧ (w.heap r).m = o.m := by unfold AtKey; rw [hA]

theorem GInv.refs {w : World V E} (h : GInv A Gr SkipK w) : RefsLt w := by
  cases hA : A.ref.store with
  | «local» sid => exact ((GInv.local hA).1 h).ok.refs_lt
  | redis sid => exact ((GInv.redis hA).1 h).refs

theorem Still.ginv {w w' : World V E} (h : Still w w') (hi : GInv A Gr SkipK w) : GInv A Gr SkipK w' := by
  cases hA : A.ref.store with
  | «local» sid => exact (GInv.local hA).2 (h.sinv ((GInv.local hA).1 hi))
  | redis sid => exact (GInv.redis hA).2 (h.rinv ((GInv.redis hA).1 hi))

theorem Still.gfr {w w' : World V E} {evs : List (Event V)} (h : Still w w') (ht : w'.trace = w.trace ++ evs) (hb : b ≤ w.next)
    (hi : GInv A Gr SkipK w) : GFr A b K P X Gr SkipK w w' := by
  cases hA : A.ref.store with
  | «local» sid => exact (GFr.local hA).2 (h.fr ht hb ((GInv.local hA).1 hi))
  | redis sid => exact (GFr.redis hA).2 (h.rfr ht hb ((GInv.redis hA).1 hi))

theorem GFr.refl {w : World V E} (hb : b ≤ w.next) (hi : GInv A Gr SkipK w) : GFr A b K P X Gr SkipK w w :=
  (Still.refl w).gfr (evs := []) (by simp) hb hi

theorem GFr.trans' {P' : Ref → Prop} {w w1 w2 : World V E} (h1 : GFr A b K P X Gr SkipK w w1) (h2 : GFr A b K P' X Gr SkipK w1 w2)
    (hb : b ≤ w.next) (hP : ∀ r, r < b → P' r → P r ∨ GOwned A K w r) : GFr A b K P X Gr SkipK w w2 := by
  cases hA : A.ref.store with
  | «local» sid =>
    refine (GFr.local hA).2 (((GFr.local hA).1 h1).trans' ((GFr.local hA).1 h2) hb ?_)
    intro r hr hp
    rcases hP r hr hp with h | ⟨sid', t, u, a, h, h'⟩
    · exact .inl h
    · rw [hA] at h; cases h; exact .inr ⟨t, u, a, h'⟩
  | redis sid => exact (GFr.redis hA).2 (((GFr.redis hA).1 h1).trans ((GFr.redis hA).1 h2))

theorem GFr.trans {w w1 w2 : World V E} (h1 : GFr A b K P X Gr SkipK w w1) (h2 : GFr A b K P X Gr SkipK w1 w2)
    (hb : b ≤ w.next) : GFr A b K P X Gr SkipK w w2 := h1.trans' h2 hb (fun _ _ h => .inl h)

theorem GFr.mono {K' : Option Action → Key → Prop} {P' : Ref → Prop} {w w' : World V E} (h : GFr A b K P X Gr SkipK w w')
    (hK : ∀ a k, K a k → K' a k) (hP : ∀ r, P r → P' r) : GFr A b K' P' X Gr SkipK w w' := by
  cases hA : A.ref.store with
  | «local» sid => exact (GFr.local hA).2 (((GFr.local hA).1 h).mono hK hP)
  | redis sid =>
    obtain ⟨evs, t, f, i⟩ := (GFr.redis hA).1 h
    exact (GFr.redis hA).2 ⟨evs, t, f.mono hK (fun _ h => h), i⟩

theorem GFr.next_le {w w' : World V E} (h : GFr A b K P X Gr SkipK w w') : w.next ≤ w'.next := by
  cases hA : A.ref.store with
  | «local» sid => exact ((GFr.local hA).1 h).next_le
  | redis sid => obtain ⟨_, _, f, _⟩ := (GFr.redis hA).1 h; exact f.next_le

theorem GFr.inv {w w' : World V E} (h : GFr A b K P X Gr SkipK w w') : GInv A Gr SkipK w' := by
  cases hA : A.ref.store with
  | «local» sid => exact (GInv.local hA).2 ((GFr.local hA).1 h).sinv
  | redis sid => obtain ⟨_, _, _, i⟩ := (GFr.redis hA).1 h; exact (GInv.redis hA).2 i

theorem GFr.ident {w w' : World V E} (h : GFr A b K P X Gr SkipK w w') (r : Ref) (hr : r < w.next) :
    (w'.heap r).m.cls = (w.heap r).m.cls ∧ (w'.heap r).m.flags = (w.heap r).m.flags ∧ (w'.heap r).m.key = (w.heap r).m.key := by
  cases hA : A.ref.store with
  | «local» sid => obtain ⟨_, _, f, _⟩ := (GFr.local hA).1 h; exact f.ident r hr
  | redis sid => obtain ⟨_, _, f, _⟩ := (GFr.redis hA).1 h; exact f.ident r hr

theorem GFr.par {parent : Option Ref} {k : Key} {w w' : World V E} (f : GFr A b K P X Gr SkipK w w') (h : GPar A b Gr parent k w) :
    GPar A b Gr parent k w' := by
  refine ⟨fun p hp => ?_, h.2⟩
  obtain ⟨h1, h2, h3⟩ := h.1 p hp
  obtain ⟨i1, _, i3⟩ := f.ident p h1
  have ht : (w'.heap p).m.type = (w.heap p).m.type := congrArg Prod.fst i3
  exact ⟨Nat.lt_of_lt_of_le h1 f.next_le, by rw [ht, i1]; exact h2, by rw [i3]; exact h3⟩

theorem kidsRun_gfr {Kk : Elem V → World V E → World V E → Except Err Bool → Prop} {l : List (Elem V)} {Q : Elem V → World V E → Prop}
    (hK : ∀ e ∈ l, ∀ w w' res, Kk e w w' res → GInv A Gr SkipK w → b ≤ w.next → Q e w → GFr A b K P X Gr SkipK w w')
    (hQ : ∀ e ∈ l, ∀ w w', GFr A b K P X Gr SkipK w w' → Q e w → Q e w') {acc : Bool} {w w' : World V E} {res : Except Err Bool}
    (h : KidsRun Kk l acc w w' res) (hi : GInv A Gr SkipK w) (hb : b ≤ w.next) (hq : ∀ e ∈ l, Q e w) : GFr A b K P X Gr SkipK w w' := by
  induction h with
  | nil => exact GFr.refl hb hi
  | @err e l acc w w' x h => exact hK e (by simp) _ _ _ h hi hb (hq e (by simp))
  | @cons e l acc w w1 w' bb res h hr ih =>
    have f1 := hK e (by simp) _ _ _ h hi hb (hq e (by simp))
    have f2 := ih (fun e' he' => hK e' (by simp [he'])) (fun e' he' => hQ e' (by simp [he'])) f1.inv (Nat.le_trans hb f1.next_le)
      (fun e' he' => hQ e' (by simp [he']) _ _ f1 (hq e' (by simp [he'])))
    exact f1.trans f2 hb

/-- What a part of a sync may have changed. -/
def GFrame (A : Adapter V) (b : Ref) (K : Option Action → Key → Prop) (P : Ref → Prop) (X : Key → Prop) (Ev : Event V → Prop)
    (w w' : World V E) : Prop :=
  match A.ref.store with
  | .local sid => SFrame A sid b K P X Ev w w'
  | .redis sid => RFrame A sid b K X Ev w w'

theorem GFrame.local {sid : Nat} (hA : A.ref.store = .local sid) {Ev : Event V → Prop} {w w' : World V E} : GFrame A b K P X Ev w w' ↔ SFrame A sid b K P X Ev w w' := by
  unfold GFrame; rw [hA]
theorem GFrame.redis {sid : String} (hA : A.ref.store = .redis sid) {Ev : Event V → Prop} {w w' : World V E} : GFrame A b K P X Ev w w' ↔ RFrame A sid b K X Ev w w' := by
  unfold GFrame; rw [hA]

theorem GFr.frame {w w' : World V E} (h : GFr A b K P X Gr SkipK w w') : ∃ evs, w'.trace = w.trace ++ evs ∧ GFrame A b K P X (· ∈ evs) w w' := by
  cases hA : A.ref.store with
  | «local» sid => obtain ⟨evs, t, f, _⟩ := (GFr.local hA).1 h; exact ⟨evs, t, (GFrame.local hA).2 f⟩
  | redis sid => obtain ⟨evs, t, f, _⟩ := (GFr.redis hA).1 h; exact ⟨evs, t, (GFrame.redis hA).2 f⟩

theorem GFrame.trans {Ev : Event V → Prop} {w w1 w2 : World V E} (h1 : GFrame A b K P X Ev w w1) (h2 : GFrame A b K P X Ev w1 w2) (hb : b ≤ w.next) :
    GFrame A b K P X Ev w w2 := by
  cases hA : A.ref.store with
  | «local» sid => exact (GFrame.local hA).2 (((GFrame.local hA).1 h1).trans ((GFrame.local hA).1 h2) hb)
  | redis sid => exact (GFrame.redis hA).2 (((GFrame.redis hA).1 h1).trans ((GFrame.redis hA).1 h2))

theorem GFrame.mono {K' : Option Action → Key → Prop} {Ev : Event V → Prop} {w w' : World V E} (h : GFrame A b K P X Ev w w')
    (hK : ∀ a k, K a k → K' a k) : GFrame A b K' P X Ev w w' := by
  cases hA : A.ref.store with
  | «local» sid => exact (GFrame.local hA).2 (((GFrame.local hA).1 h).mono hK (fun _ h => h) (fun _ h => h))
  | redis sid => exact (GFrame.redis hA).2 (((GFrame.redis hA).1 h).mono hK (fun _ h => h))

theorem GFrame.next_le {Ev : Event V → Prop} {w w' : World V E} (h : GFrame A b K P X Ev w w') : w.next ≤ w'.next := by
  cases hA : A.ref.store with
  | «local» sid => exact ((GFrame.local hA).1 h).next_le
  | redis sid => exact ((GFrame.redis hA).1 h).next_le

theorem Still.gframe {Ev : Event V → Prop} {w w' : World V E} (h : Still w w') (hb : b ≤ w.next) : GFrame A b K P X Ev w w' := by
  cases hA : A.ref.store with
  | «local» sid => exact (GFrame.local hA).2 (h.sframe hb)
  | redis sid => exact (GFrame.redis hA).2 (h.rframe hb)

/-- What happened to the contents of a store, in terms of the keys concerned and the events. -/
structure Effects (A : Adapter V) (K : Option Action → Key → Prop) (X : Key → Prop) (Ev : Event V → Prop) (D D' : Snap V) : Prop where
  added : ∀ t u, D.find t u = none → D'.find t u ≠ none → K (some .create) (t, u) ∧
    ∃ ids attrs out, Ev (.call (.create t ids attrs) out) ∧ out.result = .object ∧ CallKey A (.create t ids attrs) (t, u)
  removed : ∀ t u, D.find t u ≠ none → D'.find t u = none →
    (K (some .delete) (t, u) ∧ ∃ out, Ev (.call (.delete t u) out) ∧ out.result = .object) ∨ X (t, u)
  kept : ∀ t u m m', D.find t u = some m → D'.find t u = some m' → m' = m ∨ (∃ a, a ≠ some .create ∧ K a (t, u)) ∨ X (t, u)
  vals : ∀ t u m m', D.find t u = some m → D'.find t u = some m' → m'.vals = m.vals ∨
    (∃ ids attrs out, Ev (.call (.create t ids attrs) out) ∧ out.result = .object ∧ CallKey A (.create t ids attrs) (t, u)) ∨
    ∃ attrs out, Ev (.call (.update t u attrs) out) ∧ out.applied = true

theorem SFrame.effects {sid : Nat} (hA : A.ref.store = .local sid) {Ev : Event V → Prop} {w w' : World V E} (hw : w.OK) (hb : b = w.next)
    (f : SFrame A sid b K (fun _ => False) X Ev w w') : Effects A K X Ev (snap A w) (snap A w') := by
  have hf : ∀ (w : World V E) t u, (snap A w).find t u = (findRef w sid t u).map (fun r => (w.heap r).m) := fun w t u => by unfold snap; rw [hA]
  subst hb
  constructor
  · intro t u h1 h2
    rw [hf, Option.map_eq_none_iff] at h1
    rw [hf] at h2
    cases h3 : findRef w' sid t u with
    | none => rw [h3] at h2; exact absurd rfl h2
    | some r =>
      rcases f.come t u r h3 with h4 | ⟨_, h4⟩
      · rw [h1] at h4; cases h4
      · exact h4
  · intro t u h1 h2
    rw [hf, Option.map_eq_none_iff] at h2
    rw [hf] at h1
    cases h3 : findRef w sid t u with
    | none => rw [h3] at h1; exact absurd rfl h1
    | some r =>
      rcases f.gone t u r h3 with h4 | h4
      · rw [h2] at h4; cases h4
      · exact h4
  · intro t u m m' h1 h2
    rw [hf] at h1 h2
    obtain ⟨r, h3, rfl⟩ := Option.map_eq_some_iff.1 h1
    obtain ⟨r', h3', rfl⟩ := Option.map_eq_some_iff.1 h2
    rcases f.gone t u r h3 with h4 | ⟨h4, _⟩ | h4
    · rw [h3'] at h4; cases h4
      by_cases hk : ∃ a, a ≠ some .create ∧ K a (t, u)
      · exact .inr (.inl hk)
      · refine .inl (f.same r (hw.refs_lt _ _ _ _ h3) (fun h => h) (fun t' u' h5 a ha hK => hk ⟨a, ha, ?_⟩))
        obtain ⟨e1, e2⟩ := hw.key_ok _ _ _ _ h3
        obtain ⟨e3, e4⟩ := hw.key_ok _ _ _ _ h5
        rw [← e1, ← e2, e3, e4]; exact hK
    · exact .inr (.inl ⟨_, by simp, h4⟩)
    · exact .inr (.inr h4)
  · intro t u m m' h1 h2
    rw [hf] at h1 h2
    obtain ⟨r, h3, rfl⟩ := Option.map_eq_some_iff.1 h1
    obtain ⟨r', h3', rfl⟩ := Option.map_eq_some_iff.1 h2
    rcases f.come t u r' h3' with h4 | ⟨_, _, h4⟩
    · rw [h3] at h4; cases h4
      rcases f.upd r (hw.refs_lt _ _ _ _ h3) with h5 | ⟨_, attrs, out, h5⟩
      · exact .inl h5
      · obtain ⟨e1, e2⟩ := hw.key_ok _ _ _ _ h3
        rw [e1, e2] at h5
        exact .inr (.inr ⟨attrs, out, h5⟩)
    · exact .inr (.inl h4)

theorem RFrame.effects {sid : String} (hA : A.ref.store = .redis sid) {Ev : Event V → Prop} {w w' : World V E}
    (f : RFrame A sid b K X Ev w w') : Effects A K X Ev (snap A w) (snap A w') := by
  have hf : ∀ (w : World V E) t u, (snap A w).find t u = if Plain t then (Dict.get? w.redis (redisKey sid t u)).map Obj.m else none :=
    fun w t u => by unfold snap; rw [hA]
  constructor
  · intro t u h1 h2
    rw [hf] at h1 h2
    by_cases hp : Plain t
    · rw [if_pos hp] at h1 h2
      rw [Option.map_eq_none_iff] at h1
      cases h3 : Dict.get? w'.redis (redisKey sid t u) with
      | none => rw [h3] at h2; exact absurd rfl h2
      | some o =>
        rcases f.come t u o hp h3 with h4 | h4
        · rw [h1] at h4; cases h4
        · exact h4
    · rw [if_neg hp] at h2; exact absurd rfl h2
  · intro t u h1 h2
    rw [hf] at h1 h2
    by_cases hp : Plain t
    · rw [if_pos hp] at h1 h2
      rw [Option.map_eq_none_iff] at h2
      cases h3 : Dict.get? w.redis (redisKey sid t u) with
      | none => rw [h3] at h1; exact absurd rfl h1
      | some o =>
        rcases f.gone t u o hp h3 with h4 | h4
        · rw [h2] at h4; cases h4
        · exact h4
    · rw [if_neg hp] at h1; exact absurd rfl h1
  · intro t u m m' h1 h2
    rw [hf] at h1 h2
    by_cases hp : Plain t
    · rw [if_pos hp] at h1 h2
      obtain ⟨o, h3, rfl⟩ := Option.map_eq_some_iff.1 h1
      obtain ⟨o', h3', rfl⟩ := Option.map_eq_some_iff.1 h2
      rcases f.gone t u o hp h3 with h4 | ⟨h4, _⟩ | h4
      · rw [h3'] at h4; cases h4; exact .inl rfl
      · exact .inr (.inl ⟨_, by simp, h4⟩)
      · exact .inr (.inr h4)
    · rw [if_neg hp] at h1; cases h1
  · intro t u m m' h1 h2
    rw [hf] at h1 h2
    by_cases hp : Plain t
    · rw [if_pos hp] at h1 h2
      obtain ⟨o, h3, rfl⟩ := Option.map_eq_some_iff.1 h1
      obtain ⟨o', h3', rfl⟩ := Option.map_eq_some_iff.1 h2
      rcases f.come t u o' hp h3' with h4 | ⟨_, h4⟩
      · rw [h3] at h4; cases h4; exact .inl rfl
      · exact .inr (.inl h4)
    · rw [if_neg hp] at h1; cases h1

theorem filterMap_congr_in {α β : Type} {f g : α → Option β} {l : List α} (h : ∀ a ∈ l, f a = g a) : l.filterMap f = l.filterMap g := by
  induction l with
  | nil => rfl
  | cons a l ih => simp only [List.filterMap_cons, h a (by simp), ih (fun b hb => h b (List.mem_cons_of_mem _ hb))]

/-- Another store in the same Redis is as before. -/
theorem RFrame.other {sid s : String} {A' : Adapter V} (hs : A'.ref.store = .redis s) (hp : Plain s) (hp' : Plain sid) (hne : s ≠ sid) {Ev : Event V → Prop} {w w' : World V E}
    (f : RFrame A sid b K X Ev w w') : snap A' w' = snap A' w := by
  have hk : ∀ t u, Plain t → Dict.get? w'.redis (redisKey s t u) = Dict.get? w.redis (redisKey s t u) := fun t u ht =>
    f.others _ (fun t' u' ht' he => hne (redisKey_inj hp hp' ht ht' he).1)
  unfold snap
  simp only [hs]
  congr 1
  · funext t
    by_cases ht : Plain t
    · simp only [if_pos ht]
      have hpre : ∀ t' u', Plain t' → globMatch (storeLabel s ++ (":" ++ (t ++ ":")) ++ "*") (redisKey sid t' u') = false := by
        intro t' u' ht'
        refine Bool.eq_false_iff.2 fun h => ?_
        rw [globType_eq hp ht, prefixType_iff hp hp' ht ht'] at h
        exact hne h.1
      have ho := f.order _ hpre
      unfold scanKeys
      rw [ho]
      refine filterMap_congr_in fun k hk' => ?_
      rw [f.others k]
      intro t' u' ht' he
      have := (List.mem_filter.1 hk').2
      rw [he, hpre t' u' ht'] at this; cases this
    · simp only [if_neg ht]
  · funext t u
    by_cases ht : Plain t
    · simp only [if_pos ht, hk t u ht]
    · simp only [if_neg ht]

theorem GFrame.effects {Ev : Event V → Prop} {w w' : World V E} (hw : w.OK) (f : GFrame A w.next K (fun _ => False) X Ev w w') :
    Effects A K X Ev (snap A w) (snap A w') := by
  cases hA : A.ref.store with
  | «local» sid => exact ((GFrame.local hA).1 f).effects hA hw rfl
  | redis sid => exact ((GFrame.redis hA).1 f).effects hA

/-- What is stored under a key after a part of a sync was there before, up to its values, or has been created. -/
theorem GFr.come {w w' : World V E} (hi : GInv A Gr SkipK w) (h : GFr A b K P X Gr SkipK w w') {k : Key} {c : ModelClass V}
    (hc : Dict.get? A.classes k.1 = some c) {m' : Model V} (hm : (snap A w').find k.1 k.2 = some m') :
    (∃ m, (snap A w).find k.1 k.2 = some m ∧ m'.flags = m.flags) ∨ K (some .create) k := by
  unfold snap at hm ⊢
  cases hA : A.ref.store with
  | «local» sid =>
    rw [hA] at hm
    obtain ⟨r, h1, rfl⟩ := Option.map_eq_some_iff.1 hm
    obtain ⟨_, _, f, _⟩ := (GFr.local hA).1 h
    rcases f.come _ _ _ h1 with h2 | ⟨_, h2, _⟩
    · exact .inl ⟨_, by simp [h2], (f.ident r (hi.refs _ _ _ _ h2)).2.1⟩
    · exact .inr h2
  | redis sid =>
    rw [hA] at hm
    have hp := ((GInv.redis hA).1 hi).names _ _ hc
    dsimp only at hm ⊢
    rw [if_pos hp] at hm ⊢
    obtain ⟨o, h1, rfl⟩ := Option.map_eq_some_iff.1 hm
    obtain ⟨_, _, f, _⟩ := (GFr.redis hA).1 h
    rcases f.come _ _ _ hp h1 with h2 | ⟨h2, _⟩
    · exact .inl ⟨o.m, by rw [h2]; rfl, rfl⟩
    · exact .inr h2

/-- What is no longer stored has been deleted, by itself or along with others. -/
theorem GFr.gone {w w' : World V E} (hi : GInv A Gr SkipK w) (h : GFr A b K P X Gr SkipK w w') {k : Key} {c : ModelClass V}
    (hc : Dict.get? A.classes k.1 = some c) (hn : (snap A w').find k.1 k.2 = none) :
    (snap A w).find k.1 k.2 = none ∨ K (some .delete) k ∨ X k := by
  unfold snap at hn ⊢
  cases hA : A.ref.store with
  | «local» sid =>
    rw [hA] at hn
    rw [Option.map_eq_none_iff] at hn
    obtain ⟨_, _, f, _⟩ := (GFr.local hA).1 h
    cases hf : findRef w sid k.1 k.2 with
    | none => left; simp [hf]
    | some r =>
      rcases f.gone _ _ _ hf with h2 | ⟨h2, _⟩ | h2
      · rw [hn] at h2; cases h2
      · exact .inr (.inl h2)
      · exact .inr (.inr h2)
  | redis sid =>
    rw [hA] at hn
    have hp := ((GInv.redis hA).1 hi).names _ _ hc
    dsimp only at hn ⊢
    rw [if_pos hp] at hn ⊢
    rw [Option.map_eq_none_iff] at hn
    obtain ⟨_, _, f, _⟩ := (GFr.redis hA).1 h
    cases hf : Dict.get? w.redis (redisKey sid k.1 k.2) with
    | none => left; rfl
    | some o =>
      rcases f.gone _ _ _ hp hf with h2 | ⟨h2, _⟩ | h2
      · rw [hn] at h2; cases h2
      · exact .inr (.inl h2)
      · exact .inr (.inr h2)

/-- The object looked up is the one stored. -/
theorem AtKey.find {dst : Option Ref} {k : Key} {w : World V E} (h : AtKey A dst k w) (hi : GInv A Gr SkipK w) {c : ModelClass V}
    (hc : Dict.get? A.classes k.1 = some c) : dst.map (fun r => (w.heap r).m) = (snap A w).find k.1 k.2 := by
  unfold snap
  cases hA : A.ref.store with
  | «local» sid => rw [(AtKey.local hA).1 h]
  | redis sid =>
    have hp := ((GInv.redis hA).1 hi).names _ _ hc
    dsimp only
    rw [if_pos hp]
    rcases (AtKey.redis hA).1 h with ⟨h1, h2⟩ | ⟨o, r, h1, h2, h3⟩
    · rw [h1, h2]; rfl
    · rw [h1, h2]; exact congrArg some h3

/-- Stored objects have the key they are stored under, and the class of their type. -/
theorem GInv.found {w : World V E} (hi : GInv A Gr SkipK w) {k : Key} {c : ModelClass V} (hc : Dict.get? A.classes k.1 = some c) {m : Model V}
    (h : (snap A w).find k.1 k.2 = some m) :
    m.key = k ∧ m.cls = c ∧ (flagOn m.flags MF.SKIP_CHILDREN_ON_DELETE = true → SkipK k) := by
  unfold snap at h
  cases hA : A.ref.store with
  | «local» sid =>
    rw [hA] at h
    obtain ⟨r, h1, rfl⟩ := Option.map_eq_some_iff.1 h
    have hi := (GInv.local hA).1 hi
    obtain ⟨k1, k2⟩ := hi.ok.key_ok _ _ _ _ h1
    exact ⟨Prod.ext k1 k2, hi.inst _ _ _ _ h1 hc, hi.skip _ _ _ h1⟩
  | redis sid =>
    rw [hA] at h
    have hi := (GInv.redis hA).1 hi
    have hp := hi.names _ _ hc
    dsimp only at h
    rw [if_pos hp] at h
    obtain ⟨o, h1, rfl⟩ := Option.map_eq_some_iff.1 h
    obtain ⟨k1, k2⟩ := hi.store.key_ok _ _ _ hp h1
    exact ⟨Prod.ext k1 k2, hi.inst _ _ _ _ hp h1 hc, hi.skip _ _ _ hp h1⟩
end

section
variable {S : SyncCtx V E} {X : Key → Prop} {Gr : Key → Key → Prop} {SkipK : Key → Prop} {Fin : Event V → Prop} {b : Ref}
  {K : Option Action → Key → Prop} {e : Elem V} {parent dst : Option Ref} {c : ModelClass V} {u : String} {sk nat : Bool} {w w1 : World V E}

/-- What is known when an element has been entered. -/
theorem GEntered.facts (ent : GEntered S e c u dst w w1) (hv : S.dst.Valid) (hi : GInv S.dst Gr SkipK w) (hb : b ≤ w.next) :
    AtKey S.dst dst (e.type, u) w1 ∧
    (∀ r, dst = some r → r < w1.next ∧ (w1.heap r).m.key = (e.type, u) ∧ (w1.heap r).m.cls = c ∧
      (flagOn (w1.heap r).m.flags MF.SKIP_CHILDREN_ON_DELETE = true → SkipK (e.type, u)) ∧ (∀ sid, S.dst.ref.store = .redis sid → b ≤ r)) ∧
    (∀ r, r < b → dst = some r → ∃ sid, S.dst.ref.store = .local sid ∧ findRef w sid e.type u = some r) := by
  have hname : c.name = e.type := hv.names _ _ ent.cls
  have i1 := ent.still.ginv hi
  have hd := ent.dst
  unfold DstAt at hd
  rw [hname] at hd
  have hat : AtKey S.dst dst (e.type, u) w1 := by
    cases hA : S.dst.ref.store with
    | «local» sid => rw [hA] at hd; refine (AtKey.local hA).2 ?_; rw [ent.still.tbl_eq.findRef]; exact hd
    | redis sid =>
      rw [hA] at hd
      refine (AtKey.redis hA).2 ?_
      rw [ent.still.redis_eq]
      rcases hd with h | ⟨o, r, h1, h2, _, _, h3⟩
      · exact .inl h
      · exact .inr ⟨o, r, h1, h2, h3⟩
  refine ⟨hat, ?_, ?_⟩
  · intro r hr
    have hf := hat.find i1 ent.cls
    rw [hr] at hf
    obtain ⟨f1, f2, f3⟩ := i1.found (k := (e.type, u)) ent.cls hf.symm
    refine ⟨ent.lt r hr, f1, f2, f3, fun sid hA => ?_⟩
    rw [hA] at hd
    rcases hd with ⟨_, h⟩ | ⟨o, r', _, h2, h3, _⟩
    · rw [hr] at h; cases h
    · rw [hr] at h2; cases h2; exact Nat.le_trans hb h3
  · intro r hrb hr
    cases hA : S.dst.ref.store with
    | «local» sid => rw [hA] at hd; exact ⟨sid, rfl, hd.symm.trans hr⟩
    | redis sid =>
      rw [hA] at hd
      rcases hd with ⟨_, h⟩ | ⟨o, r', _, h2, h3, _⟩
      · rw [hr] at h; cases h
      · rw [hr] at h2; cases h2; exact absurd hrb (Nat.not_lt.2 (Nat.le_trans hb h3))

/-- What is known of an element when its action is about to be performed: `dst` is the object stored under its key, or (after
its children have been deleted) the one that was. -/
structure GAtBody (S : SyncCtx V E) (Gr : Key → Key → Prop) (SkipK X : Key → Prop) (Fin : Event V → Prop) (b : Ref) (e : Elem V) (parent dst : Option Ref) (c : ModelClass V)
    (u : String) (sk nat : Bool) (w1 : World V E) : Prop where
  env : FrameEnv S.dst Gr SkipK X Fin [e]
  cls : Dict.get? S.dst.classes e.type = some c
  uid : c.createUniqueId e.keys = some u
  inv : GInv S.dst Gr SkipK w1
  le : b ≤ w1.next
  par : GPar S.dst b Gr parent (e.type, u) w1
  act : w1.sact = e.action
  found : ∀ r, dst = some r → r < w1.next ∧ (w1.heap r).m.key = (e.type, u) ∧ (w1.heap r).m.cls = c ∧ (∀ sid, S.dst.ref.store = .redis sid → b ≤ r)
  mode : (AtKey S.dst dst (e.type, u) w1 ∧ w1.scls = some c ∧ (sk = true → e.action = some .delete → SkipK (e.type, u))) ∨
    (e.action = some .delete ∧ sk = false ∧ nat = true)

theorem GAtBody.atLocal (at1 : GAtBody S Gr SkipK X Fin b e parent dst c u sk nat w1) {sid : Nat} (hA : S.dst.ref.store = .local sid) :
    AtBody S sid Gr SkipK X Fin b e parent dst c u sk nat w1 :=
  ⟨at1.env, at1.cls, at1.uid, (GInv.local hA).1 at1.inv, at1.le, at1.par.1, at1.act, fun r hr => ⟨(at1.found r hr).1, (at1.found r hr).2.1, (at1.found r hr).2.2.1⟩,
    at1.mode.imp (fun h => ⟨(AtKey.local hA).1 h.1, h.2⟩) id⟩

theorem GAtBody.own (at1 : GAtBody S Gr SkipK X Fin b e parent dst c u sk nat w1) (hK : K e.action (e.type, u))
    {w2 : World V E} {evs : List (Event V)} {res' : Except Err (Bool × Option Ref)} (o : Own S (w1.scls.getD c) e.keys (e.plus.getD []) w1 w2 w1.sact dst evs res')
    (ht : w2.trace = w1.trace ++ evs) : GFr S.dst b K (fun p => parent = some p) X Gr SkipK w1 w2 := by
  cases hA : S.dst.ref.store with
  | «local» sid => exact (GFr.local hA).2 ((at1.atLocal hA).own hA hK o ht)
  | redis sid =>
    obtain ⟨env, hc, hu, hi1, hb1, hpar1, hact, hdst, hmode⟩ := at1
    refine (GFr.redis hA).2 (o.rfr ht hb1 ((GInv.redis hA).1 hi1) (fun r hr => (hdst r hr).2.2.2 sid hA) ?_)
    intro ha r hr x hx hid
    rw [(hdst r hr).2.2.1] at hid
    exact (env.valid.valid _ _ hc).ids_attrs x hid (env.plain e (inTree_self e) (hact.symm.trans ha) c hc x hx)

theorem GAtBody.store (at1 : GAtBody S Gr SkipK X Fin b e parent dst c u sk nat w1) (hK : K e.action (e.type, u))
    {w2 : World V E} {evs : List (Event V)} {ch : Bool} {r : Ref} (o : Own S (w1.scls.getD c) e.keys (e.plus.getD []) w1 w2 w1.sact dst evs (.ok (ch, some r)))
    (ht : w2.trace = w1.trace ++ evs) (hfin : ∀ ev ∈ evs, Fin ev) :
    GFr S.dst b K (fun p => parent = some p) X Gr SkipK w1 (applyStore S w1.sact parent r sk w2).2 ∧
    r < (applyStore S w1.sact parent r sk w2).2.next ∧ ((applyStore S w1.sact parent r sk w2).2.heap r).m.key = (e.type, u) ∧
    ((applyStore S w1.sact parent r sk w2).2.heap r).m.cls = c ∧ ((dst = some r ∧ e.action ≠ some .create) ∨ b ≤ r) ∧
    (∀ sid, S.dst.ref.store = .redis sid → b ≤ r) := by
  cases hA : S.dst.ref.store with
  | «local» sid =>
    obtain ⟨h1, h2, h3, h4, h5⟩ := (at1.atLocal hA).store hA hK o ht hfin
    exact ⟨(GFr.local hA).2 h1, h2, h3, h4, h5, fun sid h => by cases h⟩
  | redis sid =>
    have fo := (GFr.redis hA).1 (at1.own hK o ht)
    obtain ⟨env, hc, hu, hi1, hb1, ⟨hpar1, hpar2⟩, hact, hdst, hmode⟩ := at1
    replace hi1 := (GInv.redis hA).1 hi1
    have hname : c.name = e.type := env.valid.names _ _ hc
    have hplain : Plain e.type := hi1.names _ _ hc
    have hek : ElemKey S.dst e (e.type, u) := ⟨c, u, hc, hu, rfl⟩
    have old : dst = some r → e.action ≠ some .create → ∀ w3, RFr S.dst sid b K X Gr SkipK w1 w3 →
        GFr S.dst b K (fun p => parent = some p) X Gr SkipK w1 w3 ∧
        r < w3.next ∧ (w3.heap r).m.key = (e.type, u) ∧ (w3.heap r).m.cls = c ∧ ((dst = some r ∧ e.action ≠ some .create) ∨ b ≤ r) ∧
        (∀ sid', StoreKind.redis sid = .redis sid' → b ≤ r) := by
      intro hd hna w3 f
      obtain ⟨d1, d2, d3, d4⟩ := hdst r hd
      refine ⟨(GFr.redis hA).2 f, ?_⟩
      obtain ⟨_, _, f', _⟩ := f
      obtain ⟨i1, _, i3⟩ := f'.ident r d1
      exact ⟨Nat.lt_of_lt_of_le d1 f'.next_le, i3.trans d2, i1.trans d3, .inl ⟨hd, hna⟩, fun sid' _ => d4 sid hA⟩
    rcases o.fate with ⟨ha, hd, _⟩ | ⟨ha, hd⟩ | ⟨ha, hd, out, m, hev, hob, hm, hst, hn1, hn2, hhm⟩ | ⟨ha, hd, hst, out, hev, hob⟩
    · have : applyStore S w1.sact parent r sk w2 = (.ok (), w2) := by rw [ha]; rfl
      rw [this]
      exact old hd (by rw [← hact, ha]; simp) w2 fo
    · have : applyStore S w1.sact parent r sk w2 = (.ok (), w2) := by rw [ha]; rfl
      rw [this]
      exact old hd (by rw [← hact, ha]; simp) w2 fo
    · rcases hmode with ⟨hdf, hscls, _⟩ | ⟨hdel, _⟩
      · rw [hscls, Option.getD_some] at hm hev
        rw [ha]
        obtain ⟨m1, m2, m3⟩ := construct_spec hm
        have hkey : (w2.heap r).m.key = (e.type, u) := by
          rw [hhm]; unfold Model.key Model.type
          rw [m1, hname, construct_uid (env.valid.valid _ _ hc) hm (env.ids e (inTree_self e) (hact.symm.trans ha) c hc) hu]
        have hbr : b ≤ r := Nat.le_trans hb1 hn1
        have hn : Dict.get? w2.redis (redisKey sid e.type u) = none := by
          rw [hst.redis_eq]
          rcases (AtKey.redis hA).1 hdf with h | ⟨_, _, _, h, _⟩
          · exact h.1
          · rw [hd] at h; cases h
        obtain ⟨evs', t', f', i'⟩ := fo
        have he : evs' = evs := List.append_cancel_left (t'.symm.trans ht)
        subst he
        obtain ⟨s1, s2, s3⟩ := applyStore_create_rfr hA (b := b) (K := K) (X := X) (Gr := Gr) (SkipK := SkipK) (k := (e.type, u))
          (parent := parent) (r := r) (skip := sk) (w1 := w2) (Ev := (· ∈ evs'))
          (fun p hp => ⟨hpar2 sid hA p hp, fun h => absurd (hpar1 p hp).1 (by rw [h]; exact Nat.not_lt.2 hn1)⟩) i' hplain hkey hn
          (Nat.le_trans hb1 f'.next_le) (by rw [← ha, hact]; exact hK) ⟨_, _, out, by rw [← hname]; exact hev, hob, c, u, hc, hu, rfl⟩
          (fun c' hc' => by rw [hhm, m1]; exact Option.some.inj (hc.symm.trans hc')) (by rw [hhm]; exact m3)
          (fun hf => env.dflt _ _ c hc (by rw [← m2, ← hhm]; exact hf))
        obtain ⟨i1, _, i3⟩ := s1.ident r hn2
        exact ⟨(GFr.redis hA).2 ⟨evs', by rw [s3, ht], f'.trans s1, s2⟩, Nat.lt_of_lt_of_le hn2 s1.next_le, i3.trans hkey, by rw [i1, hhm, m1], .inr hbr, fun _ _ => hbr⟩
      · rw [ha] at hact; rw [hdel] at hact; cases hact
    · rw [ha] at hact
      rw [ha]
      obtain ⟨d1, d2, d3, d4⟩ := hdst r hd
      have k1 : (w1.heap r).m.type = e.type := congrArg Prod.fst d2
      have k2 : (w1.heap r).m.uid = u := congrArg Prod.snd d2
      rw [k1, k2] at hev
      have hkey : (w2.heap r).m.key = (e.type, u) := by rw [hst.heap_m r d1]; exact d2
      obtain ⟨evs', t', f', i'⟩ := fo
      have he : evs' = evs := List.append_cancel_left (t'.symm.trans ht)
      subst he
      obtain ⟨s1, s2, ⟨evs2, s3, s3'⟩⟩ := applyStore_delete_rfr hA (b := b) (K := K) (X := X) (Gr := Gr) (SkipK := SkipK) (k := (e.type, u))
          (parent := parent) (r := r) (skip := sk) (w1 := w2) (Ev := (· ∈ evs'))
          (fun p hp => hpar2 sid hA p hp) i' hplain (Nat.lt_of_lt_of_le d1 hst.next_le) hkey (Nat.le_trans hb1 f'.next_le) (by rw [hact]; exact hK) ⟨out, hev, hob⟩ env.closed
          (fun hsk => by
            rcases hmode with ⟨hdf, _, hsk'⟩ | ⟨_, h, _⟩
            · refine ⟨env.root e (inTree_self e) hact.symm _ hek (hsk' hsk hact.symm) ⟨out, hfin _ hev, hob⟩, ?_⟩
              rcases (AtKey.redis hA).1 hdf with h | ⟨ob, r', h1, h2, h3⟩
              · rw [hd] at h; cases h.2
              · rw [hd] at h2; cases h2
                rw [hst.heap_m r d1, h3]
                exact fun x hx => ⟨hi1.store.kids_ok _ _ _ hplain h1 x hx, hi1.edges _ _ _ hplain h1 x hx⟩
            · rw [h] at hsk; cases hsk)
      exact old hd (by rw [← hact]; simp) _ ⟨evs' ++ evs2, by rw [s3, ht, List.append_assoc],
        (f'.trans s1).mono (fun _ _ h => h) (fun ev h => List.mem_append_left _ h), s2⟩

/-- The parent passed on to the children. -/
theorem GAtBody.par_kids (at1 : GAtBody S Gr SkipK X Fin b e parent dst c u sk nat w1) {w3 : World V E} {r : Ref} (hr : r < w3.next)
    (hrk : (w3.heap r).m.key = (e.type, u)) (hrc : (w3.heap r).m.cls = c) (hrb : ∀ sid, S.dst.ref.store = .redis sid → b ≤ r) :
    ∀ k ∈ e.kids, ∀ x, ElemKey S.dst k x → GPar S.dst b Gr (some r) x w3 := by
  intro k hkm x hx
  refine ⟨fun p hp => ?_, fun sid hA p hp => by cases hp; exact hrb sid hA⟩
  cases hp
  have hty : (w3.heap r).m.type = e.type := congrArg Prod.fst hrk
  refine ⟨hr, by rw [hty, hrc]; exact at1.cls, ?_⟩
  rw [hrk]; exact at1.env.edge e (inTree_self e) k hkm _ _ ⟨c, u, at1.cls, at1.uid, rfl⟩ hx

/-- The object of an entered element as parent of its children. -/
theorem GEntered.par_kids (ent : GEntered S e c u dst w w1) (env : FrameEnv S.dst Gr SkipK X Fin [e]) (hi : GInv S.dst Gr SkipK w) (hb : b ≤ w.next) :
    ∀ k ∈ e.kids, ∀ x, ElemKey S.dst k x → GPar S.dst b Gr dst x w1 := by
  intro k hkm x hx
  refine ⟨fun p hp => ?_, fun sid hA p hp => ((ent.facts (b := b) env.valid hi hb).2.1 p hp).2.2.2.2 sid hA⟩
  obtain ⟨d1, d2, d3, _⟩ := (ent.facts (b := b) env.valid hi hb).2.1 p hp
  have hty : (w1.heap p).m.type = e.type := congrArg Prod.fst d2
  exact ⟨d1, by rw [hty, d3]; exact ent.cls, by rw [d2]; exact env.edge e (inTree_self e) k hkm _ _ ⟨c, u, ent.cls, ent.uid, rfl⟩ hx⟩
end

section
variable {S : SyncCtx V E} {X : Key → Prop} {Gr : Key → Key → Prop} {SkipK : Key → Prop} {Fin : Event V → Prop} {b : Ref}

/-- After the elements below a deleted one, `self.action` is still "delete". -/
theorem kidsRun_del_sact (n : Nat) {e : Elem V} (hd : DelClosed [e]) (ha : e.action = some .delete) {q : Option Ref} {acc : Bool} {w1 w2 : World V E} {y : Bool}
    (hk : KidsRun (fun k w w' res => syncElem S n k q w = (res, w')) (getChildren S.dc e.kids) acc w1 w2 (.ok y)) (hw1 : RefsLt w1) (hs1 : w1.sact = some .delete) :
    w2.sact = some .delete := by
  have hmem : ∀ k ∈ getChildren S.dc e.kids, k ∈ e.kids := fun k hk => mem_of_getChildren hk
  generalize getChildren S.dc e.kids = l at hk hmem
  generalize hres : (Except.ok y : Except Err Bool) = res at hk
  induction hk with
  | nil => exact hs1
  | err _ => cases hres
  | @cons k l acc w1 w3 w4 b' res k1 k2 ih2 =>
    have hkk := hmem k (by simp)
    have g := syncElem_grows (S := S) n k q w1 hw1
    rw [k1] at g
    exact ih2 (g.refs hw1) (sact_delete (S := S) n k q w1 w3 b' hw1 (hd.kid hkk) (hd e (inTree_self e) ha k (.here hkk)) k1)
      (fun k' hk' => hmem k' (by simp [hk'])) hres

/-- A sync of one element changes nothing outside the frame, whatever user code does. -/
theorem syncElem_fr (n : Nat) : ∀ (e : Elem V) (parent : Option Ref) (w w' : World V E) (res : Except Err Bool),
    syncElem S n e parent w = (res, w') → FrameEnv S.dst Gr SkipK X Fin [e] → GInv S.dst Gr SkipK w → b ≤ w.next →
    (∀ k, ElemKey S.dst e k → GPar S.dst b Gr parent k w) → NewIn Fin w w' →
    GFr S.dst b (keysOf S.dst [e]) (fun p => parent = some p) X Gr SkipK w w' := by
  induction n with
  | zero => intro e parent w w' res h _ hi hb _ _; cases h; exact GFr.refl hb hi
  | succ n ih =>
    intro e parent w w' res h env hi hb hpar hfin
    have hw : RefsLt w := hi.refs
    have hs := syncElem_gstep (S := S) n e parent w hw
    rw [h] at hs
    have kids : ∀ {q acc w1 w2 y}, KidsRun (fun k w w' res => syncElem S n k q w = (res, w')) (getChildren S.dc e.kids) acc w1 w2 y →
        GInv S.dst Gr SkipK w1 → b ≤ w1.next →
        (∀ k ∈ e.kids, ∀ x, ElemKey S.dst k x → GPar S.dst b Gr q x w1) → NewIn Fin w1 w2 → GFr S.dst b (keysOf S.dst [e]) (fun p => q = some p) X Gr SkipK w1 w2 := by
      intro q acc w1 w2 y hk hi1 hb1 hq hf1
      refine kidsRun_gfr (Q := fun k w1 => ∀ x, ElemKey S.dst k x → GPar S.dst b Gr q x w1) ?_ ?_ (kidsRun_fin (S := S) n hk hi1.refs hf1) hi1 hb1 (fun k hk => hq k (mem_of_getChildren hk))
      · intro k hk w1 w2 res hr hi1 hb1 hq1
        have hkk := mem_of_getChildren hk
        exact (ih k q w1 w2 res hr.1 (env.kid hkk) hi1 hb1 hq1 hr.2).mono (fun _ _ h => keysOf_kid hkk h) (fun _ h => h)
      · intro k _ w1 w2 f hq1 x hx
        exact f.par (hq1 x hx)
    have body : ∀ {c u dst nat sk w1}, GAtBody S Gr SkipK X Fin b e parent dst c u sk nat w1 →
        Body S (fun q k w w' res => syncElem S n k q w = (res, w')) e c parent dst nat sk w1 w' res →
        (∀ r, r < b → dst = some r → ∃ sid, S.dst.ref.store = .local sid ∧ findRef w sid e.type u = some r) →
        (GFr S.dst b (keysOf S.dst [e]) (fun p => parent = some p) X Gr SkipK w w1) → NewIn Fin w1 w' →
        GFr S.dst b (keysOf S.dst [e]) (fun p => parent = some p) X Gr SkipK w w' := by
      intro c u dst nat sk w1 at1 hbody hdst0 f01 hf1
      have hb1 := at1.le
      have hKk : keysOf S.dst [e] e.action (e.type, u) := ⟨e, inTree_self e, rfl, c, u, at1.cls, at1.uid, rfl⟩
      have own : ∀ {w2 evs res'}, Own S (w1.scls.getD c) e.keys (e.plus.getD []) w1 w2 w1.sact dst evs res' → w2.trace = w1.trace ++ evs →
          GFr S.dst b (keysOf S.dst [e]) (fun p => parent = some p) X Gr SkipK w1 w2 := fun o ht => at1.own hKk o ht
      have store := fun {w2 evs ch r} (o : Own S (w1.scls.getD c) e.keys (e.plus.getD []) w1 w2 w1.sact dst evs (.ok (ch, some r))) ht hf => at1.store hKk o ht hf
      have hlt : ∀ r, dst = some r → r < w1.next := fun r hr => (at1.found r hr).1
      have quiet : ∀ {w2 w3 : World V E} {r y}, r < w2.next → applyStore S w1.sact parent r sk w2 = (y, w3) → TrExt w2 w3 := by
        intro w2 w3 r y hr hap
        obtain ⟨ws, q2, _⟩ := (applyStore_calm (S := S) w1.sact parent r sk w2 hr).trace
        rw [hap] at q2
        exact ⟨ws, q2⟩
      cases hbody with
      | raised o _ ht => exact f01.trans (own o ht) hb
      | @noObject evs w2 ch o _ ht hw' =>
        subst hw'
        exact (f01.trans (own o ht) hb).trans ((Still.emit w2 [.noObject w2.slog]).gfr rfl (Nat.le_trans hb1 (own o ht).next_le) (own o ht).inv) hb
      | @storeFail evs w2 ch r x o _ ht hap =>
        have := (store o ht (hf1.left (quiet (o.ref_lt hlt) hap) _ ht)).1
        rw [hap] at this
        exact f01.trans this hb
      | @shortcut evs w2 ch r o _ ht hap _ _ =>
        have := (store o ht (hf1.left (quiet (o.ref_lt hlt) hap) _ ht)).1
        rw [hap] at this
        exact f01.trans this hb
      | @leaf evs w2 w3 ch r o _ ht hap _ _ _ hw' =>
        subst hw'
        have := (store o ht (hf1.left ((quiet (o.ref_lt hlt) hap).trans ⟨[.syncProgress (w3.sproc + 1) w3.stotal], rfl⟩) _ ht)).1
        rw [hap] at this
        exact (f01.trans this hb).trans ((tick_still w3).gfr (evs := [.syncProgress (w3.sproc + 1) w3.stotal]) rfl (Nat.le_trans hb1 this.next_le) this.inv) hb
      | @kids evs w2 w3 ch r res o _ ht hap _ hk =>
        have g4 := applyStore_grows (S := S) w1.sact parent r sk w2 (o.ref_lt hlt)
        rw [hap] at g4
        have x3 : TrExt w2 w3.tick := (quiet (o.ref_lt hlt) hap).trans ⟨[.syncProgress (w3.sproc + 1) w3.stotal], rfl⟩
        have x4 : TrExt w3.tick w' := kidsRun_ext (S := S) n (syncElem_ext (S := S) n) hk ((tick_still w3).grows.refs (g4.refs (o.grows.refs at1.inv.refs)))
        obtain ⟨f13, hr, hrk, hrc, hro, hrb⟩ := store o ht (hf1.left (x3.trans x4) _ ht)
        rw [hap] at f13 hr hrk hrc
        have f3t : GFr S.dst b (keysOf S.dst [e]) (fun p => parent = some p) X Gr SkipK w3 w3.tick :=
          (tick_still w3).gfr (evs := [.syncProgress (w3.sproc + 1) w3.stotal]) rfl (Nat.le_trans hb1 f13.next_le) f13.inv
        have f0t := (f01.trans f13 hb).trans f3t hb
        refine f0t.trans' (kids hk f3t.inv (Nat.le_trans hb1 (Nat.le_trans f13.next_le f3t.next_le)) ?_ (hf1.right (TrExt.trans ⟨evs, ht⟩ x3))) hb ?_
        · exact at1.par_kids (w3 := w3.tick) hr hrk hrc hrb
        · intro r' hr' hp
          cases hp
          rcases hro with ⟨h, hna⟩ | h
          · obtain ⟨sid, h1, h2⟩ := hdst0 r hr' h
            exact .inr ⟨sid, e.type, u, _, h1, h2, hna, hKk⟩
          · exact absurd hr' (Nat.not_lt.2 h)
    have enter : ∀ {c u dst w1}, GEntered S e c u dst w w1 → GFr S.dst b (keysOf S.dst [e]) (fun p => parent = some p) X Gr SkipK w w1 :=
      fun ent => ent.still.gfr (evs := []) (by rw [ent.trace]; simp) hb hi
    have natkids : ∀ {c u dst w1 w2 y}, GEntered S e c u dst w w1 → e.action = some .delete →
        KidsRun (fun k w w' res => syncElem S n k dst w = (res, w')) (getChildren S.dc e.kids) false w1 w2 y → NewIn Fin w w2 →
        GFr S.dst b (keysOf S.dst [e]) (fun p => parent = some p) X Gr SkipK w w2 := by
      intro c u dst w1 w2 y ent hdel hk hf2
      have f1 := enter ent
      refine f1.trans' (kids hk f1.inv (Nat.le_trans hb f1.next_le) (ent.par_kids env hi hb) (hf2.right (.of_eq ent.trace))) hb ?_
      intro r hrb hr
      obtain ⟨sid, h1, h2⟩ := (ent.facts (b := b) env.valid hi hb).2.2 r hrb hr
      exact .inr ⟨sid, e.type, u, _, h1, h2, by rw [hdel]; simp, ⟨e, inTree_self e, rfl, c, u, ent.cls, ent.uid, rfl⟩⟩
    cases hs with
    | noClass _ hw' => subst hw'; exact GFr.refl hb hi
    | noKey _ _ hw' => subst hw'; exact GFr.refl hb hi
    | natFail ent _ _ hact hk => exact natkids ent hact hk hfin
    | @natural c u dst w1 w2 bb _ ent _ _ hact hk hbody =>
      obtain ⟨hat, hdd, hd0⟩ := ent.facts (b := b) env.valid hi hb
      have hw1 := ent.still.grows.refs hw
      have gk := kidsRun_grows (S := S) n hk hw1
      have x1 : TrExt w w2 := (TrExt.of_eq ent.trace).trans (kidsRun_ext (S := S) n (syncElem_ext (S := S) n) hk hw1)
      have x2 : TrExt w2 w' := body_ext (S := S) n hbody (gk.refs hw1) (fun r hr => Nat.lt_of_lt_of_le (hdd r hr).1 gk.next_le)
      have f2 := natkids ent hact hk (hfin.left x2)
      have f12 := kids hk (enter ent).inv (Nat.le_trans hb (enter ent).next_le) (ent.par_kids env hi hb) ((hfin.left x2).right (.of_eq ent.trace))
      refine body ⟨env, ent.cls, ent.uid, f2.inv, Nat.le_trans hb f2.next_le, f2.par (hpar _ ⟨c, u, ent.cls, ent.uid, rfl⟩),
        (kidsRun_del_sact n env.del hact hk hw1 (ent.sact.trans hact)).trans hact.symm, ?_, .inr ⟨hact, rfl, rfl⟩⟩ hbody hd0 f2 (hfin.right x1)
      intro r hr
      obtain ⟨d1, d2, d3, _, d4⟩ := hdd r hr
      obtain ⟨i1, _, i3⟩ := f12.ident r d1
      exact ⟨Nat.lt_of_lt_of_le d1 f12.next_le, i3.trans d2, i1.trans d3, d4⟩
    | @plain c u dst w1 _ ent _ hbody =>
      obtain ⟨hat, hdd, hd0⟩ := ent.facts (b := b) env.valid hi hb
      have f1 := enter ent
      refine body ⟨env, ent.cls, ent.uid, f1.inv, Nat.le_trans hb f1.next_le, f1.par (hpar _ ⟨c, u, ent.cls, ent.uid, rfl⟩), ent.sact,
        fun r hr => ⟨(hdd r hr).1, (hdd r hr).2.1, (hdd r hr).2.2.1, (hdd r hr).2.2.2.2⟩, .inl ⟨hat, ent.scls, ?_⟩⟩ hbody hd0 f1 (hfin.right (.of_eq ent.trace))
      intro hsk _
      cases hdst : dst with
      | none => rw [hdst] at hsk; cases hsk
      | some r => rw [hdst] at hsk; exact (hdd r hdst).2.2.2.1 hsk
end

end DS
