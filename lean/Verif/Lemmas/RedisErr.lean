import Verif.Lemmas.ConvErr
import Verif.Lemmas.RedisCmp
/-! What a sync into a Redis store raises, between adapters that can be reconciled: only what user code raised. -/
set_option linter.unusedSectionVars false

namespace DS
variable {V E : Type} [PyVal V]

theorem forEach_ok {α : Type} {I : World V E → Prop} {f : α → M V E Unit} {l : List α} (h : ∀ a ∈ l, ∀ w, I w → ∃ w', f a w = (.ok (), w') ∧ I w') :
    ∀ w, I w → ∃ w', M.forEach f l w = (.ok (), w') ∧ I w' := by
  induction l with
  | nil => exact fun w hi => ⟨w, rfl, hi⟩
  | cons a l ih =>
    intro w hi
    obtain ⟨w1, e1, i1⟩ := h a (by simp) w hi
    obtain ⟨w2, e2, i2⟩ := ih (fun b hb => h b (by simp [hb])) w1 i1
    exact ⟨w2, by rw [M.forEach_cons, M.bind_ok e1]; exact e2, i2⟩

section
variable {A : Adapter V} {sid : String} (hA : A.ref.store = .redis sid) {Gr : Key → Key → Prop} {SkipK : Key → Prop}
include hA

theorem rsnap_at {w : World V E} {k : Key} (hp : Plain k.1) : (snap A w).at k = (Dict.get? w.redis (redisKey sid k.1 k.2)).map (fun o => o.m) := by
  unfold Snap.at snap
  rw [hA]
  dsimp only
  rw [if_pos hp]

/-- Removal keeps what holds of the store. -/
theorem rremove_rinv {n : Nat} {r : Ref} {b : Bool} {w : World V E} (hi : RInv A sid Gr SkipK w) (hr : r < w.next) (hp : Plain (w.heap r).m.type)
    (hk : b = true → ∀ c ∈ childRefs (w.heap r).m, Plain c.1) :
    RInv A sid Gr SkipK (remove A n r b w).2 ∧ w.next ≤ (remove A n r b w).2.next ∧ ∀ r', r' < w.next → ((remove A n r b w).2.heap r').m = (w.heap r').m := by
  obtain ⟨rm, _, _⟩ := rremove_removed hA (fun x => ∃ t u, Plain t ∧ x = redisKey sid t u ∧ True) b n r w hr ⟨_, _, hp, rfl, trivial⟩
    (fun hb c hc => ⟨_, _, hk hb c hc, rfl, trivial⟩)
    (by
      rintro _ t u o ⟨t', u', ht', he, _⟩ ho
      rw [he] at ho
      obtain ⟨q1, q2⟩ := hi.store.key_ok _ _ _ ht' ho
      exact ⟨⟨t', u', ht', by rw [q1, q2], trivial⟩, fun c hc => ⟨_, _, hi.store.kids_ok _ _ _ ht' ho c hc, rfl, trivial⟩⟩)
  exact ⟨(RRemoved.rframe (G := fun _ => True) (A := A) (b := 0) (K := fun _ _ => True) (X := fun _ => True) (Ev := fun _ => True) rm (Nat.zero_le _)
    (fun _ _ _ => .inr trivial) hi).2, rm.next_le, rm.heap_m⟩

/-- Removal of a stored object succeeds, when the recursion limit is not reached. -/
theorem rremove_ok {S D : Key → Option (Model V)} (n : Nat) : ∀ (r : Ref) (k : Key) (b : Bool) (w : World V E), RInv A sid (UE S D) SkipK w → r < w.next →
    (w.heap r).m.key = k → Plain k.1 → Dict.get? w.redis (redisKey sid k.1 k.2) ≠ none → (b = true → ∀ c ∈ childRefs (w.heap r).m, Plain c.1 ∧ UE S D k c) →
    (∀ j y, Down S D j k y → j < n) → ∃ w', remove A n r b w = (.ok (), w') := by
  induction n with
  | zero => intro r k b w _ _ _ _ _ _ hd; exact absurd (hd 0 k .refl) (Nat.not_lt_zero _)
  | succ n ih =>
    intro r k b w hi hr hk hp hne hc hd
    have k1 : (w.heap r).m.type = k.1 := congrArg Prod.fst hk
    have k2 : (w.heap r).m.uid = k.2 := congrArg Prod.snd hk
    rw [remove, deref_bind]
    obtain ⟨w1, e1, p1, m1, hz⟩ := removeOne_redis hA (G := fun x => ∃ t u, Plain t ∧ x = redisKey sid t u ∧ True) r w ⟨_, _, by rw [k1]; exact hp, rfl, trivial⟩
    have i1 := (RRemoved.rframe (G := fun _ => True) (A := A) (b := 0) (K := fun _ _ => True) (X := fun _ => True) (Ev := fun _ => True) p1 (Nat.zero_le _)
      (fun _ _ _ => .inr trivial) hi).2
    rw [k1, k2, if_pos (by cases hh : Dict.get? w.redis (redisKey sid k.1 k.2) <;> simp_all)] at e1
    rw [M.bind_ok e1]
    cases b with
    | false => exact ⟨w1, rfl⟩
    | true =>
      simp only [if_true]
      obtain ⟨w2, e2, _⟩ := forEach_ok (I := fun w => RInv A sid (UE S D) SkipK w) (l := childRefs (w.heap r).m)
        (f := fun c => M.tryCatch
          (do let k ← getRaw A c.1 c.2
              remove A n k true)
          Err.isNotFound
          (fun _ => M.emit (.childNotFound c.1 c.2 (w.heap r).m.type (w.heap r).m.uid))) (by
        intro c hcm w2 hi2
        obtain ⟨cp, cu⟩ := hc rfl c hcm
        have e3 := getRaw_redis hA c.1 c.2 w2
        cases hf : Dict.get? w2.redis (redisKey sid c.1 c.2) with
        | none =>
          rw [hf] at e3
          unfold M.tryCatch
          rw [M.bind_err e3]
          exact ⟨_, rfl, hi2.of_redis_eq (w := w2) rfl hi2.refs⟩
        | some o =>
          rw [hf] at e3
          dsimp only at e3
          obtain ⟨p3, h3, n3⟩ := alloc_rremoved (G := fun _ => True) { o with adapter := some A.ref } w2
          generalize hw3 : (alloc { o with adapter := some A.ref } w2).2 = w3 at e3 p3 h3 n3
          have hred : w3.redis = w2.redis := by rw [← hw3]; rfl
          have i3 : RInv A sid (UE S D) SkipK w3 := hi2.of_redis_eq hred (p3.grows.refs hi2.refs)
          have hm : (w3.heap w2.next).m = o.m := by rw [h3]
          obtain ⟨q1, q2⟩ := hi2.store.key_ok _ _ _ cp hf
          have hkk : (w3.heap w2.next).m.key = c := by rw [hm]; exact Prod.ext q1 q2
          have hlt : w2.next < w3.next := by rw [n3]; exact Nat.lt_succ_self _
          have hcs : ∀ x ∈ childRefs (w3.heap w2.next).m, Plain x.1 ∧ UE S D c x := by
            rw [hm]
            exact fun x hx => ⟨hi2.store.kids_ok _ _ _ cp hf x hx, hi2.edges _ _ _ cp hf x hx⟩
          obtain ⟨w4, e4⟩ := ih w2.next c true w3 i3 hlt hkk cp (by rw [hred, hf]; simp) (fun _ => hcs) (fun j y hdn => by
            have := hd (j + 1) y (.step cu hdn); omega)
          have i4 := (rremove_rinv hA (n := n) (b := true) i3 hlt (by rw [show (w3.heap w2.next).m.type = c.1 from congrArg Prod.fst hkk]; exact cp) (fun _ x hx => (hcs x hx).1)).1
          rw [e4] at i4
          refine ⟨w4, ?_, i4⟩
          unfold M.tryCatch
          rw [M.bind_ok e3]
          simp only
          rw [e4]) w1 i1
      exact ⟨w2, e2⟩
end

/-- Nothing but user code makes the sync fail, no action is refused, and objects are missing only where a call has not made them. -/
def CleanR (flags : Nat) (w w' : World V E) (res : Except Err Bool) : Prop :=
  ∃ evs, w'.trace = w.trace ++ evs ∧ NoRef evs ∧ (∀ x, res = .error x → ErrBy flags evs x) ∧ Miss evs


theorem CleanR.same {flags : Nat} {w w' : World V E} {res : Except Err Bool} (h : w'.trace = w.trace) (hr : ∀ x, res ≠ .error x) : CleanR flags w w' res :=
  ⟨[], by simp [h], .of_none (fun _ _ _ h => by cases h), fun x hx => absurd hx (hr x), .nil⟩

theorem CleanR.after {flags : Nat} {w w1 w' : World V E} {res : Except Err Bool} {evs : List (Event V)} (h : w1.trace = w.trace ++ evs) (hn : NoRef evs)
    (hm : Miss evs) (h' : CleanR flags w1 w' res) : CleanR flags w w' res := by
  obtain ⟨evs', e', n', x', m'⟩ := h'
  refine ⟨evs ++ evs', by rw [e', h, List.append_assoc], hn.append n', fun x hx => ?_, hm.append m'⟩
  obtain ⟨L, c, out, R, h1, h2⟩ := x' x hx
  exact ⟨evs ++ L, c, out, R, by rw [h1, List.append_assoc], h2⟩

theorem CleanR.trans {flags : Nat} {w w1 w' : World V E} {r res : Except Err Bool} (h : CleanR flags w w1 r) (h' : CleanR flags w1 w' res) : CleanR flags w w' res := by
  obtain ⟨evs, e, n, _, m⟩ := h
  exact h'.after e n m

/-- Objects that exist keep their child lists, but for the entries `K` of the parent. -/
def ListsKept (parent : Option Ref) (K : Key → Prop) (w w' : World V E) : Prop :=
  w.next ≤ w'.next ∧ ∀ r, r < w.next → (w'.heap r).m.cls = (w.heap r).m.cls ∧ (FullKids (w.heap r).m → FullKids (w'.heap r).m) ∧
    ∀ c : Key, (parent = some r → ¬ K c) → (w'.heap r).m.lists c.1 c.2 = (w.heap r).m.lists c.1 c.2

section
variable {parent q : Option Ref} {K K' : Key → Prop} {w w1 w2 : World V E}

theorem ListsKept.refl (w : World V E) : ListsKept parent K w w := ⟨Nat.le_refl _, fun _ _ => ⟨rfl, id, fun _ _ => rfl⟩⟩

theorem ListsKept.mono (h : ListsKept parent K w w1) (hK : ∀ c, K c → K' c) : ListsKept parent K' w w1 :=
  ⟨h.1, fun r hr => ⟨(h.2 r hr).1, (h.2 r hr).2.1, fun c hc => (h.2 r hr).2.2 c (fun hp hk => hc hp (hK c hk))⟩⟩

theorem ListsKept.trans (h1 : ListsKept parent K w w1) (h2 : ListsKept parent K w1 w2) : ListsKept parent K w w2 :=
  ⟨Nat.le_trans h1.1 h2.1, fun r hr => by
    obtain ⟨a1, a2, a3⟩ := h1.2 r hr
    obtain ⟨b1, b2, b3⟩ := h2.2 r (Nat.lt_of_lt_of_le hr h1.1)
    exact ⟨b1.trans a1, fun h => b2 (a2 h), fun c hc => (b3 c hc).trans (a3 c hc)⟩⟩

/-- What is done to new objects does not concern those from before. -/
theorem ListsKept.trans_new (h1 : ListsKept parent K w w1) (h2 : ListsKept q K' w1 w2) (hq : ∀ r, q = some r → w.next ≤ r) : ListsKept parent K w w2 :=
  ⟨Nat.le_trans h1.1 h2.1, fun r hr => by
    obtain ⟨a1, a2, a3⟩ := h1.2 r hr
    obtain ⟨b1, b2, b3⟩ := h2.2 r (Nat.lt_of_lt_of_le hr h1.1)
    exact ⟨b1.trans a1, fun h => b2 (a2 h), fun c hc => (b3 c (fun hh => absurd hr (Nat.not_lt.2 (hq r hh)))).trans (a3 c hc)⟩⟩

theorem Still.listsKept (h : Still w w1) : ListsKept parent K w w1 :=
  ⟨h.next_le, fun r hr => by rw [h.heap_m r hr]; exact ⟨rfl, id, fun _ _ => rfl⟩⟩

theorem Upd.listsKept {r : Ref} {attrs : Dict V} (h : Upd r attrs w w1) : ListsKept parent K w w1 :=
  ⟨h.next_le, fun r' hr => by
    by_cases he : r' = r
    · subst he
      obtain ⟨h1, h2, _⟩ := setattrs_spec (w.heap r').m attrs
      rw [← h.heap_r] at h1 h2
      refine ⟨h1, fun hf => hf.congr h1 h2, fun c _ => ?_⟩
      unfold Model.lists Model.kidList
      rw [h1, h2]
    · rw [h.heap_m r' hr he]; exact ⟨rfl, id, fun _ _ => rfl⟩⟩

theorem CallEff.listsKept {a : Action} {dst : Option Ref} {attrs : Dict V} {out : Outcome} (h : CallEff a dst attrs out w w1) : ListsKept parent K w w1 := by
  unfold CallEff at h
  split at h
  · split at h
    · exact h.listsKept
    · exact Still.listsKept h
  · exact Still.listsKept h

theorem Own.listsKept {S : SyncCtx V E} {c : ModelClass V} {ids attrs : Dict V} {a : Option Action} {dst : Option Ref} {evs : List (Event V)}
    {res : Except Err (Bool × Option Ref)} (h : Own S c ids attrs w w1 a dst evs res) : ListsKept parent K w w1 := by
  cases h with
  | idle h _ => exact h.listsKept
  | stale _ h _ => exact h.listsKept
  | crud h1 _ _ _ h2 => exact h2.listsKept
  | fatal h1 _ _ _ h2 => exact h2.listsKept
  | failed h1 _ _ h2 => exact h2.listsKept
  | created _ _ _ h _ _ _ _ => exact h.listsKept
  | kept h1 _ _ _ h2 _ => exact h2.listsKept
end

/-- A part of a sync into a Redis store: of the objects of elements, only those in `K` come or go, and of the child lists of objects from before,
only the entries of `K` in the parent change. -/
structure RPart (A : Adapter V) (sid : String) (S D : Key → Option (Model V)) (es : List (Elem V)) (parent : Option Ref) (K : Key → Prop) (w w' : World V E) : Prop where
  lists : ListsKept parent K w w'
  inv : RInv A sid (UE S D) (fun _ => True) w'
  pres : ∀ k, EK A es k → ¬ K k → (snap A w').at k = (snap A w).at k
  key : ∀ r, r < w.next → (w'.heap r).m.key = (w.heap r).m.key

/-- What is stored for an element and those below is what was stored at the start. -/
def AtStart (A : Adapter V) (D : Key → Option (Model V)) (e : Elem V) (w : World V E) : Prop := ∀ k, InK A e k → (snap A w).at k = D k

/-- The object passed as parent of an element: of the element above, with the element in its child list if the destination had it. -/
def RPar (A : Adapter V) (D : Key → Option (Model V)) (es : List (Elem V)) (parent : Option Ref) (e : Elem V) (w : World V E) : Prop :=
  ∀ p, parent = some p → ∃ ep kp, InTree ep es ∧ e ∈ ep.kids ∧ ElemKey A ep kp ∧ p < w.next ∧ (w.heap p).m.key = kp ∧
    Dict.get? A.classes kp.1 = some (w.heap p).m.cls ∧ FullKids (w.heap p).m ∧ ∀ c, ElemKey A e c → ((w.heap p).m.lists c.1 c.2 = true ↔ D c ≠ none)

section
variable {A : Adapter V} {sid : String} {S D : Key → Option (Model V)} {es : List (Elem V)} {parent q : Option Ref} {K K' : Key → Prop} {w w1 w2 : World V E}

theorem RPart.refl (hi : RInv A sid (UE S D) (fun _ => True) w) : RPart A sid S D es parent K w w := ⟨.refl w, hi, fun _ _ _ => rfl, fun _ _ => rfl⟩

theorem RPart.mono (h : RPart A sid S D es parent K w w1) (hK : ∀ k, K k → K' k) : RPart A sid S D es parent K' w w1 :=
  ⟨h.lists.mono hK, h.inv, fun k h1 h2 => h.pres k h1 (fun h3 => h2 (hK k h3)), h.key⟩

theorem RPart.trans (h1 : RPart A sid S D es parent K w w1) (h2 : RPart A sid S D es parent K w1 w2) : RPart A sid S D es parent K w w2 :=
  ⟨h1.lists.trans h2.lists, h2.inv, fun k a b => (h2.pres k a b).trans (h1.pres k a b), fun r hr => (h2.key r (Nat.lt_of_lt_of_le hr h1.lists.1)).trans (h1.key r hr)⟩

theorem RPart.trans_new (h1 : RPart A sid S D es parent K w w1) (h2 : RPart A sid S D es q K w1 w2) (hq : ∀ r, q = some r → w.next ≤ r) :
    RPart A sid S D es parent K w w2 :=
  ⟨h1.lists.trans_new h2.lists hq, h2.inv, fun k a b => (h2.pres k a b).trans (h1.pres k a b), fun r hr => (h2.key r (Nat.lt_of_lt_of_le hr h1.lists.1)).trans (h1.key r hr)⟩

theorem RPart.of_frame (hA : A.ref.store = .redis sid) {K0 : Option Action → Key → Prop} {X0 : Key → Prop} {Ev : Event V → Prop}
    (f : RFrame A sid 0 K0 X0 Ev w w1) (hi : RInv A sid (UE S D) (fun _ => True) w1) (hl : ListsKept parent K w w1)
    (hK : ∀ k, EK A es k → ¬ K k → (∀ a, ¬ K0 a k) ∧ ¬ X0 k) : RPart A sid S D es parent K w w1 := by
  refine ⟨hl, hi, fun k hk hn => ?_, fun r hr => (f.ident r hr).2.2⟩
  obtain ⟨n1, n2⟩ := hK k hk hn
  by_cases hp : Plain k.1
  · rw [rsnap_at hA hp, rsnap_at hA hp]
    cases h1 : Dict.get? w.redis (redisKey sid k.1 k.2) with
    | some o =>
      rcases f.gone _ _ _ hp h1 with h2 | h2 | h2
      · rw [h2]
      · exact absurd h2.1 (n1 _)
      · exact absurd h2 n2
    | none =>
      cases h2 : Dict.get? w1.redis (redisKey sid k.1 k.2) with
      | none => rfl
      | some o =>
        rcases f.come _ _ _ hp h2 with h3 | h3
        · rw [h1] at h3; cases h3
        · exact absurd h3.1 (n1 _)
  · unfold Snap.at snap
    rw [hA]
    dsimp only
    rw [if_neg hp, if_neg hp]

theorem Still.rpart (h : Still w w1) (hA : A.ref.store = .redis sid) (hi : RInv A sid (UE S D) (fun _ => True) w) : RPart A sid S D es parent K w w1 :=
  .of_frame hA (h.rframe (K := fun _ _ => False) (X := fun _ => False) (Ev := fun _ => True) (Nat.zero_le _)) (h.rinv hi) h.listsKept
    (fun _ _ _ => ⟨fun _ h => h, fun h => h⟩)

theorem AtStart.move {e : Elem V} (h : AtStart A D e w) (f : RPart A sid S D es parent K w w1) (he : InTree e es) (hn : ∀ k, InK A e k → ¬ K k) :
    AtStart A D e w1 := fun k hk => by
  obtain ⟨x, hx, hxk⟩ := hk
  exact (f.pres k ⟨x, hx.of_self he, hxk⟩ (hn k ⟨x, hx, hxk⟩)).trans (h k ⟨x, hx, hxk⟩)

theorem RPar.move {e : Elem V} (h : RPar A D es parent e w) (f : RPart A sid S D es q K w w1) (hn : q = parent → ∀ k, ElemKey A e k → ¬ K k) : RPar A D es parent e w1 := by
  intro p hp
  obtain ⟨ep, kp, h1, h2, h3, h4, h5, h6, h7, h8⟩ := h p hp
  obtain ⟨g1, g2, g3⟩ := f.lists.2 p h4
  refine ⟨ep, kp, h1, h2, h3, Nat.lt_of_lt_of_le h4 f.lists.1, (f.key p h4).trans h5, by rw [g1]; exact h6, g2 h7, fun c hc => ?_⟩
  rw [g3 c (fun hq => hn (hq.trans hp.symm) c hc)]
  exact h8 c hc

/-- A loop over elements. -/
theorem kids_cleanR {flags : Nat} {Kk : Elem V → World V E → World V E → Except Err Bool → Prop} {l : List (Elem V)} {acc : Bool} {w w' : World V E} {res : Except Err Bool}
    (hk : KidsRun Kk l acc w w' res) (hl : ∀ x ∈ l, InTree x es)
    (hK : ∀ x ∈ l, ∀ w w' res, Kk x w w' res → RInv A sid (UE S D) (fun _ => True) w → AtStart A D x w → RPar A D es parent x w →
      CleanR flags w w' res ∧ RPart A sid S D es parent (InK A x) w w')
    (hi : RInv A sid (UE S D) (fun _ => True) w) (hd : DistinctKeys A l) (hu : ∀ x ∈ l, AtStart A D x w) (hp : ∀ x ∈ l, RPar A D es parent x w) :
    CleanR flags w w' res ∧ RPart A sid S D es parent (fun k => ∃ x ∈ l, InK A x k) w w' := by
  induction hk with
  | nil => exact ⟨.same rfl (fun _ h => by cases h), .refl hi⟩
  | @err x l acc w w' er h =>
    obtain ⟨c1, c2⟩ := hK x (by simp) _ _ _ h hi (hu x (by simp)) (hp x (by simp))
    exact ⟨c1, c2.mono (fun k hk => ⟨x, by simp, hk⟩)⟩
  | @cons x l acc w w1 w' b res h hk ih =>
    obtain ⟨c1, c2⟩ := hK x (by simp) _ _ _ h hi (hu x (by simp)) (hp x (by simp))
    obtain ⟨d1, d2, d3⟩ := hd.cons
    have hno : ∀ y ∈ l, ∀ k, InK A y k → ¬ InK A x k := by
      rintro y hy k ⟨z, hz, hzk⟩ ⟨z', hz', hzk'⟩
      exact d3 z' k hz' hzk' z (hz.mono (fun v hv => by rw [List.mem_singleton] at hv; rw [hv]; exact hy)) hzk
    obtain ⟨i1, i2⟩ := ih (fun y hy => hl y (by simp [hy])) (fun y hy => hK y (by simp [hy])) c2.inv d2
      (fun y hy => (hu y (by simp [hy])).move c2 (hl y (by simp [hy])) (hno y hy))
      (fun y hy => (hp y (by simp [hy])).move c2 (fun _ k hk => hno y hy k ⟨y, inTree_self y, hk⟩))
    exact ⟨c1.trans i1, (c2.mono (fun k hk => ⟨x, by simp, hk⟩)).trans (i2.mono (fun k ⟨y, hy, hk⟩ => ⟨y, by simp [hy], hk⟩))⟩
end

section
variable {X : SyncCtx V E} {S D : Key → Option (Model V)} {es : List (Elem V)} {sid : String} (hA : X.dst.ref.store = .redis sid)
include hA

/-- Storing a created object. -/
theorem rstore_create (hc : CEnv X.dst S D es) {e : Elem V} {k0 : Key} {c : ModelClass V} {r : Ref} {parent : Option Ref} {skip : Bool} {w1 : World V E}
    (hi : RInv X.dst sid (UE S D) (fun _ => True) w1) (he : InTree e es) (hk : ElemKey X.dst e k0) (ha : e.action = some .create)
    (hcls : Dict.get? X.dst.classes e.type = some c) (hm : c.construct e.keys (e.plus.getD []) = .ok (w1.heap r).m)
    (hpar : RPar X.dst D es parent e w1) (hpr : parent ≠ some r) (hs : (snap X.dst w1).at k0 = D k0) :
    ∃ w', applyStore X (some .create) parent r skip w1 = (.ok (), w') ∧ RPart X.dst sid S D es parent (fun k => k = k0) w1 w' ∧
      (w'.heap r).m = (w1.heap r).m ∧ (w1.heap r).m.key = k0 ∧ (w1.heap r).m.cls = c := by
  obtain ⟨hS0, hD0⟩ := hc.create e k0 he hk ha
  obtain ⟨c', u, hc', hcu, hkeq⟩ := hk
  have hk : ElemKey X.dst e k0 := ⟨c', u, hc', hcu, hkeq⟩
  cases hcls.symm.trans hc'
  have hkt : k0.1 = e.type := by rw [hkeq]
  have hku : k0.2 = u := by rw [hkeq]
  have hvc := hc.valid.valid _ _ hcls
  have hpl : Plain k0.1 := by rw [hkt]; exact hi.names _ _ hcls
  obtain ⟨hmc, hmf, hmk⟩ := construct_spec hm
  have hmu : (w1.heap r).m.uid = k0.2 := by rw [hku]; exact construct_uid hvc hm (hc.ids e he ha c hcls) hcu
  have hmt : (w1.heap r).m.type = k0.1 := by rw [hkt]; unfold Model.type; rw [hmc]; exact hc.valid.names _ _ hcls
  have hkey : (w1.heap r).m.key = k0 := Prod.ext hmt hmu
  have hno : Dict.get? w1.redis (redisKey sid k0.1 k0.2) = none := by
    rw [rsnap_at hA hpl, hD0] at hs
    cases hh : Dict.get? w1.redis (redisKey sid k0.1 k0.2) with
    | none => rfl
    | some o => rw [hh] at hs; cases hs
  obtain ⟨f1, f2, _⟩ := applyStore_create_rfr hA (b := 0) (K := fun _ k => k = k0) (X := fun _ => False) (Gr := UE S D) (SkipK := fun _ => True) (k := k0)
    (parent := parent) (r := r) (skip := skip) (w1 := w1) (Ev := fun _ => True) (fun p hp => ⟨Nat.zero_le _, fun h => hpr (by rw [hp, h])⟩) hi hpl hkey hno (Nat.zero_le _) rfl
    ⟨e.keys, [], { result := .object, applied := true, status := none }, trivial, rfl, ⟨c, u, by rw [hkt]; exact hcls, hcu, by rw [hkt]; exact hkeq⟩⟩
    (fun c2 hc2 => by rw [hkt] at hc2; rw [hmc]; exact Option.some.inj (hcls.symm.trans hc2)) hmk (fun _ => trivial)
  have main : ∃ w', applyStore X (some .create) parent r skip w1 = (.ok (), w') ∧ ListsKept parent (fun k => k = k0) w1 w' ∧ (w'.heap r).m = (w1.heap r).m := by
    have fin : ∀ wp : World V E, wp.redis = w1.redis → (wp.heap r).m = (w1.heap r).m → ∃ w', add X.dst r wp = (.ok (), w') ∧ w'.heap = wp.heap ∧ w'.next = wp.next := by
      intro wp h1 h2
      have := add_redis hA r wp
      rw [h2, hmt, hmu, h1, hno] at this
      exact ⟨_, this, rfl, rfl⟩
    unfold applyStore
    simp only
    cases hp : parent with
    | none =>
      obtain ⟨w', e2, h2, h3⟩ := fin w1 rfl rfl
      exact ⟨w', e2, ⟨Nat.le_of_eq h3.symm, fun r' _ => by rw [h2]; exact ⟨rfl, id, fun _ _ => rfl⟩⟩, by rw [h2]⟩
    | some p =>
      obtain ⟨ep, kp, g1, g2, g3, g4, g5, g6, g7, g8⟩ := hpar p hp
      have hke : KE X.dst es kp k0 := ⟨ep, e, g1, g2, g3, hk⟩
      have hl : (w1.heap p).m.lists k0.1 k0.2 = false := by
        cases hl : (w1.heap p).m.lists k0.1 k0.2 with
        | false => rfl
        | true => exact absurd hD0 ((g8 k0 hk).1 hl)
      obtain ⟨m', hm1, hm2, hm3⟩ := addChild_ok g7 (hc.valid.fields _ _ g6) (hc.declared _ _ _ hke g6) hl
      have e1 := addChildRef_eq p r w1
      rw [hmt, hmu, hm1] at e1
      have hh : ∀ r', ((w1.setObj p { w1.heap p with m := m' }).heap r').m = if r' = p then m' else (w1.heap r').m := by
        intro r'; simp only [World.setObj]; split <;> rfl
      have hrp : r ≠ p := fun h => hpr (by rw [hp, h])
      obtain ⟨w', e2, h2, h3⟩ := fin (w1.setObj p { w1.heap p with m := m' }) rfl (by rw [hh, if_neg hrp])
      refine ⟨w', ?_, ⟨Nat.le_of_eq (by rw [h3]; rfl), fun r' _ => ?_⟩, by rw [h2, hh, if_neg hrp]⟩
      · unfold withParent
        simp only
        rw [M.bind_ok e1]
        exact e2
      · rw [h2, hh]
        split
        · rename_i hrr
          subst hrr
          refine ⟨(addChild_kidsOnly hm1).cls_eq, fun _ => hm2, fun c hcn => ?_⟩
          have := hm3 c
          have hne := hcn rfl
          cases h1 : m'.lists c.1 c.2 <;> cases h2 : (w1.heap r').m.lists c.1 c.2 <;> simp_all
        · exact ⟨rfl, id, fun _ _ => rfl⟩
  obtain ⟨w', e1, e2, e3⟩ := main
  rw [e1] at f1 f2
  exact ⟨w', e1, .of_frame hA f1 f2 e2 (fun k _ hn => ⟨fun _ h => hn h, fun h => h⟩), e3, hkey, hmc⟩

/-- Removing a deleted object, alone or with what is below it. -/
theorem rstore_delete (hc : CEnv X.dst S D es) {e : Elem V} {k0 : Key} {r : Ref} {parent : Option Ref} {skip : Bool} {w1 : World V E}
    (hi : RInv X.dst sid (UE S D) (fun _ => True) w1) (he : InTree e es) (hk : ElemKey X.dst e k0) (ha : e.action = some .delete)
    (hr : r < w1.next) (hkey : (w1.heap r).m.key = k0) (hpar : RPar X.dst D es parent e w1) (hpr : parent ≠ some r) (hs : (snap X.dst w1).at k0 = D k0)
    (hch : skip = true → D k0 = some (w1.heap r).m) (hrl : ∀ j y, Down S D j k0 y → j < X.rlimit) :
    ∃ w', applyStore X (some .delete) parent r skip w1 = (.ok (), w') ∧ RPart X.dst sid S D es parent (fun k => k = k0 ∨ (skip = true ∧ InK X.dst e k)) w1 w' ∧
      (w'.heap r).m = (w1.heap r).m := by
  obtain ⟨hS0, hD0⟩ := hc.delete e k0 he hk ha
  obtain ⟨c', u, hc', hcu, hkeq⟩ := hk
  have hk : ElemKey X.dst e k0 := ⟨c', u, hc', hcu, hkeq⟩
  have hkt : k0.1 = e.type := by rw [hkeq]
  have hpl : Plain k0.1 := by rw [hkt]; exact hi.names _ _ hc'
  have hmt : (w1.heap r).m.type = k0.1 := congrArg Prod.fst hkey
  have hmu : (w1.heap r).m.uid = k0.2 := congrArg Prod.snd hkey
  have hno : Dict.get? w1.redis (redisKey sid k0.1 k0.2) ≠ none := by
    intro hh
    rw [rsnap_at hA hpl, hh] at hs
    exact hD0 hs.symm
  have hcs : skip = true → ∀ c ∈ childRefs (w1.heap r).m, Plain c.1 ∧ UE S D k0 c := by
    intro hsk c hcm
    rw [hch hsk, rsnap_at hA hpl] at hs
    obtain ⟨o, ho, hom⟩ := Option.map_eq_some_iff.1 hs
    rw [← hom] at hcm
    exact ⟨hi.store.kids_ok _ _ _ hpl ho c hcm, hi.edges _ _ _ hpl ho c hcm⟩
  obtain ⟨f1, f2, _⟩ := applyStore_delete_rfr hA (b := 0) (K := fun _ k => k = k0) (X := fun k => skip = true ∧ (EK X.dst es k → InK X.dst e k)) (Gr := UE S D) (SkipK := fun _ => True) (k := k0)
    (parent := parent) (r := r) (skip := skip) (w1 := w1) (Ev := fun _ => True) (fun p hp => Nat.zero_le _) hi hpl hr hkey (Nat.zero_le _) rfl
    ⟨{ result := .object, applied := true, status := none }, trivial, rfl⟩
    (fun k k' h1 h2 => ⟨h1.1, fun h3 => inK_of_UE hc he h2 h1.2 h3⟩)
    (fun hsk => ⟨⟨hsk, fun _ => ⟨e, inTree_self e, hk⟩⟩, hcs hsk⟩)
  have main : ∃ w', applyStore X (some .delete) parent r skip w1 = (.ok (), w') ∧ ListsKept parent (fun k => k = k0) w1 w' ∧ (w'.heap r).m = (w1.heap r).m := by
    have fin : ∀ wp : World V E, wp.redis = w1.redis → (wp.heap r).m = (w1.heap r).m → wp.next = w1.next → RefsLt wp →
        ∃ w', remove X.dst X.rlimit r skip wp = (.ok (), w') ∧ wp.next ≤ w'.next ∧ ∀ r', r' < wp.next → (w'.heap r').m = (wp.heap r').m := by
      intro wp h1 h2 h3 h4
      have ip := hi.of_redis_eq h1 h4
      obtain ⟨w', e1⟩ := rremove_ok hA X.rlimit r k0 skip wp ip (by rw [h3]; exact hr) (by rw [h2]; exact hkey) hpl (by rw [h1]; exact hno) (by rw [h2]; exact hcs) hrl
      have := rremove_rinv hA (n := X.rlimit) (b := skip) ip (by rw [h3]; exact hr) (by rw [h2, hmt]; exact hpl) (by rw [h2]; exact fun hsk c hcm => (hcs hsk c hcm).1)
      rw [e1] at this
      exact ⟨w', e1, this.2⟩
    unfold applyStore
    simp only
    cases hp : parent with
    | none =>
      obtain ⟨w', e2, h2, h3⟩ := fin w1 rfl rfl rfl hi.refs
      exact ⟨w', e2, ⟨h2, fun r' hr' => by rw [h3 r' hr']; exact ⟨rfl, id, fun _ _ => rfl⟩⟩, h3 r hr⟩
    | some p =>
      obtain ⟨ep, kp, g1, g2, g3, g4, g5, g6, g7, g8⟩ := hpar p hp
      obtain ⟨m', hm1, hm2, hm3⟩ := removeChild_ok g7 (hc.valid.fields _ _ g6) ((g8 k0 hk).2 hD0)
      have e1 := removeChildRef_eq p r w1
      rw [hmt, hmu, hm1] at e1
      have hh : ∀ r', ((w1.setObj p { w1.heap p with m := m' }).heap r').m = if r' = p then m' else (w1.heap r').m := by
        intro r'; simp only [World.setObj]; split <;> rfl
      have hrp : r ≠ p := fun h => hpr (by rw [hp, h])
      obtain ⟨w', e2, h2, h3⟩ := fin (w1.setObj p { w1.heap p with m := m' }) rfl (by rw [hh, if_neg hrp]) rfl hi.refs
      refine ⟨w', ?_, ⟨h2, fun r' hr' => ?_⟩, by rw [h3 r hr, hh, if_neg hrp]⟩
      · unfold withParent
        simp only
        rw [M.bind_ok e1]
        exact e2
      · rw [h3 r' hr', hh]
        split
        · rename_i hrr
          subst hrr
          refine ⟨(removeChild_kidsOnly hm1).cls_eq, fun _ => hm2, fun c hcn => ?_⟩
          have := hm3 c
          have hne := hcn rfl
          cases h1 : m'.lists c.1 c.2 <;> cases h2 : (w1.heap r').m.lists c.1 c.2 <;> simp_all
        · exact ⟨rfl, id, fun _ _ => rfl⟩
  obtain ⟨w', e1, e2, e3⟩ := main
  rw [e1] at f1 f2
  refine ⟨w', e1, .of_frame hA f1 f2 (e2.mono (fun _ h => .inl h)) (fun k hek hn => ⟨fun _ h => hn (.inl h), fun h => hn (.inr ⟨h.1, h.2 hek⟩)⟩), e3⟩
end
end DS
