import Verif.Lemmas.Status
/-! Statuses along `sync_diff_element`. -/
set_option linter.unusedSectionVars false

namespace DS
variable {V E : Type} [PyVal V]

theorem CallKey.unique {A : Adapter V} {c : CrudCall V} {k k' : Key} (h : CallKey A c k) (h' : CallKey A c k') : k = k' := by
  cases c with
  | create t ids attrs =>
    obtain ⟨c1, u1, a1, a2, rfl⟩ := h
    obtain ⟨c2, u2, b1, b2, rfl⟩ := h'
    rw [a1] at b1; cases b1
    rw [a2] at b2; cases b2
    rfl
  | update t u attrs => exact Eq.trans h (Eq.symm h')
  | delete t u => exact Eq.trans h (Eq.symm h')

/-- What the object `r` stored under `k` says in `w'`, after the events `evs`: what the call about `k` among them left, or, if there
is none, what it said before, or UNKNOWN. -/
def Said (A : Adapter V) (sid : Nat) (k : Key) (r : Ref) (evs : List (Event V)) (w w' : World V E) : Prop :=
  (∀ c out, Event.call c out ∈ evs → CallKey A c k → w'.stat r = statusAfter c out) ∧
  ((∀ c out, Event.call c out ∈ evs → ¬ CallKey A c k) → findRef w sid k.1 k.2 = some r ∧ (w'.stat r = w.stat r ∨ w'.stat r = (.unknown, "")))

theorem Said.idle {A : Adapter V} {sid : Nat} {k : Key} {r : Ref} {evs : List (Event V)} {w w' : World V E} (h1 : ∀ c out, Event.call c out ∈ evs → ¬ CallKey A c k)
    (h2 : findRef w sid k.1 k.2 = some r) (h3 : w'.stat r = w.stat r ∨ w'.stat r = (.unknown, "")) : Said A sid k r evs w w' :=
  ⟨fun c out hc hk => absurd hk (h1 c out hc), fun _ => ⟨h2, h3⟩⟩

theorem Said.did {A : Adapter V} {sid : Nat} {k : Key} {r : Ref} {evs : List (Event V)} {w w' : World V E} {c : CrudCall V} {out : Outcome} (h1 : Event.call c out ∈ evs)
    (h2 : CallKey A c k) (hu : ∀ c' out', Event.call c' out' ∈ evs → c' = c ∧ out' = out) (h3 : w'.stat r = statusAfter c out) : Said A sid k r evs w w' :=
  ⟨fun c' out' hc _ => by obtain ⟨rfl, rfl⟩ := hu c' out' hc; exact h3, fun h => absurd h2 (h c out h1)⟩

/-- Statuses from `w` to `w'`, when only the keys `K` are concerned. -/
structure StatTo (A : Adapter V) (sid : Nat) (K : Key → Prop) (evs : List (Event V)) (w w' : World V E) : Prop where
  calls : ∀ c out, Event.call c out ∈ evs → ∃ k, CallKey A c k ∧ K k
  out : ∀ k r, findRef w' sid k.1 k.2 = some r → ¬ K k → findRef w sid k.1 k.2 = some r ∧ w'.stat r = w.stat r
  said : ∀ k r, findRef w' sid k.1 k.2 = some r → K k → Said A sid k r evs w w'

section
variable {A : Adapter V} {sid : Nat} {K K1 K2 : Key → Prop} {evs evs1 evs2 : List (Event V)} {w w1 w' : World V E}

theorem StatTo.refl (w : World V E) : StatTo A sid K [] w w :=
  ⟨fun _ _ h => (by cases h), fun k r h _ => ⟨h, rfl⟩, fun k r h _ => .idle (fun _ _ h => (by cases h)) h (.inl rfl)⟩

theorem StatTo.trans (h1 : StatTo A sid K1 evs1 w w1) (h2 : StatTo A sid K2 evs2 w1 w') (hd : ∀ k, K1 k → K2 k → ∀ c out, Event.call c out ∈ evs1 → ¬ CallKey A c k) :
    StatTo A sid (fun k => K1 k ∨ K2 k) (evs1 ++ evs2) w w' where
  calls c out hc := by
    rcases List.mem_append.1 hc with hc | hc
    · obtain ⟨k, a, b⟩ := h1.calls c out hc; exact ⟨k, a, .inl b⟩
    · obtain ⟨k, a, b⟩ := h2.calls c out hc; exact ⟨k, a, .inr b⟩
  out k r hr hk := by
    obtain ⟨a, b⟩ := h2.out k r hr (fun h => hk (.inr h))
    obtain ⟨a', b'⟩ := h1.out k r a (fun h => hk (.inl h))
    exact ⟨a', b.trans b'⟩
  said k r hr hk := by
    have none1 : ¬ K1 k → ∀ c out, Event.call c out ∈ evs1 → ¬ CallKey A c k := by
      intro hn c out hc hck
      obtain ⟨k', a, b⟩ := h1.calls c out hc
      rw [hck.unique a] at hn; exact hn b
    have none2 : ¬ K2 k → ∀ c out, Event.call c out ∈ evs2 → ¬ CallKey A c k := by
      intro hn c out hc hck
      obtain ⟨k', a, b⟩ := h2.calls c out hc
      rw [hck.unique a] at hn; exact hn b
    by_cases h2k : K2 k
    · have n1 : ∀ c out, Event.call c out ∈ evs1 → ¬ CallKey A c k := by
        by_cases h1k : K1 k
        · exact hd k h1k h2k
        · exact none1 h1k
      obtain ⟨a1, a2⟩ := h2.said k r hr h2k
      refine ⟨fun c out hc hck => ?_, fun hno => ?_⟩
      · rcases List.mem_append.1 hc with hc | hc
        · exact absurd hck (n1 c out hc)
        · exact a1 c out hc hck
      · obtain ⟨a2, a3⟩ := a2 (fun c out hc => hno c out (List.mem_append_right _ hc))
        have hb : findRef w sid k.1 k.2 = some r ∧ (w1.stat r = w.stat r ∨ w1.stat r = (.unknown, "")) := by
          by_cases h1k : K1 k
          · exact (h1.said k r a2 h1k).2 n1
          · obtain ⟨b1, b2⟩ := h1.out k r a2 h1k
            exact ⟨b1, .inl b2⟩
        refine ⟨hb.1, ?_⟩
        rcases a3 with a3 | a3
        · exact hb.2.imp a3.trans a3.trans
        · exact .inr a3
    · have h1k : K1 k := hk.resolve_right h2k
      obtain ⟨a, b⟩ := h2.out k r hr h2k
      obtain ⟨b1, b2⟩ := h1.said k r a h1k
      refine ⟨fun c out hc hck => ?_, fun hno => ?_⟩
      · rcases List.mem_append.1 hc with hc | hc
        · exact b.trans (b1 c out hc hck)
        · exact absurd hck (none2 h2k c out hc)
      · obtain ⟨c1, c2⟩ := b2 (fun c out hc => hno c out (List.mem_append_left _ hc))
        exact ⟨c1, c2.imp b.trans b.trans⟩

theorem StatTo.mono (h : StatTo A sid K1 evs w w') (hK : ∀ k, K1 k → K2 k) : StatTo A sid K2 evs w w' where
  calls c out hc := by obtain ⟨k, a, b⟩ := h.calls c out hc; exact ⟨k, a, hK k b⟩
  out k r hr hk := h.out k r hr (fun h => hk (hK k h))
  said k r hr hk := by
    by_cases h1 : K1 k
    · exact h.said k r hr h1
    · obtain ⟨a, b⟩ := h.out k r hr h1
      refine .idle (fun c out hc hck => ?_) a (.inl b)
      obtain ⟨k', a, b⟩ := h.calls c out hc
      rw [hck.unique a] at h1; exact h1 b

/-- Steps that touch neither the store nor statuses, and make no call. -/
theorem StatTo.calm (hn : ∀ c out, Event.call c out ∉ evs) (hf : ∀ t u r, findRef w' sid t u = some r → findRef w sid t u = some r) (hs : SameStat w w')
    (hr : RefsLt w) : StatTo A sid K evs w w' where
  calls c out hc := absurd hc (hn c out)
  out k r h _ := ⟨hf _ _ _ h, hs.stat r (hr _ _ _ _ (hf _ _ _ h))⟩
  said k r h _ := .idle (fun c out hc => absurd hc (hn c out)) (hf _ _ _ h) (.inl (hs.stat r (hr _ _ _ _ (hf _ _ _ h))))
end

/-! ## one element -/

theorem setattrs_fields (m : Model V) (d : Dict V) (h : ∀ k ∈ Dict.keys d, k ∈ m.cls.fieldNames) : (m.setattrs d).2 = none := by
  induction d generalizing m with
  | nil => rfl
  | cons p d ih =>
    obtain ⟨k, v⟩ := p
    have hk := h k (by simp)
    have hs : m.setattr k v = .ok { m with vals := Dict.set m.vals k v } := by
      unfold Model.setattr; rw [if_pos (by simpa using hk)]
    unfold Model.setattrs
    rw [hs]
    exact ih { m with vals := Dict.set m.vals k v } (fun x hx => h x (List.mem_cons_of_mem _ hx))

section
variable {S : SyncCtx V E} {X : Key → Prop} {Gr : Key → Key → Prop} {SkipK : Key → Prop} {Fin : Event V → Prop} {b : Ref}
  {e : Elem V} {parent dst : Option Ref} {c : ModelClass V} {u : String} {sk nat : Bool} {w w1 : World V E} {sid : Nat}

theorem applyStore_find (hA : S.dst.ref.store = .local sid) {a : Option Action} {r : Ref} {skip : Bool} {w w' : World V E} {res : Except Err Unit}
    (h : applyStore S a parent r skip w = (res, w')) {t u : String} {r' : Ref} (hf : findRef w' sid t u = some r') :
    findRef w sid t u = some r' ∨ (a = some .create ∧ r' = r) := by
  have hw' : w' = (applyStore S a parent r skip w).2 := by rw [h]
  subst hw'
  clear h
  have hadd : ∀ w2 : World V E, findRef (add S.dst r w2).2 sid t u = some r' → findRef w2 sid t u = some r' ∨ r' = r := by
    intro w2 h2
    cases hx : findRef w2 sid (w2.heap r).m.type (w2.heap r).m.uid with
    | some r0 =>
      obtain ⟨w3, e3, _, t3, _⟩ := add_local_some (A := S.dst) hA r r0 w2 hx
      have : (add S.dst r w2).2 = w3 := by rw [e3]; split <;> rfl
      rw [this] at h2
      unfold findRef at h2 ⊢
      rw [t3] at h2
      exact .inl h2
    | none =>
      obtain ⟨w3, e3, _, t3, _⟩ := add_local_none (A := S.dst) hA r w2 hx
      rw [e3, t3.findRef] at h2
      split at h2
      · cases h2; exact .inr rfl
      · exact .inl h2
  have hrem : ∀ w2 : World V E, findRef (remove S.dst S.rlimit r skip w2).2 sid t u = some r' → findRef w2 sid t u = some r' := by
    intro w2 h2
    have := (remove_removed (A := S.dst) hA (fun _ => True) skip S.rlimit r w2 trivial (fun _ _ _ => trivial) (fun _ _ _ _ _ _ => ⟨trivial, fun _ _ => trivial⟩)).1.mine t u
    rcases this with h3 | ⟨h3, _⟩
    · rw [← h3]; exact h2
    · rw [h3] at h2; cases h2
  unfold applyStore withParent at hf
  cases a with
  | none => exact .inl hf
  | some a =>
    cases a with
    | update => exact .inl hf
    | create =>
      cases parent with
      | none => exact (hadd w hf).imp id (fun h => ⟨rfl, h⟩)
      | some p =>
        dsimp only at hf
        have e := addChildRef_eq p r w
        cases hm : (w.heap p).m.addChild (w.heap r).m.type (w.heap r).m.uid with
        | error x => rw [hm] at e; rw [M.bind_err e] at hf; exact .inl hf
        | ok m =>
          rw [hm] at e; rw [M.bind_ok e] at hf
          exact (hadd _ hf).imp id (fun h => ⟨rfl, h⟩)
    | delete =>
      cases parent with
      | none => exact .inl (hrem w hf)
      | some p =>
        dsimp only at hf
        have e := removeChildRef_eq p r w
        cases hm : (w.heap p).m.removeChild (w.heap r).m.type (w.heap r).m.uid with
        | error x => rw [hm] at e; rw [M.bind_err e] at hf; exact .inl hf
        | ok m =>
          rw [hm] at e; rw [M.bind_ok e] at hf
          have := hrem _ hf
          exact .inl this

theorem CallEff.tbl {a : Action} {dst : Option Ref} {attrs : Dict V} {out : Outcome} {w w' : World V E} (h : CallEff a dst attrs out w w') : TblSame w w' := by
  unfold CallEff at h
  split at h
  · split at h
    · exact h.tbl_eq
    · exact h.tbl_eq
  · exact h.tbl_eq

theorem Own.tbl {c : ModelClass V} {ids attrs : Dict V} {w w' : World V E} {a : Option Action} {dst : Option Ref}
    {evs : List (Event V)} {res : Except Err (Bool × Option Ref)} (h : Own S c ids attrs w w' a dst evs res) : TblSame w w' := by
  cases h with
  | idle h => exact h.tbl_eq
  | stale _ h => exact h.tbl_eq
  | crud _ _ _ _ h => exact h.tbl
  | fatal _ _ _ _ h => exact h.tbl
  | failed _ _ _ h => exact h.tbl
  | created _ _ _ h => exact h.tbl_eq
  | kept _ _ _ _ h => exact h.tbl

/-- `sync_model` makes the call that belongs to the action, if there is one, and no other. -/
theorem Own.calls {c : ModelClass V} {ids attrs : Dict V} {w w' : World V E} {a : Option Action} {dst : Option Ref}
    {evs : List (Event V)} {res : Except Err (Bool × Option Ref)} (h : Own S c ids attrs w w' a dst evs res) (call : CrudCall V) (out : Outcome) :
    Event.call call out ∈ evs ↔ ∃ x, a = some x ∧ callFor c x (dst.map (fun r => (w.heap r).m)) ids attrs = some call ∧ out = (S.hooks w.env call).1 := by
  cases h with
  | idle => split <;> simp
  | stale h => simp [h]
  | crud h h2 =>
    simp only [List.mem_cons, List.not_mem_nil, or_false, Event.call.injEq, reduceCtorEq, Option.some.injEq, exists_eq_left', h]
    constructor
    · rintro ⟨rfl, rfl⟩; exact ⟨rfl, by rw [h2]⟩
    · rintro ⟨rfl, rfl⟩; exact ⟨rfl, by rw [h2]⟩
  | fatal h h2 =>
    simp only [List.mem_cons, List.not_mem_nil, or_false, Event.call.injEq, reduceCtorEq, Option.some.injEq, exists_eq_left', h]
    constructor
    · rintro ⟨rfl, rfl⟩; exact ⟨rfl, by rw [h2]⟩
    · rintro ⟨rfl, rfl⟩; exact ⟨rfl, by rw [h2]⟩
  | failed h h2 =>
    simp only [List.mem_cons, List.not_mem_nil, or_false, Event.call.injEq, reduceCtorEq, Option.some.injEq, exists_eq_left', h]
    constructor
    · rintro ⟨rfl, rfl⟩; exact ⟨rfl, by rw [h2]⟩
    · rintro ⟨rfl, rfl⟩; exact ⟨rfl, by rw [h2]⟩
  | created h2 =>
    simp only [List.mem_cons, List.not_mem_nil, or_false, Event.call.injEq, reduceCtorEq, Option.some.injEq, exists_eq_left', Option.map_none, callFor]
    constructor
    · rintro ⟨rfl, rfl⟩; exact ⟨rfl, by rw [h2]⟩
    · rintro ⟨rfl, rfl⟩; exact ⟨rfl, by rw [h2]⟩
  | kept h h2 =>
    simp only [List.mem_cons, List.not_mem_nil, or_false, Event.call.injEq, reduceCtorEq, Option.some.injEq, exists_eq_left', Option.map_some, h]
    constructor
    · rintro ⟨rfl, rfl⟩; exact ⟨rfl, by rw [h2]⟩
    · rintro ⟨rfl, rfl⟩; exact ⟨rfl, by rw [h2]⟩

theorem GAtBody.key (at1 : GAtBody S Gr SkipK X Fin b e parent dst c u sk nat w1) {x : Action} (hx : w1.sact = some x) {call : CrudCall V}
    (h : callFor (w1.scls.getD c) x (dst.map (fun r => (w1.heap r).m)) e.keys (e.plus.getD []) = some call) : CallKey S.dst call (e.type, u) := by
  have hname : c.name = e.type := at1.env.valid.names _ _ at1.cls
  cases hd : dst with
  | none =>
    rw [hd] at h
    cases x with
    | create =>
      cases h
      rcases at1.mode with ⟨_, h2, _⟩ | ⟨h2, _⟩
      · rw [h2]
        show ∃ _ _, _
        exact ⟨c, u, by rw [Option.getD_some, hname]; exact at1.cls, at1.uid, by rw [Option.getD_some, hname]⟩
      · rw [at1.act, h2] at hx; cases hx
    | update => cases h
    | delete => cases h
  | some r =>
    rw [hd] at h
    have hk := (at1.found r hd).2.1
    cases x with
    | create => cases h
    | update => cases h; exact hk.symm
    | delete => cases h; exact hk.symm

/-- The statuses by the time `sync_model` and the bookkeeping in the store are done. -/
theorem GAtBody.stat (at1 : GAtBody S Gr SkipK X Fin b e parent dst c u sk nat w1) (hA : S.dst.ref.store = .local sid)
    (hfind : ∀ r, findRef w1 sid e.type u = some r → dst = some r ∧ w1.stat r = (.unknown, ""))
    {w2 w3 : World V E} {evs evs' : List (Event V)} {res : Except Err (Bool × Option Ref)}
    (o : Own S (w1.scls.getD c) e.keys (e.plus.getD []) w1 w2 w1.sact dst evs res)
    (hrun : syncModel S (w1.scls.getD c) w1.sact dst e.keys (e.plus.getD []) w1 = (res, w2))
    (hw3 : SameStat w2 w3) (hev : ∀ c out, Event.call c out ∉ evs')
    (f : GFr S.dst b (fun _ k => k = (e.type, u)) (fun p => parent = some p) X Gr SkipK w1 w3)
    (hf3 : ∀ t u r, findRef w3 sid t u = some r → findRef w2 sid t u = some r ∨ (w1.sact = some .create ∧ ∃ ch, res = .ok (ch, some r))) :
    StatTo S.dst sid (· = (e.type, u)) (evs ++ evs') w1 w3 := by
  have hi := (GInv.local hA).1 at1.inv
  have hset : ∀ r, dst = some r → w1.sact = some .update → ((w1.heap r).m.setattrs (e.plus.getD [])).2 = none := by
    intro r hr ha
    refine setattrs_fields _ _ (fun k hk => ?_)
    rw [(at1.found r hr).2.2.1]
    exact (at1.env.valid.valid _ _ at1.cls).attrs_fields k (at1.env.plain e (inTree_self e) (at1.act.symm.trans ha) c at1.cls k hk)
  have ms := syncModel_stat S (w1.scls.getD c) w1.sact dst e.keys (e.plus.getD []) w1 hset
  rw [hrun] at ms
  dsimp only at ms
  have hev' : ∀ c out, Event.call c out ∈ evs ++ evs' ↔ Event.call c out ∈ evs := fun c out => by
    rw [List.mem_append]; exact ⟨fun h => h.resolve_right (hev c out), .inl⟩
  have hlt : ∀ {t u r}, findRef w1 sid t u = some r → r < w1.next := fun h => hi.ok.refs_lt _ _ _ _ h
  have hn : w1.next ≤ w2.next := o.grows.next_le
  have huniq : ∀ {x call}, w1.sact = some x → callFor (w1.scls.getD c) x (dst.map (fun r => (w1.heap r).m)) e.keys (e.plus.getD []) = some call →
      ∀ c' out', Event.call c' out' ∈ evs ++ evs' → c' = call ∧ out' = (S.hooks w1.env call).1 := by
    intro x call hx hcf c' out' hc
    obtain ⟨y, hy, h4, h5⟩ := (o.calls c' out').1 ((hev' _ _).1 hc)
    rw [hx] at hy; cases hy
    rw [hcf] at h4; cases h4
    exact ⟨rfl, h5⟩
  constructor
  · intro call out hc
    obtain ⟨x, hx, h1, _⟩ := (o.calls call out).1 ((hev' _ _).1 hc)
    exact ⟨_, at1.key hx h1, rfl⟩
  · intro k r hr hk
    obtain ⟨_, _, fr, _⟩ := (GFr.local hA).1 f
    have h1 := (fr.come k.1 k.2 r hr).resolve_right (fun h => hk h.2.1)
    refine ⟨h1, ?_⟩
    rw [hw3.stat r (Nat.lt_of_lt_of_le (hlt h1) hn)]
    refine ms.others r (hlt h1) (fun hd => hk ?_)
    rw [← (at1.found r hd).2.1]
    obtain ⟨k1, k2⟩ := hi.ok.key_ok _ _ _ _ h1
    exact Prod.ext k1.symm k2.symm
  · rintro k r hr rfl
    rcases hf3 _ _ _ hr with h2 | ⟨ha, ch, hres⟩
    · have h1 : findRef w1 sid e.type u = some r := by
        unfold findRef at h2 ⊢; rw [← o.tbl]; exact h2
      obtain ⟨hd, hst⟩ := hfind r h1
      have h3 := hw3.stat r (Nat.lt_of_lt_of_le (hlt h1) hn)
      cases ha : w1.sact with
      | none =>
        refine .idle (fun call out hc => ?_) h1 (.inl (h3.trans (ms.idle r hd ha)))
        obtain ⟨x, hx, _⟩ := (o.calls call out).1 ((hev' _ _).1 hc)
        rw [ha] at hx; cases hx
      | some x =>
        cases hcf : callFor (w1.scls.getD c) x (some (w1.heap r).m) e.keys (e.plus.getD []) with
        | none =>
          refine .idle (fun call out hc => ?_) h1 (.inl (h3.trans (ms.stale r x hd ha hcf)))
          obtain ⟨y, hy, h4, _⟩ := (o.calls call out).1 ((hev' _ _).1 hc)
          rw [ha] at hy; cases hy
          rw [hd] at h4; rw [show Option.map _ (some r) = some (w1.heap r).m from rfl, hcf] at h4; cases h4
        | some call =>
          have hcf' : callFor (w1.scls.getD c) x (dst.map (fun r => (w1.heap r).m)) e.keys (e.plus.getD []) = some call := by rw [hd]; exact hcf
          refine .did ((hev' _ _).2 ((o.calls call _).2 ⟨x, ha, hcf', rfl⟩)) (at1.key ha hcf') (huniq ha hcf') ?_
          rw [h3, (ms.called r x call hd ha hcf (fun hx => hset r hd (by rw [ha, hx]))).1, hst]
          unfold statusAfter
          have : call.act ≠ .create := by
            cases x with
            | create => cases hcf
            | update => cases hcf; exact fun h => by cases h
            | delete => cases hcf; exact fun h => by cases h
          simp [this]
    · have hd : dst = none := by
        rw [ha, hres] at o
        rcases o.fate with ⟨h, _⟩ | ⟨h, _⟩ | ⟨_, h, _⟩ | ⟨h, _⟩
        · cases h
        · cases h
        · exact h
        · cases h
      have hcf' : callFor (w1.scls.getD c) .create (dst.map (fun r => (w1.heap r).m)) e.keys (e.plus.getD []) = some (.create (w1.scls.getD c).name e.keys (e.plus.getD [])) := by rw [hd]; rfl
      have hr2 : r < w2.next := by rw [hres] at o; exact o.ref_lt (fun r hr => (at1.found r hr).1)
      refine .did ((hev' _ _).2 ((o.calls _ _).2 ⟨.create, ha, hcf', rfl⟩)) (at1.key ha hcf') (huniq ha hcf') ?_
      rw [hw3.stat r hr2, ms.created ch r hres hd ha]
      unfold statusAfter
      simp [CrudCall.act, CrudCall.doneMsg]

/-- The keys of the elements of a list and below. -/
def KeyIn (A : Adapter V) (l : List (Elem V)) (k : Key) : Prop := ∃ x, InTree x l ∧ ElemKey A x k

/-- The statuses from `w` to `w'`, for the events between them. -/
def StatBy (A : Adapter V) (sid : Nat) (K : Key → Prop) (w w' : World V E) : Prop := ∃ evs, w'.trace = w.trace ++ evs ∧ StatTo A sid K evs w w'

theorem StatBy.trans {A : Adapter V} {K K1 K2 : Key → Prop} {w w1 w' : World V E} (h1 : StatBy A sid K1 w w1) (h2 : StatBy A sid K2 w1 w')
    (hd : ∀ k, K1 k → ¬ K2 k) (hK : ∀ k, K1 k ∨ K2 k → K k) : StatBy A sid K w w' := by
  obtain ⟨evs1, t1, s1⟩ := h1
  obtain ⟨evs2, t2, s2⟩ := h2
  exact ⟨evs1 ++ evs2, by rw [t2, t1, List.append_assoc], (s1.trans s2 (fun k a b => absurd b (hd k a))).mono hK⟩

/-- A first part without events. -/
theorem StatBy.after {A : Adapter V} {K1 K : Key → Prop} {w w1 w' : World V E} (h1 : StatTo A sid K1 [] w w1) (ht : w1.trace = w.trace) (h2 : StatBy A sid K w1 w')
    (hK : ∀ k, K1 k → K k) : StatBy A sid K w w' := by
  obtain ⟨evs2, t2, s2⟩ := h2
  exact ⟨evs2, by rw [t2, ht], (h1.trans s2 (fun _ _ _ _ _ h => by cases h)).mono (fun k h => h.elim (hK k) id)⟩

theorem StatBy.mono {A : Adapter V} {K1 K2 : Key → Prop} {w w' : World V E} (h : StatBy A sid K1 w w') (hK : ∀ k, K1 k → K2 k) : StatBy A sid K2 w w' := by
  obtain ⟨evs, t, s⟩ := h
  exact ⟨evs, t, s.mono hK⟩

theorem StatBy.refl {A : Adapter V} {K : Key → Prop} (w : World V E) : StatBy A sid K w w := ⟨[], by simp, StatTo.refl w⟩

theorem syncElem_stat (hreo : S.dc.Reorders) (hA : S.dst.ref.store = .local sid) (n : Nat) : ∀ (e : Elem V) (parent : Option Ref) (w w' : World V E) (res : Except Err Bool),
    syncElem S n e parent w = (res, w') → FrameEnv S.dst Gr SkipK X Fin [e] → GInv S.dst Gr SkipK w → b ≤ w.next →
    (∀ k, ElemKey S.dst e k → GPar S.dst b Gr parent k w) → DistinctKeys S.dst [e] → NewIn Fin w w' → StatBy S.dst sid (KeyIn S.dst [e]) w w' := by
  induction n with
  | zero =>
    intro e parent w w' res h _ _ _ _ _ _
    cases h
    exact .refl _
  | succ n ih =>
    intro e parent w w' res h env hi hb hpar hD hfin
    have hw : RefsLt w := hi.refs
    have hs := syncElem_gstep (S := S) n e parent w hw
    rw [h] at hs
    dsimp only at hs
    -- lists of children
    have kids' : ∀ {q acc l w1 w2 y}, KidsRun (fun k w w' res => syncElem S n k q w = (res, w') ∧ NewIn Fin w w') l acc w1 w2 y →
        (∀ k ∈ l, k ∈ e.kids) → GInv S.dst Gr SkipK w1 → b ≤ w1.next →
        (∀ k ∈ e.kids, ∀ x, ElemKey S.dst k x → GPar S.dst b Gr q x w1) → DistinctKeys S.dst l →
        GFr S.dst b (keysOf S.dst l) (fun p => q = some p) X Gr SkipK w1 w2 ∧ StatBy S.dst sid (KeyIn S.dst l) w1 w2 := by
      intro q acc l w1 w2 y hk
      induction hk with
      | nil =>
        intro _ hi1 hb1 _ _
        exact ⟨GFr.refl hb1 hi1, .refl _⟩
      | @err k l acc w1 w2 x h1 =>
        intro hmem hi1 hb1 hq hd
        have hkk := hmem k (by simp)
        have hsub : ∀ x, InTree x [k] → InTree x (k :: l) := fun x hx => hx.mono (fun _ h => by rw [List.mem_singleton] at h; simp [h])
        refine ⟨?_, ?_⟩
        · exact (syncElem_fr (S := S) (b := b) n k q w1 w2 _ h1.1 (env.kid hkk) hi1 hb1 (hq k hkk) h1.2).mono
            (fun a x ⟨z, g1, g2⟩ => ⟨z, hsub z g1, g2⟩) (fun _ h => h)
        · exact (ih k q w1 w2 _ h1.1 (env.kid hkk) hi1 hb1 (hq k hkk) hd.cons.1 h1.2).mono (fun x ⟨z, g1, g2⟩ => ⟨z, hsub z g1, g2⟩)
      | @cons k l acc w1 w3 w4 bb res h1 h2 ih2 =>
        intro hmem hi1 hb1 hq hd
        have hkk := hmem k (by simp)
        have hsub : ∀ x, InTree x [k] → InTree x (k :: l) := fun x hx => hx.mono (fun _ h => by rw [List.mem_singleton] at h; simp [h])
        have hsub2 : ∀ x, InTree x l → InTree x (k :: l) := fun x hx => hx.mono (fun _ h => by simp [h])
        have f := syncElem_fr (S := S) (b := b) n k q w1 w3 _ h1.1 (env.kid hkk) hi1 hb1 (hq k hkk) h1.2
        have d1 := ih k q w1 w3 _ h1.1 (env.kid hkk) hi1 hb1 (hq k hkk) hd.cons.1 h1.2
        obtain ⟨f2, d2⟩ := ih2 (fun k' hk' => hmem k' (by simp [hk'])) f.inv (Nat.le_trans hb1 f.next_le)
          (fun k' hk' x hx => f.par (hq k' hk' x hx)) hd.cons.2.1
        refine ⟨(f.mono (fun a x ⟨z, g1, g2⟩ => ⟨z, hsub z g1, g2⟩) (fun _ h => h)).trans
          (f2.mono (fun a x ⟨z, g1, g2⟩ => ⟨z, hsub2 z g1, g2⟩) (fun _ h => h)) hb1, d1.trans d2 ?_ ?_⟩
        · rintro kx ⟨z, g1, g2⟩ ⟨z', g1', g2'⟩
          exact hd.cons.2.2 z kx g1 g2 z' g1' g2'
        · rintro kx (⟨z, g1, g2⟩ | ⟨z, g1, g2⟩)
          · exact ⟨z, hsub z g1, g2⟩
          · exact ⟨z, hsub2 z g1, g2⟩
    have kids := fun {q acc l w1 w2 y} (hk : KidsRun (fun k w w' res => syncElem S n k q w = (res, w')) l acc w1 w2 y) hm (hi1 : GInv S.dst Gr SkipK w1) hb1 hq hd (hf : NewIn Fin w1 w2) =>
      kids' (kidsRun_fin (S := S) n hk hi1.refs hf) hm hi1 hb1 hq hd
    have hgc : ∀ k ∈ getChildren S.dc e.kids, k ∈ e.kids := fun k hk => mem_of_getChildren hk
    have hgD : DistinctKeys S.dst (getChildren S.dc e.kids) ∧ ∀ k, ElemKey S.dst e k → ∀ x, InTree x (getChildren S.dc e.kids) → ¬ ElemKey S.dst x k := by
      obtain ⟨h1, h2⟩ := hD.kids
      have hp := getChildren_perm hreo e.kids
      exact ⟨h1.perm hp.symm, fun k hk x hx => h2 k hk x (hx.mono (fun y hy => hp.mem_iff.1 hy))⟩
    have hgT : ∀ k, KeyIn S.dst (getChildren S.dc e.kids) k → KeyIn S.dst [e] k := fun k ⟨x, hx, hk⟩ => ⟨x, .under (by simp) (hx.mono hgc), hk⟩
    -- the part from `sync_model` on
    have body : ∀ {c u dst nat sk w1}, GAtBody S Gr SkipK X Fin b e parent dst c u sk nat w1 →
        (∀ r, findRef w1 sid e.type u = some r → dst = some r ∧ w1.stat r = (.unknown, "")) →
        Body S (fun q k w w' res => syncElem S n k q w = (res, w')) e c parent dst nat sk w1 w' res → NewIn Fin w1 w' →
        StatBy S.dst sid (KeyIn S.dst [e]) w1 w' ∧ (nat = true → sk = false → e.action = some .delete → StatBy S.dst sid (· = (e.type, u)) w1 w') := by
      intro c u dst nat sk w1 at1 hfd hbody hf1
      have hlt : ∀ r, dst = some r → r < w1.next := fun r hr => (at1.found r hr).1
      have hb1 := at1.le
      have hek : ElemKey S.dst e (e.type, u) := ⟨c, u, at1.cls, at1.uid, rfl⟩
      have hself : ∀ k, k = (e.type, u) → KeyIn S.dst [e] k := fun k hk => ⟨e, inTree_self e, hk ▸ hek⟩
      have quiet : ∀ {w2 w3 : World V E} {r y}, r < w2.next → applyStore S w1.sact parent r sk w2 = (y, w3) →
          (∃ ws, w3.trace = w2.trace ++ ws ∧ ChildWarn ws) ∧ SameStat w2 w3 := by
        intro w2 w3 r y hr hap
        obtain ⟨_, _, q2, _⟩ := applyStore_calm (S := S) w1.sact parent r sk w2 hr
        have q3 := applyStore_stat S w1.sact parent r sk w2
        rw [hap] at q2 q3
        exact ⟨q2, q3⟩
      have stored : ∀ {w2 w3 : World V E} {ch r y}, applyStore S w1.sact parent r sk w2 = (y, w3) → ∀ t u r', findRef w3 sid t u = some r' →
          findRef w2 sid t u = some r' ∨ (w1.sact = some .create ∧ ∃ ch', (Except.ok (ch, some r) : Except Err (Bool × Option Ref)) = .ok (ch', some r')) :=
        fun hap t u r' hr' => (applyStore_find hA hap hr').imp id (fun ⟨h1, h2⟩ => ⟨h1, _, by rw [h2]⟩)
      cases hbody with
      | @raised evs x o _ ht hm =>
        have f := at1.own (K := fun _ k => k = (e.type, u)) rfl o ht
        have st := at1.stat hA hfd (evs' := []) o hm (SameStat.refl _) (fun _ _ h => by cases h) f (fun _ _ _ h => .inl h)
        have sb : StatBy S.dst sid (· = (e.type, u)) w1 w' := ⟨evs ++ [], by rw [ht]; simp, st⟩
        exact ⟨sb.mono hself, fun _ _ _ => sb⟩
      | @noObject evs w2 ch o _ ht hw' hm =>
        subst hw'
        have fo := at1.own (K := fun _ k => k = (e.type, u)) rfl o ht
        have f := fo.trans ((Still.emit w2 [.noObject w2.slog]).gfr rfl (Nat.le_trans hb1 fo.next_le) fo.inv) hb1
        have st := at1.stat hA hfd (w3 := { w2 with trace := w2.trace ++ [.noObject w2.slog] }) (evs' := [Event.noObject w2.slog]) o hm (SameStat.of_eq rfl rfl) (fun _ _ h => by simp at h) f (fun _ _ _ h => .inl h)
        have sb : StatBy S.dst sid (· = (e.type, u)) w1 _ := ⟨_, by show w2.trace ++ [_] = _; rw [ht, List.append_assoc], st⟩
        exact ⟨sb.mono hself, fun _ _ _ => sb⟩
      | @storeFail evs w2 x ch r o _ ht hap hm =>
        obtain ⟨⟨ws, q1, q2⟩, q3⟩ := quiet (o.ref_lt hlt) hap
        have f13 := (at1.store (K := fun _ k => k = (e.type, u)) rfl o ht (hf1.left ⟨ws, q1⟩ _ ht)).1
        rw [hap] at f13
        have st := at1.stat hA hfd (evs' := ws) o hm q3 q2.noCalls f13 (stored hap)
        have sb : StatBy S.dst sid (· = (e.type, u)) w1 w' := ⟨_, by rw [q1, ht, List.append_assoc], st⟩
        exact ⟨sb.mono hself, fun _ _ _ => sb⟩
      | @shortcut evs w2 ch r o _ ht hap _ hsk hm =>
        obtain ⟨⟨ws, q1, q2⟩, q3⟩ := quiet (o.ref_lt hlt) hap
        have f13 := (at1.store (K := fun _ k => k = (e.type, u)) rfl o ht (hf1.left ⟨ws, q1⟩ _ ht)).1
        rw [hap] at f13
        have st := at1.stat hA hfd (evs' := ws) o hm q3 q2.noCalls f13 (stored hap)
        have sb : StatBy S.dst sid (· = (e.type, u)) w1 w' := ⟨_, by rw [q1, ht, List.append_assoc], st⟩
        exact ⟨sb.mono hself, fun _ _ _ => sb⟩
      | @leaf evs w2 w3 ch r o _ ht hap _ hsk hnt hw' hm =>
        subst hw'
        obtain ⟨⟨ws, q1, q2⟩, q3⟩ := quiet (o.ref_lt hlt) hap
        have f13 := (at1.store (K := fun _ k => k = (e.type, u)) rfl o ht (hf1.left (TrExt.trans ⟨ws, q1⟩ ⟨[.syncProgress (w3.sproc + 1) w3.stotal], rfl⟩) _ ht)).1
        rw [hap] at f13
        have ft := (tick_still w3).gfr (b := b) (K := fun _ k => k = (e.type, u)) (P := fun p => parent = some p) (X := X) (evs := [.syncProgress (w3.sproc + 1) w3.stotal]) rfl (Nat.le_trans hb1 f13.next_le) f13.inv
        have st := at1.stat hA hfd (w3 := w3.tick) (evs' := ws ++ [Event.syncProgress (w3.sproc + 1) w3.stotal]) o hm (q3.trans (SameStat.of_eq rfl rfl))
          (fun c out h => (List.mem_append.1 h).elim (q2.noCalls c out) (fun h => by simp at h)) (f13.trans ft hb1) (fun t u r' hr' => stored hap t u r' hr')
        have sb : StatBy S.dst sid (· = (e.type, u)) w1 w3.tick := ⟨_, by show w3.trace ++ [_] = _; rw [q1, ht]; simp, st⟩
        exact ⟨sb.mono hself, fun _ _ _ => sb⟩
      | @kids evs w2 w3 ch r res o _ ht hap hcon hk hm =>
        obtain ⟨⟨ws, q1, q2⟩, q3⟩ := quiet (o.ref_lt hlt) hap
        have g4 := applyStore_grows (S := S) w1.sact parent r sk w2 (o.ref_lt hlt)
        rw [hap] at g4
        have x3 : TrExt w2 w3.tick := TrExt.trans ⟨ws, q1⟩ ⟨[.syncProgress (w3.sproc + 1) w3.stotal], rfl⟩
        have x4 : TrExt w3.tick w' := kidsRun_ext (S := S) n (syncElem_ext (S := S) n) hk ((tick_still w3).grows.refs (g4.refs (o.grows.refs at1.inv.refs)))
        obtain ⟨f13, hr, hrk, hrc, hro, hrb⟩ := at1.store (K := fun _ k => k = (e.type, u)) rfl o ht (hf1.left (x3.trans x4) _ ht)
        rw [hap] at f13 hr hrk hrc
        have f3 := f13.trans ((tick_still w3).gfr (evs := [.syncProgress (w3.sproc + 1) w3.stotal]) rfl (Nat.le_trans hb1 f13.next_le) f13.inv) hb1
        have st := at1.stat hA hfd (w3 := w3.tick) (evs' := ws ++ [Event.syncProgress (w3.sproc + 1) w3.stotal]) o hm (q3.trans (SameStat.of_eq rfl rfl))
          (fun c out h => (List.mem_append.1 h).elim (q2.noCalls c out) (fun h => by simp at h)) f3 (fun t u r' hr' => stored hap t u r' hr')
        have sb : StatBy S.dst sid (· = (e.type, u)) w1 w3.tick := ⟨_, by show w3.trace ++ [_] = _; rw [q1, ht]; simp, st⟩
        obtain ⟨_, dk⟩ := kids hk hgc f3.inv (Nat.le_trans hb1 f3.next_le) (at1.par_kids (w3 := w3.tick) hr hrk hrc hrb) hgD.1
          (hf1.right (TrExt.trans ⟨evs, ht⟩ x3))
        refine ⟨sb.trans dk ?_ (fun k hk => hk.elim (hself k) (hgT k)), fun h1 h2 h3 => by rw [(hcon (at1.act.trans h3)).1] at h1; cases h1⟩
        rintro k rfl ⟨x, hx, hxk⟩
        exact hgD.2 _ hek x hx hxk
    have enter : ∀ {c u dst w1}, GEntered S e c u dst w w1 → GFr S.dst b (fun _ _ => False) (fun _ => False) X Gr SkipK w w1 :=
      fun {c u dst w1} ent => ent.still.gfr (evs := []) (by rw [ent.trace]; simp) hb hi
    have enterS : ∀ {c u dst w1}, GEntered S e c u dst w w1 → StatTo S.dst sid (· = (e.type, u)) [] w w1 ∧
        (∀ r, findRef w1 sid e.type u = some r → dst = some r ∧ w1.stat r = (.unknown, "")) := by
      intro c u dst w1 ent
      have hname : c.name = e.type := env.valid.names _ _ ent.cls
      have hd := ent.dst
      unfold DstAt at hd
      rw [hA] at hd
      dsimp only at hd
      rw [hname] at hd
      have hff : ∀ t u, findRef w1 sid t u = findRef w sid t u := fun t u => by unfold findRef; rw [ent.still.tbl_eq]
      have hok := ((GInv.local hA).1 hi).ok
      refine ⟨⟨fun _ _ h => (by cases h), fun k r hr hk => ?_, fun k r hr hk => ?_⟩, fun r hr => ?_⟩
      · rw [hff] at hr
        refine ⟨hr, ent.stat.1 r (hw _ _ _ _ hr) (fun hdr => hk ?_)⟩
        obtain ⟨k1, k2⟩ := hok.key_ok _ _ _ _ hr
        obtain ⟨k3, k4⟩ := hok.key_ok _ _ _ _ (hd.symm.trans hdr)
        exact Prod.ext (k1.symm.trans k3) (k2.symm.trans k4)
      · subst hk
        rw [hff] at hr
        exact .idle (fun _ _ h => (by cases h)) hr (.inr (ent.stat.2 r (hd.trans hr)))
      · rw [hff] at hr
        exact ⟨hd.trans hr, ent.stat.2 r (hd.trans hr)⟩
    cases hs with
    | noClass _ hw' => subst hw'; exact .refl _
    | noKey _ _ hw' => subst hw'; exact .refl _
    | @natFail c u dst w1 x ent h1 h2 h3 hk =>
      have f1 := enter ent
      obtain ⟨_, dk⟩ := kids hk hgc f1.inv (Nat.le_trans hb f1.next_le) (ent.par_kids env hi hb) hgD.1 (hfin.right (.of_eq ent.trace))
      exact .after (enterS ent).1 ent.trace (dk.mono hgT) (fun k hk => ⟨e, inTree_self e, hk ▸ ⟨c, u, ent.cls, ent.uid, rfl⟩⟩)
    | @natural c u dst w1 w2 bb _ ent h1 h2 hact hk hbody =>
      have f1 := enter ent
      have hek : ElemKey S.dst e (e.type, u) := ⟨c, u, ent.cls, ent.uid, rfl⟩
      have hself : ∀ k, k = (e.type, u) → KeyIn S.dst [e] k := fun k hk => ⟨e, inTree_self e, hk ▸ hek⟩
      obtain ⟨hat, hdd, hd0⟩ := ent.facts (b := b) env.valid hi hb
      have hw1 := ent.still.grows.refs hw
      have gk := kidsRun_grows (S := S) n hk hw1
      have x1 : TrExt w1 w2 := kidsRun_ext (S := S) n (syncElem_ext (S := S) n) hk hw1
      have x2 : TrExt w2 w' := body_ext (S := S) n hbody (gk.refs hw1) (fun r hr => Nat.lt_of_lt_of_le (hdd r hr).1 gk.next_le)
      obtain ⟨fk, dk⟩ := kids hk hgc f1.inv (Nat.le_trans hb f1.next_le) (ent.par_kids env hi hb) hgD.1 ((hfin.left x2).right (.of_eq ent.trace))
      have at2 : GAtBody S Gr SkipK X Fin b e parent dst c u false true w2 := by
        refine ⟨env, ent.cls, ent.uid, fk.inv, Nat.le_trans (Nat.le_trans hb f1.next_le) fk.next_le, fk.par (f1.par (hpar _ hek)),
          (kidsRun_del_sact n env.del hact hk hw1 (ent.sact.trans hact)).trans hact.symm, ?_, .inr ⟨hact, rfl, rfl⟩⟩
        intro r hr
        obtain ⟨d1, d2, d3, _, d4⟩ := hdd r hr
        obtain ⟨i1, _, i3⟩ := fk.ident r d1
        exact ⟨Nat.lt_of_lt_of_le d1 fk.next_le, i3.trans d2, i1.trans d3, d4⟩
      have hfd : ∀ r, findRef w2 sid e.type u = some r → dst = some r ∧ w2.stat r = (.unknown, "") := by
        intro r hr
        obtain ⟨_, _, s⟩ := dk
        obtain ⟨a1, a2⟩ := s.out (e.type, u) r hr (fun ⟨x, hx, hxk⟩ => hgD.2 _ hek x hx hxk)
        obtain ⟨b1, b2⟩ := (enterS ent).2 r a1
        exact ⟨b1, a2.trans b2⟩
      have sb := (body at2 hfd hbody (hfin.right ((TrExt.of_eq ent.trace).trans x1))).2 rfl rfl hact
      refine .after (enterS ent).1 ent.trace (dk.trans sb ?_ (fun k hk => hk.elim (hgT k) (hself k))) hself
      rintro k ⟨x, hx, hxk⟩ rfl
      exact hgD.2 _ hek x hx hxk
    | @plain c u dst w1 _ ent _ hbody =>
      obtain ⟨hat, hdd, hd0⟩ := ent.facts (b := b) env.valid hi hb
      have f1 := enter ent
      have at1 : GAtBody S Gr SkipK X Fin b e parent dst c u (skipOf dst w1) (natOf dst w1) w1 := by
        refine ⟨env, ent.cls, ent.uid, f1.inv, Nat.le_trans hb f1.next_le, f1.par (hpar _ ⟨c, u, ent.cls, ent.uid, rfl⟩), ent.sact,
          fun r hr => ⟨(hdd r hr).1, (hdd r hr).2.1, (hdd r hr).2.2.1, (hdd r hr).2.2.2.2⟩, .inl ⟨hat, ent.scls, ?_⟩⟩
        intro hsk _
        cases hdst : dst with
        | none => rw [hdst] at hsk; cases hsk
        | some r => rw [hdst] at hsk; exact (hdd r hdst).2.2.2.1 hsk
      exact .after (enterS ent).1 ent.trace (body at1 (enterS ent).2 hbody (hfin.right (.of_eq ent.trace))).1
        (fun k hk => ⟨e, inTree_self e, hk ▸ ⟨c, u, ent.cls, ent.uid, rfl⟩⟩)
end

end DS
