import Verif.Lemmas.SyncFrame
import Verif.Props.SyncFail
/-! What holds of the destination of a sync at every moment, when source and destination can be reconciled. -/
set_option linter.unusedSectionVars false

namespace DS
variable {V E : Type} [PyVal V]

/-- The reference stored under a key. -/
def fr (sid : Nat) (w : World V E) (k : Key) : Option Ref := findRef w sid k.1 k.2

/-- One element of the diff is directly below another. -/
def KE (A : Adapter V) (es : List (Elem V)) (k c : Key) : Prop :=
  ∃ e e', InTree e es ∧ e' ∈ e.kids ∧ ElemKey A e k ∧ ElemKey A e' c

/-- Some element is about this key. -/
def EK (A : Adapter V) (es : List (Elem V)) (k : Key) : Prop := ∃ e, InTree e es ∧ ElemKey A e k

/-- `k` lists `c` on one of the sides. -/
def UE (S D : Key → Option (Model V)) (k c : Key) : Prop := listsO (S k) c.1 c.2 = true ∨ listsO (D k) c.1 c.2 = true

/-- `c` is below `k` in these child lists. -/
inductive Bel (D : Key → Option (Model V)) : Key → Key → Prop where
  | child {k c : Key} : listsO (D k) c.1 c.2 = true → Bel D k c
  | step {k c c' : Key} : Bel D k c → listsO (D c) c'.1 c'.2 = true → Bel D k c'

/-- Every declared child list exists, without repetitions. -/
structure FullKids (m : Model V) : Prop where
  nodup : (Dict.keys m.cls.children).Nodup
  list : ∀ ct f, Dict.get? m.cls.children ct = some f → ∃ l, m.kidList f = some l ∧ l.Nodup

/-- What the elements of the diff have to do with the two sides. -/
structure CEnv (A : Adapter V) (S D : Key → Option (Model V)) (es : List (Elem V)) : Prop where
  valid : A.Valid
  keyed : ∀ e, InTree e es → ∃ k, ElemKey A e k
  dist : DistinctKeys A es
  plain : PlainUpdates A es
  del : DelClosed es
  ids : KeptIds A es
  create : ∀ e k, InTree e es → ElemKey A e k → e.action = some .create → S k ≠ none ∧ D k = none
  delete : ∀ e k, InTree e es → ElemKey A e k → e.action = some .delete → S k = none ∧ D k ≠ none
  update : ∀ e k, InTree e es → ElemKey A e k → e.action = some .update → S k ≠ none ∧ D k ≠ none
  quiet : ∀ e k, InTree e es → ElemKey A e k → e.action = none → S k ≠ none ∧ D k ≠ none
  edge : ∀ k c, KE A es k c → UE S D k c
  declared : ∀ k c cl, KE A es k c → Dict.get? A.classes k.1 = some cl → c.1 ∈ Dict.keys cl.children
  parent : ∀ k k' c, UE S D k c → UE S D k' c → k = k'
  root : ∀ e c, e ∈ es → ElemKey A e c → ∀ k, ¬ UE S D k c
  src_stored : ∀ k c : Key, listsO (S k) c.1 c.2 = true → S c ≠ none
  dst_stored : ∀ k c : Key, listsO (D k) c.1 c.2 = true → D c ≠ none
  src_place : ∀ k c : Key, listsO (S k) c.1 c.2 = true → D c ≠ none → listsO (D k) c.1 c.2 = true
  dst_place : ∀ k c : Key, listsO (D k) c.1 c.2 = true → S c ≠ none → listsO (S k) c.1 c.2 = true
  build : ∀ e c, InTree e es → e.action = some .create → Dict.get? A.classes e.type = some c → ∃ m, c.construct e.keys (e.plus.getD []) = .ok m
  plus_wf : ∀ e, InTree e es → Dict.WF (e.plus.getD [])

section
variable {A : Adapter V} {S D : Key → Option (Model V)} {es : List (Elem V)} {sid : Nat}

theorem CEnv.noloop (h : CEnv A S D es) {k : Key} : ¬ KE A es k k := by
  rintro ⟨e, e', h1, h2, h3, h4⟩
  exact h.dist.below h1 (.here h2) h3 h4

theorem listsO_some {o : Option (Model V)} {a b : String} (h : listsO o a b = true) : o ≠ none := by
  intro hn; rw [hn] at h; cases h

theorem elemKey_unique {A : Adapter V} {e : Elem V} {k k' : Key} (h : ElemKey A e k) (h' : ElemKey A e k') : k = k' := by
  obtain ⟨c, u, h1, h2, rfl⟩ := h
  obtain ⟨c', u', h1', h2', rfl⟩ := h'
  cases h1.symm.trans h1'
  cases h2.symm.trans h2'
  rfl

/-- How a destination object may have changed. -/
structure Evolved (A : Adapter V) (es : List (Elem V)) (k : Key) (m0 m : Model V) : Prop where
  cls_eq : m.cls = m0.cls
  flags_eq : m.flags = m0.flags
  ids_eq : ∀ f ∈ m0.cls.identifiers, Dict.get? m.vals f = Dict.get? m0.vals f
  keys_eq : Dict.keys m0.vals = m0.cls.fieldNames → Dict.keys m.vals = m.cls.fieldNames
  vals : ∀ f, Dict.get? m.vals f = Dict.get? m0.vals f ∨ ∃ e v, InTree e es ∧ ElemKey A e k ∧ e.action = some .update ∧
    Dict.get? (e.plus.getD []) f = some v ∧ Dict.get? m.vals f = some v

/-- An object of the sync: stored, or remembered as the parent of elements to come. -/
def Trk (sid : Nat) (T : Key → Option Ref) (w : World V E) (k : Key) (r : Ref) : Prop := fr sid w k = some r ∨ (fr sid w k = none ∧ T k = some r)

/-- What holds of the destination all along. -/
structure J (A : Adapter V) (S D : Key → Option (Model V)) (es : List (Elem V)) (sid : Nat) (T : Key → Option Ref) (w : World V E) : Prop where
  sinv : SInv A sid (fun _ _ => True) (fun _ => True) w
  trk : ∀ k r, T k = some r → r < w.next ∧ (w.heap r).m.key = k ∧ Dict.get? A.classes k.1 = some (w.heap r).m.cls ∧
    (fr sid w k = some r ∨ (fr sid w k = none ∧ S k = none))
  keep : ∀ k, D k ≠ none → fr sid w k = none → S k = none
  orig : ∀ k r m0, fr sid w k = some r → D k = some m0 → Evolved A es k m0 (w.heap r).m
  made : ∀ k r, fr sid w k = some r → D k = none → ∃ e c m1, InTree e es ∧ ElemKey A e k ∧ e.action = some .create ∧
    Dict.get? A.classes k.1 = some c ∧ c.construct e.keys (e.plus.getD []) = .ok m1 ∧ KidsOnly m1 (w.heap r).m
  full : ∀ k r, Trk sid T w k r → FullKids (w.heap r).m
  lists : ∀ k r, Trk sid T w k r → ∀ c : Key, (w.heap r).m.lists c.1 c.2 = true ↔
    (KE A es k c ∧ fr sid w c ≠ none) ∨ (¬ KE A es k c ∧ listsO (D k) c.1 c.2 = true)
  nodang : ∀ (k c : Key) r, fr sid w k = some r → ¬ KE A es k c → listsO (D k) c.1 c.2 = true → fr sid w c ≠ none
  up : ∀ k c, D c = none → fr sid w c ≠ none → KE A es k c → fr sid w k ≠ none

variable {T : Key → Option Ref} {w w' : World V E}

theorem J.lt (h : J A S D es sid T w) {k : Key} {r : Ref} (hr : Trk sid T w k r) : r < w.next := by
  rcases hr with hr | ⟨_, hr⟩
  · exact h.sinv.ok.refs_lt _ _ _ _ hr
  · exact (h.trk _ _ hr).1

theorem J.key (h : J A S D es sid T w) {k : Key} {r : Ref} (hr : Trk sid T w k r) : (w.heap r).m.key = k := by
  rcases hr with hr | ⟨_, hr⟩
  · obtain ⟨h1, h2⟩ := h.sinv.ok.key_ok _ _ _ _ hr
    exact Prod.ext h1 h2
  · exact (h.trk _ _ hr).2.1

theorem J.inj (h : J A S D es sid T w) {k k' : Key} {r : Ref} (hr : Trk sid T w k r) (hr' : Trk sid T w k' r) : k = k' :=
  (h.key hr).symm.trans (h.key hr')

theorem J.ofT (h : J A S D es sid T w) {k : Key} {r : Ref} (hr : T k = some r) : Trk sid T w k r := by
  obtain ⟨_, _, _, h4⟩ := h.trk _ _ hr
  rcases h4 with h4 | ⟨h4, _⟩
  · exact .inl h4
  · exact .inr ⟨h4, hr⟩

theorem J.uniq (h : J A S D es sid T w) {k : Key} {r r' : Ref} (hr : T k = some r) (hr' : Trk sid T w k r') : r' = r := by
  rcases h.ofT hr with h1 | h1 <;> rcases hr' with h2 | h2
  · exact Option.some.inj (h2.symm.trans h1)
  · rw [h1] at h2; cases h2.1
  · rw [h1.1] at h2; cases h2
  · exact Option.some.inj (h2.2.symm.trans h1.2)

/-- Every listed child is listed on one of the sides. -/
theorem J.listed (hc : CEnv A S D es) (h : J A S D es sid T w) {k : Key} {r : Ref} (hr : Trk sid T w k r) {c : Key}
    (hl : (w.heap r).m.lists c.1 c.2 = true) : UE S D k c := by
  rcases (h.lists k r hr c).1 hl with ⟨h1, _⟩ | ⟨_, h1⟩
  · exact hc.edge _ _ h1
  · exact .inr h1

theorem Still.fr_eq (h : Still w w') (k : Key) : DS.fr sid w' k = DS.fr sid w k := h.tbl_eq.findRef sid k.1 k.2

/-- Nothing of the destination has changed. -/
theorem J.still (h : J A S D es sid T w) (hs : Still w w') : J A S D es sid T w' := by
  have htr : ∀ {k r}, Trk sid T w' k r → Trk sid T w k r := by
    intro k r hr; unfold Trk at hr ⊢; rw [hs.fr_eq] at hr; exact hr
  have hm : ∀ {k r}, Trk sid T w k r → (w'.heap r).m = (w.heap r).m := fun hr => hs.heap_m _ (h.lt hr)
  refine ⟨hs.sinv h.sinv, ?_, ?_, ?_, ?_, ?_, ?_, ?_, ?_⟩
  · intro k r hr
    obtain ⟨h1, h2, h3, h4⟩ := h.trk k r hr
    rw [hs.heap_m r h1, hs.fr_eq]
    exact ⟨Nat.lt_of_lt_of_le h1 hs.next_le, h2, h3, h4⟩
  · intro k; rw [hs.fr_eq]; exact h.keep k
  · intro k r m0 hr; rw [hs.fr_eq] at hr; rw [hm (.inl hr)]; exact h.orig k r m0 hr
  · intro k r hr; rw [hs.fr_eq] at hr; rw [hm (.inl hr)]; exact h.made k r hr
  · intro k r hr; rw [hm (htr hr)]; exact h.full k r (htr hr)
  · intro k r hr c; rw [hm (htr hr), hs.fr_eq]; exact h.lists k r (htr hr) c
  · intro k c r hr; rw [hs.fr_eq] at hr; rw [hs.fr_eq]; exact h.nodang k c r hr
  · intro k c; rw [hs.fr_eq, hs.fr_eq]; exact h.up k c

/-- Forgetting a remembered object. -/
theorem J.forget {T' : Key → Option Ref} (h : J A S D es sid T w) (hT : ∀ k, T' k = T k ∨ T' k = none) : J A S D es sid T' w := by
  have ht : ∀ {k r}, T' k = some r → T k = some r := by
    intro k r hr
    rcases hT k with h1 | h1
    · rw [← h1]; exact hr
    · rw [h1] at hr; cases hr
  have htr : ∀ {k r}, Trk sid T' w k r → Trk sid T w k r := fun hr => hr.imp id (fun h => ⟨h.1, ht h.2⟩)
  exact ⟨h.sinv, fun k r hr => h.trk k r (ht hr), h.keep, h.orig, h.made, fun k r hr => h.full k r (htr hr), fun k r hr => h.lists k r (htr hr), h.nodang, h.up⟩

/-- Remembering a stored object. -/
def setT (T : Key → Option Ref) (k : Key) (r : Ref) : Key → Option Ref := fun k' => if k' = k then some r else T k'

theorem setT_self (T : Key → Option Ref) (k : Key) (r : Ref) : setT T k r k = some r := if_pos rfl
theorem setT_ne (T : Key → Option Ref) {k k' : Key} (r : Ref) (h : k' ≠ k) : setT T k r k' = T k' := if_neg h

theorem J.remember (h : J A S D es sid T w) {k : Key} {r : Ref} (hr : fr sid w k = some r) (hc : Dict.get? A.classes k.1 ≠ none) :
    J A S D es sid (setT T k r) w := by
  have htr : ∀ {k' r'}, Trk sid (setT T k r) w k' r' → Trk sid T w k' r' := by
    intro k' r' ht
    rcases ht with h1 | ⟨h1, h2⟩
    · exact .inl h1
    · by_cases hk : k' = k
      · subst hk; rw [hr] at h1; cases h1
      · rw [setT_ne T r hk] at h2; exact .inr ⟨h1, h2⟩
  refine ⟨h.sinv, ?_, h.keep, h.orig, h.made, fun k r hr => h.full k r (htr hr), fun k r hr => h.lists k r (htr hr), h.nodang, h.up⟩
  intro k' r' hk'
  by_cases hk : k' = k
  · subst hk
    rw [setT_self] at hk'
    cases hk'
    refine ⟨h.lt (.inl hr), h.key (.inl hr), ?_, .inl hr⟩
    cases hg : Dict.get? A.classes k'.1 with
    | none => exact absurd hg hc
    | some c => rw [h.sinv.inst _ _ _ _ hr hg]
  · rw [setT_ne T r hk] at hk'; exact h.trk k' r' hk'

theorem setT_forget (T : Key → Option Ref) {k : Key} (r : Ref) (h : T k = none) : ∀ k', T k' = setT T k r k' ∨ T k' = none := by
  intro k'
  by_cases hk : k' = k
  · subst hk; exact .inr h
  · exact .inl (setT_ne T r hk).symm

theorem get?_setattrs (m : Model V) (d : Dict V) (f : String) :
    Dict.get? (m.setattrs d).1.vals f = Dict.get? m.vals f ∨ ∃ v, (f, v) ∈ d ∧ Dict.get? (m.setattrs d).1.vals f = some v := by
  induction d generalizing m with
  | nil => exact .inl rfl
  | cons p d ih =>
    obtain ⟨x, v⟩ := p
    unfold Model.setattrs
    cases hs : m.setattr x v with
    | error e => exact .inl rfl
    | ok m' =>
      dsimp only
      have hv : m'.vals = Dict.set m.vals x v := by
        unfold Model.setattr at hs
        split at hs
        · cases hs; rfl
        · cases hs
      rcases ih m' with h | ⟨v', h1, h2⟩
      · rw [h, hv, Dict.get?_set]
        split
        · rename_i hx; subst hx; exact .inr ⟨v, by simp, rfl⟩
        · exact .inl rfl
      · exact .inr ⟨v', by simp [h1], h2⟩

theorem lists_congr {m m' : Model V} (h1 : m'.cls = m.cls) (h2 : m'.kids = m.kids) (ct u : String) : m'.lists ct u = m.lists ct u := by
  unfold Model.lists Model.kidList; rw [h1, h2]

theorem FullKids.congr {m m' : Model V} (h : FullKids m) (h1 : m'.cls = m.cls) (h2 : m'.kids = m.kids) : FullKids m' :=
  ⟨by rw [h1]; exact h.nodup, fun ct f hf => by unfold Model.kidList; rw [h2]; rw [h1] at hf; exact h.list ct f hf⟩

/-- An update of a stored object with the values of its element. -/
theorem J.update (hc : CEnv A S D es) (h : J A S D es sid T w) {e : Elem V} {k : Key} {r : Ref} (he : InTree e es) (hk : ElemKey A e k)
    (ha : e.action = some .update) (hr : fr sid w k = some r) (hu : Upd r (e.plus.getD []) w w') : J A S D es sid T w' := by
  obtain ⟨c, u, hcls, hcu, hkeq⟩ := hk
  have hk : ElemKey A e k := ⟨c, u, hcls, hcu, hkeq⟩
  have hk1 : k.1 = e.type := by rw [hkeq]
  have hrc : (w.heap r).m.cls = c := h.sinv.inst _ _ _ _ hr (by rw [hk1]; exact hcls)
  have hids : ∀ x ∈ Dict.keys (e.plus.getD []), x ∉ (w.heap r).m.cls.identifiers := by
    intro x hx hid
    rw [hrc] at hid
    exact (hc.valid.valid _ _ hcls).ids_attrs x hid (hc.plain e he ha c hcls x hx)
  obtain ⟨s1, s2, s3, s4⟩ := setattrs_spec (w.heap r).m (e.plus.getD [])
  have hkey := setattrs_key hids
  have s5 := get?_setattrs (w.heap r).m (e.plus.getD [])
  rw [← hu.heap_r] at s1 s2 s3 s4 hkey s5
  have hfr : ∀ k, fr sid w' k = fr sid w k := fun k => hu.tbl_eq.findRef sid k.1 k.2
  have htr : ∀ {k r}, Trk sid T w' k r → Trk sid T w k r := by
    intro k r hr; unfold Trk at hr ⊢; rw [hfr] at hr; exact hr
  have hid : ∀ r', r' < w.next → (w'.heap r').m.cls = (w.heap r').m.cls ∧ (w'.heap r').m.kids = (w.heap r').m.kids ∧
      (w'.heap r').m.key = (w.heap r').m.key := by
    intro r' hr'
    by_cases he' : r' = r
    · rw [he']; exact ⟨s1, s2, hkey⟩
    · rw [hu.heap_m r' hr' he']; exact ⟨rfl, rfl, rfl⟩
  have hD : D k ≠ none := (hc.update e k he hk ha).2
  refine ⟨?_, ?_, ?_, ?_, ?_, ?_, ?_, ?_, ?_⟩
  · exact (hu.sframe (A := A) (sid := sid) (b := 0) (K := fun _ _ => True) (P := fun _ => True) (X := fun _ => True) (Ev := fun _ => True) (t := k.1) (u := k.2)
      (out := { result := .object, applied := true, status := none }) (Nat.zero_le _) h.sinv hr trivial hids trivial rfl).2
  · intro k' r' hr'
    obtain ⟨h1, h2, h3, h4⟩ := h.trk k' r' hr'
    obtain ⟨i1, i2, i3⟩ := hid r' h1
    rw [i1, i3, hfr]
    exact ⟨Nat.lt_of_lt_of_le h1 hu.next_le, h2, h3, h4⟩
  · intro k'; rw [hfr]; exact h.keep k'
  · intro k' r' m0 hr' hm0
    rw [hfr] at hr'
    have ev := h.orig k' r' m0 hr' hm0
    by_cases he' : r' = r
    · subst he'
      have hkk : k' = k := h.inj (.inl hr') (.inl hr)
      subst hkk
      refine ⟨s1.trans ev.cls_eq, s3.trans ev.flags_eq, ?_, fun hk0 => ?_, ?_⟩
      · intro f hf
        rw [s4 f (fun hx => hids f hx (by rw [ev.cls_eq]; exact hf))]
        exact ev.ids_eq f hf
      · rw [hu.heap_r, setattrs_keys _ _ (ev.keys_eq hk0), ← hu.heap_r, s1]
      · intro f
        rcases s5 f with h5 | ⟨v, h5, h6⟩
        · rw [h5]
          exact ev.vals f
        · exact .inr ⟨e, v, he, hk, ha, Dict.get?_of_mem (hc.plus_wf e he) h5, h6⟩
    · rw [hu.heap_m r' (h.lt (.inl hr')) he']; exact ev
  · intro k' r' hr' hn
    rw [hfr] at hr'
    by_cases he' : r' = r
    · subst he'
      have hkk : k' = k := h.inj (.inl hr') (.inl hr)
      subst hkk
      exact absurd hn hD
    · rw [hu.heap_m r' (h.lt (.inl hr')) he']; exact h.made k' r' hr' hn
  · intro k' r' hr'
    obtain ⟨i1, i2, _⟩ := hid r' (h.lt (htr hr'))
    exact (h.full k' r' (htr hr')).congr i1 i2
  · intro k' r' hr' c'
    obtain ⟨i1, i2, _⟩ := hid r' (h.lt (htr hr'))
    rw [lists_congr i1 i2, hfr]
    exact h.lists k' r' (htr hr') c'
  · intro k' c' r' hr'; rw [hfr] at hr'; rw [hfr]; exact h.nodang k' c' r' hr'
  · intro k' c'; rw [hfr, hfr]; exact h.up k' c'

/-- Only the child list of the parent has changed. -/
structure ParentStep (A : Adapter V) (es : List (Elem V)) (T : Key → Option Ref) (p : Ref) (kp k0 : Key) (w w' : World V E) : Prop where
  edge : KE A es kp k0
  par : T kp = some p
  kids : KidsOnly (w.heap p).m (w'.heap p).m
  full : FullKids (w'.heap p).m

/-- Removal of an object, possibly with others. -/
theorem J.delete (hc : CEnv A S D es) (h : J A S D es sid T w) {k0 : Key} {Rm : Key → Prop} {parent : Option Ref}
    (hi : SInv A sid (fun _ _ => True) (fun _ => True) w') (hn : w.next ≤ w'.next)
    (hgone : ∀ k, Rm k → fr sid w' k = none) (hstay : ∀ k, ¬ Rm k → fr sid w' k = fr sid w k)
    (h0 : Rm k0) (hS : ∀ k, Rm k → S k = none)
    (hheap : ∀ r, r < w.next → parent ≠ some r → (w'.heap r).m = (w.heap r).m)
    (hpar : ∀ p, parent = some p → ∃ kp, ParentStep A es T p kp k0 w w' ∧
      ∀ c : Key, (w'.heap p).m.lists c.1 c.2 = true ↔ c ≠ k0 ∧ (w.heap p).m.lists c.1 c.2 = true)
    (hroot : parent = none → ∀ k, ¬ UE S D k k0)
    (hcl : ∀ c, Rm c → c ≠ k0 → ∃ k', Rm k' ∧ UE S D k' c)
    (hT : (∀ k, Rm k → T k = none) ∨ (∀ k, Rm k → k = k0)) : J A S D es sid T w' := by
  have hsome : ∀ {k r}, fr sid w' k = some r → fr sid w k = some r ∧ ¬ Rm k := by
    intro k r hr
    by_cases hk : Rm k
    · rw [hgone k hk] at hr; cases hr
    · rw [hstay k hk] at hr; exact ⟨hr, hk⟩
  have hpkp : ∀ p kp, parent = some p → ParentStep A es T p kp k0 w w' → ¬ Rm kp := by
    intro p kp _ hps hrm
    rcases hT with hT | hT
    · have := hps.par; rw [hT kp hrm] at this; cases this
    · have := hT kp hrm; subst this; exact hc.noloop hps.edge
  have hid : ∀ r, r < w.next → (w'.heap r).m.cls = (w.heap r).m.cls ∧ (w'.heap r).m.key = (w.heap r).m.key ∧ KidsOnly (w.heap r).m (w'.heap r).m := by
    intro r hr
    by_cases hp : parent = some r
    · obtain ⟨kp, hps, _⟩ := hpar r hp
      exact ⟨hps.kids.cls_eq, hps.kids.key_eq, hps.kids⟩
    · rw [hheap r hr hp]; exact ⟨rfl, rfl, ⟨rfl, rfl, rfl⟩⟩
  have htr : ∀ {k r}, Trk sid T w' k r → Trk sid T w k r := by
    intro k r hr
    rcases hr with hr | ⟨hr, ht⟩
    · exact .inl (hsome hr).1
    · exact h.ofT ht
  -- the child list of another object does not mention the removed objects
  have hkeep : ∀ {k r c}, Trk sid T w' k r → parent ≠ some r → UE S D k c → Rm c → KE A es k c ∨ fr sid w' k ≠ none → False := by
    intro k r c hr hp hue hrm hke
    by_cases hck : c = k0
    · subst hck
      cases hpp : parent with
      | none => exact hroot hpp _ hue
      | some p =>
        obtain ⟨kp, hps, _⟩ := hpar p hpp
        have : k = kp := hc.parent _ _ _ hue (hc.edge _ _ hps.edge)
        subst this
        have := h.uniq hps.par (htr hr)
        subst this
        exact hp hpp
    · obtain ⟨k', hk', hue'⟩ := hcl c hrm hck
      have := hc.parent _ _ _ hue hue'
      subst this
      rcases hr with hr | ⟨_, ht⟩
      · rw [hgone _ hk'] at hr; cases hr
      · rcases hT with hT | hT
        · rw [hT _ hk'] at ht; cases ht
        · exact hck (hT _ hrm)
  refine ⟨hi, ?_, ?_, ?_, ?_, ?_, ?_, ?_, ?_⟩
  · intro k r hr
    obtain ⟨h1, h2, h3, h4⟩ := h.trk k r hr
    obtain ⟨i1, i2, _⟩ := hid r h1
    rw [i1, i2]
    refine ⟨Nat.lt_of_lt_of_le h1 hn, h2, h3, ?_⟩
    by_cases hk : Rm k
    · exact .inr ⟨hgone k hk, hS k hk⟩
    · rw [hstay k hk]; exact h4
  · intro k hD hf
    by_cases hk : Rm k
    · exact hS k hk
    · rw [hstay k hk] at hf; exact h.keep k hD hf
  · intro k r m0 hr hm0
    have hr := (hsome hr).1
    obtain ⟨i1, i2, i3⟩ := hid r (h.lt (.inl hr))
    have ev := h.orig k r m0 hr hm0
    exact ⟨i1.trans ev.cls_eq, i3.flags_eq.trans ev.flags_eq, by rw [i3.vals_eq]; exact ev.ids_eq, by rw [i3.vals_eq, i1]; exact ev.keys_eq, by rw [i3.vals_eq]; exact ev.vals⟩
  · intro k r hr hD
    have hr := (hsome hr).1
    obtain ⟨_, _, i3⟩ := hid r (h.lt (.inl hr))
    obtain ⟨e, c, m1, g1, g2, g3, g4, g5, g6⟩ := h.made k r hr hD
    exact ⟨e, c, m1, g1, g2, g3, g4, g5, ⟨i3.cls_eq.trans g6.cls_eq, i3.vals_eq.trans g6.vals_eq, i3.flags_eq.trans g6.flags_eq⟩⟩
  · intro k r hr
    by_cases hp : parent = some r
    · obtain ⟨kp, hps, _⟩ := hpar r hp
      exact hps.full
    · rw [hheap r (h.lt (htr hr)) hp]; exact h.full k r (htr hr)
  · intro k r hr c
    by_cases hp : parent = some r
    · obtain ⟨kp, hps, hl⟩ := hpar r hp
      have hkk : k = kp := h.inj (htr hr) (h.ofT hps.par)
      subst hkk
      rw [hl c, h.lists k r (htr hr) c]
      by_cases hck : c = k0
      · subst hck
        rw [hgone c h0]
        constructor
        · rintro ⟨h1, _⟩; exact absurd rfl h1
        · rintro (⟨_, h1⟩ | ⟨h1, _⟩)
          · exact absurd rfl h1
          · exact absurd hps.edge h1
      · have hnr : UE S D k c → ¬ Rm c := by
          intro hue hrm
          obtain ⟨k', hk', hue'⟩ := hcl c hrm hck
          have := hc.parent _ _ _ hue hue'
          subst this
          exact hpkp r _ hp hps hk'
        constructor
        · rintro ⟨_, h1⟩
          refine h1.imp (fun h1 => ⟨h1.1, ?_⟩) id
          rw [hstay c (hnr (hc.edge _ _ h1.1))]; exact h1.2
        · intro h1
          refine ⟨hck, h1.imp (fun h1 => ⟨h1.1, ?_⟩) id⟩
          rw [← hstay c (hnr (hc.edge _ _ h1.1))]; exact h1.2
    · rw [hheap r (h.lt (htr hr)) hp, h.lists k r (htr hr) c]
      have hfc : KE A es k c → fr sid w' c = fr sid w c := by
        intro hke
        by_cases hrm : Rm c
        · exact (hkeep hr hp (hc.edge _ _ hke) hrm (.inl hke)).elim
        · exact hstay c hrm
      constructor
      · intro h1; exact h1.imp (fun h1 => ⟨h1.1, by rw [hfc h1.1]; exact h1.2⟩) id
      · intro h1; exact h1.imp (fun h1 => ⟨h1.1, by rw [← hfc h1.1]; exact h1.2⟩) id
  · intro k c r hr hke hl
    have hr' := (hsome hr).1
    by_cases hrm : Rm c
    · exfalso
      by_cases hp : parent = some r
      · obtain ⟨kp, hps, _⟩ := hpar r hp
        have hkk : k = kp := h.inj (.inl hr') (h.ofT hps.par)
        subst hkk
        by_cases hck : c = k0
        · subst hck; exact hke hps.edge
        · obtain ⟨k', hk', hue'⟩ := hcl c hrm hck
          have := hc.parent _ _ _ (.inr hl) hue'
          subst this
          exact hpkp r _ hp hps hk'
      · exact hkeep (.inl hr) hp (.inr hl) hrm (.inr (by rw [hr]; simp))
    · rw [hstay c hrm]; exact h.nodang k c r hr' hke hl
  · intro k c hD hf hke
    have hfc : fr sid w c ≠ none := by
      intro hn'
      by_cases hrm : Rm c
      · exact hf (hgone c hrm)
      · rw [hstay c hrm] at hf; exact hf hn'
    by_cases hrm : Rm k
    · rcases hc.edge _ _ hke with h1 | h1
      · exact absurd (hS k hrm) (listsO_some h1)
      · exact absurd hD (hc.dst_stored _ _ h1)
    · rw [hstay k hrm]; exact h.up k c hD hfc hke

/-- Creation of an object. -/
theorem J.create (hc : CEnv A S D es) (h : J A S D es sid T w) {k0 : Key} {parent : Option Ref} {r : Ref}
    (hi : SInv A sid (fun _ _ => True) (fun _ => True) w') (hn : w.next ≤ w'.next)
    (hnew : fr sid w' k0 = some r) (hstay : ∀ k, k ≠ k0 → fr sid w' k = fr sid w k)
    (h0 : fr sid w k0 = none) (hD0 : D k0 = none) (hT0 : T k0 = none) (hr0 : w.next ≤ r)
    (hm : ∃ e c, InTree e es ∧ ElemKey A e k0 ∧ e.action = some .create ∧ Dict.get? A.classes k0.1 = some c ∧
      c.construct e.keys (e.plus.getD []) = .ok (w'.heap r).m)
    (hfull : FullKids (w'.heap r).m) (hempty : ∀ a b, (w'.heap r).m.lists a b = false)
    (hheap : ∀ r', r' < w.next → parent ≠ some r' → (w'.heap r').m = (w.heap r').m)
    (hpar : ∀ p, parent = some p → ∃ kp, ParentStep A es T p kp k0 w w' ∧
      ∀ c : Key, (w'.heap p).m.lists c.1 c.2 = true ↔ c = k0 ∨ (w.heap p).m.lists c.1 c.2 = true)
    (hroot : parent = none → ∀ k, ¬ UE S D k k0) : J A S D es sid T w' := by
  have hsome : ∀ {k r'}, fr sid w' k = some r' → (k = k0 ∧ r' = r) ∨ (k ≠ k0 ∧ fr sid w k = some r') := by
    intro k r' hr'
    by_cases hk : k = k0
    · subst hk; rw [hnew] at hr'; cases hr'; exact .inl ⟨rfl, rfl⟩
    · rw [hstay k hk] at hr'; exact .inr ⟨hk, hr'⟩
  have hid : ∀ r, r < w.next → (w'.heap r).m.cls = (w.heap r).m.cls ∧ (w'.heap r).m.key = (w.heap r).m.key ∧ KidsOnly (w.heap r).m (w'.heap r).m := by
    intro r hr
    by_cases hp : parent = some r
    · obtain ⟨kp, hps, _⟩ := hpar r hp
      exact ⟨hps.kids.cls_eq, hps.kids.key_eq, hps.kids⟩
    · rw [hheap r hr hp]; exact ⟨rfl, rfl, ⟨rfl, rfl, rfl⟩⟩
  have htr : ∀ {k r'}, Trk sid T w' k r' → (k = k0 ∧ r' = r) ∨ (k ≠ k0 ∧ Trk sid T w k r') := by
    intro k r' hr'
    rcases hr' with hr' | ⟨hr', ht⟩
    · rcases hsome hr' with h1 | ⟨h1, h2⟩
      · exact .inl h1
      · exact .inr ⟨h1, .inl h2⟩
    · have hk : k ≠ k0 := by rintro rfl; rw [hT0] at ht; cases ht
      exact .inr ⟨hk, h.ofT ht⟩
  have hmono : ∀ {c}, fr sid w c ≠ none → fr sid w' c ≠ none := by
    intro c hf
    by_cases hck : c = k0
    · subst hck; exact absurd h0 hf
    · rw [hstay c hck]; exact hf
  obtain ⟨e0, cl0, he1, he2, he3, he4, he5⟩ := hm
  refine ⟨hi, ?_, ?_, ?_, ?_, ?_, ?_, ?_, ?_⟩
  · intro k r' hr'
    obtain ⟨h1, h2, h3, h4⟩ := h.trk k r' hr'
    obtain ⟨i1, i2, _⟩ := hid r' h1
    have hk : k ≠ k0 := by rintro rfl; rw [hT0] at hr'; cases hr'
    rw [i1, i2, hstay k hk]
    exact ⟨Nat.lt_of_lt_of_le h1 hn, h2, h3, h4⟩
  · intro k hD hf
    have hk : k ≠ k0 := by rintro rfl; exact hD hD0
    rw [hstay k hk] at hf; exact h.keep k hD hf
  · intro k r' m0 hr' hm0
    rcases hsome hr' with ⟨rfl, _⟩ | ⟨_, hr'⟩
    · rw [hD0] at hm0; cases hm0
    · obtain ⟨i1, i2, i3⟩ := hid r' (h.lt (.inl hr'))
      have ev := h.orig k r' m0 hr' hm0
      exact ⟨i1.trans ev.cls_eq, i3.flags_eq.trans ev.flags_eq, by rw [i3.vals_eq]; exact ev.ids_eq, by rw [i3.vals_eq, i1]; exact ev.keys_eq, by rw [i3.vals_eq]; exact ev.vals⟩
  · intro k r' hr' hD
    rcases hsome hr' with ⟨rfl, rfl⟩ | ⟨_, hr'⟩
    · exact ⟨e0, cl0, _, he1, he2, he3, he4, he5, ⟨rfl, rfl, rfl⟩⟩
    · obtain ⟨_, _, i3⟩ := hid r' (h.lt (.inl hr'))
      obtain ⟨e, c, m1, g1, g2, g3, g4, g5, g6⟩ := h.made k r' hr' hD
      exact ⟨e, c, m1, g1, g2, g3, g4, g5, ⟨i3.cls_eq.trans g6.cls_eq, i3.vals_eq.trans g6.vals_eq, i3.flags_eq.trans g6.flags_eq⟩⟩
  · intro k r' hr'
    rcases htr hr' with ⟨rfl, rfl⟩ | ⟨_, hr'⟩
    · exact hfull
    · by_cases hp : parent = some r'
      · obtain ⟨kp, hps, _⟩ := hpar r' hp
        exact hps.full
      · rw [hheap r' (h.lt hr') hp]; exact h.full k r' hr'
  · intro k r' hr' c
    rcases htr hr' with ⟨rfl, rfl⟩ | ⟨hk, hr'⟩
    · rw [hempty]
      constructor
      · intro hx; cases hx
      · rintro (⟨h1, h2⟩ | ⟨_, h1⟩)
        · exfalso
          have hck : c ≠ k := by rintro rfl; exact hc.noloop h1
          rw [hstay c hck] at h2
          have hDc : D c = none := by
            cases hDc : D c with
            | none => rfl
            | some m =>
              rcases hc.edge _ _ h1 with h3 | h3
              · exact absurd hD0 (listsO_some (hc.src_place _ _ h3 (by rw [hDc]; simp)))
              · exact absurd hD0 (listsO_some h3)
          exact h.up k c hDc h2 h1 h0
        · exact absurd hD0 (listsO_some h1)
    · by_cases hp : parent = some r'
      · obtain ⟨kp, hps, hl⟩ := hpar r' hp
        have hkk : k = kp := h.inj hr' (h.ofT hps.par)
        subst hkk
        rw [hl c, h.lists k r' hr' c]
        by_cases hck : c = k0
        · subst hck
          exact ⟨fun _ => .inl ⟨hps.edge, by rw [hnew]; simp⟩, fun _ => .inl rfl⟩
        · rw [hstay c hck]
          exact ⟨fun h1 => h1.elim (fun h2 => absurd h2 hck) id, .inr⟩
      · rw [hheap r' (h.lt hr') hp, h.lists k r' hr' c]
        by_cases hck : c = k0
        · subst hck
          have hnke : ¬ KE A es k c := by
            intro hke
            cases hpp : parent with
            | none => exact hroot hpp k (hc.edge _ _ hke)
            | some p =>
              obtain ⟨kp, hps, _⟩ := hpar p hpp
              have : k = kp := hc.parent _ _ _ (hc.edge _ _ hke) (hc.edge _ _ hps.edge)
              subst this
              have := h.uniq hps.par hr'
              subst this
              exact hp hpp
          exact ⟨fun h1 => h1.elim (fun h2 => absurd h2.1 hnke) .inr, fun h1 => h1.elim (fun h2 => absurd h2.1 hnke) .inr⟩
        · rw [hstay c hck]
  · intro k c r' hr' hke hl
    rcases hsome hr' with ⟨rfl, rfl⟩ | ⟨_, hr'⟩
    · exact absurd hD0 (listsO_some hl)
    · exact hmono (h.nodang k c r' hr' hke hl)
  · intro k c hD hf hke
    by_cases hck : c = k0
    · subst hck
      cases hpp : parent with
      | none => exact absurd (hc.edge _ _ hke) (hroot hpp k)
      | some p =>
        obtain ⟨kp, hps, _⟩ := hpar p hpp
        have : k = kp := hc.parent _ _ _ (hc.edge _ _ hke) (hc.edge _ _ hps.edge)
        subst this
        obtain ⟨_, _, _, h4⟩ := h.trk _ _ hps.par
        rcases h4 with h4 | ⟨_, h4⟩
        · exact hmono (by rw [h4]; simp)
        · rcases hc.edge _ _ hke with h3 | h3
          · exact absurd h4 (listsO_some h3)
          · exact absurd hD0 (hc.dst_stored _ _ h3)
    · rw [hstay c hck] at hf
      exact hmono (h.up k c hD hf hke)
end

end DS
