import Verif.Lemmas.StoreQuiet
/-! The events of a sync, as a grammar. -/
set_option linter.unusedSectionVars false

namespace DS
variable {V E : Type} [PyVal V]

/-- Whether the destination object found (by its flags) has a flag. -/
def oflag (o : Option Nat) (b : Nat) : Bool := o.elim false (fun fl => flagOn fl b)

/-- Whether an action is possible, given the destination object found. -/
def CallOK : Action → Option Nat → Bool
  | .create, none => true
  | .update, some _ => true
  | .delete, some _ => true
  | _, _ => false

/-- What the grammar depends on: adapter, flags, order methods, total number of elements, how user code may answer, and what
destination objects (by their flags) may be found for the elements. -/
structure TrCtx (V : Type) where
  A : Adapter V
  flags : Nat
  dc : DiffClass V
  total : Nat
  H : CrudCall V → Outcome → Prop
  F : Elem V → Option Nat → Prop

/-- Result of a failed action. -/
def failRes (flags : Nat) (x : Err) : Except Err Bool := if flagOn flags GF.CONTINUE_ON_FAILURE then .ok false else .error x

/-- The logger binding is that of the element or of one below it. -/
def RecordBelow (A : Adapter V) (e : Elem V) (ctx : LogCtx) : Prop := ∃ z, InTree z [e] ∧ RecordOf A z ctx

/-- The logger binding after the elements below one, whose events are `evs`: that of the last record, or the element's own if there are none. -/
def RecordAfter (T : TrCtx V) (e : Elem V) (evs : List (Event V)) (ctx : LogCtx) : Prop :=
  RecordBelow T.A e ctx ∧ (getChildren T.dc e.kids = [] → RecordOf T.A e ctx) ∧ (getChildren T.dc e.kids ≠ [] → LastRecord evs ctx ∧ ∃ z, InTree z e.kids ∧ RecordOf T.A z ctx)

theorem failRes_pos {flags : Nat} (x : Err) (h : flagOn flags GF.CONTINUE_ON_FAILURE = true) : failRes flags x = .ok false := if_pos h
theorem failRes_neg {flags : Nat} (x : Err) (h : ¬ flagOn flags GF.CONTINUE_ON_FAILURE = true) : failRes flags x = .error x := if_neg h

/-- Events of the action on one object; the result says whether there is an object. -/
inductive OwnTr (T : TrCtx V) (e : Elem V) (o : Option Nat) (ctx : LogCtx) : List (Event V) → Except Err Bool → Prop where
  | idle : e.action = none →
      OwnTr T e o ctx (if flagOn T.flags GF.LOG_UNCHANGED_RECORDS then [.log .debug ctx .success] else []) (.ok o.isSome)
  | stale {a} : e.action = some a → CallOK a o = false → OwnTr T e o ctx [.log .error ctx .error] (failRes T.flags (staleErr a))
  | crud {a call out x} : e.action = some a → CallOK a o = true → Prescribes T.A e call → T.H call out → out.result = .raises x → x.isCrud = true →
      OwnTr T e o ctx [.call call out, .log .error ctx .error] (failRes T.flags x)
  | fatal {a call out x} : e.action = some a → CallOK a o = true → Prescribes T.A e call → T.H call out → x.isCrud = false →
      (out.result = .raises x ∨ (a = .create ∧ out.result = .object)) → OwnTr T e o ctx [.call call out] (.error x)
  | failed {a call out} : e.action = some a → CallOK a o = true → Prescribes T.A e call → T.H call out → out.result = .none →
      OwnTr T e o ctx [.call call out, .log .warning ctx .failure] (.ok false)
  | done {a call out st} : e.action = some a → CallOK a o = true → Prescribes T.A e call → T.H call out → out.result = .object →
      OwnTr T e o ctx [.call call out, .log (levelOf st) ctx st] (.ok true)

/-- Children are not visited. -/
def Shortcut (e : Elem V) (o : Option Nat) : Prop := e.action = some .delete ∧ oflag o MF.SKIP_CHILDREN_ON_DELETE = true

/-- Warnings about children, which there are only where children are removed along. -/
def StoreWarn (e : Elem V) (o : Option Nat) (ws : List (Event V)) : Prop := ChildWarn ws ∧ (ws ≠ [] → Shortcut e o)

/-- Events of the action on one object and the bookkeeping after it; `ok true` when there is an object. -/
inductive BodyTr (T : TrCtx V) (e : Elem V) (o : Option Nat) (ctx : LogCtx) : List (Event V) → Except Err Bool → Prop where
  | raised {evs x} : OwnTr T e o ctx evs (.error x) → BodyTr T e o ctx evs (.error x)
  | noObject {evs} : OwnTr T e o ctx evs (.ok false) → BodyTr T e o ctx (evs ++ [.noObject ctx]) (.ok false)
  | storeFail {evs ws x} : OwnTr T e o ctx evs (.ok true) → StoreWarn e o ws → x.isCrud = false → BodyTr T e o ctx (evs ++ ws) (.error x)
  | obj {evs ws} : OwnTr T e o ctx evs (.ok true) → StoreWarn e o ws → BodyTr T e o ctx (evs ++ ws) (.ok true)

/-- Children are visited first. -/
def NatFirst (e : Elem V) (o : Option Nat) : Prop :=
  e.action = some .delete ∧ oflag o MF.NATURAL_DELETION_ORDER = true ∧ oflag o MF.SKIP_CHILDREN_ON_DELETE = false

/-- Adding to the `changed` flag. -/
def orRes (b : Bool) : Except Err Bool → Except Err Bool
  | .ok c => .ok (b || c)
  | .error x => .error x

/-- Events of a sync of a list of elements: `Tr T l p evs p' res`, with `p` and `p'` the values of the progress counter. -/
inductive Tr (T : TrCtx V) : List (Elem V) → Nat → List (Event V) → Nat → Except Err Bool → Prop where
  | nil {p} : Tr T [] p [] p (.ok false)
  | bad {e l p x} : x.isCrud = false → Tr T (e :: l) p [] p (.error x)
  | natFail {e l o p evs p' x} : T.F e o → NatFirst e o → Tr T (getChildren T.dc e.kids) p evs p' (.error x) →
      Tr T (e :: l) p evs p' (.error x)
  | natStop {e l o ctx p evs p' b evs' x} : T.F e o → NatFirst e o → Tr T (getChildren T.dc e.kids) p evs p' (.ok b) →
      RecordAfter T e evs ctx ∧ BodyTr T e o ctx evs' (.error x) → Tr T (e :: l) p (evs ++ evs') p' (.error x)
  | natNone {e l o ctx p evs p' b evs' evs'' p'' res} : T.F e o → NatFirst e o → Tr T (getChildren T.dc e.kids) p evs p' (.ok b) →
      RecordAfter T e evs ctx ∧ BodyTr T e o ctx evs' (.ok false) → Tr T l p' evs'' p'' res → Tr T (e :: l) p (evs ++ (evs' ++ evs'')) p'' (orRes true res)
  | natObj {e l o ctx p evs p' b evs' evs'' p'' res} : T.F e o → NatFirst e o → Tr T (getChildren T.dc e.kids) p evs p' (.ok b) →
      RecordAfter T e evs ctx ∧ BodyTr T e o ctx evs' (.ok true) → Tr T l (p' + 1) evs'' p'' res →
      Tr T (e :: l) p (evs ++ (evs' ++ .syncProgress (p' + 1) T.total :: evs'')) p'' (orRes true res)
  | stop {e l o ctx p evs x} : T.F e o → ¬ NatFirst e o → RecordOf T.A e ctx → BodyTr T e o ctx evs (.error x) → Tr T (e :: l) p evs p (.error x)
  | noObj {e l o ctx p evs evs' p' res} : T.F e o → ¬ NatFirst e o → RecordOf T.A e ctx → BodyTr T e o ctx evs (.ok false) →
      Tr T l p evs' p' res → Tr T (e :: l) p (evs ++ evs') p' (orRes e.action.isSome res)
  | short {e l o ctx p evs evs' p' res} : T.F e o → Shortcut e o → RecordOf T.A e ctx → BodyTr T e o ctx evs (.ok true) →
      Tr T l p evs' p' res → Tr T (e :: l) p (evs ++ evs') p' (orRes true res)
  | kidsStop {e l o ctx p evs evs' p' x} : T.F e o → ¬ NatFirst e o → ¬ Shortcut e o → RecordOf T.A e ctx → BodyTr T e o ctx evs (.ok true) →
      Tr T (getChildren T.dc e.kids) (p + 1) evs' p' (.error x) →
      Tr T (e :: l) p (evs ++ .syncProgress (p + 1) T.total :: evs') p' (.error x)
  | kids {e l o ctx p evs evs' p' b evs'' p'' res} : T.F e o → ¬ NatFirst e o → ¬ Shortcut e o → RecordOf T.A e ctx → BodyTr T e o ctx evs (.ok true) →
      Tr T (getChildren T.dc e.kids) (p + 1) evs' p' (.ok b) → Tr T l p' evs'' p'' res →
      Tr T (e :: l) p (evs ++ .syncProgress (p + 1) T.total :: (evs' ++ evs'')) p'' (orRes (e.action.isSome || b) res)

@[simp] theorem orRes_false (r : Except Err Bool) : orRes false r = r := by cases r <;> rfl
theorem orRes_orRes (a b : Bool) (r : Except Err Bool) : orRes a (orRes b r) = orRes (a || b) r := by
  cases r <;> simp [orRes, Bool.or_assoc]

theorem Tr.nil_inv {T : TrCtx V} {p p' : Nat} {evs : List (Event V)} {res : Except Err Bool} (h : Tr T [] p evs p' res) :
    evs = [] ∧ p' = p ∧ res = .ok false := by
  generalize hl : ([] : List (Elem V)) = l at h
  cases h <;> cases hl
  exact ⟨rfl, rfl, rfl⟩

theorem orRes_ok {b : Bool} {r : Except Err Bool} {c : Bool} (h : orRes b r = .ok c) : ∃ d, r = .ok d ∧ c = (b || d) := by
  cases r with
  | error => cases h
  | ok d => cases h; exact ⟨d, rfl, rfl⟩
theorem orRes_err {b : Bool} {r : Except Err Bool} {x : Err} (h : orRes b r = .error x) : r = .error x := by
  cases r with
  | error => exact h
  | ok d => cases h

/-- A list is synced element by element. -/
theorem Tr.cons {T : TrCtx V} {e : Elem V} {p p1 p' : Nat} {evs evs' : List (Event V)} {b : Bool} {l : List (Elem V)} {res : Except Err Bool}
    (h : Tr T [e] p evs p1 (.ok b)) (h' : Tr T l p1 evs' p' res) : Tr T (e :: l) p (evs ++ evs') p' (orRes b res) := by
  generalize hl : [e] = l0 at h
  generalize hres : (Except.ok b : Except Err Bool) = r0 at h
  cases h with
  | nil => cases hl
  | bad => cases hres
  | natFail => cases hres
  | natStop => cases hres
  | natNone h1 h2 h3 h4 h5 =>
    cases hl
    obtain ⟨rfl, rfl, rfl⟩ := h5.nil_inv
    cases hres
    have := Tr.natNone h1 h2 h3 h4 h'
    simpa [List.append_assoc, orRes] using this
  | natObj h1 h2 h3 h4 h5 =>
    cases hl
    obtain ⟨rfl, rfl, rfl⟩ := h5.nil_inv
    cases hres
    have := Tr.natObj h1 h2 h3 h4 h'
    simpa [List.append_assoc, orRes] using this
  | stop => cases hres
  | noObj h1 h2 h3 h4 h5 =>
    cases hl
    obtain ⟨rfl, rfl, rfl⟩ := h5.nil_inv
    cases hres
    have := Tr.noObj h1 h2 h3 h4 h'
    simpa [List.append_assoc, orRes] using this
  | short h1 h2 h3 h4 h5 =>
    cases hl
    obtain ⟨rfl, rfl, rfl⟩ := h5.nil_inv
    cases hres
    have := Tr.short h1 h2 h3 h4 h'
    simpa [List.append_assoc, orRes] using this
  | kidsStop => cases hres
  | kids h1 h2 h3 h4 h5 h6 h7 =>
    cases hl
    obtain ⟨rfl, rfl, rfl⟩ := h7.nil_inv
    cases hres
    have := Tr.kids h1 h2 h3 h4 h5 h6 h'
    simpa [List.append_assoc, orRes] using this

theorem Tr.cons_err {T : TrCtx V} {e : Elem V} {p p1 : Nat} {evs : List (Event V)} {x : Err} (l : List (Elem V))
    (h : Tr T [e] p evs p1 (.error x)) : Tr T (e :: l) p evs p1 (.error x) := by
  generalize hl : [e] = l0 at h
  generalize hres : (Except.error x : Except Err Bool) = r0 at h
  cases h with
  | nil => cases hl
  | bad h => cases hl; cases hres; exact .bad h
  | natFail h1 h2 h3 => cases hl; cases hres; exact .natFail h1 h2 h3
  | natStop h1 h2 h3 h4 => cases hl; cases hres; exact .natStop h1 h2 h3 h4
  | natNone h1 h2 h3 h4 h5 => cases hl; obtain ⟨rfl, rfl, rfl⟩ := h5.nil_inv; cases hres
  | natObj h1 h2 h3 h4 h5 => cases hl; obtain ⟨rfl, rfl, rfl⟩ := h5.nil_inv; cases hres
  | stop h1 h2 h3 h4 => cases hl; cases hres; exact .stop h1 h2 h3 h4
  | noObj h1 h2 h3 h4 h5 => cases hl; obtain ⟨rfl, rfl, rfl⟩ := h5.nil_inv; cases hres
  | short h1 h2 h3 h4 h5 => cases hl; obtain ⟨rfl, rfl, rfl⟩ := h5.nil_inv; cases hres
  | kidsStop h1 h2 h3 h4 h5 h6 => cases hl; cases hres; exact .kidsStop h1 h2 h3 h4 h5 h6
  | kids h1 h2 h3 h4 h5 h6 h7 => cases hl; obtain ⟨rfl, rfl, rfl⟩ := h7.nil_inv; cases hres

/-! ## distinct keys -/

theorem DistinctKeys.perm {A : Adapter V} {l l' : List (Elem V)} (hp : l.Perm l') (h : DistinctKeys A l) : DistinctKeys A l' := by
  unfold DistinctKeys at h ⊢
  rw [nodesL_eq] at h ⊢
  exact (List.Perm.pairwise_iff (fun h k h1 h2 => h k h2 h1) (hp.flatMap_right Elem.nodes)).1 h

theorem DistinctKeys.kids {A : Adapter V} {e : Elem V} (h : DistinctKeys A [e]) :
    DistinctKeys A e.kids ∧ ∀ k, ElemKey A e k → ∀ x, InTree x e.kids → ¬ ElemKey A x k := by
  unfold DistinctKeys at h ⊢
  have he : nodesL [e] = e :: nodesL e.kids := by rw [nodesL_eq]; simp [Elem.nodes_eq]
  rw [he, List.pairwise_cons] at h
  exact ⟨h.2, fun k hk x hx => h.1 x ((mem_nodesL_iff _ _).2 hx) k hk⟩

theorem DistinctKeys.cons {A : Adapter V} {e : Elem V} {l : List (Elem V)} (h : DistinctKeys A (e :: l)) :
    DistinctKeys A [e] ∧ DistinctKeys A l ∧ ∀ x k, InTree x [e] → ElemKey A x k → ∀ y, InTree y l → ¬ ElemKey A y k := by
  unfold DistinctKeys at h ⊢
  have he : nodesL (e :: l) = nodesL [e] ++ nodesL l := by simp [nodesL_eq]
  rw [he, List.pairwise_append] at h
  exact ⟨h.1, h.2.1, fun x k hx hk y hy => h.2.2 x ((mem_nodesL_iff _ _).2 hx) y ((mem_nodesL_iff _ _).2 hy) k hk⟩

theorem inTree_cons {e x : Elem V} {l : List (Elem V)} (h : InTree x (e :: l)) : InTree x [e] ∨ InTree x l := by
  cases h with
  | here h =>
    rcases List.mem_cons.1 h with h | h
    · subst h; exact .inl (inTree_self _)
    · exact .inr (.here h)
  | under h hx =>
    rcases List.mem_cons.1 h with h | h
    · subst h; exact .inl (.under (by simp) hx)
    · exact .inr (.under h hx)

/-! ## what is found for the elements -/

/-- For the elements of `es`, the destination holds the object it held at the start (by its flags, `N`), unless it went
along with others (`X`). -/
def Agree (A : Adapter V) (N : Key → Option Nat) (X : Key → Prop) (w : World V E) (es : List (Elem V)) : Prop :=
  ∀ x, InTree x es → ∀ k, ElemKey A x k →
    (∀ m, (snap A w).find k.1 k.2 = some m → N k = some m.flags) ∧ ((snap A w).find k.1 k.2 = none → N k = none ∨ X k)

theorem ElemKey.cls {A : Adapter V} {x : Elem V} {k : Key} (h : ElemKey A x k) : ∃ c, Dict.get? A.classes k.1 = some c := by
  obtain ⟨c, u, h1, _, rfl⟩ := h; exact ⟨c, h1⟩

section
variable {A : Adapter V} {b : Ref} {K : Option Action → Key → Prop} {P : Ref → Prop} {X : Key → Prop} {Gr : Key → Key → Prop} {SkipK : Key → Prop}
  {N : Key → Option Nat}

theorem Agree.move {w w' : World V E} {es : List (Elem V)} (h : Agree A N X w es) (hi : GInv A Gr SkipK w) (f : GFr A b K P X Gr SkipK w w')
    (hd : ∀ x, InTree x es → ∀ k, ElemKey A x k → ∀ a, ¬ K a k) : Agree A N X w' es := by
  intro x hx k hk
  obtain ⟨h1, h2⟩ := h x hx k hk
  obtain ⟨c, hc⟩ := hk.cls
  refine ⟨fun m hm => ?_, fun hn => ?_⟩
  · rcases f.come hi hc hm with ⟨m0, h3, h4⟩ | h
    · rw [h4]; exact h1 m0 h3
    · exact absurd h (hd x hx k hk _)
  · rcases f.gone hi hc hn with h | h | h
    · exact h2 h
    · exact absurd h (hd x hx k hk _)
    · exact .inr h

theorem Agree.mono {w : World V E} {es es' : List (Elem V)} (h : Agree A N X w es) (hs : ∀ x, InTree x es' → InTree x es) :
    Agree A N X w es' := fun x hx => h x (hs x hx)

theorem Agree.still {w w' : World V E} {es : List (Elem V)} (h : Agree A N X w es) (hi : GInv A Gr SkipK w) (hs : Still w w')
    {evs : List (Event V)} (ht : w'.trace = w.trace ++ evs) : Agree A N X w' es :=
  h.move hi (hs.gfr (b := w.next) (K := fun _ _ => False) (P := fun _ => False) (X := X) ht (Nat.le_refl _) hi) (fun _ _ _ _ _ h => h)
end

/-- What the grammar assumes to be found. -/
def FoundOK (A : Adapter V) (D : Prop) (N : Key → Option Nat) (X SkipK : Key → Prop) (e : Elem V) (o : Option Nat) : Prop :=
  (∃ k, ElemKey A e k) ∧ ∀ k, ElemKey A e k → (oflag o MF.SKIP_CHILDREN_ON_DELETE = true → SkipK k) ∧
    (D → (∀ fl, o = some fl → N k = some fl) ∧ (o = none → N k = none ∨ X k))

/-- The grammar of a sync. -/
def trOf (S : SyncCtx V E) (D : Prop) (N : Key → Option Nat) (X SkipK : Key → Prop) (total : Nat) : TrCtx V where
  A := S.dst
  flags := S.flags
  dc := S.dc
  total := total
  H := fun call out => ∃ env, (S.hooks env call).1 = out
  F := FoundOK S.dst D N X SkipK

theorem trOf_total (S : SyncCtx V E) (D : Prop) (N : Key → Option Nat) (X SkipK : Key → Prop) (total : Nat) : (trOf S D N X SkipK total).total = total := rfl

/-- The result of `sync_model`: whether there is an object. -/
def ownRes : Except Err (Bool × Option Ref) → Except Err Bool
  | .error x => .error x
  | .ok p => .ok p.2.isSome

theorem setattrs_none (m : Model V) (d : Dict V) (h : ∀ k ∈ Dict.keys d, k ∈ m.cls.fieldNames) : (m.setattrs d).2 = none := by
  induction d generalizing m with
  | nil => rfl
  | cons p d ih =>
    obtain ⟨k, v⟩ := p
    have hs : m.setattr k v = .ok { m with vals := Dict.set m.vals k v } := by
      unfold Model.setattr; rw [if_pos (by simpa using h k (by simp))]
    unfold Model.setattrs
    rw [hs]
    exact ih { m with vals := Dict.set m.vals k v } (fun x hx => h x (List.mem_cons_of_mem _ hx))

theorem Own.tr {S : SyncCtx V E} {c : ModelClass V} {w w' : World V E} {dst : Option Ref} {evs : List (Event V)} {e : Elem V} {u : String}
    {res : Except Err (Bool × Option Ref)} (h : Own S c e.keys (e.plus.getD []) w w' e.action dst evs res) (hk : ElemKey S.dst e (e.type, u))
    (hdst : ∀ r, dst = some r → (w.heap r).m.key = (e.type, u)) (hc : e.action = some .create → c.name = e.type)
    (hset : e.action = some .update → ∀ r, dst = some r → ((w.heap r).m.setattrs (e.plus.getD [])).2 = none)
    (D : Prop) (N : Key → Option Nat) (X SkipK : Key → Prop) (total : Nat) (o : Option Nat) (ho : o.isSome = dst.isSome) :
    OwnTr (trOf S D N X SkipK total) e o w.slog evs (ownRes res) ∧ (∀ ch m, res = .ok (ch, m) → ch = e.action.isSome) := by
  have ok : ∀ {a call}, e.action = some a → callFor c a (dst.map (fun r => (w.heap r).m)) e.keys (e.plus.getD []) = some call →
      CallOK a o = true ∧ Prescribes S.dst e call := by
    intro a call ha hcf
    unfold Prescribes
    cases a with
    | create =>
      cases dst with
      | none =>
        simp only [Option.map_none, callFor, Option.some.injEq] at hcf
        cases o with
        | some _ => cases ho
        | none => exact ⟨rfl, u, hk, by rw [ha, ← hcf, hc ha]⟩
      | some r => cases hcf
    | update =>
      cases dst with
      | none => cases hcf
      | some r =>
        simp only [Option.map_some, callFor, Option.some.injEq] at hcf
        have h1 : (w.heap r).m.type = e.type := congrArg Prod.fst (hdst r rfl)
        have h2 : (w.heap r).m.uid = u := congrArg Prod.snd (hdst r rfl)
        rw [h1, h2] at hcf
        cases o with
        | none => cases ho
        | some _ => exact ⟨rfl, u, hk, by rw [ha, ← hcf]⟩
    | delete =>
      cases dst with
      | none => cases hcf
      | some r =>
        simp only [Option.map_some, callFor, Option.some.injEq] at hcf
        have h1 : (w.heap r).m.type = e.type := congrArg Prod.fst (hdst r rfl)
        have h2 : (w.heap r).m.uid = u := congrArg Prod.snd (hdst r rfl)
        rw [h1, h2] at hcf
        cases o with
        | none => cases ho
        | some _ => exact ⟨rfl, u, hk, by rw [ha, ← hcf]⟩
  have hook : ∀ {call out}, S.hooks w.env call = (out, w'.env) → (trOf S D N X SkipK total).H call out :=
    fun {call out} h => ⟨w.env, by rw [h]⟩
  generalize ha : e.action = act at h
  cases h with
  | idle _ _ =>
    refine ⟨?_, fun ch m h => by cases h; rfl⟩
    show OwnTr _ _ _ _ _ (.ok dst.isSome)
    rw [← ho]; exact OwnTr.idle (T := trOf S D N X SkipK total) ha
  | @stale a _ h1 _ _ =>
    have : CallOK a o = false := by
      revert h1 ho
      cases a <;> cases dst <;> cases o <;> simp [callFor, CallOK]
    have h2 := OwnTr.stale (T := trOf S D N X SkipK total) (ctx := w.slog) ha this
    by_cases hcont : flagOn S.flags GF.CONTINUE_ON_FAILURE = true
    · rw [failRes_pos (flags := (trOf S D N X SkipK total).flags) _ hcont] at h2; rw [if_pos hcont]; exact ⟨h2, fun ch m h => by cases h; rfl⟩
    · rw [failRes_neg (flags := (trOf S D N X SkipK total).flags) _ hcont] at h2; rw [if_neg hcont]; exact ⟨h2, fun ch m h => by cases h⟩
  | crud h1 h2 h3 h4 _ =>
    obtain ⟨h5, h6⟩ := ok ha h1
    have h2 := OwnTr.crud (T := trOf S D N X SkipK total) (ctx := w.slog) ha h5 h6 (hook h2) h3 h4
    by_cases hcont : flagOn S.flags GF.CONTINUE_ON_FAILURE = true
    · rw [failRes_pos (flags := (trOf S D N X SkipK total).flags) _ hcont] at h2; rw [if_pos hcont]; exact ⟨h2, fun ch m h => by cases h; rfl⟩
    · rw [failRes_neg (flags := (trOf S D N X SkipK total).flags) _ hcont] at h2; rw [if_neg hcont]; exact ⟨h2, fun ch m h => by cases h⟩
  | fatal h1 h2 h3 h4 _ =>
    obtain ⟨h5, h6⟩ := ok ha h1
    refine ⟨.fatal ha h5 h6 (hook h2) h3 ?_, fun ch m h => by cases h⟩
    rcases h4 with h | ⟨h, h', _⟩ | ⟨r, h, h', _, h''⟩
    · exact .inl h
    · exact .inr ⟨h, h'⟩
    · rw [hset (by rw [ha, h]) r h'] at h''; cases h''
  | failed h1 h2 h3 _ =>
    obtain ⟨h5, h6⟩ := ok ha h1
    exact ⟨.failed ha h5 h6 (hook h2) h3, fun ch m h => by cases h; rfl⟩
  | created h1 h2 _ _ _ _ _ _ =>
    obtain ⟨h5, h6⟩ := ok ha rfl
    exact ⟨.done ha h5 h6 (hook h1) h2, fun ch m h => by cases h; rfl⟩
  | kept h1 h2 h3 _ _ _ =>
    obtain ⟨h5, h6⟩ := ok ha h1
    exact ⟨.done ha h5 h6 (hook h2) h3, fun ch m h => by cases h; rfl⟩


section
variable {S : SyncCtx V E}
  {b : Ref} {X : Key → Prop} {Gr : Key → Key → Prop} {SkipK : Key → Prop} {Fin : Event V → Prop} {D : Prop} {N : Key → Option Nat}

/-- After an element, the logger binding is that of the element or of one below it. -/
theorem syncElem_slog (n : Nat) : ∀ (e : Elem V) (p : Option Ref) (w w' : World V E) (x : Bool), RefsLt w →
    syncElem S n e p w = (.ok x, w') → RecordBelow S.dst e w'.slog := by
  induction n with
  | zero => intro e p w w' x _ h; cases h
  | succ n ih =>
    intro e p w w' x hw h
    have hs := syncElem_gstep (S := S) n e p w hw
    rw [h] at hs
    have kids : ∀ {q acc w1 w2 y}, KidsRun (fun k w w' res => syncElem S n k q w = (res, w')) (getChildren S.dc e.kids) acc w1 w2 (.ok y) →
        RefsLt w1 → RecordBelow S.dst e w1.slog → RefsLt w2 ∧ RecordBelow S.dst e w2.slog := by
      intro q acc w1 w2 y hk
      have hmem : ∀ k ∈ getChildren S.dc e.kids, k ∈ e.kids := fun k hk => mem_of_getChildren hk
      generalize getChildren S.dc e.kids = l at hk hmem
      generalize hres : (Except.ok y : Except Err Bool) = res at hk
      induction hk with
      | nil => exact fun h1 h2 => ⟨h1, h2⟩
      | err _ => cases hres
      | @cons k l acc w1 w3 w4 bb res h1 h2 ih2 =>
        intro hw1 hs1
        have hkk := hmem k (by simp)
        have hw3 : RefsLt w3 := by have := (syncElem_grows (S := S) n k q w1 hw1).refs hw1; rw [h1] at this; exact this
        obtain ⟨z, hz, hr⟩ := ih k q w1 w3 bb hw1 h1
        exact ih2 (fun k' hk' => hmem k' (by simp [hk'])) hres hw3 ⟨z, .under (List.mem_cons_self (a := e)) (hz.mono (fun y hy => by rw [List.mem_singleton] at hy; rw [hy]; exact hkk)), hr⟩
    have body : ∀ {c dst nat sk w1}, RefsLt w1 → RecordBelow S.dst e w1.slog → (∀ r, dst = some r → r < w1.next) →
        Body S (fun q k w w' res => syncElem S n k q w = (res, w')) e c p dst nat sk w1 w' (.ok x) → RecordBelow S.dst e w'.slog := by
      intro c dst nat sk w1 hw1 hs1 hd1 hb
      cases hb with
      | noObject _ r1 _ hw' => subst hw'; exact r1.slog_eq ▸ hs1
      | @shortcut _ w2 _ r o1 r1 _ h2 =>
        have := (applyStore_calm (S := S) w1.sact p r sk w2 (o1.ref_lt hd1)).regs
        rw [h2] at this
        rw [(r1.trans this).slog_eq]; exact hs1
      | @leaf _ w2 w3 _ r o1 r1 _ h2 _ _ _ hw' =>
        subst hw'
        have := (applyStore_calm (S := S) w1.sact p r sk w2 (o1.ref_lt hd1)).regs
        rw [h2] at this
        show RecordBelow S.dst e w3.slog
        rw [(r1.trans this).slog_eq]; exact hs1
      | @kids _ w2 w3 _ r _ o1 r1 _ h2 _ hk =>
        have h3 := (applyStore_calm (S := S) w1.sact p r sk w2 (o1.ref_lt hd1)).regs
        have h4 := (applyStore_grows (S := S) w1.sact p r sk w2 (o1.ref_lt hd1))
        rw [h2] at h3 h4
        refine (kids hk ((tick_still w3).grows.refs (h4.refs (o1.grows.refs hw1))) ?_).2
        show RecordBelow S.dst e w3.slog
        rw [(r1.trans h3).slog_eq]; exact hs1
    have ent1 : ∀ {c u dst w1}, GEntered S e c u dst w w1 → RecordBelow S.dst e w1.slog :=
      fun {c u dst w1} ent => ⟨e, inTree_self e, u, ⟨c, u, ent.cls, ent.uid, rfl⟩, ent.slog⟩
    cases hs with
    | natural ent _ _ _ hk hb =>
      have hw1 := ent.still.grows.refs hw
      have h1 := kids hk hw1 (ent1 ent)
      refine body h1.1 h1.2 ?_ hb
      intro r hr
      exact Nat.lt_of_lt_of_le (ent.lt r hr) (kidsRun_grows n hk hw1).next_le
    | plain ent _ hb =>
      exact body (ent.still.grows.refs hw) (ent1 ent) ent.lt hb

/-- The same after the elements below one. -/
theorem kidsRun_slog (n : Nat) {e : Elem V} {q : Option Ref} {acc : Bool} {w1 w2 : World V E} {y : Bool}
    (hk : KidsRun (fun k w w' res => syncElem S n k q w = (res, w')) (getChildren S.dc e.kids) acc w1 w2 (.ok y)) (hw1 : RefsLt w1)
    (hr : RecordOf S.dst e w1.slog) : RecordBelow S.dst e w2.slog := by
  have h0 : RecordBelow S.dst e w1.slog := ⟨e, inTree_self e, hr⟩
  have hmem : ∀ k ∈ getChildren S.dc e.kids, k ∈ e.kids := fun k hk => mem_of_getChildren hk
  clear hr
  generalize getChildren S.dc e.kids = l at hk hmem
  generalize hres : (Except.ok y : Except Err Bool) = res at hk
  induction hk with
  | nil => exact h0
  | err _ => cases hres
  | @cons k l acc w1 w3 w4 bb res h1 h2 ih2 =>
    have hkk := hmem k (by simp)
    have hw3 : RefsLt w3 := by have := (syncElem_grows (S := S) n k q w1 hw1).refs hw1; rw [h1] at this; exact this
    obtain ⟨z, hz, hr⟩ := syncElem_slog n k q w1 w3 bb hw1 h1
    exact ih2 hw3 ⟨z, .under (List.mem_cons_self (a := e)) (hz.mono (fun y hy => by rw [List.mem_singleton] at hy; rw [hy]; exact hkk)), hr⟩
      (fun k' hk' => hmem k' (by simp [hk'])) hres

theorem LastRecord.append_left {evs : List (Event V)} {ctx : LogCtx} (pre : List (Event V)) (h : LastRecord evs ctx) : LastRecord (pre ++ evs) ctx := by
  obtain ⟨L, lv, st, R, h1, h2⟩ := h
  exact ⟨pre ++ L, lv, st, R, by rw [h1, List.append_assoc], h2⟩

theorem LastRecord.append_right {evs post : List (Event V)} {ctx : LogCtx} (h : LastRecord evs ctx) (hq : ∀ lv c st, Event.log lv c st ∉ post) :
    LastRecord (evs ++ post) ctx := by
  obtain ⟨L, lv, st, R, h1, h2⟩ := h
  refine ⟨L, lv, st, R ++ post, by rw [h1, List.append_assoc, List.cons_append], fun lv c st h => ?_⟩
  rcases List.mem_append.1 h with h | h
  · exact h2 _ _ _ h
  · exact hq _ _ _ h

theorem ChildWarn.no_log {evs : List (Event V)} (h : ChildWarn evs) (lv : Level) (c : LogCtx) (st : Status) : Event.log lv c st ∉ evs := by
  intro hm
  obtain ⟨a, b, c, d, h⟩ := h _ hm
  cases h

/-- The action on one object ends with a record, unless it raises. -/
theorem Own.lastRecord {c : ModelClass V} {ids attrs : Dict V} {w w' : World V E} {a : Action} {dst : Option Ref} {evs : List (Event V)} {y : Bool × Option Ref}
    (h : Own S c ids attrs w w' (some a) dst evs (.ok y)) : LastRecord evs w.slog := by
  generalize hr : (Except.ok y : Except Err (Bool × Option Ref)) = res at h
  generalize ha : some a = act at h
  have one : ∀ lv st, LastRecord [Event.log (V := V) lv w.slog st] w.slog := fun lv st => ⟨[], lv, st, [], rfl, by simp⟩
  have two : ∀ ev lv st, LastRecord [ev, Event.log (V := V) lv w.slog st] w.slog := fun ev lv st => ⟨[ev], lv, st, [], rfl, by simp⟩
  cases h with
  | idle => cases ha
  | stale => exact one _ _
  | crud => exact two _ _ _
  | fatal => cases hr
  | failed => exact two _ _ _
  | created => exact two _ _ _
  | kept => exact two _ _ _

/-- New events end with a record that has the present logger binding. -/
def EndsNamed (w w' : World V E) : Prop := ∃ evs, w'.trace = w.trace ++ evs ∧ LastRecord evs w'.slog

theorem EndsNamed.after {w w1 w2 : World V E} (h : EndsNamed w1 w2) (hx : TrExt w w1) : EndsNamed w w2 := by
  obtain ⟨evs, h1, h2⟩ := h
  obtain ⟨evs0, h0⟩ := hx
  exact ⟨evs0 ++ evs, by rw [h1, h0, List.append_assoc], h2.append_left _⟩

/-- After the elements of a list, given what holds for each of them. -/
theorem kidsRun_named (n : Nat) {l : List (Elem V)} {q : Option Ref} {acc : Bool} {w1 w2 : World V E} {y : Bool}
    (hk : KidsRun (fun k w w' res => syncElem S n k q w = (res, w')) l acc w1 w2 (.ok y)) (hw1 : RefsLt w1)
    (ih : ∀ k ∈ l, ∀ (w w' : World V E) (x : Bool), RefsLt w → syncElem S n k q w = (.ok x, w') → EndsNamed w w') :
    (l = [] ∧ w2 = w1) ∨ EndsNamed w1 w2 := by
  generalize hres : (Except.ok y : Except Err Bool) = res at hk
  induction hk with
  | nil => exact .inl ⟨rfl, rfl⟩
  | err _ => cases hres
  | @cons k l acc w1 w3 w4 bb res h1 h2 ih2 =>
    right
    have hw3 : RefsLt w3 := by have := (syncElem_grows (S := S) n k q w1 hw1).refs hw1; rw [h1] at this; exact this
    have e1 := ih k (by simp) w1 w3 bb hw1 h1
    rcases ih2 hw3 (fun k' hk' => ih k' (by simp [hk'])) hres with ⟨_, rfl⟩ | h
    · exact e1
    · exact h.after (by obtain ⟨evs, h1, _⟩ := e1; exact ⟨evs, h1⟩)

/-- The sync of an element, where it and those below it are deleted, ends with a record that has the logger binding left behind. -/
theorem syncElem_named (n : Nat) : ∀ (e : Elem V) (p : Option Ref) (w w' : World V E) (x : Bool), (∀ z, InTree z [e] → z.action = some .delete) → RefsLt w →
    syncElem S n e p w = (.ok x, w') → EndsNamed w w' := by
  induction n with
  | zero => intro e p w w' x _ _ h; cases h
  | succ n ih =>
    intro e p w w' x hall hw h
    have hs := syncElem_gstep (S := S) n e p w hw
    rw [h] at hs
    have hdel := hall e (inTree_self e)
    have hbel : ∀ {x y : Elem V} {l : List (Elem V)}, InTree x l → InTree y x.kids → InTree y l := by
      intro x y l hx hy
      induction hx with
      | here h => exact .under h hy
      | under h _ ih => exact .under h ih
    have hcl : DelClosed [e] := fun a ha _ z hz => hall z (hbel ha hz)
    have kids : ∀ {q acc w1 w2 y}, KidsRun (fun k w w' res => syncElem S n k q w = (res, w')) (getChildren S.dc e.kids) acc w1 w2 (.ok y) →
        RefsLt w1 → (getChildren S.dc e.kids = [] ∧ w2 = w1) ∨ EndsNamed w1 w2 := fun hk hw1 =>
      kidsRun_named n hk hw1 (fun k hk w w' x hw h => ih k _ w w' x (fun z hz => hall z (inTree_kid (mem_of_getChildren hk) hz)) hw h)
    have body : ∀ {c dst nat sk w1}, RefsLt w1 → w1.sact = some .delete → (∀ r, dst = some r → r < w1.next) →
        Body S (fun q k w w' res => syncElem S n k q w = (res, w')) e c p dst nat sk w1 w' (.ok x) → EndsNamed w1 w' := by
      intro c dst nat sk w1 hw1 hs1 hd1 hb
      cases hb with
      | @noObject evs w2 _ o1 r1 t1 hw' =>
        subst hw'
        have o2 := o1
        rw [hs1] at o2
        refine ⟨evs ++ [.noObject w2.slog], by simp only [t1, List.append_assoc], ?_⟩
        exact (r1.slog_eq ▸ o2.lastRecord).append_right (by simp)
      | @shortcut evs w2 _ r o1 r1 t1 h2 =>
        have o2 := o1
        rw [hs1] at o2
        have hc := applyStore_calm (S := S) w1.sact p r sk w2 (o1.ref_lt hd1)
        rw [h2] at hc
        obtain ⟨ws, h3, h4⟩ := hc.trace
        dsimp only at h3
        refine ⟨evs ++ ws, by rw [h3, t1, List.append_assoc], ?_⟩
        rw [(r1.trans hc.regs).slog_eq]
        exact o2.lastRecord.append_right h4.no_log
      | @leaf evs w2 w3 _ r o1 r1 t1 h2 _ _ _ hw' =>
        subst hw'
        have o2 := o1
        rw [hs1] at o2
        have hc := applyStore_calm (S := S) w1.sact p r sk w2 (o1.ref_lt hd1)
        rw [h2] at hc
        obtain ⟨ws, h3, h4⟩ := hc.trace
        dsimp only at h3
        refine ⟨(evs ++ ws) ++ [.syncProgress (w3.sproc + 1) w3.stotal], ?_, ?_⟩
        · simp only [World.tick, h3, t1, List.append_assoc]
        · show LastRecord _ w3.slog
          rw [(r1.trans hc.regs).slog_eq]
          exact (o2.lastRecord.append_right h4.no_log).append_right (by simp)
      | @kids evs w2 w3 _ r _ o1 r1 t1 h2 _ hk =>
        have o2 := o1
        rw [hs1] at o2
        have hc := applyStore_calm (S := S) w1.sact p r sk w2 (o1.ref_lt hd1)
        have h4 := (applyStore_grows (S := S) w1.sact p r sk w2 (o1.ref_lt hd1))
        rw [h2] at hc h4
        obtain ⟨ws, h3, h5⟩ := hc.trace
        dsimp only at h3
        have e0 : EndsNamed w1 w3.tick := by
          refine ⟨(evs ++ ws) ++ [.syncProgress (w3.sproc + 1) w3.stotal], ?_, ?_⟩
          · simp only [World.tick, h3, t1, List.append_assoc]
          · show LastRecord _ w3.slog
            rw [(r1.trans hc.regs).slog_eq]
            exact (o2.lastRecord.append_right h5.no_log).append_right (by simp)
        rcases kids hk ((tick_still w3).grows.refs (h4.refs (o1.grows.refs hw1))) with ⟨_, rfl⟩ | h
        · exact e0
        · exact h.after (by obtain ⟨evs, h1, _⟩ := e0; exact ⟨evs, h1⟩)
    cases hs with
    | natural ent _ _ _ hk hb =>
      have hw1 := ent.still.grows.refs hw
      have hg := kidsRun_grows n hk hw1
      have e1 := body (hg.refs hw1) (kidsRun_del_sact n hcl hdel hk hw1 (ent.sact.trans hdel)) (fun r hr => Nat.lt_of_lt_of_le (ent.lt r hr) hg.next_le) hb
      have e2 : TrExt w _ := TrExt.trans (.of_eq ent.trace) (kidsRun_ext (S := S) n (syncElem_ext (S := S) n) hk hw1)
      exact e1.after e2
    | plain ent _ hb =>
      exact (body (ent.still.grows.refs hw) (ent.sact.trans hdel) ent.lt hb).after (.of_eq ent.trace)

/-- After the elements of a list, the logger binding is that of one of them or of one below it, if there is any. -/
theorem kidsRun_slog_in (n : Nat) {l : List (Elem V)} {q : Option Ref} {acc : Bool} {w1 w2 : World V E} {y : Bool}
    (hk : KidsRun (fun k w w' res => syncElem S n k q w = (res, w')) l acc w1 w2 (.ok y)) (hw1 : RefsLt w1) :
    (l = [] ∧ w2 = w1) ∨ ∃ z, InTree z l ∧ RecordOf S.dst z w2.slog := by
  generalize hres : (Except.ok y : Except Err Bool) = res at hk
  induction hk with
  | nil => exact .inl ⟨rfl, rfl⟩
  | err _ => cases hres
  | @cons k l acc w1 w3 w4 bb res h1 h2 ih2 =>
    right
    have hw3 : RefsLt w3 := by have := (syncElem_grows (S := S) n k q w1 hw1).refs hw1; rw [h1] at this; exact this
    rcases ih2 hw3 hres with ⟨_, rfl⟩ | ⟨z, hz, hr⟩
    · obtain ⟨z, hz, hr⟩ := syncElem_slog n k q w1 w4 bb hw1 h1
      exact ⟨z, hz.mono (by simp), hr⟩
    · exact ⟨z, hz.mono (fun _ h => List.mem_cons_of_mem _ h), hr⟩

/-- The logger binding after the elements below a deleted one. -/
theorem kidsRun_after (n : Nat) {e : Elem V} (hd : DelClosed [e]) (ha : e.action = some .delete) {q : Option Ref} {w1 w2 : World V E} {y : Bool} {evs : List (Event V)}
    (hk : KidsRun (fun k w w' res => syncElem S n k q w = (res, w')) (getChildren S.dc e.kids) false w1 w2 (.ok y)) (hw1 : RefsLt w1)
    (hr : RecordOf S.dst e w1.slog) (t : w2.trace = w1.trace ++ evs) : RecordAfter (trOf S D N X SkipK total) e evs w2.slog := by
  have hm : ∀ k ∈ getChildren S.dc e.kids, ∀ z, InTree z [k] → z.action = some .delete := fun k hk z hz =>
    hd e (inTree_self e) ha z (hz.mono (fun y hy => by rw [List.mem_singleton] at hy; rw [hy]; exact mem_of_getChildren hk))
  have h := kidsRun_named n hk hw1 (fun k hk w w' x hw h => syncElem_named n k _ w w' x (hm k hk) hw h)
  refine ⟨kidsRun_slog n hk hw1 hr, fun h0 => ?_, fun h0 => ?_⟩
  · have h0 : getChildren S.dc e.kids = [] := h0
    rw [h0] at hk
    cases hk
    exact hr
  · rcases h with ⟨h1, _⟩ | ⟨evs', h1, h2⟩
    · exact absurd h1 h0
    · rw [t] at h1
      rw [List.append_cancel_left h1]
      rcases kidsRun_slog_in n hk hw1 with ⟨h3, _⟩ | ⟨z, hz, hr⟩
      · exact absurd h3 h0
      · exact ⟨h2, z, hz.mono (fun _ h => mem_of_getChildren h), hr⟩

/-- The events of a sync of one element follow the grammar. -/
theorem syncElem_tr (hreo : D → S.dc.Reorders) (n : Nat) : ∀ (e : Elem V) (parent : Option Ref) (w w' : World V E) (res : Except Err Bool),
    syncElem S n e parent w = (res, w') → FrameEnv S.dst Gr SkipK X Fin [e] → GInv S.dst Gr SkipK w → b ≤ w.next →
    (∀ k, ElemKey S.dst e k → GPar S.dst b Gr parent k w) → (D → DistinctKeys S.dst [e] ∧ Agree S.dst N X w [e]) → NewIn Fin w w' →
    ∃ evs, w'.trace = w.trace ++ evs ∧ Tr (trOf S D N X SkipK w.stotal) [e] w.sproc evs w'.sproc res ∧ w'.stotal = w.stotal := by
  induction n with
  | zero => intro e parent w w' res h _ _ _ _ _ _; cases h; exact ⟨[], by simp, .bad rfl, rfl⟩
  | succ n ih =>
    intro e parent w w' res h env hi hb hpar hD hfin
    have hw : RefsLt w := hi.refs
    have hs := syncElem_gstep (S := S) n e parent w hw
    rw [h] at hs
    dsimp only at hs
    -- lists of children
    have kids' : ∀ {q acc l w1 w2 y}, KidsRun (fun k w w' res => syncElem S n k q w = (res, w') ∧ NewIn Fin w w') l acc w1 w2 y →
        (∀ k ∈ l, k ∈ e.kids) → GInv S.dst Gr SkipK w1 → b ≤ w1.next →
        (∀ k ∈ e.kids, ∀ x, ElemKey S.dst k x → GPar S.dst b Gr q x w1) → (D → DistinctKeys S.dst l ∧ Agree S.dst N X w1 l) →
        ∃ evs y0, w2.trace = w1.trace ++ evs ∧ Tr (trOf S D N X SkipK w1.stotal) l w1.sproc evs w2.sproc y0 ∧ y = orRes acc y0 ∧ w2.stotal = w1.stotal := by
      intro q acc l w1 w2 y hk
      induction hk with
      | nil => intro _ _ _ _ _; exact ⟨[], _, by simp, .nil, by simp [orRes], rfl⟩
      | @err k l acc w1 w2 x h1 =>
        intro hmem hi1 hb1 hq hd
        have hkk := hmem k (by simp)
        obtain ⟨evs, t1, t2, t3⟩ := ih k q w1 w2 _ h1.1 (env.kid hkk) hi1 hb1 (hq k hkk)
          (fun d => ⟨(hd d).1.cons.1, (hd d).2.mono (fun x hx => hx.mono (fun _ h => by rw [List.mem_singleton] at h; simp [h]))⟩) h1.2
        exact ⟨evs, _, t1, t2.cons_err l, rfl, t3⟩
      | @cons k l acc w1 w3 w4 bb res h1 h2 ih2 =>
        intro hmem hi1 hb1 hq hd
        have hkk := hmem k (by simp)
        obtain ⟨evs, t1, t2, t3⟩ := ih k q w1 w3 _ h1.1 (env.kid hkk) hi1 hb1 (hq k hkk)
          (fun d => ⟨(hd d).1.cons.1, (hd d).2.mono (fun x hx => hx.mono (fun _ h => by rw [List.mem_singleton] at h; simp [h]))⟩) h1.2
        have f := syncElem_fr (S := S) (b := b) n k q w1 w3 _ h1.1 (env.kid hkk) hi1 hb1 (hq k hkk) h1.2
        obtain ⟨evs2, y0, u1, u2, u3, u4⟩ := ih2 (fun k' hk' => hmem k' (by simp [hk'])) f.inv (Nat.le_trans hb1 f.next_le)
          (fun k' hk' x hx => f.par (hq k' hk' x hx))
          (fun d => ⟨(hd d).1.cons.2.1, ((hd d).2.mono (fun x hx => hx.mono (fun _ h => by simp [h]))).move hi1 f
            (fun x hx kx hkx a ⟨z, hz, _, hzk⟩ => (hd d).1.cons.2.2 z kx hz hzk x hx hkx)⟩)
        rw [t3] at u2 u4
        exact ⟨evs ++ evs2, _, by rw [u1, t1, List.append_assoc], t2.cons u2, by rw [u3, orRes_orRes], u4⟩
    have kids := fun {q acc l w1 w2 y} (hk : KidsRun (fun k w w' res => syncElem S n k q w = (res, w')) l acc w1 w2 y) hm (hi1 : GInv S.dst Gr SkipK w1) hb1 hq hd (hf : NewIn Fin w1 w2) =>
      kids' (kidsRun_fin (S := S) n hk hi1.refs hf) hm hi1 hb1 hq hd
    have hgc : ∀ k ∈ getChildren S.dc e.kids, k ∈ e.kids := fun k hk => mem_of_getChildren hk
    have hgD : D → DistinctKeys S.dst (getChildren S.dc e.kids) ∧ ∀ k, ElemKey S.dst e k → ∀ x, InTree x (getChildren S.dc e.kids) → ¬ ElemKey S.dst x k := by
      intro d
      obtain ⟨h1, h2⟩ := (hD d).1.kids
      have hp := getChildren_perm (hreo d) e.kids
      exact ⟨h1.perm hp.symm, fun k hk x hx => h2 k hk x (hx.mono (fun y hy => hp.mem_iff.1 hy))⟩
    have hgT : ∀ x, InTree x (getChildren S.dc e.kids) → InTree x [e] := fun x hx => .under (by simp) (hx.mono hgc)
    -- what is found for this element
    have found : ∀ {c u dst w1}, GEntered S e c u dst w w1 → ∃ o, FoundOK S.dst D N X SkipK e o ∧ o.isSome = dst.isSome ∧
        oflag o MF.NATURAL_DELETION_ORDER = natOf dst w1 ∧ oflag o MF.SKIP_CHILDREN_ON_DELETE = skipOf dst w1 := by
      intro c u dst w1 ent
      obtain ⟨hat, hdd, _⟩ := ent.facts (b := b) env.valid hi hb
      have i1 := ent.still.ginv hi
      have hf := hat.find i1 ent.cls
      have hku : ∀ k, ElemKey S.dst e k → k = (e.type, u) := by
        rintro k ⟨c', u', h1, h2, h3⟩
        cases h1.symm.trans ent.cls
        cases h2.symm.trans ent.uid
        exact h3
      refine ⟨dst.map (fun r => (w1.heap r).m.flags), ?_, by simp, ?_, ?_⟩
      · refine ⟨⟨_, c, u, ent.cls, ent.uid, rfl⟩, ?_⟩
        intro k hk
        have hk' := hku k hk
        subst hk'
        refine ⟨fun h => ?_, fun d => ?_⟩
        · cases dst with
          | none => cases h
          | some r => exact (hdd r rfl).2.2.2.1 h
        have hag := ((hD d).2.still hi ent.still (evs := []) (by rw [ent.trace]; simp)) e (inTree_self e) _ hk
        refine ⟨fun fl h => ?_, fun h => ?_⟩
        · obtain ⟨r, h1, h2⟩ := Option.map_eq_some_iff.1 h
          rw [h1] at hf
          rw [← h2]
          exact hag.1 _ hf.symm
        · rw [Option.map_eq_none_iff] at h
          rw [h] at hf
          exact hag.2 hf.symm
      · cases dst <;> rfl
      · cases dst <;> rfl
    have enter : ∀ {c u dst w1}, GEntered S e c u dst w w1 →
        GInv S.dst Gr SkipK w1 ∧ b ≤ w1.next ∧ ElemKey S.dst e (e.type, u) ∧ c.name = e.type ∧ RecordOf S.dst e w1.slog ∧
        (∀ r, dst = some r → r < w1.next ∧ (w1.heap r).m.key = (e.type, u) ∧ (w1.heap r).m.cls = c) := by
      intro c u dst w1 ent
      have hname : c.name = e.type := env.valid.names _ _ ent.cls
      have hk : ElemKey S.dst e (e.type, u) := ⟨c, u, ent.cls, ent.uid, rfl⟩
      refine ⟨ent.still.ginv hi, Nat.le_trans hb ent.still.next_le, hk, hname, ⟨u, hk, ent.slog⟩, ?_⟩
      intro r hr
      obtain ⟨d1, d2, d3, _⟩ := (ent.facts (b := b) env.valid hi hb).2.1 r hr
      exact ⟨d1, d2, d3⟩
    have natkids : ∀ {c u dst w1 w2 y}, GEntered S e c u dst w w1 →
        KidsRun (fun k w w' res => syncElem S n k dst w = (res, w')) (getChildren S.dc e.kids) false w1 w2 y → NewIn Fin w w2 →
        (∃ evs, w2.trace = w.trace ++ evs ∧ Tr (trOf S D N X SkipK w.stotal) (getChildren S.dc e.kids) w.sproc evs w2.sproc y ∧ w2.stotal = w.stotal) ∧
        GFr S.dst b (keysOf S.dst [e]) (fun p => dst = some p) X Gr SkipK w1 w2 := by
      intro c u dst w1 w2 y ent hk hf2
      have hf1 := hf2.right (.of_eq ent.trace)
      obtain ⟨i1, b1, hek, hname, hrec, hdd⟩ := enter ent
      have hq := ent.par_kids env hi hb
      obtain ⟨evs, y0, t1, t2, t3, t4⟩ := kids hk hgc i1 b1 hq (fun d => ⟨(hgD d).1, ((hD d).2.mono hgT).still hi ent.still (evs := []) (by rw [ent.trace]; simp)⟩) hf1
      rw [ent.sproc_eq, ent.stotal_eq] at t2
      rw [orRes_false] at t3
      subst t3
      refine ⟨⟨evs, by rw [t1, ent.trace], t2, t4.trans ent.stotal_eq⟩, ?_⟩
      refine kidsRun_gfr (Q := fun k w1 => ∀ x, ElemKey S.dst k x → GPar S.dst b Gr dst x w1) ?_ ?_ (kidsRun_fin (S := S) n hk i1.refs hf1) i1 b1 (fun k hk => hq k (mem_of_getChildren hk))
      · intro k hk w1 w2 res hr hi1 hb1 hq1
        have hkk := mem_of_getChildren hk
        exact (syncElem_fr (S := S) n k dst w1 w2 res hr.1 (env.kid hkk) hi1 hb1 hq1 hr.2).mono (fun _ _ h => keysOf_kid hkk h) (fun _ h => h)
      · intro k _ w1 w2 f hq1 x hx
        exact f.par (hq1 x hx)
    -- pieces of the body
    have bodyTr : ∀ {c u dst w1 w2 evs y o}, ElemKey S.dst e (e.type, u) → c.name = e.type → (e.action = some .create → w1.scls = some c) → w1.sact = e.action →
        (∀ r, dst = some r → (w1.heap r).m.key = (e.type, u)) → (e.action = some .update → Dict.get? S.dst.classes e.type = some c ∧ ∀ r, dst = some r → (w1.heap r).m.cls = c) →
        o.isSome = dst.isSome →
        Own S (w1.scls.getD c) e.keys (e.plus.getD []) w1 w2 w1.sact dst evs y →
        OwnTr (trOf S D N X SkipK w.stotal) e o w1.slog evs (ownRes y) ∧ (∀ ch m, y = .ok (ch, m) → ch = e.action.isSome) := by
      intro c u dst w1 w2 evs y o hek hname hscls hact hdd hup ho hown
      rw [hact] at hown
      exact hown.tr hek hdd (fun ha => by rw [hscls ha]; exact hname)
        (fun ha r hr => setattrs_none _ _ (fun k hk => by
          rw [(hup ha).2 r hr]
          have hc := (hup ha).1
          exact (env.valid.valid _ _ hc).attrs_fields k (env.plain e (inTree_self e) ha c hc k hk))) D N X SkipK w.stotal o ho
    have store : ∀ {w1 w2 w3 : World V E} {evs a r sk y}, r < w2.next → Regs w1 w2 → w2.trace = w1.trace ++ evs → applyStore S a parent r sk w2 = (y, w3) →
        ∃ ws, (ChildWarn ws ∧ (ws ≠ [] → a = some .delete ∧ sk = true)) ∧ w3.trace = w1.trace ++ (evs ++ ws) ∧ Regs w1 w3 ∧ (∀ x, y = .error x → x.isCrud = false) := by
      intro w1 w2 w3 evs a r sk y hr r1 t1 hap
      obtain ⟨_, q1, ⟨ws, q2, q3⟩, q4⟩ := applyStore_calm (S := S) a parent r sk w2 hr
      rw [hap] at q1 q2 q4
      refine ⟨ws, ⟨q3, fun hne => Classical.byContradiction fun hc => hne ?_⟩, by rw [q2, t1, List.append_assoc], r1.trans q1, q4⟩
      have hq := applyStore_silent (S := S) a parent r sk w2 hc
      rw [hap] at hq
      have hq' : w2.trace ++ ws = w2.trace ++ [] := by rw [List.append_nil]; exact q2.symm.trans hq
      exact List.append_cancel_left hq'
    cases hs with
    | noClass _ hw' => subst hw'; exact ⟨[], by simp, .bad rfl, rfl⟩
    | noKey _ _ hw' => subst hw'; exact ⟨[], by simp, .bad rfl, rfl⟩
    | natFail ent h1 h2 h3 hk =>
      obtain ⟨o, o1, o2, o3, o4⟩ := found ent
      obtain ⟨⟨evs, t1, t2, t3⟩, _⟩ := natkids ent hk hfin
      exact ⟨evs, t1, .natFail o1 ⟨h3, o3.trans h1, o4.trans h2⟩ t2, t3⟩
    | @natural c u dst w1 w2 bb _ ent h1 h2 h3 hk hbody =>
      obtain ⟨o, o1, o2, o3, o4⟩ := found ent
      obtain ⟨i1, b1, hek, hname, hrec, hdd⟩ := enter ent
      have gk := kidsRun_grows (S := S) n hk i1.refs
      obtain ⟨⟨evs, t1, t2, t3⟩, f2⟩ := natkids ent hk (hfin.left (body_ext (S := S) n hbody (gk.refs i1.refs)
        (fun r hr => Nat.lt_of_lt_of_le (hdd r hr).1 gk.next_le)))
      have hnat : NatFirst e o := ⟨h3, o3.trans h1, o4.trans h2⟩
      have hlt2 : ∀ r, dst = some r → r < w2.next := fun r hr => Nat.lt_of_lt_of_le (hdd r hr).1 gk.next_le
      have hdd2 : ∀ r, dst = some r → (w2.heap r).m.key = (e.type, u) := by
        intro r hr
        obtain ⟨d1, d2, d3⟩ := hdd r hr
        exact (f2.ident r d1).2.2.trans d2
      have hsact : w2.sact = e.action := (kidsRun_del_sact n env.del h3 hk i1.refs (ent.sact.trans h3)).trans h3.symm
      have hbelow : RecordAfter (trOf S D N X SkipK w.stotal) e evs w2.slog :=
        kidsRun_after n env.del h3 hk i1.refs hrec (by rw [t1, ent.trace])
      have hcr : e.action = some .create → w2.scls = some c := fun h => by rw [h3] at h; cases h
      have hup : e.action = some .update → Dict.get? S.dst.classes e.type = some c ∧ ∀ r, dst = some r → (w2.heap r).m.cls = c := fun h => by rw [h3] at h; cases h
      cases hbody with
      | raised ow rg tr =>
        obtain ⟨q1, q2⟩ := bodyTr hek hname hcr hsact hdd2 hup o2 ow
        refine ⟨evs ++ _, by rw [tr, t1, List.append_assoc], ?_, rg.stotal_eq.trans t3⟩
        rw [rg.sproc_eq]
        exact .natStop o1 hnat t2 ⟨hbelow, .raised q1⟩
      | @noObject evs2 _ _ ow rg tr hw' =>
        obtain ⟨q1, q2⟩ := bodyTr hek hname hcr hsact hdd2 hup o2 ow
        subst hw'
        have hch := q2 _ _ rfl
        refine ⟨evs ++ (evs2 ++ [Event.noObject w2.slog]), by simp only [tr, t1, rg.slog_eq, List.append_assoc], ?_, rg.stotal_eq.trans t3⟩
        rw [hch, h3]
        have := Tr.natNone (T := trOf S D N X SkipK w.stotal) (l := []) o1 hnat t2 ⟨hbelow, .noObject q1⟩ (.nil (p := w2.sproc))
        rw [List.append_nil] at this
        simpa [orRes, rg.sproc_eq] using this
      | storeFail ow rg tr hap =>
        obtain ⟨q1, q2⟩ := bodyTr hek hname hcr hsact hdd2 hup o2 ow
        obtain ⟨ws, s1, s2, s3, s4⟩ := store (ow.ref_lt hlt2) rg tr hap
        refine ⟨evs ++ _, by rw [s2, t1, List.append_assoc], ?_, s3.stotal_eq.trans t3⟩
        rw [s3.sproc_eq]
        exact .natStop o1 hnat t2 ⟨hbelow, .storeFail q1 ⟨s1.1, fun h => by cases (s1.2 h).2⟩ (s4 _ rfl)⟩
      | shortcut _ _ _ _ _ hsk => cases hsk
      | @leaf evs2 _ _ _ _ ow rg tr hap _ _ _ hw' =>
        obtain ⟨q1, q2⟩ := bodyTr hek hname hcr hsact hdd2 hup o2 ow
        obtain ⟨ws, s1, s2, s3, s4⟩ := store (ow.ref_lt hlt2) rg tr hap
        subst hw'
        have hch := q2 _ _ rfl
        refine ⟨evs ++ ((evs2 ++ ws) ++ [Event.syncProgress (w2.sproc + 1) w.stotal]), by simp only [World.tick, s2, s3.sproc_eq, s3.stotal_eq, t3, t1, List.append_assoc], ?_,
          s3.stotal_eq.trans t3⟩
        rw [hch, h3]
        have := Tr.natObj (T := trOf S D N X SkipK w.stotal) (l := []) o1 hnat t2 ⟨hbelow, .obj q1 ⟨s1.1, fun h => by cases (s1.2 h).2⟩⟩ .nil
        rw [trOf_total] at this
        simpa [orRes, World.tick, s3.sproc_eq] using this
      | kids _ _ _ _ hcon _ => exact absurd (hcon (hsact.trans h3)).1 (by simp)
    | @plain c u dst w1 _ ent hnn hbody =>
      obtain ⟨o, o1, o2, o3, o4⟩ := found ent
      obtain ⟨i1, b1, hek, hname, hrec, hdd⟩ := enter ent
      have hnat : ¬ NatFirst e o := fun ⟨n1, n2, n3⟩ => hnn ⟨o3.symm.trans n2, o4.symm.trans n3, n1⟩
      have hlt1 : ∀ r, dst = some r → r < w1.next := fun r hr => (hdd r hr).1
      have hdd1 : ∀ r, dst = some r → (w1.heap r).m.key = (e.type, u) := fun r hr => (hdd r hr).2.1
      have hcr : e.action = some .create → w1.scls = some c := fun _ => ent.scls
      have hup : e.action = some .update → Dict.get? S.dst.classes e.type = some c ∧ ∀ r, dst = some r → (w1.heap r).m.cls = c := by
        exact fun _ => ⟨ent.cls, fun r hr => (hdd r hr).2.2⟩
      cases hbody with
      | raised ow rg tr =>
        obtain ⟨q1, q2⟩ := bodyTr hek hname hcr ent.sact hdd1 hup o2 ow
        refine ⟨_, by rw [tr, ent.trace], ?_, rg.stotal_eq.trans ent.stotal_eq⟩
        rw [rg.sproc_eq, ent.sproc_eq]
        exact .stop o1 hnat hrec (.raised q1)
      | @noObject evs2 _ _ ow rg tr hw' =>
        obtain ⟨q1, q2⟩ := bodyTr hek hname hcr ent.sact hdd1 hup o2 ow
        subst hw'
        have hch := q2 _ _ rfl
        refine ⟨evs2 ++ [Event.noObject w1.slog], by simp only [tr, ent.trace, rg.slog_eq, List.append_assoc], ?_, rg.stotal_eq.trans ent.stotal_eq⟩
        rw [hch]
        have := Tr.noObj (T := trOf S D N X SkipK w.stotal) (l := []) o1 hnat hrec (.noObject q1) (.nil (p := w.sproc))
        simpa [orRes, rg.sproc_eq, ent.sproc_eq] using this
      | storeFail ow rg tr hap =>
        obtain ⟨q1, q2⟩ := bodyTr hek hname hcr ent.sact hdd1 hup o2 ow
        obtain ⟨ws, s1, s2, s3, s4⟩ := store (ow.ref_lt hlt1) rg tr hap
        refine ⟨_, by rw [s2, ent.trace], ?_, s3.stotal_eq.trans ent.stotal_eq⟩
        rw [s3.sproc_eq, ent.sproc_eq]
        exact .stop o1 hnat hrec (.storeFail q1 ⟨s1.1, fun h => ⟨ent.sact.symm.trans (s1.2 h).1, o4.trans (s1.2 h).2⟩⟩ (s4 _ rfl))
      | shortcut ow rg tr hap hdel hsk =>
        obtain ⟨q1, q2⟩ := bodyTr hek hname hcr ent.sact hdd1 hup o2 ow
        obtain ⟨ws, s1, s2, s3, s4⟩ := store (ow.ref_lt hlt1) rg tr hap
        have hch := q2 _ _ rfl
        have hdel' : e.action = some .delete := ent.sact.symm.trans hdel
        refine ⟨_, by rw [s2, ent.trace], ?_, s3.stotal_eq.trans ent.stotal_eq⟩
        rw [hch, hdel']
        have := Tr.short (T := trOf S D N X SkipK w.stotal) (l := []) o1 ⟨hdel', o4.trans hsk⟩ hrec (.obj q1 ⟨s1.1, fun h => ⟨ent.sact.symm.trans (s1.2 h).1, o4.trans (s1.2 h).2⟩⟩) (.nil (p := w.sproc))
        simpa [orRes, s3.sproc_eq, ent.sproc_eq] using this
      | leaf ow rg tr hap hdel hsk hnt hw' => exact absurd ⟨hnt, hsk, ent.sact.symm.trans hdel⟩ hnn
      | @kids evs w2 w3 ch r _ ow rg tr hap hcon hk =>
        obtain ⟨q1, q2⟩ := bodyTr hek hname hcr ent.sact hdd1 hup o2 ow
        obtain ⟨ws, s1, s2, s3, s4⟩ := store (ow.ref_lt hlt1) rg tr hap
        have hch := q2 _ _ rfl
        have hsc : ¬ Shortcut e o := fun ⟨n1, n2⟩ => by
          have := (hcon (ent.sact.trans n1)).2
          rw [← o4, n2] at this; cases this
        have at1 : GAtBody S Gr SkipK X Fin b e parent dst c u (skipOf dst w1) (natOf dst w1) w1 := by
          obtain ⟨hat, hdd', _⟩ := ent.facts (b := b) env.valid hi hb
          refine ⟨env, ent.cls, ent.uid, i1, b1, ?_, ent.sact, ?_, .inl ⟨hat, ent.scls, ?_⟩⟩
          · exact (ent.still.gfr (K := keysOf S.dst [e]) (P := fun _ => True) (X := X) (evs := []) (by rw [ent.trace]; simp) hb hi).par (hpar _ hek)
          · exact fun r hr => ⟨(hdd' r hr).1, (hdd' r hr).2.1, (hdd' r hr).2.2.1, (hdd' r hr).2.2.2.2⟩
          · exact fun hsk _ => (o1.2 _ hek).1 (o4.trans hsk)
        have g4 := applyStore_grows (S := S) w1.sact parent r (skipOf dst w1) w2 (ow.ref_lt hlt1)
        rw [hap] at g4
        have x3 : TrExt w2 w3.tick := by
          obtain ⟨ws, q2, _⟩ := (applyStore_calm (S := S) w1.sact parent r (skipOf dst w1) w2 (ow.ref_lt hlt1)).trace
          rw [hap] at q2
          exact TrExt.trans ⟨ws, q2⟩ ⟨[.syncProgress (w3.sproc + 1) w3.stotal], rfl⟩
        have x4 : TrExt w3.tick w' := kidsRun_ext (S := S) n (syncElem_ext (S := S) n) hk ((tick_still w3).grows.refs (g4.refs (ow.grows.refs i1.refs)))
        obtain ⟨f13, hr, hrk, hrc, hro, hrb⟩ := at1.store (K := fun a k => k = (e.type, u)) rfl ow tr ((hfin.right (.of_eq ent.trace)).left (x3.trans x4) _ tr)
        rw [hap] at f13 hr hrk hrc
        have f3 := ((ent.still.gfr (b := b) (K := fun a k => k = (e.type, u)) (P := fun p => parent = some p) (X := X) (evs := []) (by rw [ent.trace]; simp) hb hi).trans f13 hb).trans
          ((tick_still w3).gfr (evs := [.syncProgress (w3.sproc + 1) w3.stotal]) rfl (Nat.le_trans b1 f13.next_le) f13.inv) hb
        have hw3 := f3.inv
        have hq := at1.par_kids (w3 := w3.tick) hr hrk hrc hrb
        obtain ⟨evs', y0, u1, u2, u3, u4⟩ := kids hk hgc hw3 (Nat.le_trans hb f3.next_le) hq
          (fun d => ⟨(hgD d).1, ((hD d).2.mono hgT).move hi f3 (fun x hx kx hkx a hz => by
            subst hz
            exact (hgD d).2 _ hek x hx hkx)⟩) ((hfin.right (.of_eq ent.trace)).right (TrExt.trans ⟨evs, tr⟩ x3))
        have e1 : w3.tick.trace = w.trace ++ ((evs ++ ws) ++ [Event.syncProgress (w.sproc + 1) w.stotal]) := by
          simp only [World.tick, s2, s3.sproc_eq, s3.stotal_eq, ent.sproc_eq, ent.stotal_eq, ent.trace, List.append_assoc]
        have e2 : w3.tick.sproc = w.sproc + 1 := by simp only [World.tick, s3.sproc_eq, ent.sproc_eq]
        have e3 : w3.tick.stotal = w.stotal := by simp only [World.tick, s3.stotal_eq, ent.stotal_eq]
        rw [e1] at u1
        rw [e2, e3] at u2
        refine ⟨(evs ++ ws) ++ Event.syncProgress (w.sproc + 1) w.stotal :: evs', by rw [u1]; simp, ?_, u4.trans e3⟩
        cases y0 with
        | error x =>
          rw [u3]
          exact .kidsStop o1 hnat hsc hrec (.obj q1 ⟨s1.1, fun h => ⟨ent.sact.symm.trans (s1.2 h).1, o4.trans (s1.2 h).2⟩⟩) u2
        | ok bb =>
          rw [u3, hch]
          have := Tr.kids (T := trOf S D N X SkipK w.stotal) (l := []) o1 hnat hsc hrec (.obj q1 ⟨s1.1, fun h => ⟨ent.sact.symm.trans (s1.2 h).1, o4.trans (s1.2 h).2⟩⟩) u2 .nil
          rw [trOf_total] at this
          simpa [orRes] using this
end

end DS
