import Verif.Lemmas.SafeStore
import Verif.Lemmas.SyncComputed
/-! Diffs and syncs keep the invariant of reachable worlds. -/
set_option linter.unusedSectionVars false

namespace DS
variable {V E α β : Type} [PyVal V] {F : Decls V} {G : Option (Dict (ModelClass V))} {O : Option StoreKind}

/-- `if b: x` followed by `rest`. -/
theorem Run.join {b : Prop} [Decidable b] {w : World V E} {x : M V E α} {rest : M V E β} {R : World V E → Prop} {Q : β → World V E → Prop} (hw : Inv F G O w)
    (hx : b → Run F G O w x (fun _ w' => R w')) (hn : ¬ b → R w) (hr : ∀ w', Inv F G O w' → Evo O w w' → R w' → Run F G O w' rest Q) :
    Run F G O w (if b then x >>= fun _ => rest else rest) Q := by
  by_cases h : b
  · rw [if_pos h]; exact (hx h).bind (fun _ w' hw' he hR => hr w' hw' he hR)
  · rw [if_neg h]; exact hr w hw (Evo.refl w) (hn h)

/-! ## diffs -/

theorem Run.incrModels {w : World V E} (hw : Inv F G O w) (n : Nat) : Run F G O w (incrModels n) (Any Unit) := by
  unfold DS.incrModels
  split
  · exact Run.pure hw trivial
  · exact (Run.inert hw rfl rfl rfl rfl hw.scls).any

/-- The destination sides of the elements are values of attributes that the destination declares for their type. -/
def TreeFits (A : Adapter V) (es : List (Elem V)) : Prop :=
  ∀ e, InTree e es → ∀ d, e.dst = some d → ∃ c, Dict.get? A.classes e.type = some c ∧ ∀ k ∈ Dict.keys d, k ∈ c.attributes

theorem InTree.append_iff {e : Elem V} {a b : List (Elem V)} : InTree e (a ++ b) ↔ InTree e a ∨ InTree e b := by
  constructor
  · intro h
    cases h with
    | here h =>
      rcases List.mem_append.1 h with h | h
      · exact .inl (.here h)
      · exact .inr (.here h)
    | under hk h =>
      rcases List.mem_append.1 hk with hk | hk
      · exact .inl (.under hk h)
      · exact .inr (.under hk h)
  · rintro (h | h)
    · cases h with
      | here h => exact .here (List.mem_append_left _ h)
      | under hk h => exact .under (List.mem_append_left _ hk) h
    · cases h with
      | here h => exact .here (List.mem_append_right _ h)
      | under hk h => exact .under (List.mem_append_right _ hk) h

theorem TreeFits.append {A : Adapter V} {a b : List (Elem V)} (ha : TreeFits A a) (hb : TreeFits A b) : TreeFits A (a ++ b) := by
  intro e he
  rcases InTree.append_iff.1 he with he | he
  · exact ha e he
  · exact hb e he

theorem TreeFits.nil {A : Adapter V} : TreeFits A ([] : List (Elem V)) := by
  intro e he
  cases he with
  | here h => cases h
  | under h _ => cases h

theorem TreeFits.cons {A : Adapter V} {e : Elem V} {es : List (Elem V)} (hk : TreeFits A e.kids)
    (he : ∀ d, e.dst = some d → ∃ c, Dict.get? A.classes e.type = some c ∧ ∀ k ∈ Dict.keys d, k ∈ c.attributes) (hes : TreeFits A es) : TreeFits A (e :: es) := by
  intro x hx
  cases hx with
  | here h =>
    rcases List.mem_cons.1 h with rfl | h
    · exact he
    · exact hes x (.here h)
  | under hk' h =>
    rcases List.mem_cons.1 hk' with rfl | hk'
    · exact hk x h
    · exact hes x (.under hk' h)

theorem keys_attrs {m : Model V} {k : String} (h : k ∈ Dict.keys m.attrs) : k ∈ m.cls.attributes := by
  obtain ⟨v, hv⟩ := Dict.mem_keys_iff.1 h
  rw [Model.get?_attrs] at hv
  split at hv
  · assumption
  · cases hv

theorem TreeFits.spares {A : Adapter V} (hA : A.Valid) {es : List (Elem V)} (h : TreeFits A es) : SparesIds A es := by
  intro e he ha c hc k hk hi
  obtain ⟨h1, h2⟩ := action_update_sides ha
  cases hd : e.dst with
  | none => exact h2 hd
  | some d =>
    obtain ⟨c', hc', hkeys⟩ := h e he d hd
    have : c' = c := Option.some.inj (hc'.symm.trans hc)
    subst this
    exact (hA.valid _ _ hc).ids_attrs k hi (hkeys k (plus_keys h1 hd k hk))

section
variable {C : DiffCtx V} (hs : Family F C.src) (hd : Family F C.dst)
include hs hd

theorem Run.childModels {w : World V E} (hw : Inv F G O w) {A : Adapter V} (hA : Family F A) (o : Option (Model V)) (ct f : String) :
    Run F G O w (childModels A o ct f) (fun ms _ => ∀ m ∈ ms, DeclaredModel A m) := by
  unfold DS.childModels
  cases o with
  | none => exact Run.pure hw (by simp)
  | some m =>
    exact (Run.ofOption (Q := Any _) hw (fun _ _ => trivial)).bind (fun us w' hw' _ _ => Run.getModelsByUids hw' hA us ct)

/-- What is claimed of `diff_object_list`. -/
def RecFits (F : Decls V) (G : Option (Dict (ModelClass V))) (O : Option StoreKind) (C : DiffCtx V) (rec : List (Model V) → List (Model V) → M V E (List (Elem V))) : Prop :=
  ∀ (w : World V E) so d, Inv F G O w → (∀ m ∈ d, DeclaredModel C.dst m) → Run F G O w (rec so d) (fun es _ => TreeFits C.dst es)

theorem Run.diffChildLoop {rec : List (Model V) → List (Model V) → M V E (List (Elem V))} (hrec : RecFits F G O C rec) (s d : Option (Model V)) (mapping : Dict String) :
    ∀ (w : World V E) (kids : List (Elem V)), Inv F G O w → TreeFits C.dst kids → Run F G O w (diffChildLoop C rec s d mapping kids) (fun es _ => TreeFits C.dst es) := by
  induction mapping with
  | nil => intro w kids hw hk; exact Run.pure hw hk
  | cons p rest ih =>
    obtain ⟨ct, f⟩ := p
    intro w kids hw hk
    unfold DS.diffChildLoop
    refine (Run.childModels hs hd hw hs s ct f).bind (fun so w1 hw1 _ _ => ?_)
    refine (Run.childModels hs hd hw1 hd d ct f).bind (fun dd w2 hw2 _ hdd => ?_)
    refine (hrec w2 so dd hw2 hdd).bind (fun es w3 hw3 _ hes => ?_)
    refine (Run.ofExcept (Q := fun k _ => TreeFits C.dst k) hw3 (fun k hk' => ?_)).bind (fun k w4 hw4 _ hk4 => ih w4 k hw4 hk4)
    rw [addElems_ok hk']
    exact hk.append hes

theorem Run.childrenMapping {w : World V E} (hw : Inv F G O w) (s d : Option (Model V)) : Run F G O w (childrenMapping s d) (Any _) := by
  unfold DS.childrenMapping
  have hp : ∀ (P : String × String → Bool) (g : String × String → Nat) (l : Dict String) (w : World V E), Inv F G O w →
      Run F G O w (M.forEach (fun p => if P p then Pure.pure () else DS.incrModels (g p)) l) (Any Unit) := by
    intro P g l w hw
    refine Run.forEach hw _ (fun p _ w' hw' _ => ?_)
    split
    · exact Run.pure hw' trivial
    · exact Run.incrModels hw' _
  cases s with
  | none => cases d with
    | none => exact Run.raise hw
    | some d => exact Run.pure hw trivial
  | some s => cases d with
    | none => exact Run.pure hw trivial
    | some d =>
      refine (hp _ _ _ _ hw).bind (fun _ w1 hw1 _ _ => ?_)
      exact (hp _ _ _ _ hw1).bind (fun _ w2 hw2 _ _ => Run.pure hw2 trivial)

/-- The sides of a pair fit together. -/
def PairFits (C : DiffCtx V) (p : Option (Model V) × Option (Model V)) : Prop :=
  ∀ d, p.2 = some d → DeclaredModel C.dst d ∧ ∀ s, p.1 = some s → s.type = d.type

theorem Run.diffPair {rec : List (Model V) → List (Model V) → M V E (List (Elem V))} (hrec : RecFits F G O C rec) {w : World V E} (hw : Inv F G O w)
    (s d : Option (Model V)) (hp : PairFits C (s, d)) : Run F G O w (diffPair C rec s d) (fun e? _ => ∀ e, e? = some e → TreeFits C.dst [e]) := by
  unfold DS.diffPair
  split
  · exact Run.raise hw
  · rename_i m hm
    split
    · exact (Run.incrModels hw 1).bind (fun _ w1 hw1 _ _ => Run.pure hw1 (fun e he => by cases he))
    · refine (Run.incrModels hw _).bind (fun _ w1 hw1 _ _ => ?_)
      refine (Run.childrenMapping hs hd hw1 s d).bind (fun mp w2 hw2 _ _ => ?_)
      refine (Run.diffChildLoop hs hd hrec s d mp w2 [] hw2 TreeFits.nil).bind (fun kids w3 hw3 _ hk => Run.pure hw3 (fun e he => ?_))
      cases he
      refine TreeFits.cons hk (fun da hda => ?_) TreeFits.nil
      dsimp only at hda ⊢
      cases d with
      | none => cases hda
      | some dm =>
        cases hda
        obtain ⟨h1, h2⟩ := hp dm rfl
        have ht : m.type = dm.type := by
          cases s with
          | none => cases hm; rfl
          | some sm =>
            have : sm = m := by simpa using hm
            rw [← this]; exact h2 sm rfl
        exact ⟨dm.cls, by rw [ht]; exact h1, fun k hk => keys_attrs hk⟩

theorem Run.diffPairs {pair : Option (Model V) → Option (Model V) → M V E (Option (Elem V))} (l : List (Option (Model V) × Option (Model V)))
    (hp : ∀ (w : World V E) p, p ∈ l → Inv F G O w → Run F G O w (pair p.1 p.2) (fun e? _ => ∀ e, e? = some e → TreeFits C.dst [e])) :
    ∀ w : World V E, Inv F G O w → Run F G O w (diffPairs pair l) (fun es _ => TreeFits C.dst es) := by
  induction l with
  | nil => intro w hw; exact Run.pure hw TreeFits.nil
  | cons p l ih =>
    obtain ⟨s, d⟩ := p
    intro w hw
    unfold DS.diffPairs
    refine (hp w (s, d) (by simp) hw).bind (fun e? w1 hw1 _ he => ?_)
    refine (ih (fun w p hpl => hp w p (by simp [hpl])) w1 hw1).bind (fun es w2 hw2 _ hes => Run.pure hw2 ?_)
    cases e? with
    | none => exact hes
    | some e => exact (he e rfl).append hes

theorem Run.diffList (n : Nat) : RecFits (E := E) F G O C (diffList C n) := by
  induction n with
  | zero => intro w so d hw _; exact Run.raise hw
  | succ n ih =>
    intro w so d hw hdm
    unfold DS.diffList
    dsimp only
    refine (Run.incrModels hw _).bind (fun _ w1 hw1 _ _ => ?_)
    refine (Run.ofExcept (Q := fun _ _ => validatePairs (Dict.values (combine so d)) = .ok ()) hw1 (fun _ h => h)).bind (fun _ w2 hw2 _ hv => ?_)
    refine Run.diffPairs hs hd _ (fun w' p hp hw' => Run.diffPair hs hd ih hw' p.1 p.2 ?_) w2 hw2
    intro dm hdm'
    obtain ⟨x, hx, rfl⟩ := List.mem_map.1 hp
    obtain ⟨u, sx, dx⟩ := x
    obtain ⟨h1, h2, _⟩ := mem_combine.1 hx
    dsimp only at hdm' ⊢
    refine ⟨hdm dm ?_, fun s hs' => ?_⟩
    · rw [hdm'] at h2
      exact (get?_byUid_some h2.symm).1
    · have hval : ∀ l : List (Option (Model V) × Option (Model V)), validatePairs l = .ok () → ∀ x ∈ l, validatePair x = .ok () := by
        intro l
        induction l with
        | nil => intro _ x hx; cases hx
        | cons y l ihl =>
          intro hl x hx
          unfold validatePairs at hl
          split at hl
          · rename_i hy
            rcases List.mem_cons.1 hx with rfl | hx
            · exact hy
            · exact ihl hl x hx
          · cases hl
      have := hval _ hv (sx, dx) hp
      rw [hs', hdm'] at this
      unfold validatePair at this
      dsimp only at this
      by_cases ht : s.type = dm.type
      · exact ht
      · rw [if_pos ht] at this; cases this
end

theorem Run.diffFrom {w : World V E} (hw : Inv F G O w) {dst src : Adapter V} (hd : Family F dst) (hs : Family F src) (n : Nat) (dc : DiffClass V) (flags : Nat) :
    Run F G O w (diffFrom n dst src dc flags) (fun d _ => TreeFits dst d.kids) := by
  unfold DS.diffFrom
  have hl : ∀ (A : Adapter V) (w : World V E), Inv F G O w → Run F G O w (lenAdapter A) (Any Nat) := fun A w hw => ⟨hw, Evo.refl w, fun _ _ => trivial⟩
  refine (hl src w hw).bind (fun ls w1 hw1 _ _ => (hl dst w1 hw1).bind (fun ld w2 hw2 _ _ => ?_))
  refine (Run.inert hw2 rfl rfl rfl rfl hw2.scls).bind (fun _ w3 hw3 _ _ => ?_)
  dsimp only
  refine (Run.forEach hw3 _ (fun t _ w4 hw4 _ => ?_)).bind (fun _ w5 hw5 _ _ => ?_)
  · unfold countSkippedType
    split
    · exact (Run.getAll hw4 hd t).bind (fun l w hw _ _ => Run.incrModels hw _)
    · split
      · exact (Run.getAll hw4 hs t).bind (fun l w hw _ _ => Run.incrModels hw _)
      · exact Run.pure hw4 trivial
  · have ht : ∀ (ts : List String) (w : World V E) (kids : List (Elem V)), Inv F G O w → TreeFits dst kids →
        Run F G O w (diffTypes ⟨src, dst, flags⟩ n ts kids) (fun es _ => TreeFits dst es) := by
      intro ts
      induction ts with
      | nil => intro w kids hw hk; exact Run.pure hw hk
      | cons t ts ih =>
        intro w kids hw hk
        unfold diffTypes
        refine (Run.getAllModels hw hs t).bind (fun s w1 hw1 _ _ => ?_)
        refine (Run.getAllModels hw1 hd t).bind (fun d w2 hw2 _ hdm => ?_)
        refine (Run.diffList (C := ⟨src, dst, flags⟩) hs hd n w2 s d hw2 hdm).bind (fun es w3 hw3 _ hes => ?_)
        refine (Run.ofExcept (Q := fun k _ => TreeFits dst k) hw3 (fun k hk' => ?_)).bind (fun k w4 hw4 _ hk4 => ih w4 k hw4 hk4)
        rw [addElems_ok hk']
        exact hk.append hes
    refine (ht _ w5 [] hw5 TreeFits.nil).bind (fun kids w6 hw6 _ hk => Run.read_bind (Run.pure hw6 hk))

/-! ## syncs -/

theorem Run.logSyncStatus {w : World V E} (hw : Inv F G O w) (flags : Nat) (a : Option Action) (st : Status) : Run F G O w (logSyncStatus flags a st) (Any Unit) := by
  unfold DS.logSyncStatus
  refine Run.read_bind ?_
  cases a with
  | none =>
    dsimp only
    split
    · exact Run.emit hw _
    · exact Run.pure hw trivial
  | some a => cases st <;> exact Run.emit hw _

theorem Run.callHook {w : World V E} (hw : Inv F G O w) (h : Hooks V E) (c : CrudCall V) : Run F G O w (callHook h c) (Any _) :=
  ⟨hw.of_eq rfl rfl rfl rfl hw.scls, Evo.of_eq rfl rfl rfl rfl, fun _ _ => trivial⟩

theorem Run.overrideStatus {w : World V E} (hw : Inv F G O w) {r : Ref} (hr : r < w.next) (s : Option (Status × String)) :
    Run F G O w (overrideStatus r s) (Any Unit) := by
  unfold DS.overrideStatus
  cases s with
  | none => exact Run.pure hw trivial
  | some p => exact Run.setStatus hw hr _ _

theorem Run.finishHook {w : World V E} (hw : Inv F G O w) {r : Ref} (hr : r < w.next) (out : Outcome) :
    Run F G O w (finishHook r out) (fun r? w' => ∀ r', r? = some r' → r' = r) := by
  unfold DS.finishHook
  refine (Run.overrideStatus hw hr _).bind (fun _ w1 hw1 he _ => ?_)
  split
  · exact Run.raise hw1
  · exact Run.pure hw1 (fun r' h => by cases h)
  · exact Run.pure hw1 (fun r' h => by cases h; rfl)

theorem Run.hookCreate {S : SyncCtx V E} {w : World V E} (hw : Inv F G O w) {c : ModelClass V} (hd : Family F S.dst) (hc : Dict.get? S.dst.classes c.name = some c)
    (ids attrs : Dict V) (hO : Of O S.dst) : Run F G O w (hookCreate S c ids attrs) (fun r? w' => ∀ r, r? = some r → Declared S.dst w' r ∧ Mine O w' r) := by
  unfold DS.hookCreate
  refine (Run.callHook hw _ _).bind (fun out w1 hw1 _ _ => ?_)
  split
  · exact Run.raise hw1
  · exact Run.pure hw1 (fun r' h => by cases h)
  · refine (Run.ofExcept (Q := fun m _ => m.cls = c ∧ Good m) hw1 (construct_good (hd.valid.valid _ _ hc))).bind (fun m w2 hw2 _ hm => ?_)
    refine (Run.alloc hw2 (o := { m := m, adapter := some S.dst.ref, status := .success, msg := "Created successfully" }) hm.2).bind (fun r w3 hw3 _ h3 => ?_)
    have hd3 : Declared S.dst w3 r := ⟨h3.1, by rw [h3.2]; show Dict.get? S.dst.classes m.cls.name = _; rw [hm.1]; exact hc⟩
    refine (Run.overrideStatus hw3 h3.1 _).bind (fun _ w4 hw4 he _ => Run.pure hw4 (fun r' h => ?_))
    cases h
    refine ⟨he.declared hd3, he.mine h3.1 (fun S hS a ha => ?_)⟩
    rw [h3.2] at ha
    cases ha
    exact (hO S hS).symm

theorem Run.hookUpdate {S : SyncCtx V E} {w : World V E} (hw : Inv F G O w) {r : Ref} (hr : r < w.next) (hM : Mine O w r) {attrs : Dict V}
    (ha : ∀ k ∈ Dict.keys attrs, k ∉ (w.heap r).m.cls.identifiers) : Run F G O w (hookUpdate S r attrs) (fun r? w' => ∀ r', r? = some r' → r' = r) := by
  unfold DS.hookUpdate
  refine Run.deref_bind ((Run.callHook hw _ _).bind (fun out w1 hw1 e1 _ => ?_))
  refine Run.join (R := fun _ => True) hw1 (fun _ => ?_) (fun _ => trivial) (fun w2 hw2 e2 _ => Run.finishHook hw2 ((e1.trans e2).lt hr) out)
  unfold updateBase
  refine (Run.setattrsRef hw1 (e1.lt hr) (by rw [e1.cls_eq r hr]; exact ha) (.inr (e1.mine hr hM))).bind (fun _ w2 hw2 e2 _ => ?_)
  exact Run.setStatus hw2 ((e1.trans e2).lt hr) _ _

theorem Run.hookDelete {S : SyncCtx V E} {w : World V E} (hw : Inv F G O w) {r : Ref} (hr : r < w.next) :
    Run F G O w (hookDelete S r) (fun r? w' => ∀ r', r? = some r' → r' = r) := by
  unfold DS.hookDelete
  refine Run.deref_bind ((Run.callHook hw _ _).bind (fun out w1 hw1 e1 _ => ?_))
  exact Run.join (R := fun _ => True) hw1 (fun _ => Run.setStatus hw1 (e1.lt hr) _ _) (fun _ => trivial)
    (fun w2 hw2 e2 _ => Run.finishHook hw2 ((e1.trans e2).lt hr) out)

/-- What a model obtained from an action is. -/
def Obtained (O : Option StoreKind) (A : Adapter V) (a : Option Action) (r? : Option Ref) (w : World V E) : Prop :=
  ∀ r, r? = some r → r < w.next ∧ Mine O w r ∧ (a = some .create → Declared A w r)

theorem Run.applyAction {S : SyncCtx V E} (hd : Family F S.dst) {w : World V E} (hw : Inv F G O w) {c : ModelClass V} (hc : Dict.get? S.dst.classes c.name = some c)
    (a : Action) {dst : Option Ref} (hr : ∀ r, dst = some r → r < w.next ∧ Mine O w r) (ids : Dict V) {attrs : Dict V} (hO : Of O S.dst)
    (ha : a = .update → ∀ r, dst = some r → ∀ k ∈ Dict.keys attrs, k ∉ (w.heap r).m.cls.identifiers) :
    Run F G O w (applyAction S c a dst ids attrs) (Obtained O S.dst (some a)) := by
  cases a with
  | create =>
    cases dst with
    | some r => exact Run.raise hw
    | none => exact (Run.hookCreate hw hd hc ids attrs hO).mono (fun r? w' _ _ h r hr => ⟨(h r hr).1.1, (h r hr).2, fun _ => (h r hr).1⟩)
  | update =>
    cases dst with
    | none => exact Run.raise hw
    | some r => exact (Run.hookUpdate hw (hr r rfl).1 (hr r rfl).2 (ha rfl r rfl)).mono (fun r? w' _ he h r' hr' => by
      rw [h r' hr']; exact ⟨he.lt (hr r rfl).1, he.mine (hr r rfl).1 (hr r rfl).2, fun h => by cases h⟩)
  | delete =>
    cases dst with
    | none => exact Run.raise hw
    | some r => exact (Run.hookDelete hw (hr r rfl).1).mono (fun r? w' _ he h r' hr' => by
      rw [h r' hr']; exact ⟨he.lt (hr r rfl).1, he.mine (hr r rfl).1 (hr r rfl).2, fun h => by cases h⟩)

theorem Obtained.evo {A : Adapter V} {a : Option Action} {r? : Option Ref} {w w' : World V E} (h : Obtained O A a r? w) (e : Evo O w w') : Obtained O A a r? w' :=
  fun r hr => ⟨e.lt (h r hr).1, e.mine (h r hr).1 (h r hr).2.1, fun ha => e.declared ((h r hr).2.2 ha)⟩

theorem Run.syncModel {S : SyncCtx V E} (hd : Family F S.dst) {w : World V E} (hw : Inv F G O w) {c : ModelClass V} (hc : Dict.get? S.dst.classes c.name = some c)
    (a : Option Action) {dst : Option Ref} (hr : ∀ r, dst = some r → r < w.next ∧ Mine O w r) (ids : Dict V) {attrs : Dict V} (hO : Of O S.dst)
    (ha : a = some .update → ∀ r, dst = some r → ∀ k ∈ Dict.keys attrs, k ∉ (w.heap r).m.cls.identifiers) :
    Run F G O w (syncModel S c a dst ids attrs) (fun p w' => Obtained O S.dst a p.2 w') := by
  unfold DS.syncModel
  cases a with
  | none =>
    refine (Run.logSyncStatus hw _ _ _).bind (fun _ w1 hw1 e1 _ => Run.pure hw1 (fun r h => ?_))
    exact ⟨e1.lt (hr r h).1, e1.mine (hr r h).1 (hr r h).2, fun h => by cases h⟩
  | some a =>
    dsimp only
    have ht : Run F G O w (tryAction S c a dst ids attrs) (fun p w' => Obtained O S.dst (some a) p.1 w') := by
      unfold tryAction
      refine (Run.applyAction hd hw hc a hr ids hO (fun h => ha (by rw [h]))).bind (fun r? w1 hw1 _ h1 => ?_)
      cases r? with
      | none => exact Run.pure hw1 (fun r h => by cases h)
      | some r => exact Run.deref_bind (Run.pure hw1 h1)
    refine (Run.attempt (Q := fun res w' => ∀ p, res = .ok p → Obtained O S.dst (some a) p.1 w') ht (fun p w' h q hq => by cases hq; exact h)
      (fun e w' q hq => by cases hq)).bind (fun res w1 hw1 _ h1 => ?_)
    cases res with
    | error e =>
      refine (Run.logSyncStatus hw1 _ _ _).bind (fun _ w2 hw2 _ _ => ?_)
      split
      · exact Run.pure hw2 (fun r h => by cases h)
      · exact Run.raise hw2
    | ok p =>
      obtain ⟨r?, st⟩ := p
      exact (Run.logSyncStatus hw1 _ _ _).bind (fun _ w2 hw2 e2 _ => Run.pure hw2 ((h1 _ rfl).evo e2))

/-- Nothing happened to the syncer's `action`. -/
def SameAct (w w' : World V E) : Prop := w'.sact = w.sact

theorem SameAct.preOrd : PreOrd (SameAct (V := V) (E := E)) := ⟨fun _ => rfl, fun _ _ _ h k => k.trans h⟩

theorem Run.withPres {R : World V E → World V E → Prop} {w : World V E} {m : M V E α} {Q : α → World V E → Prop} (h : Run F G O w m Q) (hp : Pres R m) :
    Run F G O w m (fun a w' => Q a w' ∧ R w w') := ⟨h.inv, h.evo, fun a ha => ⟨h.post a ha, hp w⟩⟩

theorem sameAct_getRaw (A : Adapter V) (t u : String) : Pres SameAct (getRaw A t u : M V E Ref) := by
  unfold getRaw
  split
  · exact Pres.bind SameAct.preOrd (fun w => rfl) (fun _ => Pres.ofOption SameAct.preOrd _ _)
  · intro w
    unfold redisLoad
    split <;> rfl

theorem sameAct_get (A : Adapter V) (model : ModelArg V) (ident : Ident V) : Pres SameAct (get A model ident : M V E Ref) := by
  unfold get
  exact Pres.bind SameAct.preOrd (Pres.ofExcept SameAct.preOrd _) (fun p => sameAct_getRaw A p.1 p.2)

theorem sameAct_getOrNone (A : Adapter V) (model : ModelArg V) (ident : Ident V) : Pres SameAct (getOrNone A model ident : M V E _) := by
  unfold getOrNone
  exact Pres.tryCatch SameAct.preOrd (Pres.bind SameAct.preOrd (sameAct_get A model ident) (fun _ => Pres.pure SameAct.preOrd _)) (fun _ => Pres.pure SameAct.preOrd _)

theorem sameAct_fetchDst (S : SyncCtx V E) (c : ModelClass V) (ids : Dict V) : Pres SameAct (fetchDst S c ids) := by
  unfold fetchDst
  refine Pres.tryCatch SameAct.preOrd (Pres.bind SameAct.preOrd (sameAct_get _ _ _) (fun r => Pres.bind SameAct.preOrd ?_ (fun _ => Pres.pure SameAct.preOrd _))) (fun _ => Pres.pure SameAct.preOrd _)
  intro w; rfl

theorem Run.fetchDst {S : SyncCtx V E} (hd : Family F S.dst) {w : World V E} (hw : Inv F G O w) {c : ModelClass V} (hc : Dict.get? S.dst.classes c.name = some c)
    (ids : Dict V) (hO : Of O S.dst) : Run F G O w (fetchDst S c ids) (fun r? w' => ∀ r, r? = some r → r < w'.next ∧ (w'.heap r).m.cls = c ∧ Mine O w' r) := by
  unfold DS.fetchDst
  refine Run.tryCatch ?_ (fun _ w' hw' _ => Run.pure hw' (fun r h => by cases h))
  refine (Run.get hw hd _ _).bind (fun r w1 hw1 _ h1 => ?_)
  refine (Run.setStatus hw1 h1.1.1 _ _).bind (fun _ w2 hw2 e2 _ => Run.pure hw2 (fun r' h => ?_))
  cases h
  refine ⟨e2.lt h1.1.1, ?_, e2.mine h1.1.1 (Attached.mine hO h1.2.1)⟩
  rw [e2.cls_eq r h1.1.1]
  have := h1.1.2
  rw [h1.2.2 (hd.takes (Dict.mem_keys_iff.2 ⟨c, hc⟩))] at this
  exact Option.some.inj (this.symm.trans hc)

theorem plus_delete {e : Elem V} (h : e.action = some .delete) : e.plus = none := by
  have := ((action_delete_iff e).1 h).1
  unfold Elem.plus
  rw [this]

theorem SparesIds.kid {A : Adapter V} {e k : Elem V} (h : SparesIds A [e]) (hk : k ∈ e.kids) : SparesIds A [k] := by
  intro x hx
  refine h x ?_
  cases hx with
  | here hx =>
    rw [List.mem_singleton] at hx
    subst hx
    exact .under (List.mem_singleton.2 rfl) (.here hk)
  | under hk' hx =>
    rw [List.mem_singleton] at hk'
    subst hk'
    exact .under (List.mem_singleton.2 rfl) (.under hk hx)

theorem Run.applyStore {S : SyncCtx V E} (hd : Family F S.dst) {w : World V E} (hw : Inv F G O w) (a : Option Action) {parent : Option Ref}
    (hp : ∀ p, parent = some p → p < w.next ∧ Mine O w p) {r : Ref} (hr : r < w.next) (hc : a = some .create → Declared S.dst w r) (hO : Of O S.dst) (hm : Mine O w r) (b : Bool) :
    Run F G O w (applyStore S a parent r b) (Any Unit) := by
  have hwp : ∀ f : Ref → M V E Unit, (∀ p, p < w.next → Mine O w p → Run F G O w (f p) (Any Unit)) → Run F G O w (withParent parent f) (Any Unit) := by
    intro f hf
    unfold withParent
    cases parent with
    | none => exact Run.pure hw trivial
    | some p => exact hf p (hp p rfl).1 (hp p rfl).2
  unfold DS.applyStore
  split
  · exact (hwp _ (fun p h hm => Run.addChildRef hw h hm)).bind (fun _ w1 hw1 e1 _ => Run.add hw1 hd (e1.declared (hc rfl)) hO (fun hn _ => (e1.mine hr hm).attachable hO hn))
  · exact (hwp _ (fun p h hm => Run.removeChildRef hw h hm)).bind (fun _ w1 hw1 e1 _ => Run.remove hd hO _ hw1 (e1.lt hr) (fun hn => (e1.mine hr hm).attachable hO hn) b)
  · exact Run.pure hw trivial

theorem Run.syncElem {S : SyncCtx V E} (hd : Family F S.dst) (hs : Family F S.src) (hO : Of O S.dst) (n : Nat) : ∀ (w : World V E) (e : Elem V) (parent : Option Ref),
    Inv F (some S.dst.classes) O w → (∀ p, parent = some p → p < w.next ∧ Mine O w p) → SparesIds S.dst [e] → Run F (some S.dst.classes) O w (syncElem S n e parent) (Any Bool) := by
  induction n with
  | zero => intro w e parent hw _ _; exact Run.raise hw
  | succ n ih =>
    intro w e parent hw hp hsp
    rw [DS.syncElem]
    -- entering the element
    have h1 : Run F (some S.dst.classes) O w (enterElem S e) (fun c w' => Dict.get? S.dst.classes e.type = some c ∧ w'.sact = e.action) := by
      unfold enterElem
      refine (Run.ofOption (Q := fun c _ => Dict.get? S.dst.classes e.type = some c) hw (fun c h => h)).bind (fun c w1 hw1 _ hc => ?_)
      refine (Run.ofOption (Q := Any _) hw1 (fun _ _ => trivial)).bind (fun u w2 hw2 _ _ => ?_)
      refine (Run.inert hw2 rfl rfl rfl rfl (fun g c' hg hc' => ?_)).bind (fun _ w3 hw3 _ h3 => Run.pure hw3 ⟨hc, by rw [h3]⟩)
      cases hg
      have : c = c' := Option.some.inj hc'
      subst this
      rw [hd.valid.names _ _ hc]; exact hc
    refine h1.bind (fun c w1 hw1 e1 hc1 => ?_)
    obtain ⟨hc, ha1⟩ := hc1
    have hcn : Dict.get? S.dst.classes c.name = some c := by rw [hd.valid.names _ _ hc]; exact hc
    refine ((Run.getOrNone hw1 hs _ _).withPres (sameAct_getOrNone _ _ _)).bind (fun _ w2 hw2 e2 h2 => ?_)
    refine ((Run.fetchDst hd hw2 hcn e.keys hO).withPres (sameAct_fetchDst S c e.keys)).bind (fun dst w3 hw3 e3 h3 => ?_)
    have ha3 : w3.sact = e.action := by
      have a : w2.sact = w1.sact := h2.2
      have b : w3.sact = w2.sact := h3.2
      rw [b, a, ha1]
    have hfl : Run F (some S.dst.classes) O w3 (dstFlags dst) (fun _ w' => w' = w3) := by
      unfold dstFlags
      cases dst with
      | none => exact Run.pure hw3 rfl
      | some r => exact Run.deref_bind (Run.pure hw3 rfl)
    refine hfl.bind (fun fl w4 hw4 e4 h4 => ?_)
    obtain ⟨natural, skip⟩ := fl
    subst h4
    dsimp only
    have hdst : ∀ (w' : World V E), Evo O w4 w' → ∀ r, dst = some r → r < w'.next ∧ Mine O w' r := fun w' he r hr =>
      ⟨he.lt (h3.1 r hr).1, he.mine (h3.1 r hr).1 (h3.1 r hr).2.2⟩
    have hkids : ∀ k ∈ getChildren S.dc e.kids, SparesIds S.dst [k] := fun k hk => hsp.kid (mem_getChildren hk)
    refine Run.join (R := fun w' => w'.sact = e.action ∨ e.action = some .delete) hw4 (fun hb => ?_) (fun _ => .inl ha3) (fun w5 hw5 e5 ha5 => Run.read_bind ?_)
    · simp only [Bool.and_eq_true, beq_iff_eq] at hb
      exact (Run.orEach hw4 _ false (fun k hk w' hw' he => ih w' k dst hw' (hdst w' he) (hkids k hk))).mono (fun _ _ _ _ _ => .inr hb.1.2)
    have hcls : Dict.get? S.dst.classes (w5.scls.getD c).name = some (w5.scls.getD c) := by
      cases hx : w5.scls with
      | none => exact hcn
      | some c' => exact hw5.scls _ _ rfl hx
    have hattrs : w5.sact = some .update → ∀ r, dst = some r → ∀ k ∈ Dict.keys (e.plus.getD []), k ∉ (w5.heap r).m.cls.identifiers := by
      intro hu r hr k hk
      rw [e5.cls_eq r (h3.1 r hr).1, (h3.1 r hr).2.1]
      rcases ha5 with ha5 | ha5
      · exact hsp e (.here (List.mem_singleton.2 rfl)) (ha5 ▸ hu) c hc k hk
      · rw [plus_delete ha5] at hk; cases hk
    refine (Run.syncModel hd hw5 hcls w5.sact (hdst w5 e5) e.keys hO hattrs).bind (fun p w6 hw6 e6 h6 => ?_)
    obtain ⟨changed, modified⟩ := p
    dsimp only at h6 ⊢
    cases modified with
    | none => exact Run.read_bind ((Run.emit hw6 _).bind (fun _ w7 hw7 _ _ => Run.pure hw7 trivial))
    | some r =>
      obtain ⟨hr6, hm6, hc6⟩ := h6 r rfl
      have e06 : Evo O w w6 := ((((e1.trans e2).trans e3).trans e4).trans e5).trans e6
      refine (Run.applyStore hd hw6 w5.sact (fun p h => ⟨e06.lt (hp p h).1, e06.mine (hp p h).1 (hp p h).2⟩) hr6 hc6 hO hm6 skip).bind (fun _ w7 hw7 e7 _ => ?_)
      split
      · exact Run.pure hw7 trivial
      · have hi : Run F (some S.dst.classes) O w7 (incrElements) (Any Unit) := (Run.inert hw7 rfl rfl rfl rfl hw7.scls).any
        refine hi.bind (fun _ w8 hw8 e8 _ => ?_)
        split
        · exact Run.orEach hw8 _ changed (fun k hk w' hw' he => ih w' k (some r) hw' (fun p h => by cases h; exact ⟨((e7.trans e8).trans he).lt hr6, ((e7.trans e8).trans he).mine hr6 hm6⟩) (hkids k hk))
        · exact Run.pure hw8 trivial

/-- Forgetting the syncer's class. -/
theorem Inv.any {w : World V E} (h : Inv F G O w) : Inv F none O w := ⟨h.ok, h.good, h.inst, h.wf, h.redis, fun g c hg => (by cases hg), h.own⟩

theorem SparesIds.single {A : Adapter V} {es : List (Elem V)} (h : SparesIds A es) {e : Elem V} (he : e ∈ es) : SparesIds A [e] := by
  intro x hx
  refine h x ?_
  cases hx with
  | here hx =>
    rw [List.mem_singleton] at hx
    subst hx
    exact .here he
  | under hk' hx =>
    rw [List.mem_singleton] at hk'
    subst hk'
    exact .under he hx

theorem Run.performSync {S : SyncCtx V E} (hd : Family F S.dst) (hs : Family F S.src) {w : World V E} (hw : Inv F none O w) (n : Nat) {d : Diff V}
    (hsp : SparesIds S.dst d.kids) (hO : Of O S.dst) : Run F none O w (performSync S n d) (Any Bool) := by
  unfold DS.performSync
  refine (Run.inert hw rfl rfl rfl rfl (fun g c hg => by cases hg)).bind (fun _ w1 hw1 _ h1 => ?_)
  have hw1' : Inv F (some S.dst.classes) O w1 := ⟨hw1.ok, hw1.good, hw1.inst, hw1.wf, hw1.redis, fun g c hg hc => (by rw [h1] at hc; cases hc), hw1.own⟩
  have := Run.orEach hw1' (f := fun e => DS.syncElem S n e none) (getChildren S.dc d.kids) false
    (fun e he w' hw' _ => Run.syncElem hd hs hO n w' e none hw' (fun p h => by cases h) (hsp.single (mem_getChildren he)))
  exact ⟨this.inv.any, this.evo, this.post⟩

theorem Run.syncFrom {w : World V E} (hw : Inv F none O w) {dst src : Adapter V} (hd : Family F dst) (hs : Family F src) (n rl : Nat) (hooks : Hooks V E)
    (dc : DiffClass V) (flags : Nat) {diff : Option (Diff V)} (hsp : ∀ d, diff = some d → SparesIds dst d.kids) (hO : Of O dst) :
    Run F none O w (syncFrom n rl hooks dst src dc flags diff) (Any _) := by
  unfold DS.syncFrom
  have h1 : Run F none O w (checkDiffClass dc diff) (Any Unit) := by
    unfold checkDiffClass
    split
    · split
      · exact Run.raise hw
      · exact Run.pure hw trivial
    · exact Run.pure hw trivial
  refine h1.bind (fun _ w1 hw1 _ _ => ?_)
  have hdf : Run F none O w1 (DS.diffFrom n dst src dc flags) (fun d _ => SparesIds dst d.kids) :=
    (Run.diffFrom hw1 hd hs n dc flags).mono (fun d _ _ _ h => h.spares hd.valid)
  have h2 : Run F none O w1 (chooseDiff n dst src dc flags diff) (fun d _ => SparesIds dst d.kids) := by
    unfold chooseDiff
    split
    · split
      · exact Run.pure hw1 (hsp _ rfl)
      · exact hdf
    · exact hdf
  refine h2.bind (fun d w2 hw2 _ hd2 => ?_)
  refine (Run.performSync (S := ⟨src, dst, flags, d.cls, hooks, rl⟩) hd hs hw2 n hd2 hO).bind (fun b w3 hw3 _ _ => ?_)
  split
  · exact (Run.emit hw3 _).bind (fun _ w4 hw4 _ _ => Run.pure hw4 trivial)
  · exact Run.pure hw3 trivial

end DS
