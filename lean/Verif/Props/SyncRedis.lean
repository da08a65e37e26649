import Verif.Props.SyncDone
import Verif.Lemmas.RedisCmp
import Verif.Spec.Converge
/-! # C42: syncs into a Redis store -/
set_option linter.unusedSectionVars false

namespace DS
variable {V E : Type} [PyVal V]

section
variable {A : Adapter V} {dc : DiffClass V} {N : Key → Option Nat}

/-- A plan that leaves out no children contains the call of every element with an action. -/
theorem CallPlan.complete (hR : dc.Reorders) {l : List (Elem V)} {cs : List (CrudCall V)} (h : CallPlan A dc N l cs)
    (hk : ∀ e k, InTree e l → ElemKey A e k → e.action = some .delete → ¬ Flagged N k MF.SKIP_CHILDREN_ON_DELETE)
    {x : Elem V} (hx : InTree x l) (ha : x.action ≠ none) : ∃ c ∈ cs, Prescribes A x c := by
  have hp : ∀ {x : Elem V} {ks}, InTree x ks → InTree x (getChildren dc ks) := fun h => h.mono (fun k hk => (getChildren_perm hR _).mem_iff.2 hk)
  have hq : ∀ {x : Elem V} {ks}, InTree x (getChildren dc ks) → InTree x ks := fun h => h.mono (fun k hk => mem_getChildren hk)
  have split : ∀ {x e : Elem V} {l}, InTree x (e :: l) → x = e ∨ InTree x (getChildren dc e.kids) ∨ InTree x l := by
    intro x e l h
    cases h with
    | here h => rcases List.mem_cons.1 h with h | h
                · exact .inl h
                · exact .inr (.inr (.here h))
    | under h h' => rcases List.mem_cons.1 h with h | h
                    · subst h; exact .inr (.inl (hp h'))
                    · exact .inr (.inr (.under h h'))
  have tl : ∀ {x e : Elem V} {l}, InTree x l → InTree x (e :: l) := fun h => h.mono (fun _ h => by simp [h])
  have sub : ∀ {x e : Elem V} {l}, InTree x (getChildren dc e.kids) → InTree x (e :: l) := fun h => .under (List.mem_cons_self ..) (hq h)
  induction h with
  | nil => cases hx with
    | here h => cases h
    | under h _ => cases h
  | nothing h1 _ _ ih ih' =>
    rcases split hx with rfl | h | h
    · exact absurd h1 ha
    · obtain ⟨c, g1, g2⟩ := ih (fun e k he => hk e k (sub he)) h
      exact ⟨c, by simp [g1], g2⟩
    · obtain ⟨c, g1, g2⟩ := ih' (fun e k he => hk e k (tl he)) h
      exact ⟨c, by simp [g1], g2⟩
  | objectFirst h1 _ _ _ _ _ ih ih' =>
    rcases split hx with rfl | h | h
    · exact ⟨_, by simp, h1⟩
    · obtain ⟨c, g1, g2⟩ := ih (fun e k he => hk e k (sub he)) h
      exact ⟨c, by simp [g1], g2⟩
    · obtain ⟨c, g1, g2⟩ := ih' (fun e k he => hk e k (tl he)) h
      exact ⟨c, by simp [g1], g2⟩
  | childrenFirst h1 _ _ _ _ _ ih ih' =>
    rcases split hx with rfl | h | h
    · exact ⟨_, by simp, h1⟩
    · obtain ⟨c, g1, g2⟩ := ih (fun e k he => hk e k (sub he)) h
      exact ⟨c, by simp [g1], g2⟩
    · obtain ⟨c, g1, g2⟩ := ih' (fun e k he => hk e k (tl he)) h
      exact ⟨c, by simp [g1], g2⟩
  | childrenSkipped h1 h2 h3 => exact absurd h3.2 (hk _ _ (.here (List.mem_cons_self ..)) h2 h3.1)
end

section
variable {n rl : Nat} {hooks : Hooks V E} {dst src : Adapter V} {dc : DiffClass V} {flags : Nat} {diff : Option (Diff V)}
  {w w' : World V E} {d : Diff V} {res : Except Err (Diff V)} {sid : String}

/-- **C42** (not convergence: updates and child lists are not persisted, `C42_updates_not_persisted`)  Whatever the calls do and wherever a sync into
a Redis store stops, it only adds and removes: what is stored afterwards was stored before exactly like that (same values, same
child lists), or is what a successful `create` for an element of the diff made; what was stored before is still there like that,
unless an element of the diff deleted it or it went along with a deleted object. -/
theorem C42_redis_adds_and_removes_partial (h : SyncRun n rl hooks dst src dc flags diff w d res w') (hA : dst.ref.store = .redis sid) {t u : String} {m : Model V} :
    ((snap dst w').find t u = some m → (snap dst w).find t u = some m ∨
      ∃ e ids attrs out, InTree e d.kids ∧ e.action = some .create ∧ ElemKey dst e (t, u) ∧ Event.call (.create t ids attrs) out ∈ newEvents w w' ∧
        out.result = .object ∧ CallKey dst (.create t ids attrs) (t, u)) ∧
    ((snap dst w).find t u = some m → (snap dst w').find t u = some m ∨
      (∃ e out, InTree e d.kids ∧ e.action = some .delete ∧ ElemKey dst e (t, u) ∧ Event.call (.delete t u) out ∈ newEvents w w' ∧ out.result = .object) ∨
      TakenAlong dst (snap dst w) d.kids (newEvents w w') (t, u)) := by
  rcases h.cases with ⟨_, rfl, _⟩ | ⟨evs0, evs, p, y, hran⟩
  · exact ⟨.inl, .inl⟩
  · have f := (GFrame.redis hA).1 hran.frame
    have new : ∀ ev ∈ evs, ev ∈ newEvents w w' := fun ev hev => by rw [hran.new]; simp [hev]
    refine ⟨fun hm => ?_, fun hm => ?_⟩
    · obtain ⟨hp, o, ho, rfl⟩ := (redis_find hA).1 hm
      rcases f.come t u o hp ho with h1 | ⟨⟨e, e1, e2, e3⟩, ids, attrs, out, h2, h3, h4⟩
      · exact .inl ((redis_find hA).2 ⟨hp, o, h1, rfl⟩)
      · exact .inr ⟨e, ids, attrs, out, e1, e2, e3, new _ h2, h3, h4⟩
    · obtain ⟨hp, o, ho, rfl⟩ := (redis_find hA).1 hm
      rcases f.gone t u o hp ho with h1 | ⟨⟨e, e1, e2, e3⟩, out, h2, h3⟩ | h1
      · exact .inl ((redis_find hA).2 ⟨hp, o, h1, rfl⟩)
      · exact .inr (.inl ⟨e, out, e1, e2, e3, new _ h2, h3⟩)
      · exact .inr (.inr (hran.taken h1))

/-- **C42**, where it fails in general: what a sync into a Redis store updates is stored afterwards exactly as before, whatever the calls do
(unless it went along with a deleted object); so is every object that the diff neither creates nor deletes, its child lists
included. -/
theorem C42_updates_not_persisted (h : SyncRun n rl hooks dst src dc flags diff w d res w') (hA : dst.ref.store = .redis sid) {t u : String}
    (hn : ∀ e, InTree e d.kids → ElemKey dst e (t, u) → e.action = none ∨ e.action = some .update)
    (hk : ¬ TakenAlong dst (snap dst w) d.kids (newEvents w w') (t, u)) : (snap dst w').find t u = (snap dst w).find t u := by
  have no : ∀ e, InTree e d.kids → ElemKey dst e (t, u) → ∀ a, e.action = some a → a = .update := by
    intro e h1 h2 a h3
    rcases hn e h1 h2 with h | h <;> rw [h] at h3 <;> cases h3; rfl
  cases h1 : (snap dst w').find t u with
  | some m =>
    rcases (C42_redis_adds_and_removes_partial h hA).1 h1 with h2 | ⟨e, _, _, _, e1, e2, e3, _⟩
    · exact h2.symm
    · cases no e e1 e3 _ e2
  | none =>
    cases h2 : (snap dst w).find t u with
    | none => rfl
    | some m =>
      rcases (C42_redis_adds_and_removes_partial h hA).2 h2 with h3 | ⟨e, _, e1, e2, e3, _⟩ | h3
      · rw [h1] at h3; cases h3
      · cases no e e1 e3 _ e2
      · exact absurd h3 hk

/-- **C42** (for creations and deletions; updates and child lists are not persisted)  When a sync into a Redis store returns, every element had its
object and all calls succeeded, then the store holds: for every element to create the object asked for, nothing for every element
to delete, and everything else as before.  (No object flagged SKIP_CHILDREN_ON_DELETE is deleted.) -/
theorem C42_redis_contents_partial {d' : Diff V} (h : SyncRun n rl hooks dst src dc flags diff w d (.ok d') w') (hA : dst.ref.store = .redis sid)
    (ht : Tidy dst d) (hkey : Keyed dst d.kids) (hm : NoMissing (newEvents w w')) (hall : AllSucceed (newEvents w w'))
    (hk : ∀ e k, InTree e d.kids → ElemKey dst e k → e.action = some .delete → ¬ SkipsChildren dst (snap dst w) k) :
    (∀ e, InTree e d.kids → e.action = some .create → InEffect dst (snap dst w) (snap dst w') (.create e.type e.keys (e.plus.getD []))) ∧
    (∀ e t u, InTree e d.kids → e.action = some .delete → ElemKey dst e (t, u) → (snap dst w').find t u = none) ∧
    (∀ t u, (∀ e, InTree e d.kids → ElemKey dst e (t, u) → e.action = none ∨ e.action = some .update) →
      (snap dst w').find t u = (snap dst w).find t u) := by
  have hplan := C26_call_order h ht hkey hm
  have made : ∀ e, InTree e d.kids → e.action ≠ none → ∃ c out, Prescribes dst e c ∧ Event.call c out ∈ newEvents w w' := by
    intro e he ha
    obtain ⟨c, h1, h2⟩ := hplan.complete ht.1
      (fun e k he hek hd hf => by
        obtain ⟨fl, h1, h2⟩ := hf
        obtain ⟨m, h3, rfl⟩ := Option.map_eq_some_iff.1 h1
        exact hk e k (he.mono (fun _ h => mem_getChildren h)) hek hd (.inl ⟨m, h3, h2⟩))
      (he.mono (fun _ h => (getChildren_perm ht.1 _).mem_iff.2 h)) ha
    obtain ⟨⟨c', out⟩, h3, rfl⟩ := List.mem_map.1 h1
    exact ⟨c', out, h2, mem_callsOf.1 h3⟩
  have eff : ∀ c out, Event.call c out ∈ newEvents w w' → c.act ≠ .update → InEffect dst (snap dst w) (snap dst w') c := by
    intro c out hc hu
    exact C61_all_in_effect h ht (fun x hx => by cases hx) hk hc (hall c out hc) (fun h => absurd h hu)
  have nota : ∀ k, ¬ TakenAlong dst (snap dst w) d.kids (newEvents w w') k := by
    intro k h2
    induction h2 with
    | root g1 g2 g3 g4 _ => exact hk _ _ g1 g3 g2 g4
    | down _ _ ih => exact ih
  refine ⟨fun e he ha => ?_, fun e t u he ha hek => ?_, fun t u hn => C42_updates_not_persisted h hA hn (nota _)⟩
  · obtain ⟨c, out, ⟨u, _, hp⟩, hc⟩ := made e he (by rw [ha]; simp)
    rw [ha] at hp
    dsimp only at hp
    subst hp
    exact eff _ out hc (by simp [CrudCall.act])
  · obtain ⟨c, out, ⟨u', hek', hp⟩, hc⟩ := made e he (by rw [ha]; simp)
    rw [ha] at hp
    dsimp only at hp
    subst hp
    cases hek.unique hek'
    exact eff _ out hc (by simp [CrudCall.act])
end

end DS
