import Verif.Lemmas.Safe
import Verif.Lemmas.Remove
/-! Store operations keep the invariant of reachable worlds. -/
set_option linter.unusedSectionVars false

namespace DS
variable {V E α β : Type} [PyVal V] {F : Decls V} {G : Option (Dict (ModelClass V))} {O : Option StoreKind}

theorem Family.get? {A : Adapter V} (h : Family F A) {t : String} {c : ModelClass V} : Dict.get? A.classes t = some c ↔ Dict.get? (F A.ref.store) t = some c := by
  rw [h.classes]

theorem Family.takes {A : Adapter V} (h : Family F A) {t : String} (ht : t ∈ Dict.keys A.classes) : A.Takes t := by
  unfold Adapter.Takes
  cases hs : A.ref.store with
  | «local» sid => trivial
  | redis sid => exact (h.plain sid hs).2 t ht

theorem Declared.mem {A : Adapter V} {w : World V E} {r : Ref} (h : Declared A w r) : (w.heap r).m.type ∈ Dict.keys A.classes :=
  Dict.mem_keys_iff.2 ⟨_, h.2⟩

theorem Of.ne_local {A : Adapter V} {sid : Nat} (hO : Of O A) (hs : A.ref.store = .local sid) {S : StoreKind} (hS : O = some S) {s : Nat} (h : S ≠ .local s) : s ≠ sid := by
  rintro rfl
  exact h ((hO S hS).trans hs)

theorem Of.ne_redis {A : Adapter V} {sid : String} (hO : Of O A) (hs : A.ref.store = .redis sid) {S : StoreKind} (hS : O = some S) {s : String} (h : S ≠ .redis s) : s ≠ sid := by
  rintro rfl
  exact h ((hO S hS).trans hs)

theorem entriesOf_set {sid : String} {k : String} (hk : (storeLabel sid ++ ":").toList.isPrefixOf k.toList = false) (o : Obj V) (d : Dict (Obj V)) :
    entriesOf sid (Dict.set d k o) = entriesOf sid d := by
  unfold entriesOf
  induction d with
  | nil => simp only [Dict.set, List.filter_cons, hk]; rfl
  | cons p d ih =>
    obtain ⟨k', v⟩ := p
    by_cases h : k' = k
    · subst h; simp only [Dict.set, if_true, List.filter_cons, hk]; rfl
    · simp only [Dict.set, h, if_false, List.filter_cons, ih]

theorem entriesOf_erase {sid : String} {k : String} (hk : (storeLabel sid ++ ":").toList.isPrefixOf k.toList = false) (d : Dict (Obj V)) :
    entriesOf sid (Dict.erase d k) = entriesOf sid d := by
  unfold entriesOf Dict.erase
  rw [List.filter_filter]
  apply List.filter_congr
  intro p _
  by_cases h : p.1 = k
  · rw [h, hk]; rfl
  · simp [h]

theorem otherStore_key {s sid : String} (hp : Plain s) (hp' : Plain sid) (hne : s ≠ sid) (t u : String) :
    (storeLabel s ++ ":").toList.isPrefixOf (redisKey sid t u).toList = false :=
  Bool.eq_false_iff.2 (fun h => hne ((prefixStore_iff hp hp').1 h))

/-! ## reading -/

theorem redisKey_sid {sid sid' t t' u u' : String} (h1 : Plain sid) (h2 : Plain sid') (h : redisKey sid t u = redisKey sid' t' u') : sid = sid' := by
  have h := congrArg String.toList h
  rw [redisKey_toList, redisKey_toList] at h
  obtain ⟨_, h⟩ := split_colon_inj noColon_diffsync noColon_diffsync h
  exact String.toList_inj.1 (split_colon_inj h1.noColon h2.noColon h).1

/-- Loading an entry of a store. -/
theorem Run.redisLoad {w : World V E} (hw : Inv F G O w) {A : Adapter V} (hA : Family F A) {sid : String} (hs : A.ref.store = .redis sid) {k : String}
    (hk : (storeLabel sid ++ ":").toList.isPrefixOf k.toList = true) :
    Run F G O w (redisLoad A k) (fun r w' => Declared A w' r ∧ (O ≠ none → Attached A w' r) ∧ ∀ t u, Plain t → k = redisKey sid t u → (w'.heap r).m.type = t ∧ (w'.heap r).m.uid = u) := by
  cases hg : Dict.get? w.redis k with
  | none =>
    have : DS.redisLoad A k w = (.error .objectNotFound, w) := by unfold DS.redisLoad; rw [hg]
    exact ⟨by rw [this]; exact hw, by rw [this]; exact Evo.refl w, by rw [this]; intro a ha; cases ha⟩
  | some o =>
    have : DS.redisLoad A k w = DS.alloc { o with adapter := some A.ref } w := by unfold DS.redisLoad; rw [hg]
    have he := hw.redis k o hg (prefixStore_diffsync hk)
    obtain ⟨sid', h1, h2, h3, h4⟩ := he.key
    have h0 := (hA.plain sid hs).1
    have hsid : sid = sid' := by
      rw [h3] at hk
      exact (prefixStore_iff h0 h1).1 hk
    subst hsid
    have hr : Run F G O w (DS.alloc { o with adapter := some A.ref }) (fun r w' => Declared A w' r ∧ (O ≠ none → Attached A w' r) ∧ ∀ t u, Plain t → k = redisKey sid t u → (w'.heap r).m.type = t ∧ (w'.heap r).m.uid = u) := by
      refine (Run.alloc hw (o := { o with adapter := some A.ref }) he.good).mono (fun r w' _ _ hr => ?_)
      refine ⟨⟨hr.1, ?_⟩, fun _ => ⟨A.ref, by rw [hr.2], rfl⟩, fun t u ht hk' => ?_⟩
      · rw [hr.2, hA.classes, hs]; exact h4
      · rw [hr.2]
        obtain ⟨_, h5, h6⟩ := redisKey_inj h0 h0 h2 ht (h3.symm.trans hk')
        exact ⟨h5, h6⟩
    exact ⟨by rw [this]; exact hr.inv, by rw [this]; exact hr.evo, by rw [this]; exact hr.post⟩

theorem storePrefix_redisKey (sid t u : String) : (storeLabel sid ++ ":").toList.isPrefixOf (redisKey sid t u).toList = true := by
  rw [prefixStore_toList, redisKey_toList, List.isPrefixOf_iff_prefix]
  exact ⟨t.toList ++ ':' :: u.toList, by simp⟩

theorem Run.localModel {w : World V E} (hw : Inv F G O w) (sid : Nat) (t : String) :
    Run F G O w (localModel sid t) (fun d w' => d = tbl w sid t ∧ w' = w.setLoc sid (touch (w.loc sid) t) ∧ w'.heap = w.heap ∧ ∀ s t u, findRef w' s t u = findRef w s t u) := by
  have f : Frame w (w.setLoc sid (touch (w.loc sid) t)) := Frame.setLoc _ _ _ (fun h => wf_touch h _)
  have ts : TblSame w (w.setLoc sid (touch (w.loc sid) t)) := tbl_setLoc_touch _ _ _
  refine ⟨?_, ?_, ?_⟩ <;> rw [localModel_eq]
  · exact hw.of_frame f (OK.of_same hw.ok f ts) (fun s t u r h => .inl (by rw [ts.findRef] at h; exact h))
      (fun hO s t u r h => hw.own hO s t u r (by rw [ts.findRef] at h; exact h))
  · exact Evo.of_frame f (fun _ _ _ _ _ h => .inr h) (fun _ _ s _ t => ts s t)
  · intro d hd; cases hd
    exact ⟨rfl, rfl, rfl, ts.findRef⟩

theorem Run.getRaw {w : World V E} (hw : Inv F G O w) {A : Adapter V} (hA : Family F A) (t u : String) :
    Run F G O w (getRaw A t u) (fun r w' => Declared A w' r ∧ (O ≠ none → Attached A w' r) ∧ (A.Takes t → (w'.heap r).m.type = t ∧ (w'.heap r).m.uid = u)) := by
  unfold DS.getRaw
  cases hs : A.ref.store with
  | «local» sid =>
    refine (Run.localModel hw sid t).bind (fun d w' hw' he h => ?_)
    refine Run.ofOption hw' (fun r hr => ?_)
    have hf : findRef w' sid t u = some r := by rw [h.2.2.2]; unfold findRef; rw [← h.1]; exact hr
    obtain ⟨h1, h2⟩ := hw'.ok.key_ok _ _ _ _ hf
    refine ⟨⟨hw'.ok.refs_lt _ _ _ _ hf, ?_⟩, fun hO => ?_, fun _ => ⟨h1, h2⟩⟩
    rotate_left
    · obtain ⟨a, ha, hs'⟩ := hw'.own hO _ _ _ _ hf
      exact ⟨a, ha, by rw [hs, hs']⟩
    rw [h1, hA.classes, hs]
    exact hw'.inst _ _ _ _ hf
  | redis sid =>
    refine (Run.redisLoad hw hA hs (storePrefix_redisKey sid t u)).mono (fun r w' _ _ h => ⟨h.1, h.2.1, fun ht => ?_⟩)
    unfold Adapter.Takes at ht
    rw [hs] at ht
    exact h.2.2 t u ht rfl

theorem Run.get {w : World V E} (hw : Inv F G O w) {A : Adapter V} (hA : Family F A) (model : ModelArg V) (ident : Ident V) :
    Run F G O w (get A model ident) (fun r w' => Declared A w' r ∧ (O ≠ none → Attached A w' r) ∧ (A.Takes model.modelName → (w'.heap r).m.type = model.modelName)) := by
  unfold DS.get
  refine (Run.ofExcept (Q := fun a _ => a.1 = model.modelName) hw (fun a ha => ?_)).bind (fun a w' hw' he h => ?_)
  · unfold resolve at ha
    cases ident with
    | uid s => cases ha; rfl
    | dict d =>
      dsimp only at ha
      split at ha
      · cases ha
      · split at ha
        · cases ha; rfl
        · cases ha
  · refine (Run.getRaw hw' hA a.1 a.2).mono (fun r w2 _ _ h2 => ⟨h2.1, h2.2.1, fun ht => ?_⟩)
    rw [← h] at ht ⊢
    exact (h2.2.2 ht).1

theorem Run.getOrNone {w : World V E} (hw : Inv F G O w) {A : Adapter V} (hA : Family F A) (model : ModelArg V) (ident : Ident V) :
    Run F G O w (getOrNone A model ident) (Any _) := by
  unfold DS.getOrNone
  refine Run.tryCatch ((Run.get hw hA model ident).bind (fun r w' hw' _ _ => Run.pure hw' trivial)) (fun _ w' hw' _ => Run.pure hw' trivial)

theorem matchToks_lit (p : List Char) (q : List Tok) (s : List Char) (h : matchToks (p.map Tok.lit ++ q) s = true) : p.isPrefixOf s = true := by
  induction p generalizing s with
  | nil => rfl
  | cons a p ih =>
    cases s with
    | nil => exact absurd h (by simp [matchToks])
    | cons c s =>
      rw [List.map_cons, List.cons_append] at h
      simp only [matchToks, Bool.and_eq_true, beq_iff_eq] at h
      rw [List.isPrefixOf_cons₂, Bool.and_eq_true, beq_iff_eq]
      exact ⟨h.1, ih s h.2⟩

/-- Whatever the model name, a scan only finds keys of the store. -/
theorem scan_store {d : Dict (Obj V)} {sid t : String} (hs : Plain sid) {k : String} (hk : k ∈ scanKeys d (storeLabel sid ++ (":" ++ (t ++ ":")))) :
    (storeLabel sid ++ ":").toList.isPrefixOf k.toList = true := by
  have h := (List.mem_filter.1 hk).2
  unfold globMatch at h
  have e : (storeLabel sid ++ (":" ++ (t ++ ":")) ++ "*").toList = (storeLabel sid ++ ":").toList ++ (t ++ ":" ++ "*").toList := by
    simp [String.toList_append]
  rw [e, parseGlob_plain] at h
  · exact matchToks_lit _ _ _ h
  · intro c hc
    rw [prefixStore_toList] at hc
    simp only [List.mem_append, List.mem_cons, List.not_mem_nil, or_false] at hc
    rcases hc with hc | rfl | hc | rfl
    · revert c; decide
    · decide
    · exact fun h => hs c hc (List.mem_cons_of_mem _ h)
    · decide

theorem declared_mono {A : Adapter V} (r : Ref) (w w' : World V E) (h : Evo O w w') (hr : Declared A w r) : Declared A w' r := h.declared hr

theorem Run.getAll {w : World V E} (hw : Inv F G O w) {A : Adapter V} (hA : Family F A) (t : String) :
    Run F G O w (getAll A t) (fun rs w' => ∀ r ∈ rs, Declared A w' r) := by
  unfold DS.getAll
  cases hs : A.ref.store with
  | «local» sid =>
    refine (Run.localModel hw sid t).bind (fun d w' hw' he h => Run.pure hw' (fun r hr => ?_))
    obtain ⟨p, hp, rfl⟩ := List.mem_map.1 hr
    have hf : findRef w sid t p.1 = some p.2 := by
      unfold findRef
      rw [h.1] at hp
      exact Dict.get?_of_mem (hw.ok.tbl_wf sid t) hp
    have hf' : findRef w' sid t p.1 = some p.2 := by rw [h.2.2.2]; exact hf
    obtain ⟨h1, h2⟩ := hw'.ok.key_ok _ _ _ _ hf'
    refine ⟨hw'.ok.refs_lt _ _ _ _ hf', ?_⟩
    rw [h1, hA.classes, hs]
    exact hw'.inst _ _ _ _ hf'
  | redis sid =>
    refine Run.read_bind ?_
    refine Run.mapEach hw _ declared_mono (fun k hk w' hw' _ => ?_)
    exact (Run.redisLoad hw' hA hs (scan_store (hA.plain sid hs).1 hk)).mono (fun _ _ _ _ h => h.1)

theorem Run.getByUids {w : World V E} (hw : Inv F G O w) {A : Adapter V} (hA : Family F A) (us : List String) (t : String) :
    Run F G O w (getByUids A us t) (fun rs w' => ∀ r ∈ rs, Declared A w' r) := by
  unfold DS.getByUids
  exact Run.mapEach hw _ declared_mono (fun u _ w' hw' _ => (Run.getRaw hw' hA t u).mono (fun _ _ _ _ h => h.1))

theorem Run.count {w : World V E} (hw : Inv F G O w) (A : Adapter V) (model : Option (ModelArg V)) : Run F G O w (count A model) (Any _) := by
  have hl : ∀ sid s, Run F G O w (fun w => match DS.localModel sid s w with | (.ok d, w') => (.ok d.length, w') | (.error e, w') => (.error e, w')) (Any Nat) := by
    intro sid s
    have := Run.localModel hw sid s
    refine ⟨?_, ?_, fun _ _ => trivial⟩
    · rw [localModel_eq]; have := this.inv; rw [localModel_eq] at this; exact this
    · rw [localModel_eq]; have := this.evo; rw [localModel_eq] at this; exact this
  have hn : ∀ n : Nat, Run F G O w (fun w => (.ok n, w)) (Any Nat) := fun n => ⟨hw, Evo.refl w, fun _ _ => trivial⟩
  cases hs : A.ref.store with
  | redis sid =>
    cases model with
    | none => exact ⟨by simp only [DS.count, hs]; exact hw, by simp only [DS.count, hs]; exact Evo.refl w, fun _ _ => trivial⟩
    | some a => exact ⟨by simp only [DS.count, hs]; exact hw, by simp only [DS.count, hs]; exact Evo.refl w, fun _ _ => trivial⟩
  | «local» sid =>
    cases model with
    | none => exact ⟨by simp only [DS.count, hs]; exact hw, by simp only [DS.count, hs]; exact Evo.refl w, fun _ _ => trivial⟩
    | some a =>
      cases a with
      | cls c => exact ⟨by simp only [DS.count, hs]; exact (hl sid c.name).inv, by simp only [DS.count, hs]; exact (hl sid c.name).evo, fun _ _ => trivial⟩
      | name s =>
        by_cases he : s = ""
        · exact ⟨by simp only [DS.count, hs, he]; exact hw, by simp only [DS.count, hs, he]; exact Evo.refl w, fun _ _ => trivial⟩
        · exact ⟨by simp only [DS.count, hs, he]; exact (hl sid s).inv, by simp only [DS.count, hs, he]; exact (hl sid s).evo, fun _ _ => trivial⟩

/-! ## writing -/

theorem Run.of_frame {w w' : World V E} (hw : Inv F G O w) {m : M V E α} {res : Except Err α} (h : m w = (res, w')) (f : Frame w w') (ok : w'.OK)
    (hi : ∀ sid t u r, findRef w' sid t u = some r → findRef w sid t u = some r ∨ Dict.get? (F (.local sid)) t = some (w.heap r).m.cls)
    (ho : O ≠ none → BackRefs w') (ha : ∀ S, O = some S → ∀ r, r < w.next → ∀ a, (w'.heap r).adapter = some a → a.store = S ∨ (w.heap r).adapter = some a)
    (ht : ∀ S, O = some S → ∀ sid, S ≠ .local sid → ∀ t, tbl w' sid t = tbl w sid t) : Run F G O w m (Any α) := by
  refine ⟨?_, ?_, fun _ _ => trivial⟩ <;> rw [h]
  · exact hw.of_frame f ok hi ho
  · exact Evo.of_frame f ha ht

/-- What `add` makes of the adapter of an object. -/
theorem add_local_adapter {A : Adapter V} {sid : Nat} (hs : A.ref.store = .local sid) (r : Ref) (w : World V E)
    (h : findRef w sid (w.heap r).m.type (w.heap r).m.uid = none) :
    ((add A r w).2.heap r).adapter = some A.ref ∨
      (((add A r w).2.heap r).adapter = (w.heap r).adapter ∧ ∃ a, (w.heap r).adapter = some a ∧ countStore a.store w ≠ 0) := by
  unfold DS.add
  rw [deref_bind]
  simp only [hs]
  rw [M.bind_ok (localModel_eq sid _ w)]
  have : Dict.get? (tbl w sid (w.heap r).m.type) (w.heap r).m.uid = none := h
  simp only [this]
  rw [M.read_bind]
  have hc := fun k => (DRel.setLoc_touch w sid (w.heap r).m.type).count_eq k
  generalize hw1 : w.setLoc sid (touch (w.loc sid) (w.heap r).m.type) = w1
  rw [hw1] at hc
  have h1 : w1.heap = w.heap := by rw [← hw1]; rfl
  split
  · rename_i ht
    refine .inr ⟨?_, ?_⟩
    · show (w1.heap r).adapter = _
      rw [h1]
    · cases ha : (w.heap r).adapter with
      | none => rw [ha] at ht; cases ht
      | some a =>
        rw [ha] at ht
        refine ⟨a, rfl, ?_⟩
        rw [← hc]
        simpa [adapterTruthy] using ht
  · refine .inl ?_
    show (if r = r then _ else _ : Obj V).adapter = _
    rw [if_pos rfl]

/-- What `remove` makes of the adapter of an object. -/
theorem removeOne_local_adapter {A : Adapter V} {sid : Nat} (hs : A.ref.store = .local sid) (r : Ref) (w : World V E) :
    ((removeOne A r w).2.heap r).adapter = none ∨ ((removeOne A r w).2.heap r).adapter = (w.heap r).adapter := by
  unfold DS.removeOne
  rw [deref_bind]
  obtain ⟨w1, h1, f1, t1, p1⟩ := removeItem_local hs (w.heap r).m.type (w.heap r).m.uid w
  split at h1
  · rw [M.bind_ok h1, M.read_bind]
    split
    · refine .inl ?_
      show (if r = r then _ else _ : Obj V).adapter = _
      rw [if_pos rfl]
    · refine .inr ?_
      show (w1.heap r).adapter = _
      rw [p1]
  · rw [M.bind_err h1]
    refine .inr ?_
    show (w1.heap r).adapter = _
    rw [p1]

/-- An object that may be attached to an adapter is in no other local store. -/
theorem Attachable.alone {w : World V E} (ho : BackRefs w) {A : Adapter V} {r : Ref} (h : Attachable A w r) {sid : Nat} {t u : String} (hf : findRef w sid t u = some r) :
    A.ref.store = .local sid := by
  obtain ⟨a, ha, hs⟩ := ho sid t u r hf
  rcases h a ha with h | h
  · rw [← h, hs]
  · rw [hs] at h
    exact absurd h (Nat.pos_iff_ne_zero.1 (findRef_count_pos hf))

theorem Run.add {w : World V E} (hw : Inv F G O w) {A : Adapter V} (hA : Family F A) {r : Ref} (hr : Declared A w r) (hO : Of O A)
    (hat : O ≠ none → A.OnLocal → Attachable A w r) : Run F G O w (add A r) (Any Unit) := by
  cases hs : A.ref.store with
  | «local» sid =>
    cases hf : findRef w sid (w.heap r).m.type (w.heap r).m.uid with
    | some r' =>
      obtain ⟨w', h, f, t, hh⟩ := add_local_some hs r r' w hf
      have ho : O ≠ none → BackRefs w' := fun hn s t' u r h => by
        rw [t.findRef] at h
        rw [hh]; exact hw.own hn s t' u r h
      have ha : ∀ S, O = some S → ∀ r, r < w.next → ∀ a, (w'.heap r).adapter = some a → a.store = S ∨ (w.heap r).adapter = some a :=
        fun _ _ r _ a h => .inr (by rw [hh] at h; exact h)
      by_cases he : r' = r
      · rw [if_pos he] at h
        exact Run.of_frame hw h f (OK.of_same hw.ok f t) (fun s t' u r h => .inl (by rw [t.findRef] at h; exact h)) ho ha (fun _ _ s _ t' => t s t')
      · rw [if_neg he] at h
        exact Run.of_frame hw h f (OK.of_same hw.ok f t) (fun s t' u r h => .inl (by rw [t.findRef] at h; exact h)) ho ha (fun _ _ s _ t' => t s t')
    | none =>
      obtain ⟨w', h, f, t, hh⟩ := add_local_none hs r w hf
      have had := add_local_adapter hs r w hf
      rw [h] at had
      dsimp only at had
      refine Run.of_frame hw h f (OK.of_set hw.ok f hr.1 t) (fun s t' u r' h => ?_) (fun hn s t' u r' h => ?_) (fun S hS r' _ a h => ?_)
        (fun S hS s h t' => by rw [t s t', if_neg (fun e => hO.ne_local hs hS h e.1)])
      · rw [t.findRef] at h
        split at h
        · rename_i hc
          cases h
          refine .inr ?_
          rw [hc.1, hc.2.1, ← hs, ← hA.classes]
          exact hr.2
        · exact .inl h
      · rw [t.findRef] at h
        have hat' := hat hn ⟨sid, hs⟩
        by_cases hrr : r' = r
        · have hsid : s = sid := by
            split at h
            · rename_i hc; exact hc.1
            · rw [hrr] at h
              have := hat'.alone (hw.own hn) h
              rw [hs] at this
              exact (StoreKind.local.inj this).symm
          rw [hrr, hsid]
          rcases had with had | ⟨had, a, ha, hc⟩
          · exact ⟨_, had, hs⟩
          · refine ⟨a, had.trans ha, ?_⟩
            rcases hat' a ha with h | h
            · rw [h, hs]
            · exact absurd h hc
        · rw [hh r' hrr]
          split at h
          · cases h; exact absurd rfl hrr
          · exact hw.own hn s t' u r' h
      · by_cases hrr : r' = r
        · rw [hrr] at h ⊢
          rcases had with had | ⟨had, _⟩
          · rw [had] at h
            cases h
            exact .inl (hO S hS).symm
          · rw [had] at h; exact .inr h
        · rw [hh r' hrr] at h; exact .inr h
  | redis sid =>
    have hp := hA.takes hr.mem
    unfold Adapter.Takes at hp
    rw [hs] at hp
    unfold DS.add
    refine Run.deref_bind ?_
    rw [hs]
    refine Run.read_bind ?_
    split
    · split
      · exact Run.pure hw trivial
      · exact Run.raise hw
    · refine ⟨?_, Evo.of_redis rfl rfl rfl (fun S hS s h hp' => entriesOf_set (otherStore_key hp' (hA.plain sid hs).1 (hO.ne_redis hs hS h) _ _) _ _), fun _ _ => trivial⟩
      exact hw.redisSet (o := { w.heap r with adapter := none }) (hA.plain sid hs).1 hp (by rw [← hs, ← hA.classes]; exact hr.2) (hw.good r hr.1) rfl

theorem Run.update {w : World V E} (hw : Inv F G O w) {A : Adapter V} (hA : Family F A) {r : Ref} (hr : Declared A w r)
    (hO : Of O A) (hat : O ≠ none → A.OnLocal → Attached A w r) : Run F G O w (update A r) (Any Unit) := by
  cases hs : A.ref.store with
  | «local» sid =>
    obtain ⟨w', h, f, t, hh⟩ := update_local hs r w
    refine Run.of_frame hw h f (OK.of_set hw.ok f hr.1 t) (fun s t' u r' h => ?_) (fun hn s t' u r' h => ?_) (fun _ _ r _ a h => .inr (by rw [hh] at h; exact h))
      (fun S hS s h t' => by rw [t s t', if_neg (fun e => hO.ne_local hs hS h e.1)])
    · rw [t.findRef] at h
      split at h
      · rename_i hc
        cases h
        refine .inr ?_
        rw [hc.1, hc.2.1, ← hs, ← hA.classes]
        exact hr.2
      · exact .inl h
    · rw [t.findRef] at h
      rw [hh]
      split at h
      · rename_i hc
        cases h
        obtain ⟨a, ha, hs'⟩ := hat hn ⟨sid, hs⟩
        exact ⟨a, ha, by rw [hs', hs, hc.1]⟩
      · exact hw.own hn s t' u r' h
  | redis sid =>
    have hp := hA.takes hr.mem
    unfold Adapter.Takes at hp
    rw [hs] at hp
    unfold DS.update
    refine Run.deref_bind ?_
    rw [hs]
    refine ⟨?_, Evo.of_redis rfl rfl rfl (fun S hS s h hp' => entriesOf_set (otherStore_key hp' (hA.plain sid hs).1 (hO.ne_redis hs hS h) _ _) _ _), fun _ _ => trivial⟩
    exact hw.redisSet (o := { w.heap r with adapter := none }) (hA.plain sid hs).1 hp (by rw [← hs, ← hA.classes]; exact hr.2) (hw.good r hr.1) rfl

/-- Unsetting the adapter of an object that is in no local store. -/
theorem Run.detach {w : World V E} (hw : Inv F G O w) {r : Ref} (hr : r < w.next) (hn : O ≠ none → ∀ sid t u, findRef w sid t u ≠ some r) :
    Run F G O w (DS.writeObj r { w.heap r with adapter := none }) (Any Unit) := by
  have f : Frame w (w.setObj r { w.heap r with adapter := none }) := Frame.setAdapter _ _ _
  have hh : ∀ r', r' ≠ r → (w.setObj r { w.heap r with adapter := none }).heap r' = w.heap r' := fun r' h => if_neg h
  refine Run.of_frame hw rfl f (OK.of_same hw.ok f (fun _ _ => rfl)) (fun _ _ _ _ h => .inl h) (fun hO s t u r' h => ?_) (fun S hS r' _ a h => ?_) (fun _ _ _ _ _ => rfl)
  · rw [hh r' (fun e => hn hO s t u (e ▸ h))]
    exact hw.own hO s t u r' h
  · by_cases e : r' = r
    · rw [e] at h
      have : ((w.setObj r { w.heap r with adapter := none }).heap r).adapter = none := by
        show (if r = r then _ else _ : Obj V).adapter = _
        rw [if_pos rfl]
      rw [this] at h; cases h
    · rw [hh r' e] at h; exact .inr h

theorem Run.removeOne {w : World V E} (hw : Inv F G O w) {A : Adapter V} (hA : Family F A) (hO : Of O A) {r : Ref} (hr : r < w.next) (hat : O ≠ none → Attachable A w r) :
    Run F G O w (removeOne A r) (Any Unit) := by
  cases hs : A.ref.store with
  | «local» sid =>
    obtain ⟨w', h, f, t, hh⟩ := removeOne_local hs r w
    have had := removeOne_local_adapter hs r w
    have hw' : (DS.removeOne A r w).2 = w' := by rw [h]; split <;> rfl
    rw [hw'] at had
    have hi : ∀ s t' u r', findRef w' s t' u = some r' → findRef w s t' u = some r' ∨ Dict.get? (F (.local s)) t' = some (w.heap r').m.cls := by
      intro s t' u r' h
      rw [t.findRef] at h
      split at h
      · cases h
      · exact .inl h
    have ho : O ≠ none → BackRefs w' := by
      intro hn s t' u r' h
      rw [t.findRef] at h
      split at h
      · cases h
      · rename_i hne
        by_cases e : r' = r
        · rw [e] at h
          have h1 := (hat hn).alone (hw.own hn) h
          rw [hs] at h1
          have h2 := hw.ok.key_ok _ _ _ _ h
          exact absurd ⟨(StoreKind.local.inj h1).symm, h2.1.symm, h2.2.symm⟩ hne
        · rw [hh r' e]; exact hw.own hn s t' u r' h
    have ha : ∀ S, O = some S → ∀ r, r < w.next → ∀ a, (w'.heap r).adapter = some a → a.store = S ∨ (w.heap r).adapter = some a := by
      intro S _ r' _ a h
      by_cases e : r' = r
      · rw [e] at h ⊢
        rcases had with had | had
        · rw [had] at h; cases h
        · rw [had] at h; exact .inr h
      · rw [hh r' e] at h; exact .inr h
    have ht : ∀ S, O = some S → ∀ s, S ≠ .local s → ∀ t', tbl w' s t' = tbl w s t' := fun S hS s h t' => by rw [t s t', if_neg (fun e => hO.ne_local hs hS h e.1)]
    split at h
    · exact Run.of_frame hw h f (OK.of_erase hw.ok f t) hi ho ha ht
    · exact Run.of_frame hw h f (OK.of_erase hw.ok f t) hi ho ha ht
  | redis sid =>
    unfold DS.removeOne
    refine Run.deref_bind ?_
    have h1 : Run F G O w (removeItem A (w.heap r).m.type (w.heap r).m.uid) (fun _ w' => w'.heap = w.heap ∧ w'.loc = w.loc ∧ w'.next = w.next) := by
      unfold removeItem
      rw [hs]
      refine Run.read_bind ?_
      split
      · exact ⟨hw.redisErase _, Evo.of_redis rfl rfl rfl (fun S hS s h hp' => entriesOf_erase (otherStore_key hp' (hA.plain sid hs).1 (hO.ne_redis hs hS h) _ _) _), fun _ _ => ⟨rfl, rfl, rfl⟩⟩
      · exact Run.raise hw
    refine h1.bind (fun _ w' hw' he hh => Run.read_bind ?_)
    obtain ⟨hh, hl, hnx⟩ := hh
    split
    · have := Run.detach hw' (r := r) (by rw [hnx]; exact hr) (fun hn s t u h => ?_)
      · rw [hh] at this; exact this
      · have h' : findRef w s t u = some r := by unfold findRef tbl at h ⊢; rw [hl] at h; exact h
        have := (hat hn).alone (hw.own hn) h'
        rw [hs] at this; cases this
    · exact Run.pure hw' trivial

theorem Run.remove {A : Adapter V} (hA : Family F A) (hO : Of O A) (n : Nat) : ∀ {w : World V E} (_ : Inv F G O w) {r : Ref} (_ : r < w.next) (_ : O ≠ none → Attachable A w r) (b : Bool),
    Run F G O w (remove A n r b) (Any Unit) := by
  induction n with
  | zero => intro w hw r hr _ b; exact Run.raise hw
  | succ n ih =>
    intro w hw r hr hat b
    unfold DS.remove
    refine Run.deref_bind ((Run.removeOne hw hA hO hr hat).bind (fun _ w' hw' he _ => ?_))
    split
    · refine Run.forEach hw' _ (fun c _ w2 hw2 _ => Run.tryCatch ?_ (fun _ w3 hw3 _ => Run.emit hw3 _))
      exact (Run.getRaw hw2 hA c.1 c.2).bind (fun k w3 hw3 _ hk => ih hw3 hk.1.1 (fun hn => (Attached.mine hO hk.2.1).attachable hO hn) b)
    · exact Run.pure hw' trivial

/-! ## convenience methods -/

theorem construct_good {c : ModelClass V} (hc : c.Valid) {ids attrs : Dict V} (m : Model V) (h : c.construct ids attrs = .ok m) : m.cls = c ∧ Good m :=
  ⟨(instantiate_ok (construct_ok h)).1, Good.construct hc h⟩

theorem Run.getOrInstantiate {w : World V E} (hw : Inv F G O w) {A : Adapter V} (hA : Family F A) {c : ModelClass V} (hc : Dict.get? A.classes c.name = some c)
    (ids attrs : Dict V) (hO : Of O A) : Run F G O w (getOrInstantiate A c ids attrs) (fun p w' => Declared A w' p.1 ∧ (w'.heap p.1).m.cls = c ∧ Mine O w' p.1) := by
  unfold DS.getOrInstantiate
  refine Run.tryCatch ((Run.get hw hA _ _).bind (fun r w' hw' _ hr => Run.pure hw' ⟨hr.1, ?_, Attached.mine hO hr.2.1⟩)) (fun _ w' hw' _ => ?_)
  · have := hr.1.2
    rw [hr.2.2 (hA.takes (Dict.mem_keys_iff.2 ⟨c, hc⟩))] at this
    exact Option.some.inj (this.symm.trans hc)
  · refine (Run.ofExcept (Q := fun m _ => m.cls = c ∧ Good m) hw' (construct_good (hA.valid.valid _ _ hc))).bind (fun m w1 hw1 _ hm => ?_)
    refine (Run.alloc hw1 (o := { m := m }) hm.2).bind (fun r w2 hw2 _ h2 => ?_)
    have hd : Declared A w2 r := ⟨h2.1, by rw [h2.2]; show Dict.get? A.classes m.cls.name = _; rw [hm.1]; exact hc⟩
    refine (Run.add hw2 hA hd hO (fun _ _ a ha => by rw [h2.2] at ha; cases ha)).bind (fun _ w3 hw3 he _ => Run.pure hw3 ⟨he.declared hd, ?_, he.mine hd.1 (fun S _ a ha => by rw [h2.2] at ha; cases ha)⟩)
    rw [he.cls_eq r hd.1, h2.2]; exact hm.1

theorem add_heap_m (A : Adapter V) (r r' : Ref) (w : World V E) : ((DS.add A r w).2.heap r').m = (w.heap r').m := by
  cases hs : A.ref.store with
  | «local» sid =>
    cases hf : findRef w sid (w.heap r).m.type (w.heap r).m.uid with
    | some q =>
      obtain ⟨w', h, f, _, _⟩ := add_local_some hs r q w hf
      rw [h]
      split <;> exact f.heap_m r'
    | none =>
      obtain ⟨w', h, f, _, _⟩ := add_local_none hs r w hf
      rw [h]; exact f.heap_m r'
  | redis sid =>
    unfold DS.add
    rw [deref_bind]
    simp only [hs]
    rw [M.read_bind]
    cases Dict.get? w.redis (redisKey sid (w.heap r).m.type (w.heap r).m.uid) with
    | none => rfl
    | some o' => dsimp only; split <;> rfl

/-- An object that was added to a local store belongs to it. -/
theorem add_local_mine {w : World V E} (hw : Inv F G O w) {A : Adapter V} {sid : Nat} (hs : A.ref.store = .local sid) {r : Ref} (hO : Of O A)
    (hat : O ≠ none → Attachable A w r) (h : (DS.add A r w).1 = .ok ()) : Mine O (DS.add A r w).2 r := by
  intro S hS a ha
  have hn : O ≠ none := by rw [hS]; simp
  rw [hO S hS, hs]
  cases hf : findRef w sid (w.heap r).m.type (w.heap r).m.uid with
  | some r' =>
    obtain ⟨w', h', f, t, hh⟩ := add_local_some hs r r' w hf
    rw [h'] at ha h
    by_cases he : r' = r
    · rw [if_pos he] at ha
      dsimp only at ha
      rw [hh] at ha
      obtain ⟨a', h1, h2⟩ := hw.own hn sid _ _ _ hf
      rw [he, ha] at h1
      cases h1; exact h2
    · rw [if_neg he] at h; cases h
  | none =>
    rcases add_local_adapter hs r w hf with h1 | ⟨h1, a', h2, h3⟩
    · rw [h1] at ha; cases ha; exact hs
    · rw [h1] at ha
      rcases hat hn a ha with h | h
      · rw [h, hs]
      · rw [ha] at h2; cases h2; exact absurd h h3

theorem set_same {α : Type} {d : Dict α} {k : String} {v : α} (h : Dict.get? d k = some v) : Dict.set d k v = d := by
  induction d with
  | nil => cases h
  | cons p d ih =>
    obtain ⟨k', v'⟩ := p
    rw [Dict.get?_cons] at h
    by_cases hk : k' = k
    · rw [if_pos hk] at h; cases h; simp [Dict.set, hk]
    · rw [if_neg hk] at h; simp [Dict.set, hk, ih h]

/-- Setting attributes to what they are. -/
theorem setattrs_same {m : Model V} : ∀ {d : Dict V}, (∀ p ∈ d, Dict.get? m.vals p.1 = some p.2) → (m.setattrs d).1 = m
  | [], _ => rfl
  | (k, v) :: d, h => by
    unfold Model.setattrs Model.setattr
    have h1 : { m with vals := Dict.set m.vals k v } = m := by rw [set_same (h (k, v) (by simp))]
    split
    · rename_i m' hm'
      split at hm'
      · cases hm'
        rw [h1]
        exact setattrs_same (fun p hp => h p (by simp [hp]))
      · cases hm'
    · rfl

theorem setattrs_own {m : Model V} (hg : Good m) : (m.setattrs m.attrs).1 = m := by
  refine setattrs_same (fun p hp => ?_)
  unfold Model.attrs at hp
  exact Dict.get?_of_mem (Model.vals_wf hg.complete hg.valid) (List.mem_filter.1 hp).1

theorem Run.getOrAddInstance {w : World V E} (hw : Inv F G O w) {A : Adapter V} (hA : Family F A) {r : Ref} (hr : Declared A w r) (hO : Of O A)
    (hat : O ≠ none → A.OnLocal → Attachable A w r) : Run F G O w (getOrAddInstance A r) (fun p w' => Declared A w' p.1 ∧ (w'.heap p.1).m.cls = (w.heap r).m.cls ∧
      ((w'.heap p.1).m = (w.heap r).m ∨ Mine O w' p.1)) := by
  unfold DS.getOrAddInstance
  refine Run.deref_bind ?_
  refine Run.tryCatchAt ((Run.get hw hA _ _).bind (fun r' w' hw' _ hr' => Run.pure hw' ⟨hr'.1, ?_, .inr (Attached.mine hO hr'.2.1)⟩)) (fun _ w' hx hw' he => ?_)
  · have := hr'.1.2
    rw [hr'.2.2 (hA.takes hr.mem)] at this
    exact Option.some.inj (this.symm.trans hr.2)
  · have hd : DRel w w' := by
      rw [← hx]
      have := (getRaw_spec A (w.heap r).m.type (w.heap r).m.uid w hw.ok.refs_lt).1.toDRel
      have e : (do let r' ← DS.get A (.name (w.heap r).m.type) (.uid (w.heap r).m.uid); Pure.pure (r', false) : M V E (Ref × Bool)) w
          = (DS.getRaw A (w.heap r).m.type (w.heap r).m.uid >>= fun r' => Pure.pure (r', false)) w := rfl
      rw [e, M.bind_def]
      cases hg : DS.getRaw A (w.heap r).m.type (w.heap r).m.uid w with
      | mk res w1 =>
        rw [hg] at this
        cases res <;> exact this
    refine ((Run.add hw' hA (he.declared hr) hO (fun hn hl a ha => ?_)).withPost (R := fun w3 => (w3.heap r).m = (w'.heap r).m) (fun _ _ => add_heap_m A r r w')).bind (fun _ w3 hw3 he3 h3 => Run.pure hw3 ⟨(he.trans he3).declared hr, ?_, .inl (by rw [h3, hd.heap_eq r hr.1])⟩)
    · rw [hd.count_eq]
      rw [hd.heap_eq r hr.1] at ha
      exact hat hn hl a ha
    · exact (he.trans he3).cls_eq r hr.1

theorem Run.setattrsRef {w : World V E} (hw : Inv F G O w) {r : Ref} (hr : r < w.next) {d : Dict V} (hd : ∀ k ∈ Dict.keys d, k ∉ (w.heap r).m.cls.identifiers)
    (hM : ((w.heap r).m.setattrs d).1 = (w.heap r).m ∨ Mine O w r) :
    Run F G O w (setattrsRef r d) (Any Unit) := by
  unfold DS.setattrsRef
  refine Run.deref_bind ?_
  have h1 := (setattrs_spec (w.heap r).m d).1
  have h2 := setattrs_uid hd
  have h3 := (hw.good r hr).setattrs d
  generalize (w.heap r).m.setattrs d = p at h1 h2 h3 hM ⊢
  obtain ⟨m', e?⟩ := p
  dsimp only at h1 h2 h3 hM ⊢
  refine (Run.writeObj hw h1 h2 h3 hM).bind (fun _ w' hw' _ _ => ?_)
  cases e? with
  | none => exact Run.pure hw' trivial
  | some e => exact Run.raise hw'

theorem Run.updateOrInstantiate {w : World V E} (hw : Inv F G O w) {A : Adapter V} (hA : Family F A) {c : ModelClass V} (hc : Dict.get? A.classes c.name = some c)
    {ids attrs : Dict V} (hk : ∀ k ∈ Dict.keys attrs, k ∉ c.identifiers) (hO : Of O A) : Run F G O w (updateOrInstantiate A c ids attrs) (Any _) := by
  have := Run.getOrInstantiate hw hA hc ids attrs hO
  unfold DS.getOrInstantiate at this
  unfold DS.updateOrInstantiate
  refine this.bind (fun p w' hw' _ hp => ?_)
  obtain ⟨r, created⟩ := p
  refine Run.deref_bind ?_
  obtain ⟨h1, h2, h3⟩ := setattrsIfDiff_keeps (w'.heap r).m attrs (hw'.good r hp.1.1) (by rw [hp.2.1]; exact hk)
  generalize setattrsIfDiff (w'.heap r).m attrs = q at h1 h2 h3 ⊢
  obtain ⟨m', e?⟩ := q
  dsimp only at h1 h2 h3 ⊢
  refine (Run.writeObj hw' h2 h3 h1 (.inr hp.2.2)).bind (fun _ w2 hw2 _ _ => ?_)
  cases e? with
  | none => exact Run.pure hw2 trivial
  | some e => exact Run.raise hw2

theorem attrs_spare (m : Model V) (hm : Good m) : ∀ k ∈ Dict.keys m.attrs, k ∉ m.cls.identifiers := by
  intro k hk hi
  obtain ⟨v, hv⟩ := Dict.mem_keys_iff.1 hk
  rw [Model.get?_attrs] at hv
  split at hv
  · rename_i ha; exact hm.valid.ids_attrs k hi ha
  · cases hv

theorem Run.updateOrAddInstance {w : World V E} (hw : Inv F G O w) {A : Adapter V} (hA : Family F A) {r : Ref} (hr : Declared A w r) (hO : Of O A)
    (hat : O ≠ none → A.OnLocal → Attachable A w r) : Run F G O w (updateOrAddInstance A r) (Any _) := by
  have := Run.getOrAddInstance hw hA hr hO hat
  unfold DS.getOrAddInstance at this
  have h1 : Run F G O w (M.tryCatch (do let r' ← DS.get A (.name (w.heap r).m.type) (.uid (w.heap r).m.uid); Pure.pure (r', false)) Err.isNotFound (fun _ => do
    DS.add A r
    Pure.pure (r, true))) (fun (p : Ref × Bool) w' => Declared A w' p.1 ∧ (w'.heap p.1).m.cls = (w.heap r).m.cls ∧ ((w'.heap p.1).m = (w.heap r).m ∨ Mine O w' p.1)) := ⟨this.inv, this.evo, this.post⟩
  unfold DS.updateOrAddInstance
  refine Run.deref_bind (h1.bind (fun p w' hw' _ hp => ?_))
  obtain ⟨r', added⟩ := p
  exact (Run.setattrsRef hw' hp.1.1 (by rw [hp.2.1]; exact attrs_spare _ (hw.good r hr.1))
    (hp.2.2.imp (fun h => by rw [h]; exact setattrs_own (hw.good r hr.1)) id)).bind (fun _ w2 hw2 _ _ => Run.pure hw2 trivial)

/-! ## children, export, import -/

theorem Run.addChildRef {w : World V E} (hw : Inv F G O w) {p c : Ref} (hp : p < w.next) (hM : Mine O w p) : Run F G O w (addChildRef p c) (Any Unit) := by
  unfold DS.addChildRef
  refine Run.deref_bind (Run.deref_bind ?_)
  refine (Run.ofExcept (Q := fun m w' => w' = w ∧ (w.heap p).m.addChild (w.heap c).m.type (w.heap c).m.uid = .ok m) hw (fun m hm => ⟨rfl, hm⟩)).bind (fun m w' hw' _ hm => ?_)
  obtain ⟨rfl, hm⟩ := hm
  have hk := addChild_kidsOnly hm
  exact (Run.writeObj hw' hk.cls_eq hk.uid_eq ((hw'.good p hp).addChild hm) (.inr hM)).any

theorem Run.removeChildRef {w : World V E} (hw : Inv F G O w) {p c : Ref} (hp : p < w.next) (hM : Mine O w p) : Run F G O w (removeChildRef p c) (Any Unit) := by
  unfold DS.removeChildRef
  refine Run.deref_bind (Run.deref_bind ?_)
  refine (Run.ofExcept (Q := fun m w' => w' = w ∧ (w.heap p).m.removeChild (w.heap c).m.type (w.heap c).m.uid = .ok m) hw (fun m hm => ⟨rfl, hm⟩)).bind (fun m w' hw' _ hm => ?_)
  obtain ⟨rfl, hm⟩ := hm
  have hk := removeChild_kidsOnly hm
  exact (Run.writeObj hw' hk.cls_eq hk.uid_eq ((hw'.good p hp).removeChild hm) (.inr hM)).any

theorem Run.setStatus {w : World V E} (hw : Inv F G O w) {r : Ref} (hr : r < w.next) (s : Status) (msg : String) : Run F G O w (setStatus r s msg) (Any Unit) := by
  unfold DS.setStatus
  exact Run.deref_bind (Run.writeObj (o := { w.heap r with status := s, msg := msg }) hw rfl rfl (hw.good r hr) (.inl rfl)).any

/-- The models that reading gives: instances of the declared classes. -/
def DeclaredModel (A : Adapter V) (m : Model V) : Prop := Dict.get? A.classes m.type = some m.cls

theorem Run.derefs {w : World V E} (hw : Inv F G O w) {A : Adapter V} (rs : List Ref) (h : ∀ r ∈ rs, Declared A w r) :
    Run F G O w (M.mapEach (fun r => do let o ← deref r; Pure.pure o.m) rs) (fun ms _ => ∀ m ∈ ms, DeclaredModel A m) := by
  refine Run.mapEach (R := fun m _ => DeclaredModel A m) hw _ (fun _ _ _ _ h => h) (fun r hr w' hw' he => ?_)
  exact Run.deref_bind (Run.pure hw' (he.declared (h r hr)).2)

theorem Run.getAllModels {w : World V E} (hw : Inv F G O w) {A : Adapter V} (hA : Family F A) (t : String) :
    Run F G O w (getAllModels A t) (fun ms _ => ∀ m ∈ ms, DeclaredModel A m) := by
  unfold DS.getAllModels
  exact (Run.getAll hw hA t).bind (fun rs w' hw' _ h => Run.derefs hw' rs h)

theorem Run.getModelsByUids {w : World V E} (hw : Inv F G O w) {A : Adapter V} (hA : Family F A) (us : List String) (t : String) :
    Run F G O w (getModelsByUids A us t) (fun ms _ => ∀ m ∈ ms, DeclaredModel A m) := by
  unfold DS.getModelsByUids
  exact (Run.getByUids hw hA us t).bind (fun rs w' hw' _ h => Run.derefs hw' rs h)

theorem Run.adapterDict {w : World V E} (hw : Inv F G O w) {A : Adapter V} (hA : Family F A) (ed : Bool) : Run F G O w (adapterDict A ed) (Any _) := by
  have hn : ∀ (ts : List String) (data : Dict (Dict (ObjDict V))) (w : World V E), Inv F G O w → Run F G O w (dictNames A ed ts data) (Any _) := by
    intro ts
    induction ts with
    | nil => intro data w hw; exact Run.pure hw trivial
    | cons t ts ih =>
      intro data w hw
      unfold dictNames
      refine (Run.getAllModels hw hA t).bind (fun ms w' hw' _ _ => ?_)
      exact (Run.ofExcept (Q := Any _) hw' (fun _ _ => trivial)).bind (fun d w2 hw2 _ _ => ih d w2 hw2)
  unfold DS.adapterDict
  have h1 : Run F G O w (getAllModelNames A) (Any (E := E) (V := V) _) := by
    refine ⟨?_, ?_, fun _ _ => trivial⟩ <;> unfold getAllModelNames <;> cases A.ref.store <;> first | exact hw | exact Evo.refl w
  exact h1.bind (fun ns w' hw' _ _ => hn ns [] w' hw')

theorem Run.loadFromDict {w : World V E} (hw : Inv F G O w) {A : Adapter V} (hA : Family F A) {data : Dict (Dict (ObjDict V))}
    (hd : ∀ d ∈ Dict.values data, ∀ o ∈ Dict.values d, ∀ p ∈ o.kids, p.2.Nodup) (hO : Of O A) : Run F G O w (loadFromDict A data) (Any Unit) := by
  unfold DS.loadFromDict
  refine Run.forEach hw _ (fun t _ w1 hw1 _ => ?_)
  refine (Run.ofOption (Q := fun c _ => Dict.get? A.classes t = some c) hw1 (fun c hc => hc)).bind (fun c w2 hw2 _ hc => ?_)
  refine Run.forEach hw2 _ (fun v hv w3 hw3 _ => ?_)
  unfold loadOne
  have hv' : ∀ p ∈ v.kids, p.2.Nodup := by
    cases hg : Dict.get? data t with
    | none => rw [hg] at hv; cases hv
    | some d =>
      rw [hg] at hv
      exact hd d (List.mem_map.2 ⟨(t, d), Dict.mem_of_get? hg, rfl⟩) v hv
  have hcn : Dict.get? A.classes c.name = some c := by rw [hA.valid.names t c hc]; exact hc
  refine (Run.ofExcept (Q := fun m _ => m.cls = c ∧ Good m) hw3 (fun m hm => ⟨(instantiate_ok hm).1, Good.instantiate (hA.valid.valid t c hc) hv' hm⟩)).bind (fun m w4 hw4 _ hm => ?_)
  refine (Run.alloc hw4 (o := { m := m }) hm.2).bind (fun r w5 hw5 _ h5 => ?_)
  exact Run.add hw5 hA ⟨h5.1, by rw [h5.2]; show Dict.get? A.classes m.cls.name = _; rw [hm.1]; exact hcn⟩ hO (fun _ _ a ha => by rw [h5.2] at ha; cases ha)

end DS
