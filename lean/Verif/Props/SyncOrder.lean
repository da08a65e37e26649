import Verif.Spec.SyncOrder
import Verif.Props.DiffOrder
import Verif.Props.Sync
import Verif.Props.Escape
import Verif.Props.EscapeRedis
/-! # C94: the calls of a sync, in order, from the contents of the two adapters -/
set_option linter.unusedSectionVars false

namespace DS
variable {V E : Type} [PyVal V]

theorem filterMap_ext {α β : Type} {f g : α → Option β} : ∀ {l : List α}, (∀ x ∈ l, f x = g x) → l.filterMap f = l.filterMap g := by
  intro l
  induction l with
  | nil => intro _; rfl
  | cons a l ih =>
    intro h
    rw [List.filterMap_cons, List.filterMap_cons, h a (by simp), ih (fun x hx => h x (by simp [hx]))]

theorem pick_self {a : Dict V} (h : Dict.WF a) : Elem.pick a (Dict.keys a) = a := by
  unfold Elem.pick Dict.keys
  rw [List.filterMap_map]
  refine (filterMap_ext (g := some) (fun x hx => ?_)).trans (List.filterMap_some)
  simp only [Function.comp]
  rw [Dict.get?_of_mem h (show (x.1, x.2) ∈ a from hx)]
  rfl

theorem plus_changes {e : Elem V} {s d : Model V} (hs : e.src = some s.attrs) (hd : e.dst = some d.attrs) : e.plus = some (changes s d) := by
  unfold Elem.plus Elem.attrsKeys changes intersection Elem.pick
  rw [hs, hd]
  simp only [List.filterMap_filter, Option.some.injEq]
  apply filterMap_ext
  intro k _
  unfold Elem.differs
  cases h1 : Dict.get? s.attrs k with
  | none => cases h2 : Dict.get? d.attrs k <;> simp
  | some a =>
    have hk : k ∈ Dict.keys s.attrs := Dict.mem_keys_iff.2 ⟨a, h1⟩
    cases h2 : Dict.get? d.attrs k with
    | none => simp
    | some b => cases h3 : PyVal.eq a b <;> simp [hk, h3]

theorem action_changes {e : Elem V} {s d : Model V} (hs : e.src = some s.attrs) (hd : e.dst = some d.attrs) :
    e.action = if (changes s d).isEmpty then none else some .update := by
  have hp := plus_changes hs hd
  unfold Elem.plus at hp
  rw [hs, hd] at hp
  simp only [Option.some.injEq] at hp
  unfold Elem.action
  rw [hs, hd]
  simp only
  have hk : Dict.keys (changes s d) = e.attrsKeys.filter (Elem.differs s.attrs d.attrs) := by
    rw [← hp]
    apply keys_pick
    intro k hk
    have := (List.mem_filter.1 hk).2
    unfold Elem.differs at this
    cases h1 : Dict.get? s.attrs k with
    | none => rw [h1] at this; cases this
    | some a => exact Dict.mem_keys_iff.2 ⟨a, h1⟩
  cases hc : changes s d with
  | nil =>
    rw [hc] at hk
    have : ¬ (e.attrsKeys.any (Elem.differs s.attrs d.attrs) = true) := by
      intro h
      obtain ⟨k, h1, h2⟩ := List.any_eq_true.1 h
      have : k ∈ e.attrsKeys.filter (Elem.differs s.attrs d.attrs) := List.mem_filter.2 ⟨h1, h2⟩
      rw [← hk] at this; cases this
    rw [if_neg this]; rfl
  | cons x l =>
    rw [hc] at hk
    have hx : x.1 ∈ e.attrsKeys.filter (Elem.differs s.attrs d.attrs) := by rw [← hk]; simp [Dict.keys]
    have := List.mem_filter.1 hx
    rw [if_pos (List.any_eq_true.2 ⟨_, this.1, this.2⟩)]; rfl

theorem isTop_of_topPlaces {src dst : Adapter V} {S D : Snap V} (hS : S.Consistent) (hD : D.Consistent) {c : Pos V} (h : c ∈ topPlaces src dst S D) :
    IsTop src dst S D c := by
  obtain ⟨t, ht, h⟩ := List.mem_flatMap.1 h
  obtain ⟨u, hu, rfl⟩ := List.mem_map.1 h
  have ht := List.mem_filter.1 ht
  refine ⟨by simpa using ht.2, ht.1, rfl, rfl, ?_⟩
  have key : ∀ {X : Snap V}, X.Consistent → u ∈ (X.all t).map Model.uid → X.find t u ≠ none := by
    intro X hX hm
    obtain ⟨m, hm', rfl⟩ := List.mem_map.1 hm
    obtain ⟨v, hv⟩ := (hX.all_iff t m).1 hm'
    rw [(hX.key_ok _ _ _ hv).2, hv]; simp
  rcases List.mem_append.1 (List.mem_eraseDups.1 hu) with h | h
  · exact .inl (key hS h)
  · exact .inr (key hD h)

theorem isChild_of_childPlaces {S D : Snap V} {p c : Pos V} (h : c ∈ childPlaces S D p) : IsChild S D p c := by
  obtain ⟨ct, ht, h⟩ := List.mem_flatMap.1 h
  obtain ⟨u, hu, rfl⟩ := List.mem_map.1 h
  have hl : ∀ o : Option (Model V), listsO o ct u = true ↔ u ∈ kidIds o ct := by
    intro o
    unfold listsO kidIds
    cases o with
    | none => simp
    | some m =>
      unfold Model.lists
      cases hc : Dict.get? m.cls.children ct with
      | none => simp [hc]
      | some f => cases hk : m.kidList f <;> simp [hc, hk]
  refine ⟨?_, ?_, ?_, ?_⟩
  · obtain ⟨pt, pu, s, d⟩ := p
    constructor
    · intro m hm
      simp only at hm ht
      subst hm
      cases d with
      | none => exact ht
      | some d => exact (List.mem_filter.1 ht).1
    · intro m hm
      simp only at hm ht
      subst hm
      cases s with
      | none => exact ht
      | some s => simpa using (List.mem_filter.1 ht).2
  · rcases List.mem_append.1 (List.mem_eraseDups.1 hu) with h | h
    · exact .inl ((hl _).2 h)
    · exact .inr ((hl _).2 h)
  · simp only [hl]
  · simp only [hl]

section
variable {src dst : Adapter V} {S D : Snap V} {n flags : Nat} {dc : DiffClass V}

/-- The calls for elements in order are those for their places. -/
theorem CallPlan.places (h : Reconcilable src dst n S D) (hi : InstOf dst D) (hS : S.Consistent) (hD : D.Consistent) (hdc : ∀ g l, dc.order g l = l)
    {es : List (Elem V)} {cs : List (CrudCall V)} (hp : CallPlan dst dc D.flagsAt es cs) : ∀ {ps : List (Pos V)}, MatchAll (InOrder src dst flags S D) es ps →
    (∀ p ∈ ps, ∃ j, Placed src dst S D j p) → CallsFor flags S D ps cs := by
  have hg : ∀ ks : List (Elem V), getChildren dc ks = (groups ks).flatMap (group ks) := by
    intro ks
    unfold getChildren
    simp only [hdc]
  have hst : ∀ {j p}, Placed src dst S D j p → Stored S D p := fun hp => ⟨fun m hm => by rw [← hp.src_eq, hm], fun m hm => by rw [← hp.dst_eq, hm]⟩
  have hkids : ∀ {e : Elem V} {p : Pos V}, InOrder src dst flags S D e p → (∃ j, Placed src dst S D j p) →
      MatchAll (InOrder src dst flags S D) (getChildren dc e.kids) (visible flags (childPlaces S D p)) ∧
        ∀ c ∈ visible flags (childPlaces S D p), ∃ j, Placed src dst S D j c := by
    rintro e p ho ⟨j, pl⟩
    rw [hg, ho.grouped hS hD (hst pl)]
    obtain ⟨_, h2, h3⟩ := ho
    exact ⟨⟨h2, h3⟩, fun c hc => ⟨j + 1, pl.of_child h hi (isChild_of_childPlaces (List.mem_filter.1 hc).1)⟩⟩
  have split : ∀ {e : Elem V} {l : List (Elem V)} {ps : List (Pos V)}, MatchAll (InOrder src dst flags S D) (e :: l) ps →
      ∃ p qs, ps = p :: qs ∧ InOrder src dst flags S D e p ∧ MatchAll (InOrder src dst flags S D) l qs := by
    intro e l ps hm
    cases ps with
    | nil => cases hm.1
    | cons p qs => exact ⟨p, qs, rfl, hm.2 (e, p) (by simp), by simpa using hm.1, fun x hx => hm.2 x (by simp [hx])⟩
  have dels : ∀ {e : Elem V} {p : Pos V}, InOrder src dst flags S D e p → (∃ j, Placed src dst S D j p) → e.action = some .delete →
      ∃ d, p.src = none ∧ p.dst = some d ∧ D.flagsAt (p.type, p.uid) = some d.flags := by
    rintro e p ho ⟨j, pl⟩ ha
    have h1 := ho.header.src_eq; have h2 := ho.header.dst_eq
    cases hs : p.src with
    | some s =>
      rw [hs] at h1
      cases hd : p.dst with
      | none => rw [hd] at h2; unfold Elem.action at ha; rw [h1, h2] at ha; cases ha
      | some d =>
        rw [hd] at h2
        rw [action_changes h1 h2] at ha
        split at ha <;> cases ha
    | none =>
      cases hd : p.dst with
      | none => rcases pl.some_side with h | h
                · exact absurd hs h
                · exact absurd hd h
      | some d => exact ⟨d, rfl, rfl, by unfold Snap.flagsAt; rw [← pl.dst_eq, hd]; rfl⟩
  have call : ∀ {e : Elem V} {p : Pos V} {c : CrudCall V} {k : Key}, InOrder src dst flags S D e p → (∃ j, Placed src dst S D j p) → Prescribes dst e c → ElemKey dst e k →
      k = (p.type, p.uid) ∧ (e.action = some .delete → c = .delete p.type p.uid) := by
    rintro e p c k ho ⟨j, pl⟩ ⟨u, hu, hc⟩ hk
    refine ⟨pl.key_of h hi hS hD ho.header hk, fun ha => ?_⟩
    rw [ha] at hc
    have hku := congrArg Prod.snd (pl.key_of h hi hS hD ho.header hu)
    simp only at hku hc
    rw [hc, hku, ho.header.type_eq]
  induction hp with
  | nil =>
    intro ps hm _
    cases ps with
    | nil => exact .nil
    | cons p qs => cases hm.1
  | @nothing e l cs cs' ha _ _ ih1 ih2 =>
    intro ps hm hpl
    obtain ⟨p, qs, rfl, ho, hm'⟩ := split hm
    have pl := hpl p (by simp)
    obtain ⟨k1, k2⟩ := hkids ho pl
    have i1 := ih1 k1 k2
    have i2 := ih2 hm' (fun q hq => hpl q (by simp [hq]))
    have h1 := ho.header.src_eq; have h2 := ho.header.dst_eq
    obtain ⟨j, pl⟩ := pl
    cases hs : p.src with
    | none =>
      cases hd : p.dst with
      | none => rcases pl.some_side with h | h
                · exact absurd hs h
                · exact absurd hd h
      | some d => rw [hs] at h1; rw [hd] at h2; unfold Elem.action at ha; rw [h1, h2] at ha; cases ha
    | some s =>
      cases hd : p.dst with
      | none => rw [hs] at h1; rw [hd] at h2; unfold Elem.action at ha; rw [h1, h2] at ha; cases ha
      | some d =>
        rw [hs] at h1; rw [hd] at h2
        rw [action_changes h1 h2] at ha
        refine .same hs hd ?_ i1 i2
        cases hc : changes s d with
        | nil => rfl
        | cons x r => rw [hc] at ha; cases ha
  | @objectFirst e l k c cs cs' hpr hk hns hnn _ _ ih1 ih2 =>
    intro ps hm hpl
    obtain ⟨p, qs, rfl, ho, hm'⟩ := split hm
    have pl := hpl p (by simp)
    obtain ⟨k1, k2⟩ := hkids ho pl
    have i1 := ih1 k1 k2
    have i2 := ih2 hm' (fun q hq => hpl q (by simp [hq]))
    obtain ⟨rfl, hdel⟩ := call ho pl hpr hk
    cases ha : e.action with
    | none => obtain ⟨_, _, hc⟩ := hpr; rw [ha] at hc; cases hc
    | some a =>
      cases a with
      | delete =>
        obtain ⟨d, hs, hd, hf⟩ := dels ho pl ha
        rw [hdel ha]
        refine .delete hs hd ?_ ?_ i1 i2
        · cases hx : flagOn d.flags MF.SKIP_CHILDREN_ON_DELETE with
          | false => rfl
          | true => exact absurd ⟨ha, _, hf, hx⟩ hns
        · cases hx : flagOn d.flags MF.NATURAL_DELETION_ORDER with
          | false => rfl
          | true => exact absurd ⟨ha, _, hf, hx⟩ hnn
      | create =>
        obtain ⟨u, hu, hc⟩ := hpr
        rw [ha] at hc
        simp only at hc
        obtain ⟨j, pl⟩ := pl
        have h1 := ho.header.src_eq; have h2 := ho.header.dst_eq
        cases hs : p.src with
        | none =>
          rw [hs] at h1
          unfold Elem.action at ha
          rw [h1] at ha
          cases hd : e.dst <;> rw [hd] at ha <;> cases ha
        | some s =>
          cases hd : p.dst with
          | some d =>
            rw [hs] at h1; rw [hd] at h2
            rw [action_changes h1 h2] at ha
            split at ha <;> cases ha
          | none =>
            have hsd := (h.sound (p.type, p.uid) s (.inl (by rw [← pl.src_eq, hs]))).attrs_wf
            have hpl' : e.plus.getD [] = s.attrs := by
              rw [hs] at h1; rw [hd] at h2
              unfold Elem.plus Elem.attrsKeys
              rw [h1, h2]
              exact pick_self hsd
            have hids := (ho.header.name_eq s (by rw [hs]; rfl)).2
            rw [hc, hpl', hids, ho.header.type_eq]
            exact .create hs hd i1 i2
      | update =>
        obtain ⟨u, hu, hc⟩ := hpr
        rw [ha] at hc
        simp only at hc
        obtain ⟨j, pl⟩ := pl
        have hku := congrArg Prod.snd (pl.key_of h hi hS hD ho.header hu)
        simp only at hku
        have h1 := ho.header.src_eq; have h2 := ho.header.dst_eq
        cases hs : p.src with
        | none =>
          rw [hs] at h1
          unfold Elem.action at ha
          rw [h1] at ha
          cases hd : e.dst <;> rw [hd] at ha <;> cases ha
        | some s =>
          cases hd : p.dst with
          | none => rw [hs] at h1; rw [hd] at h2; unfold Elem.action at ha; rw [h1, h2] at ha; cases ha
          | some d =>
            rw [hs] at h1; rw [hd] at h2
            rw [hc, hku, plus_changes h1 h2, ho.header.type_eq]
            refine .update hs hd ?_ i1 i2
            intro hn
            rw [action_changes h1 h2, hn] at ha
            cases ha
  | @childrenFirst e l k c cs cs' hpr hk hns hnn _ _ ih1 ih2 =>
    intro ps hm hpl
    obtain ⟨p, qs, rfl, ho, hm'⟩ := split hm
    have pl := hpl p (by simp)
    obtain ⟨k1, k2⟩ := hkids ho pl
    have i1 := ih1 k1 k2
    have i2 := ih2 hm' (fun q hq => hpl q (by simp [hq]))
    obtain ⟨rfl, hdel⟩ := call ho pl hpr hk
    obtain ⟨ha, fl, hf', hfl⟩ := hnn
    obtain ⟨d, hs, hd, hf⟩ := dels ho pl ha
    rw [hdel ha]
    rw [hf] at hf'; cases hf'
    refine .deleteLast hs hd ?_ hfl i1 i2
    cases hx : flagOn d.flags MF.SKIP_CHILDREN_ON_DELETE with
    | false => rfl
    | true => exact absurd ⟨ha, _, hf, hx⟩ hns
  | @childrenSkipped e l k c cs' hpr hk hsk _ ih2 =>
    intro ps hm hpl
    obtain ⟨p, qs, rfl, ho, hm'⟩ := split hm
    have pl := hpl p (by simp)
    have i2 := ih2 hm' (fun q hq => hpl q (by simp [hq]))
    obtain ⟨rfl, hdel⟩ := call ho pl hpr hk
    obtain ⟨ha, fl, hf', hfl⟩ := hsk
    obtain ⟨d, hs, hd, hf⟩ := dels ho pl ha
    rw [hdel ha]
    rw [hf] at hf'; cases hf'
    exact .deleteAlone hs hd hfl i2
end

section
variable {n rl : Nat} {hooks : Hooks V E} {dst src : Adapter V} {dc : DiffClass V} {flags : Nat} {w w' : World V E} {res : Except Err (Diff V)}

theorem calls_in_order (h : Comparable src dst w) (hr : DstReady dst w) (hrec : Reconcilable src dst n (snap src w) (snap dst w)) (hi : InstOf dst (snap dst w))
    (hk : KeepsIdsOf dst (snap src w)) (hdc : ∀ g l, dc.order g l = l) (hs : syncFrom n rl hooks dst src dc flags none w = (res, w'))
    {d : Diff V} {w1 : World V E} (hd : diffFrom n dst src dc flags w = (.ok d, w1)) (hm : NoMissing (newEvents w w')) :
    ∃ rest, CallsFor flags (snap src w) (snap dst w) (visible flags (topPlaces src dst (snap src w) (snap dst w)))
      ((callsOf (newEvents w w')).map Prod.fst ++ rest) ∧ ((∃ d', res = .ok d') → rest = []) := by
  have hrun := SyncRun.of_computed h hr hk hd hs
  obtain ⟨hdes, hcls⟩ := diffFrom_describes h.ok h.src_ok h.dst_ok h.fields h.src_types h.dst_types h.top_nodup hd
  have hc := hdes.cenv hrec hi h.src_ok h.dst_ok hr.valid (computed_good h hr hk hd)
  have hre : d.cls.Reorders := by
    rw [hcls]
    intro g l
    rw [hdc]
  obtain ⟨rest, h1, h2⟩ := hrun.plan ⟨hre, hc.dist⟩ hc.keyed hm
  refine ⟨rest, ?_, h2⟩
  rw [hcls, (C93_get_children h hd hdc).1] at h1
  exact h1.places hrec hi h.src_ok h.dst_ok hdc (C93_diff_in_order h hd)
    (fun p hp => ⟨0, Placed.of_top hrec (isTop_of_topPlaces h.src_ok h.dst_ok (List.mem_filter.1 hp).1)⟩)


/-- **C94** Between adapters that can be reconciled, a sync into a local store in which all calls succeed makes exactly the calls that can be read off the
contents of the two adapters before it, in the order given there (for diff classes that do not reorder). -/
theorem C94_calls {sid : Nat} (h : CanConverge n src dst sid w) (hrl : n ≤ rl) (hdc : ∀ g l, dc.order g l = l)
    (hs : syncFrom n rl hooks dst src dc flags none w = (res, w')) (hall : AllSucceed (newEvents w w')) :
    CallsFor flags (snap src w) (snap dst w) (visible flags (topPlaces src dst (snap src w) (snap dst w))) ((callsOf (newEvents w w')).map Prod.fst) := by
  obtain ⟨d, ⟨w1, hd⟩, _, hm, hres⟩ := h.clean hrl (fun g l => by rw [hdc]) hs
  obtain ⟨rest, h1, h2⟩ := calls_in_order h.comparable h.ready.dst h.reconcilable h.ready.instOf h.keepsIds hdc hs hd (hm.found hall)
  rcases hres with ⟨x, _, L, c, out, R, he, _, hx, _⟩ | hok
  · have := (hall c out (by rw [he]; simp)).1
    rw [hx] at this; cases this
  · rw [h2 ⟨d, hok⟩, List.append_nil] at h1
    exact h1

/-- **C94** The same of a sync into a Redis store. -/
theorem C94_redis_calls {sid : String} (h : RedisPair n src dst sid w) (hrl : n ≤ rl) (hdc : ∀ g l, dc.order g l = l)
    (hs : syncFrom n rl hooks dst src dc flags none w = (res, w')) (hall : AllSucceed (newEvents w w')) :
    CallsFor flags (snap src w) (snap dst w) (visible flags (topPlaces src dst (snap src w) (snap dst w))) ((callsOf (newEvents w w')).map Prod.fst) := by
  obtain ⟨d, ⟨w1, hd⟩, _, hm, hres⟩ := h.clean hrl (fun g l => by rw [hdc]) hs
  obtain ⟨rest, h1, h2⟩ := calls_in_order h.comparable h.ready h.reconcilable h.instOf h.keepsIds hdc hs hd (hm.found hall)
  rcases hres with ⟨x, _, L, c, out, R, he, _, hx, _⟩ | hok
  · have := (hall c out (by rw [he]; simp)).1
    rw [hx] at this; cases this
  · rw [h2 ⟨d, hok⟩, List.append_nil] at h1
    exact h1

/-- **C94** A sync that stops at an exception, with no object missing before (no call returned `None`), has made the first of these calls. -/
theorem C94_first_calls {sid : Nat} (h : CanConverge n src dst sid w) (hrl : n ≤ rl) (hdc : ∀ g l, dc.order g l = l)
    (hs : syncFrom n rl hooks dst src dc flags none w = (res, w')) (hm : NoMissing (newEvents w w')) :
    ∃ rest, CallsFor flags (snap src w) (snap dst w) (visible flags (topPlaces src dst (snap src w) (snap dst w)))
      ((callsOf (newEvents w w')).map Prod.fst ++ rest) := by
  obtain ⟨d, ⟨w1, hd⟩, _, _, _⟩ := h.clean hrl (fun g l => by rw [hdc]) hs
  obtain ⟨rest, h1, _⟩ := calls_in_order h.comparable h.ready.dst h.reconcilable h.ready.instOf h.keepsIds hdc hs hd hm
  exact ⟨rest, h1⟩

/-- **C94** The same of a Redis store. -/
theorem C94_redis_first_calls {sid : String} (h : RedisPair n src dst sid w) (hrl : n ≤ rl) (hdc : ∀ g l, dc.order g l = l)
    (hs : syncFrom n rl hooks dst src dc flags none w = (res, w')) (hm : NoMissing (newEvents w w')) :
    ∃ rest, CallsFor flags (snap src w) (snap dst w) (visible flags (topPlaces src dst (snap src w) (snap dst w)))
      ((callsOf (newEvents w w')).map Prod.fst ++ rest) := by
  obtain ⟨d, ⟨w1, hd⟩, _, _, _⟩ := h.clean hrl (fun g l => by rw [hdc]) hs
  obtain ⟨rest, h1, _⟩ := calls_in_order h.comparable h.ready h.reconcilable h.instOf h.keepsIds hdc hs hd hm
  exact ⟨rest, h1⟩

/-- **C94** There is only one such list of calls. -/
theorem C94_one_list {S D : Snap V} {ps : List (Pos V)} {cs cs' : List (CrudCall V)} (h : CallsFor flags S D ps cs) (h' : CallsFor flags S D ps cs') : cs = cs' := by
  induction h generalizing cs' with
  | nil => cases h'; rfl
  | same a1 a2 a3 _ _ ih1 ih2 =>
    cases h' with
    | same b1 b2 b3 c1 c2 => rw [ih1 c1, ih2 c2]
    | update b1 b2 b3 c1 c2 => cases a1.symm.trans b1; cases a2.symm.trans b2; exact absurd a3 b3
    | create b1 b2 => cases a2.symm.trans b2
    | delete b1 => cases a1.symm.trans b1
    | deleteLast b1 => cases a1.symm.trans b1
    | deleteAlone b1 => cases a1.symm.trans b1
  | update a1 a2 a3 _ _ ih1 ih2 =>
    cases h' with
    | update b1 b2 b3 c1 c2 => cases a1.symm.trans b1; cases a2.symm.trans b2; rw [ih1 c1, ih2 c2]
    | same b1 b2 b3 c1 c2 => cases a1.symm.trans b1; cases a2.symm.trans b2; exact absurd b3 a3
    | create b1 b2 => cases a2.symm.trans b2
    | delete b1 => cases a1.symm.trans b1
    | deleteLast b1 => cases a1.symm.trans b1
    | deleteAlone b1 => cases a1.symm.trans b1
  | create a1 a2 _ _ ih1 ih2 =>
    cases h' with
    | create b1 b2 c1 c2 => cases a1.symm.trans b1; rw [ih1 c1, ih2 c2]
    | same b1 b2 => cases a2.symm.trans b2
    | update b1 b2 => cases a2.symm.trans b2
    | delete b1 => cases a1.symm.trans b1
    | deleteLast b1 => cases a1.symm.trans b1
    | deleteAlone b1 => cases a1.symm.trans b1
  | delete a1 a2 a3 a4 _ _ ih1 ih2 =>
    cases h' with
    | delete b1 b2 b3 b4 c1 c2 => rw [ih1 c1, ih2 c2]
    | same b1 => cases a1.symm.trans b1
    | update b1 => cases a1.symm.trans b1
    | create b1 => cases a1.symm.trans b1
    | deleteLast b1 b2 b3 b4 => cases a2.symm.trans b2; cases a4.symm.trans b4
    | deleteAlone b1 b2 b3 => cases a2.symm.trans b2; cases a3.symm.trans b3
  | deleteLast a1 a2 a3 a4 _ _ ih1 ih2 =>
    cases h' with
    | deleteLast b1 b2 b3 b4 c1 c2 => rw [ih1 c1, ih2 c2]
    | same b1 => cases a1.symm.trans b1
    | update b1 => cases a1.symm.trans b1
    | create b1 => cases a1.symm.trans b1
    | delete b1 b2 b3 b4 => cases a2.symm.trans b2; cases a4.symm.trans b4
    | deleteAlone b1 b2 b3 => cases a2.symm.trans b2; cases a3.symm.trans b3
  | deleteAlone a1 a2 a3 _ ih2 =>
    cases h' with
    | deleteAlone b1 b2 b3 c2 => rw [ih2 c2]
    | same b1 => cases a1.symm.trans b1
    | update b1 => cases a1.symm.trans b1
    | create b1 => cases a1.symm.trans b1
    | delete b1 b2 b3 => cases a2.symm.trans b2; cases a3.symm.trans b3
    | deleteLast b1 b2 b3 => cases a2.symm.trans b2; cases a3.symm.trans b3

end
end DS
