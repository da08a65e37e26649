import Verif.Lemmas.SafeSync
import Verif.Lemmas.RedisCmp
import Verif.Lemmas.Compared
/-! The invariant of reachable worlds, and what follows from it for the stores. -/
set_option linter.unusedSectionVars false

namespace DS
variable {V E : Type} [PyVal V] {F : Decls V} {O : Option StoreKind} {D : Prop}

theorem Inv.fresh {w : World V E} (h : Fresh w) : Inv F none O w := by
  have hf : ∀ sid t u, findRef w sid t u = none := by
    intro sid t u
    unfold findRef tbl
    rw [h.loc]; rfl
  refine ⟨⟨fun sid => by rw [h.loc]; exact Dict.wf_nil, fun sid t => by unfold tbl; rw [h.loc]; exact Dict.wf_nil, fun sid t u r hr => ?_, fun sid t u r hr => ?_⟩,
    fun r hr => ?_, fun sid t u r hr => ?_, h.wf, fun k o hk hp => ?_, fun g c hg => (by cases hg), fun _ sid t u r hr => ?_⟩
  · rw [hf] at hr; cases hr
  · rw [hf] at hr; cases hr
  · rw [h.next] at hr; exact absurd hr (Nat.not_lt_zero r)
  · rw [hf] at hr; cases hr
  · rw [h.keys k (Dict.mem_keys_iff.2 ⟨o, hk⟩)] at hp; cases hp
  · rw [hf] at hr; cases hr

/-- Minding another store. -/
def mind (O : Option StoreKind) (S : StoreKind) : Option StoreKind := O.map (fun _ => S)

theorem mind_some {O : Option StoreKind} {S T : StoreKind} (h : mind O S = some T) : T = S := by
  cases O with
  | none => cases h
  | some _ => cases h; rfl

theorem mind_of (O : Option StoreKind) (A : Adapter V) : Of (mind O A.ref.store) A := fun _ h => mind_some h

theorem mind_ne {O : Option StoreKind} {S : StoreKind} : mind O S ≠ none ↔ O ≠ none := by cases O <;> simp [mind]

theorem Inv.mind {w : World V E} {S : StoreKind} : Inv F none (mind O S) w ↔ Inv F none O w :=
  ⟨fun h => ⟨h.ok, h.good, h.inst, h.wf, h.redis, h.scls, fun hO => h.own (mind_ne.2 hO)⟩,
   fun h => ⟨h.ok, h.good, h.inst, h.wf, h.redis, h.scls, fun hO => h.own (mind_ne.1 hO)⟩⟩

theorem Evo.none {w w' : World V E} (h : Evo O w w') : Evo none w w' := ⟨h.next_le, h.cls_eq, h.uid_eq, (fun _ h => by cases h), (fun _ h => by cases h)⟩

theorem Belongs.mine {S : StoreKind} {w : World V E} {r : Ref} (h : Belongs S w r) : Mine (mind O S) w r := fun _ hT a ha => by
  rw [mind_some hT]; exact h a ha

/-- Every step of a program keeps the invariant, the classes and unique ids of the objects, and the stores it is not about. -/
theorem StepOn.evo {w w' : World V E} {S : StoreKind} (hw : Inv F none (mind O S) w) (hD : mind O S ≠ none → D) (h : StepOn F D w S w') :
    Inv F none (mind O S) w' ∧ Evo (mind O S) w w' := by
  have of : ∀ {α : Type} {m : M V E α} {Q}, Run F none (mind O S) w m Q → Inv F none (mind O S) (m w).2 ∧ Evo (mind O S) w (m w).2 := fun h => ⟨h.inv, h.evo⟩
  cases h with
  | new hc hk hm => exact hw.alloc (o := { m := _ }) (Good.instantiate hc hk hm)
  | assign hr hb hd => exact of (Run.setattrsRef hw hr hd (.inr hb.mine))
  | setFlags fl hr hb =>
    exact hw.setObj (r := _) (o := { w.heap _ with m := { (w.heap _).m with flags := fl } }) rfl rfl
      ⟨(hw.good _ hr).valid, ⟨(hw.good _ hr).complete.vals_keys, (hw.good _ hr).complete.kids_wf, (hw.good _ hr).complete.kids_keys⟩, (hw.good _ hr).kids⟩ rfl (.inr hb.mine)
  | setStatus hr _ => exact of (Run.setStatus hw hr _ _)
  | addChild hp hb _ => exact of (Run.addChildRef hw hp hb.mine)
  | removeChild hp hb _ => exact of (Run.removeChildRef hw hp hb.mine)
  | add hA hr ha => exact of (Run.add hw hA hr (mind_of O _) (fun h => ha (hD h)))
  | update hA hr ha => exact of (Run.update hw hA hr (mind_of O _) (fun h => ha (hD h)))
  | remove hA hr ha => exact of (Run.remove hA (mind_of O _) _ hw hr (fun h => ha (hD h)) _)
  | get hA => exact of (Run.get hw hA _ _)
  | getOrNone hA => exact of (Run.getOrNone hw hA _ _)
  | getAll hA => exact of (Run.getAll hw hA _)
  | getByUids hA => exact of (Run.getByUids hw hA _ _)
  | count hA => exact of (Run.count hw _ _)
  | getOrInstantiate hA hc => exact of (Run.getOrInstantiate hw hA hc _ _ (mind_of O _))
  | getOrAddInstance hA hr ha => exact of (Run.getOrAddInstance hw hA hr (mind_of O _) (fun h => ha (hD h)))
  | updateOrInstantiate hA hc hk => exact of (Run.updateOrInstantiate hw hA hc hk (mind_of O _))
  | updateOrAddInstance hA hr ha => exact of (Run.updateOrAddInstance hw hA hr (mind_of O _) (fun h => ha (hD h)))
  | diff hd hs => exact of (Run.diffFrom hw hd hs _ _ _)
  | sync hd hs hsp => exact of (Run.syncFrom hw hd hs _ _ _ _ _ hsp (mind_of O _))
  | dict hA => exact of (Run.adapterDict hw hA _)
  | load hA hd => exact of (Run.loadFromDict hw hA hd (mind_of O _))
  | user e => exact ⟨hw.of_eq rfl rfl rfl rfl (fun g c hg => by cases hg), Evo.of_eq rfl rfl rfl rfl⟩

/-- Every step of a program keeps the invariant, and the classes and unique ids of the objects. -/
theorem ProgStep.keeps {w w' : World V E} (hw : Inv F none O w) (hD : O ≠ none → D) (h : ProgStep F D w w') : Inv F none O w' ∧ Evo none w w' := by
  obtain ⟨S, h⟩ := h
  have h := h.evo (O := O) (Inv.mind.2 hw) (fun h => hD (mind_ne.1 h))
  exact ⟨Inv.mind.1 h.1, h.2.none⟩

theorem Reachable.invO {w : World V E} (h : Reachable F D w) (hD : O ≠ none → D) : Inv F none O w := by
  induction h with
  | start h => exact Inv.fresh h
  | step _ hs ih => exact (hs.keeps ih hD).1

theorem Reachable.inv {w : World V E} (h : Reachable F D w) : Inv F none none w := h.invO (fun h => absurd rfl h)

/-- Every object that an adapter holds is a good instance of the class declared for its type. -/
theorem Inv.find {w : World V E} (h : Inv F none O w) {A : Adapter V} (hA : Family F A) {t u : String} {m : Model V} (hm : (snap A w).find t u = some m) :
    m.type = t ∧ m.uid = u ∧ Dict.get? A.classes t = some m.cls ∧ Good m := by
  cases hs : A.ref.store with
  | «local» sid =>
    simp only [snap, hs, Option.map_eq_some_iff] at hm
    obtain ⟨r, hr, rfl⟩ := hm
    have := h.ok.key_ok _ _ _ _ hr
    exact ⟨this.1, this.2, hA.get?.2 (by rw [hs]; exact h.inst _ _ _ _ hr), h.good r (h.ok.refs_lt _ _ _ _ hr)⟩
  | redis sid =>
    obtain ⟨ht, o, ho, rfl⟩ := (redis_find hs).1 hm
    have he := h.redis _ _ ho (redisKey_prefix _ _ _)
    obtain ⟨sid', h1, h2, h3, h4⟩ := he.key
    obtain ⟨rfl, e1, e2⟩ := redisKey_inj (hA.plain sid hs).1 h1 ht h2 h3
    exact ⟨e1.symm, e2.symm, hA.get?.2 (by rw [hs, e1]; exact h4), he.good⟩

theorem Inv.redisStoreOK {w : World V E} (h : Inv F none O w) {A : Adapter V} (hA : Family F A) {sid : String} (hs : A.ref.store = .redis sid) : RedisStoreOK sid w where
  wf := h.wf
  keys k hk hp := by
    obtain ⟨o, ho⟩ := Dict.mem_keys_iff.1 hk
    obtain ⟨sid', h1, h2, h3, _⟩ := (h.redis k o ho hp).key
    exact ⟨sid', _, _, h1, h2, h3⟩
  sid_ok := (hA.plain sid hs).1
  key_ok t u o ht ho := by
    have := h.find hA ((redis_find hs).2 ⟨ht, o, ho, rfl⟩)
    exact ⟨this.1, this.2.1⟩
  kids_ok t u o ht ho c hc := by
    have := h.find hA ((redis_find hs).2 ⟨ht, o, ho, rfl⟩)
    refine hA.kids_plain sid hs t _ this.2.2.1 c.1 ?_
    obtain ⟨p, hp, hc⟩ := List.mem_flatMap.1 hc
    obtain ⟨u, _, rfl⟩ := List.mem_map.1 hc
    exact Dict.mem_keys_iff.2 ⟨_, Dict.get?_of_mem this.2.2.2.valid.children_nodup hp⟩

theorem Inv.consistent {w : World V E} (h : Inv F none O w) {A : Adapter V} (hA : Family F A) : (snap A w).Consistent := by
  cases hs : A.ref.store with
  | «local» sid => exact consistent_local h.ok hs (fun r hr => (h.good r hr).valid.children_nodup)
  | redis sid => exact consistent_redis hs (h.redisStoreOK hA hs) (fun t u m hm => (h.find hA hm).2.2.2.valid.children_nodup)

theorem Inv.serves {w : World V E} (h : Inv F none O w) {A : Adapter V} (hA : Family F A) : Serves A (snap A w) := by
  cases hs : A.ref.store with
  | «local» sid =>
    have ht : ∀ t, A.Takes t := fun t => by unfold Adapter.Takes; rw [hs]; trivial
    exact ⟨fun t _ => ht t, fun _ _ _ ct _ => ht ct, fun _ _ _ _ ct _ => ht ct⟩
  | redis sid =>
    exact serves_redis hs (h.redisStoreOK hA hs) (fun t ht => (hA.plain sid hs).2 t (hA.top t ht)) (fun t u m hm => (h.find hA hm).2.2.2.valid.children_nodup)
      (fun t u m hm => hA.kids_plain sid hs t _ (h.find hA hm).2.2.1)

theorem Inv.comparable {w : World V E} (h : Inv F none O w) {src dst : Adapter V} (hs : Family F src) (hd : Family F dst) (hf : FieldsAgree src dst)
    (ht : dst.topLevel.Nodup) : Comparable src dst w where
  ok := h.ok
  src_ok := h.consistent hs
  dst_ok := h.consistent hd
  src_types := h.serves hs
  dst_types := h.serves hd
  fields t u a b ha hb := hf t _ _ (h.find hs ha).2.2.1 (h.find hd hb).2.2.1
  top_nodup := ht

theorem Inv.syncReady {w : World V E} (h : Inv F none O w) {A : Adapter V} (hA : Family F A) {sid : Nat} (hs : A.ref.store = .local sid) : SyncReady A sid w where
  store := hs
  valid := hA.valid
  ok := h.ok
  inst t u r c hr hc := by
    have := h.inst sid t u r hr
    rw [hA.get?, hs] at hc
    exact Option.some.inj (this.symm.trans hc)
  children t u m hm := (h.find hA hm).2.2.2.valid.children_nodup

theorem Inv.dstReady {w : World V E} (h : Inv F none O w) {A : Adapter V} (hA : Family F A) : DstReady A w where
  valid := hA.valid
  ok := h.ok
  inst t u m c hm hc := Option.some.inj ((h.find hA hm).2.2.1.symm.trans hc)
  children t u m hm := (h.find hA hm).2.2.2.valid.children_nodup
  redis sid hs := ⟨h.redisStoreOK hA hs, fun t _ hc => (hA.plain sid hs).2 t (Dict.mem_keys_iff.2 ⟨_, hc⟩)⟩

end DS
