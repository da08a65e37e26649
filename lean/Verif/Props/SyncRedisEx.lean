import Verif.Props.SyncRedis
import Verif.Props.SyncEx
import Verif.Props.RedisEx
/-! # C42: concrete syncs into a Redis store -/
set_option linter.unusedSectionVars false

namespace DS.Ex

/-- A local source, and a destination in Redis from which a site and a device are missing, and which has one site more and a device that differs. -/
def wToRedis : World String (List Outcome) :=
  addModels (ad 1) [site "nyc" ["a", "b"], site "sfo" [], device "a" "leaf" [], device "b" "leaf" []]
    (addModels (adR 2 "two") [site "nyc" ["a"], device "a" "spine" [], site "lax" []] (world0 String _ []))

theorem wToRedis_ok : wToRedis.OK := addModels_ok _ _ _ (addModels_ok _ _ _ (world0_ok _))

def lToRedis : List ((String × String × String) × Model String) :=
  [(("two", "site", "nyc"), site "nyc" ["a"]), (("two", "device", "a"), device "a" "spine" []), (("two", "site", "lax"), site "lax" [])]

theorem wToRedis_holds : RedisHolds wToRedis lToRedis where
  all := by decide +kernel
  wf := by unfold Dict.WF; decide +kernel
  plain := by decide +kernel
  own := by decide +kernel
  kids := by decide +kernel
  nodup := by decide +kernel

theorem wToRedis_mem {t u : String} {m : Model String} (h : (snap (adR 2 "two") wToRedis).find t u = some m) : (("two", t, u), m) ∈ lToRedis := by
  obtain ⟨ht, o, ho, rfl⟩ := (redis_find (A := adR 2 "two") (sid := "two") rfl).1 h
  exact wToRedis_holds.mem (by decide) ht ho

theorem wToRedis_cls {t u : String} {m : Model String} (h : (snap (adR 2 "two") wToRedis).find t u = some m) : Dict.get? (ad 2).classes t = some m.cls := by
  have g1 : ∀ x ∈ lToRedis, Dict.get? (ad 2).classes x.1.2.1 = some x.2.cls := by decide +kernel
  exact g1 _ (wToRedis_mem h)

theorem comparable_wToRedis : Comparable (ad 1) (adR 2 "two") wToRedis where
  ok := wToRedis_ok
  src_ok := consistent_local wToRedis_ok rfl (by rw [show wToRedis.next = 7 by decide +kernel]; decide +kernel)
  dst_ok := consistent_redis rfl (wToRedis_holds.ok (by decide)) (fun t u m h => wToRedis_holds.nodup _ (wToRedis_mem h))
  src_types := serves_local rfl _
  dst_types := serves_redis rfl (wToRedis_holds.ok (by decide)) (by decide) (fun t u m h => wToRedis_holds.nodup _ (wToRedis_mem h)) (fun t u m h => wToRedis_holds.kids _ (wToRedis_mem h))
  fields := by
    intro t u s d hs hd ct f f' h1 h2
    have e1 := wToRedis_cls hd
    have g2 : ∀ r, r < wToRedis.next → Dict.get? (ad 2).classes (wToRedis.heap r).m.type = some (wToRedis.heap r).m.cls := by
      rw [show wToRedis.next = 7 by decide +kernel]; decide +kernel
    simp only [snap, ad, Option.map_eq_some_iff] at hs
    obtain ⟨r, hr, rfl⟩ := hs
    have e2 := g2 r (wToRedis_ok.refs_lt _ _ _ _ hr)
    rw [(wToRedis_ok.key_ok _ _ _ _ hr).1, e1] at e2
    have : d.cls = (wToRedis.heap r).m.cls := Option.some.inj e2
    rw [this] at h2
    rw [h1] at h2
    exact Option.some.inj h2
  top_nodup := by decide

theorem ready_wToRedis : DstReady (adR 2 "two") wToRedis where
  valid := ⟨(ad_valid 2).names, (ad_valid 2).valid, (ad_valid 2).fields⟩
  ok := wToRedis_ok
  inst t u m c h hc := by
    have := wToRedis_cls h
    exact Option.some.inj (this.symm.trans hc)
  children t u m h := wToRedis_holds.nodup _ (wToRedis_mem h)
  redis sid h := by
    cases h
    refine ⟨wToRedis_holds.ok (by decide), fun t c hc => ?_⟩
    have := Dict.mem_of_get? hc
    have g : ∀ p ∈ (ad 2).classes, Plain p.1 := by decide +kernel
    exact g _ this

/-- The diff, and the sync with it. -/
def dToRedis : Diff String :=
  match (diffFrom 10 (adR 2 "two") (ad 1) (DiffClass.default _) 0 wToRedis).1 with
  | .ok d => d
  | .error _ => ⟨DiffClass.default _, [], 0⟩
def sToRedis := syncFrom 10 20 (scripted String) (adR 2 "two") (ad 1) (DiffClass.default _) 0 none wToRedis

theorem run_of {src dst : Adapter String} {w w' : World String (List Outcome)} {d : Diff String} (hc : Comparable src dst w) (hr : DstReady dst w) (hk0 : KeepsIdsOf dst (snap src w))
    (hd : diffFrom 10 dst src (DiffClass.default _) 0 w = (.ok d, w')) (hk : DistinctKeys dst d.kids) :
    SyncRun 10 20 (scripted String) dst src (DiffClass.default _) 0 none w d (syncFrom 10 20 (scripted String) dst src (DiffClass.default _) 0 none w).1
      (syncFrom 10 20 (scripted String) dst src (DiffClass.default _) 0 none w).2 ∧ Tidy dst d :=
  ⟨SyncRun.of_computed hc hr hk0 hd rfl, by
    rw [(diffFrom_describes hc.ok hc.src_ok hc.dst_ok hc.fields hc.src_types hc.dst_types hc.top_nodup hd).2]
    exact fun g l => List.Perm.refl _, hk⟩

theorem run_wToRedis : SyncRun 10 20 (scripted String) (adR 2 "two") (ad 1) (DiffClass.default _) 0 none wToRedis dToRedis sToRedis.1 sToRedis.2 ∧
    Tidy (adR 2 "two") dToRedis := by
  have hd : (diffFrom 10 (adR 2 "two") (ad 1) (DiffClass.default _) 0 wToRedis).1.toOption.isSome = true := by decide +kernel
  obtain ⟨w', hw'⟩ : ∃ w', diffFrom 10 (adR 2 "two") (ad 1) (DiffClass.default _) 0 wToRedis = (.ok dToRedis, w') := by
    unfold dToRedis
    cases hd' : diffFrom 10 (adR 2 "two") (ad 1) (DiffClass.default _) 0 wToRedis with
    | mk r w' =>
      rw [hd'] at hd
      cases r with
      | ok d => exact ⟨w', rfl⟩
      | error e => cases hd
  exact run_of comparable_wToRedis ready_wToRedis (adR_keepsIds 2 "two" _) hw' (distinct_of (by decide +kernel))

/-- C42: the calls, and what is in the store afterwards. -/
example : calls (newEvents wToRedis sToRedis.2) = [.update "device" "a" [("role", "leaf")], .create "device" [("name", "b")] [("role", "leaf")],
      .create "site" [("name", "sfo")] [], .delete "site" "lax"] ∧
    (snap (adR 2 "two") sToRedis.2).find "device" "a" = some (device "a" "spine" []) ∧
    (snap (adR 2 "two") sToRedis.2).find "site" "sfo" = some (site "sfo" []) ∧ (snap (adR 2 "two") sToRedis.2).find "site" "lax" = none := by decide +kernel

theorem allSucceedR_of {evs : List (Event String)}
    (h : evs.all (fun ev => match ev with | .call c out => out.result == .object && (c.act != .update || out.applied) | _ => true) = true) : AllSucceed evs := by
  intro c out hm
  have := List.all_eq_true.1 h _ hm
  simp only [Bool.and_eq_true, beq_iff_eq, Bool.or_eq_true, bne_iff_ne] at this
  refine ⟨this.1, fun hu => ?_⟩
  rcases this.2 with h | h
  · exact absurd hu h
  · exact h

/-- C42: what the theorem says of this sync. -/
example : ∃ d', sToRedis.1 = .ok d' ∧
    (∀ e, InTree e dToRedis.kids → e.action = some .create →
      InEffect (adR 2 "two") (snap (adR 2 "two") wToRedis) (snap (adR 2 "two") sToRedis.2) (.create e.type e.keys (e.plus.getD []))) := by
  have hok : sToRedis.1.toOption.isSome = true := by decide +kernel
  cases hr : sToRedis.1 with
  | error x => rw [hr] at hok; cases hok
  | ok d' =>
    have hrun := run_wToRedis.1
    rw [hr] at hrun
    refine ⟨d', rfl, (C42_redis_contents_partial hrun rfl run_wToRedis.2 (keyed_of (by decide +kernel)) (noMissing_of (by decide +kernel))
      (allSucceedR_of (by decide +kernel)) (fun e k he hk ha hs => ?_)).1⟩
    rcases hs with ⟨m, h1, h2⟩ | ⟨c, h1, h2⟩
    · have g : ∀ x ∈ lToRedis, flagOn x.2.flags MF.SKIP_CHILDREN_ON_DELETE = false := by decide +kernel
      rw [g _ (wToRedis_mem h1)] at h2; cases h2
    · have g : ∀ p ∈ (ad 2).classes, flagOn p.2.defaultFlags MF.SKIP_CHILDREN_ON_DELETE = false := by decide +kernel
      rw [g _ (Dict.mem_of_get? h1)] at h2; cases h2

/-- **C42**, where it fails: the device that the first sync created is not in the stored child list of its site, so a second sync would create it again,
is refused, and raises. -/
theorem C42_second_sync_raises :
    let r := syncFrom 10 20 (scripted String) (adR 2 "two") (ad 1) (DiffClass.default _) 0 none wToRedis
    r.1.toOption.isSome = true ∧
    errOf (syncFrom 10 20 (scripted String) (adR 2 "two") (ad 1) (DiffClass.default _) 0 none r.2) = some .objectNotCreated := by decide +kernel

end DS.Ex
