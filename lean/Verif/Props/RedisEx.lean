import Verif.Lemmas.RedisCmp
import Verif.Props.Store
/-! Example: comparing a local adapter with one in Redis whose unique ids contain `:`. -/

namespace DS.Ex

/-- A Redis world given by the list of what was put there. -/
structure RedisHolds (w : World String (List Outcome)) (l : List ((String × String × String) × Model String)) : Prop where
  all : w.redis.map (fun p => (p.1, p.2.m)) = l.map (fun x => (redisKey x.1.1 x.1.2.1 x.1.2.2, x.2))
  wf : Dict.WF w.redis
  plain : ∀ x ∈ l, Plain x.1.1 ∧ Plain x.1.2.1
  own : ∀ x ∈ l, x.2.type = x.1.2.1 ∧ x.2.uid = x.1.2.2
  kids : ∀ x ∈ l, ∀ ct ∈ Dict.keys x.2.cls.children, Plain ct
  nodup : ∀ x ∈ l, (Dict.keys x.2.cls.children).Nodup

theorem RedisHolds.mem {w : World String (List Outcome)} {l : List ((String × String × String) × Model String)} (h : RedisHolds w l) {sid t u : String}
    (hs : Plain sid) (ht : Plain t) {o : Obj String} (ho : Dict.get? w.redis (redisKey sid t u) = some o) : ((sid, t, u), o.m) ∈ l := by
  have hm : (redisKey sid t u, o.m) ∈ w.redis.map (fun p => (p.1, p.2.m)) := List.mem_map.2 ⟨_, Dict.mem_of_get? ho, rfl⟩
  rw [h.all] at hm
  obtain ⟨⟨⟨s, t', u'⟩, m⟩, hx, he⟩ := List.mem_map.1 hm
  obtain ⟨p1, p2⟩ := h.plain _ hx
  obtain ⟨rfl, rfl, rfl⟩ := redisKey_inj hs p1 ht p2 (congrArg Prod.fst he).symm
  have : m = o.m := congrArg Prod.snd he
  exact this ▸ hx

theorem RedisHolds.ok {w : World String (List Outcome)} {l : List ((String × String × String) × Model String)} (h : RedisHolds w l) {sid : String}
    (hs : Plain sid) : RedisStoreOK sid w where
  wf := h.wf
  keys := (redisOK_of_keys w h.wf (l.map Prod.fst) (by
    have := congrArg (List.map Prod.fst) h.all
    rw [List.map_map, List.map_map] at this
    rw [List.map_map]
    exact this) (fun k hk => by
      obtain ⟨x, hx, rfl⟩ := List.mem_map.1 hk
      exact h.plain x hx)).keys
  sid_ok := hs
  key_ok t u o ht ho := h.own _ (h.mem hs ht ho)
  kids_ok t u o ht ho c hc := by
    have := h.kids _ (h.mem hs ht ho)
    obtain ⟨p, hp, hc⟩ := List.mem_flatMap.1 hc
    have e : c.1 = p.1 := by
      obtain ⟨u, _, rfl⟩ := List.mem_map.1 hc
      rfl
    rw [e]
    exact this _ (List.mem_map.2 ⟨p, hp, rfl⟩)

/-- Interfaces named by MAC addresses, in Redis and in a local store. -/
def wMac : World String (List Outcome) :=
  addModels (adR 1 "one") [site "nyc" ["a"], device "a" "leaf" ["a__00:1b:44", "a__00:1b:45"], interface "a" "00:1b:44" "up", interface "a" "00:1b:45" "up"]
  (addModels (ad 2) [site "nyc" ["a"], device "a" "leaf" ["a__00:1b:44"], interface "a" "00:1b:44" "down"] (world0 String _ []))

theorem wMac_ok : wMac.OK := addModels_ok _ _ _ (addModels_ok _ _ _ (world0_ok _))

def lMac : List ((String × String × String) × Model String) :=
  [(("one", "site", "nyc"), site "nyc" ["a"]), (("one", "device", "a"), device "a" "leaf" ["a__00:1b:44", "a__00:1b:45"]),
   (("one", "interface", "a__00:1b:44"), interface "a" "00:1b:44" "up"), (("one", "interface", "a__00:1b:45"), interface "a" "00:1b:45" "up")]

theorem wMac_holds : RedisHolds wMac lMac where
  all := by decide +kernel
  wf := by unfold Dict.WF; decide +kernel
  plain := by decide +kernel
  own := by decide +kernel
  kids := by decide +kernel
  nodup := by decide +kernel

theorem wMac_mem {t u : String} {m : Model String} (h : (snap (adR 1 "one") wMac).find t u = some m) : (("one", t, u), m) ∈ lMac := by
  obtain ⟨ht, o, ho, rfl⟩ := (redis_find (A := adR 1 "one") (sid := "one") rfl).1 h
  exact wMac_holds.mem (by decide) ht ho

/-- The two are comparable, so what is proved of diffs applies: C01, C03, C10, C13, … -/
theorem comparable_wMac : Comparable (adR 1 "one") (ad 2) wMac where
  ok := wMac_ok
  src_ok := consistent_redis rfl (wMac_holds.ok (by decide)) (fun t u m h => wMac_holds.nodup _ (wMac_mem h))
  dst_ok := consistent_local wMac_ok rfl (by rw [show wMac.next = 7 by decide +kernel]; decide +kernel)
  src_types := serves_redis rfl (wMac_holds.ok (by decide)) (by decide) (fun t u m h => wMac_holds.nodup _ (wMac_mem h)) (fun t u m h => wMac_holds.kids _ (wMac_mem h))
  dst_types := serves_local rfl _
  fields := by
    intro t u s d hs hd ct f f' h1 h2
    have g1 : ∀ x ∈ lMac, Dict.get? (ad 2).classes x.1.2.1 = some x.2.cls := by decide +kernel
    have e1 := g1 _ (wMac_mem hs)
    have g2 : ∀ r, r < wMac.next → Dict.get? (ad 2).classes (wMac.heap r).m.type = some (wMac.heap r).m.cls := by
      rw [show wMac.next = 7 by decide +kernel]; decide +kernel
    simp only [snap, ad, Option.map_eq_some_iff] at hd
    obtain ⟨r, hr, rfl⟩ := hd
    have e2 := g2 r (wMac_ok.refs_lt _ _ _ _ hr)
    rw [(wMac_ok.key_ok _ _ _ _ hr).1, e1] at e2
    have : s.cls = (wMac.heap r).m.cls := Option.some.inj e2
    rw [this] at h1
    rw [h1] at h2
    exact Option.some.inj h2
  top_nodup := by decide

/-- The diff: one interface changed, one missing. -/
example : (diffFrom 10 (ad 2) (adR 1 "one") (DiffClass.default _) 0 wMac).1.toOption.map (fun d => (d.summary.create, d.summary.update, d.summary.delete, d.summary.noChange)) =
    some (1, 1, 0, 2) := by decide +kernel

end DS.Ex
