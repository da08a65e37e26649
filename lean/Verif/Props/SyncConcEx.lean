import Verif.Props.SyncConc
import Verif.Props.SyncKilledEx
import Verif.Props.ConcurrentEx
/-! # C87, C88: concrete syncs that run at the same time -/
set_option linter.unusedSectionVars false

namespace DS.Ex

theorem two_scan1 {α : Type} {d : Dict (Obj String)} {pfx : String} {k : List String → Proc String α} {p : Proc String α} {l : List (Sys String α)} {s' : Sys String α} (ks : List String)
    (hk : ∀ x, x ∈ ks ↔ Found d pfx x) (h : Exec (two d p (k ks)) l s') : ∃ l', Exec (two d p (.cmd (.scan pfx) k)) l' s' := by
  have e : two d p (k ks) = ⟨d, fun j => if j = 1 then .at (k ks) else if j = 1 then .scanning pfx (Found d pfx) (Found d pfx) k else (two d p (.cmd (.scan pfx) k)).cl j⟩ := by
    unfold two
    congr
    funext j
    by_cases h0 : j = 0
    · subst h0; rfl
    · by_cases h1 : j = 1
      · simp [h1]
      · simp [h0, h1]
  rw [e] at h
  exact ⟨_, .step (.scanBegins (i := 1) (pfx := pfx) (k := k) rfl) (.step (.scanEnds (i := 1) (pfx := pfx) (k := k) rfl ks (fun x hx => (hk x).2 hx) (fun x hx => ⟨(hk x).1 hx, ((hk x).1 hx).2⟩)) h)⟩

theorem two_cl0 {α : Type} (d : Dict (Obj String)) (p q : Proc String α) : (two d p q).cl 0 = .at p := rfl
theorem two_cl1 {α : Type} (d : Dict (Obj String)) (p q : Proc String α) : (two d p q).cl 1 = .at q := rfl
theorem two_rest {α : Type} (d : Dict (Obj String)) (p q : Proc String α) {j : Nat} (h0 : j ≠ 0) (h1 : j ≠ 1) : (two d p q).cl j = .at (.ret (.error .runtimeError)) := by
  simp [two, h0, h1]
theorem two_srv {α : Type} (d : Dict (Obj String)) (p q : Proc String α) : (two d p q).srv = d := rfl

/-- Two clients take turns: `false` is a command of the first one. -/
def turns {α : Type} : List Bool → Dict (Obj String) × Proc String α × Proc String α → Dict (Obj String) × Proc String α × Proc String α
  | [], x => x
  | false :: bs, (d, p, q) => turns bs ((cutAfter 1 (p, d)).2, (cutAfter 1 (p, d)).1, q)
  | true :: bs, (d, p, q) => turns bs ((cutAfter 1 (q, d)).2, p, (cutAfter 1 (q, d)).1)

theorem scan_found (d : Dict (Obj String)) (pfx x : String) : x ∈ scanKeys d pfx ↔ Found d pfx x := by unfold scanKeys Found; rw [List.mem_filter]

theorem turns_exec {α : Type} : ∀ (bs : List Bool) (d : Dict (Obj String)) (p q : Proc String α), ∃ l, Exec (two d p q) l (two (turns bs (d, p, q)).1 (turns bs (d, p, q)).2.1 (turns bs (d, p, q)).2.2)
  | [], d, p, q => ⟨_, .done _⟩
  | false :: bs, d, p, q => by
    obtain ⟨l, h⟩ := turns_exec bs (cutAfter 1 (p, d)).2 (cutAfter 1 (p, d)).1 q
    cases p with
    | ret r => exact ⟨l, h⟩
    | cmd c k =>
      cases c with
      | scan pfx => exact two_scan0 _ (scan_found d pfx) h
      | get => exact ⟨_, .step (two_step0 id) h⟩
      | set => exact ⟨_, .step (two_step0 id) h⟩
      | exist => exact ⟨_, .step (two_step0 id) h⟩
      | del => exact ⟨_, .step (two_step0 id) h⟩
  | true :: bs, d, p, q => by
    obtain ⟨l, h⟩ := turns_exec bs (cutAfter 1 (q, d)).2 p (cutAfter 1 (q, d)).1
    cases q with
    | ret r => exact ⟨l, h⟩
    | cmd c k =>
      cases c with
      | scan pfx => exact two_scan1 _ (scan_found d pfx) h
      | get => exact ⟨_, .step (two_step1 id) h⟩
      | set => exact ⟨_, .step (two_step1 id) h⟩
      | exist => exact ⟨_, .step (two_step1 id) h⟩
      | del => exact ⟨_, .step (two_step1 id) h⟩

/-- How a client ended, if it has. -/
def syncOutcome {E : Type} : Proc String (Except Err Bool × World String E) → Option (Except Err Bool)
  | .ret (.ok p) => some p.1
  | .ret (.error e) => some (.error e)
  | .cmd _ _ => none

/-- The sync of `wToRedis`, and one into the same store from a source where the device to create has another role. -/
def jobA : SyncJob String (List Outcome) := ⟨⟨ad 1, adR 2 "two", 0, dToRedis.cls, scripted String, 20⟩, 10, dToRedis, wToRedis⟩
def wToRedisB : World String (List Outcome) :=
  addModels (ad 1) [site "nyc" ["a", "b"], site "sfo" [], device "a" "leaf" [], device "b" "spine" []]
    (addModels (adR 2 "two") [site "nyc" ["a"], device "a" "spine" [], site "lax" []] (world0 String _ []))
def dToRedisB : Diff String :=
  match (diffFrom 10 (adR 2 "two") (ad 1) (DiffClass.default _) 0 wToRedisB).1 with
  | .ok d => d
  | .error _ => ⟨DiffClass.default _, [], 0⟩
def jobB : SyncJob String (List Outcome) := ⟨⟨ad 1, adR 2 "two", 0, dToRedisB.cls, scripted String, 20⟩, 10, dToRedisB, wToRedisB⟩

theorem wToRedisB_ok : wToRedisB.OK := addModels_ok _ _ _ (addModels_ok _ _ _ (world0_ok _))

theorem wToRedisB_holds : RedisHolds wToRedisB lToRedis where
  all := by decide +kernel
  wf := by unfold Dict.WF; decide +kernel
  plain := by decide +kernel
  own := by decide +kernel
  kids := by decide +kernel
  nodup := by decide +kernel

theorem wToRedisB_mem {t u : String} {m : Model String} (h : (snap (adR 2 "two") wToRedisB).find t u = some m) : (("two", t, u), m) ∈ lToRedis := by
  obtain ⟨ht, o, ho, rfl⟩ := (redis_find (A := adR 2 "two") (sid := "two") rfl).1 h
  exact wToRedisB_holds.mem (by decide) ht ho

theorem wToRedisB_cls {t u : String} {m : Model String} (h : (snap (adR 2 "two") wToRedisB).find t u = some m) : Dict.get? (ad 2).classes t = some m.cls := by
  have g1 : ∀ x ∈ lToRedis, Dict.get? (ad 2).classes x.1.2.1 = some x.2.cls := by decide +kernel
  exact g1 _ (wToRedisB_mem h)

theorem comparable_wToRedisB : Comparable (ad 1) (adR 2 "two") wToRedisB where
  ok := wToRedisB_ok
  src_ok := consistent_local wToRedisB_ok rfl (by rw [show wToRedisB.next = 7 by decide +kernel]; decide +kernel)
  dst_ok := consistent_redis rfl (wToRedisB_holds.ok (by decide)) (fun t u m h => wToRedisB_holds.nodup _ (wToRedisB_mem h))
  src_types := serves_local rfl _
  dst_types := serves_redis rfl (wToRedisB_holds.ok (by decide)) (by decide) (fun t u m h => wToRedisB_holds.nodup _ (wToRedisB_mem h)) (fun t u m h => wToRedisB_holds.kids _ (wToRedisB_mem h))
  fields := by
    intro t u s d hs hd ct f f' h1 h2
    have e1 := wToRedisB_cls hd
    have g2 : ∀ r, r < wToRedisB.next → Dict.get? (ad 2).classes (wToRedisB.heap r).m.type = some (wToRedisB.heap r).m.cls := by
      rw [show wToRedisB.next = 7 by decide +kernel]; decide +kernel
    simp only [snap, ad, Option.map_eq_some_iff] at hs
    obtain ⟨r, hr, rfl⟩ := hs
    have e2 := g2 r (wToRedisB_ok.refs_lt _ _ _ _ hr)
    rw [(wToRedisB_ok.key_ok _ _ _ _ hr).1, e1] at e2
    have : d.cls = (wToRedisB.heap r).m.cls := Option.some.inj e2
    rw [this] at h2
    rw [h1] at h2
    exact Option.some.inj h2
  top_nodup := by decide

theorem ready_wToRedisB : DstReady (adR 2 "two") wToRedisB where
  valid := ⟨(ad_valid 2).names, (ad_valid 2).valid, (ad_valid 2).fields⟩
  ok := wToRedisB_ok
  inst t u m c h hc := by
    have := wToRedisB_cls h
    exact Option.some.inj (this.symm.trans hc)
  children t u m h := wToRedisB_holds.nodup _ (wToRedisB_mem h)
  redis sid h := by
    cases h
    refine ⟨wToRedisB_holds.ok (by decide), fun t c hc => ?_⟩
    have := Dict.mem_of_get? hc
    have g : ∀ p ∈ (ad 2).classes, Plain p.1 := by decide +kernel
    exact g _ this

theorem good_dToRedisB : GoodDiff (adR 2 "two") dToRedisB.kids := by
  have hd : (diffFrom 10 (adR 2 "two") (ad 1) (DiffClass.default _) 0 wToRedisB).1.toOption.isSome = true := by decide +kernel
  obtain ⟨w', hw'⟩ : ∃ w', diffFrom 10 (adR 2 "two") (ad 1) (DiffClass.default _) 0 wToRedisB = (.ok dToRedisB, w') := by
    unfold dToRedisB
    cases hd' : diffFrom 10 (adR 2 "two") (ad 1) (DiffClass.default _) 0 wToRedisB with
    | mk r w' =>
      rw [hd'] at hd
      cases r with
      | ok d => exact ⟨w', rfl⟩
      | error e => cases hd
  exact (run_of comparable_wToRedisB ready_wToRedisB (adR_keepsIds 2 "two" _) hw' (distinct_of (by decide +kernel))).1.good

theorem jobA_into : jobA.Into "two" := ⟨rfl, ready_wToRedis.valid, (ready_wToRedis.redis "two" rfl).2, run_wToRedis.1.good⟩
theorem jobB_into : jobB.Into "two" := ⟨rfl, ready_wToRedisB.valid, (ready_wToRedisB.redis "two" rfl).2, good_dToRedisB⟩

/-- The server and the two syncs after these commands. -/
def after (bs : List Bool) := turns bs (wToRedis.redis, jobA.client "two", jobB.client "two")
def alternating : List Bool := (List.replicate 20 [false, true]).flatten
def inOrder : List Bool := List.replicate 20 false ++ List.replicate 20 true

theorem keysRight_wToRedis : KeysRight wToRedis.redis := by
  intro key o h
  have hm : (key, o.m) ∈ wToRedis.redis.map (fun p => (p.1, p.2.m)) := List.mem_map.2 ⟨_, Dict.mem_of_get? h, rfl⟩
  rw [wToRedis_holds.all] at hm
  obtain ⟨⟨⟨x, t, u⟩, m⟩, hx, he⟩ := List.mem_map.1 hm
  obtain ⟨h1, h2⟩ := Prod.mk.inj he
  have h3 := wToRedis_holds.own _ hx
  subst h2
  have h4 : ∀ p ∈ wToRedis.redis, p.2.adapter = none := by decide +kernel
  exact ⟨x, (wToRedis_holds.plain _ hx).1, by rw [h3.1]; exact (wToRedis_holds.plain _ hx).2, by rw [h3.1, h3.2]; exact h1.symm, h4 _ (Dict.mem_of_get? h)⟩

def bothJobs (j : Nat) : Option (SyncJob String (List Outcome)) := if j = 0 then some jobA else if j = 1 then some jobB else none

/-- C88: two syncs that both create a device. -/
example (bs : List Bool) {key : String} (hkey : OfStore "two" key) {o : Obj String} (h : Dict.get? (after bs).1 key = some o) :
    Dict.get? wToRedis.redis key = some o ∨
      key = redisKey "two" o.m.type o.m.uid ∧ ∃ j J e, bothJobs j = some J ∧ InTree e J.diff.kids ∧ ElemKey J.ctx.dst e (o.m.type, o.m.uid) ∧ CreatesAs J.ctx.dst e o.m := by
  obtain ⟨l, he⟩ := turns_exec bs wToRedis.redis (jobA.client "two") (jobB.client "two")
  unfold after at h
  generalize turns bs (wToRedis.redis, jobA.client "two", jobB.client "two") = x at he h
  have hp : Plain "two" := by decide
  have hk := keysRight_wToRedis
  rw [← two_srv wToRedis.redis (jobA.client "two") (jobB.client "two")] at hk
  have h := (C88_same_store (jobs := bothJobs) (o := o) he hp hk (fun j J hj => ?_) (fun j hj => ?_) hkey).1 (by rw [two_srv]; exact h)
  · rw [two_srv] at h; exact h
  · by_cases h0 : j = 0
    · subst h0; rw [← Option.some.inj (show some jobA = some J from hj)]; exact ⟨jobA_into, two_cl0 _ _ _⟩
    · by_cases h1 : j = 1
      · subst h1; rw [← Option.some.inj (show some jobB = some J from hj)]; exact ⟨jobB_into, two_cl1 _ _ _⟩
      · simp [bothJobs, h0, h1] at hj
  · by_cases h0 : j = 0
    · subst h0; cases hj
    · by_cases h1 : j = 1
      · subst h1; cases hj
      · rw [two_rest _ _ _ h0 h1]; exact ⟨.ret _, .ret _⟩

/-- **C88** What the theorem does not promise.  Two syncs that create the same object with different values: if they take turns, both end without an error, and
the object of the first one is lost; if the second one starts when the first one has ended, it raises, although its diff was computed from the same store. -/
theorem C88_lost_create :
    (syncOutcome (after alternating).2.1 = some (.ok true) ∧ syncOutcome (after alternating).2.2 = some (.ok true) ∧
      (Dict.get? (after alternating).1 (redisKey "two" "device" "b")).map Obj.m = some (device "b" "spine" [])) ∧
    (syncOutcome (after inOrder).2.1 = some (.ok true) ∧ syncOutcome (after inOrder).2.2 = some (.error .objectNotCreated) ∧
      (Dict.get? (after inOrder).1 (redisKey "two" "device" "b")).map Obj.m = some (device "b" "leaf" [])) ∧
    (∀ bs, ∃ l, Exec (two wToRedis.redis (jobA.client "two") (jobB.client "two")) l (two (after bs).1 (after bs).2.1 (after bs).2.2)) :=
  ⟨by decide +kernel, by decide +kernel, fun bs => turns_exec bs _ _ _⟩

/-- A sync into another store. -/
def jobC : SyncJob String (List Outcome) := ⟨⟨ad 1, adR 3 "three", 0, dToRedis.cls, scripted String, 20⟩, 10, dToRedis, wToRedis⟩
def apartJobs (j : Nat) : Option (SyncJob String (List Outcome)) := if j = 0 then some jobA else if j = 1 then some jobC else none
def apartSids (j : Nat) : String := if j = 0 then "two" else "three"
def afterApart (bs : List Bool) := turns bs (wToRedis.redis, jobA.client "two", jobC.client "three")

/-- C87: the second sync finds nothing of what its diff says to be there: it creates a site and raises at the deletion; the first one does not notice. -/
example : syncOutcome (afterApart alternating).2.1 = some (.ok true) ∧ syncOutcome (afterApart alternating).2.2 = some (.error .objectNotDeleted) ∧
    Dict.keys (afterApart alternating).1 = ["diffsync:two:site:nyc", "diffsync:two:device:a", "diffsync:three:site:sfo", "diffsync:two:device:b", "diffsync:two:site:sfo"] := by decide +kernel
example (bs : List Bool) {r} (hr : (two (afterApart bs).1 (afterApart bs).2.1 (afterApart bs).2.2).cl 0 = .at (.ret r)) :
    ∃ res w1, performSync jobA.ctx jobA.depth jobA.diff (jobA.mem.onServer wToRedis.redis) = (res, w1) ∧ r = .ok (res, w1.onServer jobA.mem.redis) ∧
      ∀ t u, Dict.get? (afterApart bs).1 (redisKey (apartSids 0) t u) = Dict.get? w1.redis (redisKey (apartSids 0) t u) := by
  obtain ⟨l, he⟩ := turns_exec bs wToRedis.redis (jobA.client "two") (jobC.client "three")
  unfold afterApart at hr ⊢
  generalize turns bs (wToRedis.redis, jobA.client "two", jobC.client "three") = x at he hr ⊢
  have hj : ∀ j J, apartJobs j = some J → (j = 0 ∧ J = jobA) ∨ (j = 1 ∧ J = jobC) := by
    intro j J h
    by_cases h0 : j = 0
    · subst h0; exact .inl ⟨rfl, (Option.some.inj (show some jobA = some J from h)).symm⟩
    · by_cases h1 : j = 1
      · subst h1; exact .inr ⟨rfl, (Option.some.inj (show some jobC = some J from h)).symm⟩
      · simp [apartJobs, h0, h1] at h
  have := C87_stores_apart (jobs := apartJobs) (sids := apartSids) he
    (fun j J h => by
      rcases hj j J h with ⟨rfl, rfl⟩ | ⟨rfl, rfl⟩
      · exact ⟨two_cl0 _ _ _, rfl, by decide⟩
      · exact ⟨two_cl1 _ _ _, rfl, by decide⟩)
    (fun j k J K h1 h2 hn => by
      have hA : jobA.ctx.src.ref.store = .local 1 := rfl
      have hC : jobC.ctx.src.ref.store = .local 1 := rfl
      rcases hj j J h1 with ⟨rfl, rfl⟩ | ⟨rfl, rfl⟩ <;> rcases hj k K h2 with ⟨rfl, rfl⟩ | ⟨rfl, rfl⟩
      · exact absurd rfl hn
      · exact ⟨by decide, by rw [hC]; exact (nomatch ·)⟩
      · exact ⟨by decide, by rw [hA]; exact (nomatch ·)⟩
      · exact absurd rfl hn)
    (fun j J y h hs => by
      have hA : jobA.ctx.src.ref.store = .local 1 := rfl
      have hC : jobC.ctx.src.ref.store = .local 1 := rfl
      rcases hj j J h with ⟨rfl, rfl⟩ | ⟨rfl, rfl⟩
      · rw [hA] at hs; cases hs
      · rw [hC] at hs; cases hs)
    (fun j k K h _ => by
      by_cases h0 : j = 0
      · subst h0; cases h
      · by_cases h1 : j = 1
        · subst h1; cases h
        · rw [two_rest _ _ _ h0 h1]; exact .ret _) (i := 0) (J := jobA) rfl hr
  rw [two_srv, two_srv] at this
  exact this

end DS.Ex
