import Verif.Props.SyncFrom
import Verif.Props.SyncConcEx
import Verif.Props.DiffCmdEx
/-! # C89: concrete calls of `sync_from` at the same time -/
set_option linter.unusedSectionVars false

namespace DS.Ex

/-- Two calls of `sync_from` on adapters with the same Redis store, for sources that differ in the role of a device that the store does not have. -/
def fromA : FromJob String (List Outcome) := ⟨ad 1, DiffClass.default _, 0, scripted String, 10, 20, wToRedis⟩
def fromB : FromJob String (List Outcome) := ⟨ad 1, DiffClass.default _, 0, scripted String, 10, 20, wToRedisB⟩

theorem ready_from {w : World String (List Outcome)} (hw : w.OK) (hok : (snap (ad 1) w).Consistent)
    (hc : ∀ r, r < w.next → Dict.get? (ad 2).classes (w.heap r).m.type = some (w.heap r).m.cls) (H : Dict (Obj String) → Prop) :
    FromJob.Ready ⟨ad 1, DiffClass.default _, 0, scripted String, 10, 20, w⟩ (adR 2 "two") H := by
  have has : ∀ t u m, Seen (View.of (ad 1) w) H t u (some m) → (snap (ad 1) w).find t u = some m ∧ Dict.get? (ad 2).classes t = some m.cls := by
    rintro t u m ⟨d, hd, h⟩
    have h : (snap (ad 1) w).find t u = some m := h
    refine ⟨h, ?_⟩
    have ht := (hok.key_ok t u m h).1
    simp only [snap, ad, Option.map_eq_some_iff] at h
    obtain ⟨r, hr, rfl⟩ := h
    rw [← ht]
    exact hc r (hw.refs_lt _ _ _ _ hr)
  refine ⟨⟨hok, fun t u m _ h => hok.key_ok t u m (has t u m h).1, fun t u m _ h => ⟨hok.children_nodup t u m (has t u m h).1, fun _ _ => trivial⟩⟩, fun _ _ => trivial,
    fun t u m c h h1 ct f f' h2 h3 => ?_, fun t u m c h => adR_keepsIds 2 "two" (snap (ad 1) w) t u m c (has t u m h).1, fun t u m h => ?_⟩
  · rw [(hok.key_ok t u m (has t u m h).1).1] at h1
    have : some m.cls = some c := (has t u m h).2.symm.trans h1
    cases this
    exact Option.some.inj (h2.symm.trans h3)
  · have := Dict.mem_of_get? (has t u m h).2
    have g : ∀ p ∈ (ad 2).classes, Plain p.1 := by decide +kernel
    rw [(hok.key_ok t u m (has t u m h).1).1]
    exact g _ this

theorem fromA_ready (H : Dict (Obj String) → Prop) : fromA.Ready (adR 2 "two") H :=
  ready_from wToRedis_ok comparable_wToRedis.src_ok (by rw [show wToRedis.next = 7 by decide +kernel]; decide +kernel) H
theorem fromB_ready (H : Dict (Obj String) → Prop) : fromB.Ready (adR 2 "two") H :=
  ready_from wToRedisB_ok comparable_wToRedisB.src_ok (by rw [show wToRedisB.next = 7 by decide +kernel]; decide +kernel) H

theorem adR_onServer : (adR 2 "two").OnServer "two" where
  store := rfl
  sid_ok := by decide
  valid := ready_wToRedis.valid
  plain := (ready_wToRedis.redis "two" rfl).2
  kids t c h := by
    have := Dict.mem_of_get? h
    have g : ∀ p ∈ (ad 2).classes, (Dict.keys p.2.children).Nodup ∧ ∀ ct ∈ Dict.keys p.2.children, Plain ct := by decide +kernel
    exact g _ this
  top := by decide
  top_plain := by decide

theorem allInstances_wToRedis : AllInstances (adR 2 "two") "two" wToRedis.redis := by
  intro key o _ h
  have := Dict.mem_of_get? h
  have g : ∀ p ∈ wToRedis.redis, Dict.get? (ad 2).classes p.2.m.type = some p.2.m.cls := by decide +kernel
  exact g _ this

/-- The server and the two calls after these commands. -/
def afterFrom (bs : List Bool) := turns bs (wToRedis.redis, fromA.client (adR 2 "two") "two", fromB.client (adR 2 "two") "two")
def fromJobs (j : Nat) : Option (FromJob String (List Outcome)) := if j = 0 then some fromA else if j = 1 then some fromB else none

theorem fromJobs_clients : Clients (adR 2 "two") "two" fromJobs (two wToRedis.redis (fromA.client (adR 2 "two") "two") (fromB.client (adR 2 "two") "two")) := by
  constructor
  · intro j J hj
    by_cases h0 : j = 0
    · subst h0; rw [← Option.some.inj (show some fromA = some J from hj)]; exact two_cl0 _ _ _
    · by_cases h1 : j = 1
      · subst h1; rw [← Option.some.inj (show some fromB = some J from hj)]; exact two_cl1 _ _ _
      · simp [fromJobs, h0, h1] at hj
  · intro j hj
    by_cases h0 : j = 0
    · subst h0; cases hj
    · by_cases h1 : j = 1
      · subst h1; cases hj
      · exact ⟨_, two_rest _ _ _ h0 h1, .ret _, .ret _⟩

theorem fromJobs_ready {j : Nat} {J : FromJob String (List Outcome)} (hj : fromJobs j = some J) (H : Dict (Obj String) → Prop) : J.Ready (adR 2 "two") H := by
  by_cases h0 : j = 0
  · subst h0; rw [← Option.some.inj (show some fromA = some J from hj)]; exact fromA_ready H
  · by_cases h1 : j = 1
    · subst h1; rw [← Option.some.inj (show some fromB = some J from hj)]; exact fromB_ready H
    · simp [fromJobs, h0, h1] at hj

/-- C89: whatever the schedule, what the two calls leave. -/
example (bs : List Bool) : ∃ l : List (Sys String (Except Err (Diff String) × World String (List Outcome))), ∀ {key : String}, OfStore "two" key → ∀ {o : Obj String},
    (Dict.get? (afterFrom bs).1 key = some o → Dict.get? wToRedis.redis key = some o ∨ key = redisKey "two" o.m.type o.m.uid ∧ ∃ j J, fromJobs j = some J ∧ MadeFrom J (adR 2 "two") (Moments l) o.m) ∧
    (Dict.get? wToRedis.redis key = some o → Dict.get? (afterFrom bs).1 key = some o ∨ ∃ j J, fromJobs j = some J ∧
      ((∃ t u, key = redisKey "two" t u ∧ Dropped J (adR 2 "two") "two" l t u) ∨ AlsoGone (Dropped J (adR 2 "two") "two" l) (StoredDuring l) "two" key)) := by
  obtain ⟨l, he⟩ := turns_exec bs wToRedis.redis (fromA.client (adR 2 "two") "two") (fromB.client (adR 2 "two") "two")
  refine ⟨l, fun {key} hkey {o} => ?_⟩
  unfold afterFrom
  generalize turns bs (wToRedis.redis, fromA.client (adR 2 "two") "two", fromB.client (adR 2 "two") "two") = x at he ⊢
  have hk := keysRight_wToRedis
  have hi := allInstances_wToRedis
  rw [← two_srv wToRedis.redis (fromA.client (adR 2 "two") "two") (fromB.client (adR 2 "two") "two")] at hk hi
  have h := C89_same_store (jobs := fromJobs) (o := o) he adR_onServer hk hi fromJobs_clients (fun j J hj => fromJobs_ready hj _) hkey
  rw [two_srv, two_srv] at h
  exact h

/-- How a call ended, if it has: the names of the elements at the top of its diff, or the exception. -/
def fromOutcome {E : Type} : Proc String (Except Err (Diff String) × World String E) → Option (Except Err (List String))
  | .ret (.ok p) => some (p.1.map fun d => d.kids.map Elem.name)
  | .ret (.error e) => some (.error e)
  | .cmd _ _ => none

/-- **C89** What the theorems do not promise, for two calls whose sources differ in the role of a device that the store does not have: if they take turns, both end without an error; if the
second one starts when the first one has ended, it raises; and if it has only listed the keys of the store when the first one makes its changes, its diff raises `ObjectNotFound`, because
a site that it has listed is gone. -/
theorem C89_interleaved :
    (fromOutcome (afterFrom (List.replicate 40 [false, true]).flatten).2.1 = some (.ok ["nyc", "sfo", "lax"]) ∧
      fromOutcome (afterFrom (List.replicate 40 [false, true]).flatten).2.2 = some (.ok ["nyc", "sfo", "lax"])) ∧
    fromOutcome (afterFrom (List.replicate 40 false ++ List.replicate 40 true)).2.2 = some (.error .objectNotCreated) ∧
    fromOutcome (afterFrom (List.replicate 2 true ++ List.replicate 40 false ++ List.replicate 40 true)).2.2 = some (.error .objectNotFound) ∧
    (∀ bs, ∃ l, Exec (two wToRedis.redis (fromA.client (adR 2 "two") "two") (fromB.client (adR 2 "two") "two")) l (two (afterFrom bs).1 (afterFrom bs).2.1 (afterFrom bs).2.2)) :=
  ⟨by decide +kernel, by decide +kernel, by decide +kernel, fun bs => turns_exec bs _ _ _⟩

/-- C89: a call that has the store for itself. -/
example {s' : Sys String (Except Err (Diff String) × World String (List Outcome))} {l} (he : Exec (two wToRedis.redis (fromA.client (adR 2 "two") "two") (.ret (.error .runtimeError))) l s')
    {r} (hr : s'.cl 0 = .at (.ret r)) :
    (∃ es, DescribesTop fromA.src (adR 2 "two") fromA.flags ((View.of fromA.src fromA.mem).at wToRedis.redis) ((View.server (adR 2 "two") "two").at wToRedis.redis) es ∧
      r = .ok ((fromA.apply (adR 2 "two") es (fromA.mem.onServer wToRedis.redis)).1, (fromA.apply (adR 2 "two") es (fromA.mem.onServer wToRedis.redis)).2.onServer fromA.mem.redis) ∧
      ∀ key, OfStore "two" key → Dict.get? s'.srv key = Dict.get? (fromA.apply (adR 2 "two") es (fromA.mem.onServer wToRedis.redis)).2.redis key) ∨
    ∃ e, DiffProblem fromA.src (adR 2 "two") fromA.flags ((View.of fromA.src fromA.mem).at wToRedis.redis) ((View.server (adR 2 "two") "two").at wToRedis.redis) fromA.depth e ∧ r = .ok (.error e, fromA.mem) ∧
      ∀ key, OfStore "two" key → Dict.get? s'.srv key = Dict.get? wToRedis.redis key := by
  have hk := keysRight_wToRedis
  have hi := allInstances_wToRedis
  rw [← two_srv wToRedis.redis (fromA.client (adR 2 "two") "two") (.ret (.error .runtimeError))] at hk hi
  have h := C89_isolated he adR_onServer hk hi (fromA_ready _) (two_cl0 _ _ _) (fun j hj => by
    by_cases h1 : j = 1
    · subst h1; exact .ret _
    · rw [two_rest _ _ _ hj h1]; exact .ret _) hr
  rw [two_srv] at h
  exact h
example : fromOutcome (turns (List.replicate 40 false) (wToRedis.redis, fromA.client (adR 2 "two") "two", .ret (.error .runtimeError))).2.1 = some (.ok ["nyc", "sfo", "lax"]) := by decide +kernel

/-- The call in a world that has the server for itself. -/
def aloneA : Except Err (Diff String) × World String (List Outcome) := 
  syncFrom fromA.depth fromA.rlimit fromA.hooks (adR 2 "two") fromA.src fromA.dc fromA.flags (some dToRedis) (fromA.mem.onServer wToRedis.redis)

theorem only_first {d : Dict (Obj String)} {p : Proc String (Except Err (Diff String) × World String (List Outcome))} {K : String → Prop} {j : Nat} (hj : j ≠ 0) :
    ((two d p (.ret (.error .runtimeError))).cl j).All (Sends (Cmd.Spares K)) := by
  by_cases h1 : j = 1
  · subst h1; exact .ret _
  · rw [two_rest _ _ _ hj h1]; exact .ret _

/-- C89: a call with a diff of its own; the diff has changes, and is of the class that the call asks for. -/
example {s s' : Sys String (Except Err (Diff String) × World String (List Outcome))} {l} (he : Exec s l s') (hs : s = two wToRedis.redis (fromA.clientWith (adR 2 "two") "two" dToRedis) (.ret (.error .runtimeError)))
    {r} (hr : s'.cl 0 = .at (.ret r)) :
    r = .ok (aloneA.1, aloneA.2.onServer fromA.mem.redis) ∧ (∀ d', aloneA.1 = .ok d' → d' = dToRedis) ∧ ∀ key, OfStore "two" key → Dict.get? s'.srv key = Dict.get? aloneA.2.redis key := by
  have h1 : dToRedis.len ≠ 0 := by decide +kernel
  have h2 : dToRedis.cls.bases.contains fromA.dc.id = true := by decide +kernel
  have h3 : s.cl 0 = .at (fromA.clientWith (adR 2 "two") "two" dToRedis) := by rw [hs, two_cl0]
  have h4 : s.srv = wToRedis.redis := by rw [hs, two_srv]
  have h5 : ∀ j, j ≠ 0 → (s.cl j).All (Sends (Cmd.Spares (SyncKeys (fromA.ctx (adR 2 "two")) "two"))) := fun j hj => by rw [hs]; exact only_first hj
  have h := (C89_given (A := adR 2 "two") (sid := "two") (J := fromA) dToRedis).2.2 h1 h2 rfl (by decide) (i := 0) he h3 h5 hr
  rw [h4] at h
  unfold aloneA
  exact h
example : fromOutcome (turns (List.replicate 40 false) (wToRedis.redis, fromA.clientWith (adR 2 "two") "two" dToRedis, .ret (.error .runtimeError))).2.1 = some (.ok (dToRedis.kids.map Elem.name)) := by decide +kernel
/-- Diffs of another class, and without changes. -/
example : ({ dToRedis with cls := { DiffClass.default String with id := 1, bases := [1] } } : Diff String).len ≠ 0 ∧ ¬ [1].contains fromA.dc.id ∧ (⟨DiffClass.default String, [], 0⟩ : Diff String).len = 0 := by decide +kernel

/-! ## A source on the server -/

/-- A store that another client changes, and a store that a sync fills from it. -/
def contXT : Dict (Obj String) := contX ++ stored "two" [site "nyc" ["d1"], device "d1" "leaf" [], site "sfo" []]
def fromX : FromJob String (List Outcome) := ⟨srcX, DiffClass.default _, 0, scripted String, 10, 20, wToRedis⟩
/-- The other client adds the site `lax` to the source's store, makes `d1` a spine there, and removes `atl`. -/
def writerX : Proc String (Except Err (Diff String) × World String (List Outcome)) :=
  .bind (pAdd "x" { m := site "lax" [] }) fun _ => .bind (pUpdate "x" { m := device "d1" "spine" [] }) fun _ => .bind (pRemoveItem "x" "site" "atl") fun _ => .ret (.error .runtimeError)

theorem writerX_outside : Sends (Cmd.Outside "two") writerX := by
  have hx : ∀ {t u : String}, ¬ OfStore "two" (redisKey "x" t u) := fun h => absurd (ofStore_inj (by decide) (by decide) (ofStore_key "x" _ _) h) (by decide)
  refine .bind (.cmd trivial fun x _ => ?_) fun _ => .bind (.cmd ?_ fun _ _ => .ret _) fun _ => .bind (.cmd trivial fun b _ => ?_) fun _ => .ret _
  · cases x with
    | none => exact .cmd hx fun _ _ => .ret _
    | some o => dsimp only; split <;> exact .ret _
  · exact hx
  · cases b <;> first | exact .ret _ | exact .cmd hx fun _ _ => .ret _
theorem writerX_proper : Sends Cmd.Proper writerX := by
  have h := C65_methods_proper (V := String) srcX (sid := "x") (by decide)
  refine .bind (h.2.2.2.1 _ (by decide +kernel)) fun _ => .bind (h.2.2.2.2.1 _ (by decide +kernel)) fun _ => .bind (.cmd trivial fun b _ => ?_) fun _ => .ret _
  cases b <;> first | exact .ret _ | exact .cmd trivial fun _ _ => .ret _
theorem writerX_instances : Sends (Cmd.OnlyInstances srcX "x") writerX := by
  refine .bind (.cmd trivial fun x _ => ?_) fun _ => .bind (.cmd (fun _ => by decide +kernel) fun _ _ => .ret _) fun _ => .bind (.cmd trivial fun b _ => ?_) fun _ => .ret _
  · cases x with
    | none => exact .cmd (fun _ => by decide +kernel) fun _ _ => .ret _
    | some o => dsimp only; split <;> exact .ret _
  · cases b <;> first | exact .ret _ | exact .cmd trivial fun _ _ => .ret _

theorem srcX_onServer : srcX.OnServer "x" := by
  obtain ⟨_, _, h1, h2, h3, h4, h5⟩ := adR_onServer
  exact ⟨rfl, by decide, ⟨h1.names, h1.valid, h1.fields⟩, h2, h3, h4, h5⟩

theorem contXT_right : KeysRight contXT := by
  intro key o h
  have := Dict.mem_of_get? h
  unfold contXT contX stored at this
  rw [List.mem_append, List.mem_map, List.mem_map] at this
  rcases this with ⟨m, h1, h2⟩ | ⟨m, h1, h2⟩ <;> cases h2
  · exact ⟨"x", by decide, (by decide +kernel : ∀ m ∈ [site "nyc" ["d1", "d2"], site "atl" [], device "d1" "leaf" [], device "d2" "leaf" []], Plain m.type) m h1, rfl, rfl⟩
  · exact ⟨"two", by decide, (by decide +kernel : ∀ m ∈ [site "nyc" ["d1"], device "d1" "leaf" [], site "sfo" []], Plain m.type) m h1, rfl, rfl⟩
theorem contXT_instances {A : Adapter String} (hA : A.classes = (ad 1).classes) (sid : String) : AllInstances A sid contXT := by
  intro key o _ h
  have := Dict.mem_of_get? h
  have g : ∀ p ∈ contXT, Dict.get? (ad 1).classes p.2.m.type = some p.2.m.cls := by decide +kernel
  rw [hA]
  exact g _ this
theorem srcX_fits : ClassesFit srcX (adR 2 "two") where
  fields t c c' h h' ct f f' h1 h2 := by
    have : some c = some c' := h.symm.trans h'
    cases this
    exact Option.some.inj (h1.symm.trans h2)
  ids m c' _ h := keepsIds_untyped (ad_untyped (k := 2) h) _

def xJobs (j : Nat) : Option (FromJob String (List Outcome)) := if j = 0 then some fromX else none
/-- The server and the two clients after these commands. -/
def afterX (bs : List Bool) := turns bs (contXT, fromX.client (adR 2 "two") "two", writerX)

theorem xJobs_clients : Clients (adR 2 "two") "two" xJobs (two contXT (fromX.client (adR 2 "two") "two") writerX) := by
  constructor
  · intro j J hj
    by_cases h0 : j = 0
    · subst h0; rw [← Option.some.inj (show some fromX = some J from hj)]; exact two_cl0 _ _ _
    · simp [xJobs, h0] at hj
  · intro j hj
    by_cases h0 : j = 0
    · subst h0; cases hj
    · by_cases h1 : j = 1
      · subst h1; exact ⟨_, two_cl1 _ _ _, writerX_outside, writerX_proper⟩
      · exact ⟨_, two_rest _ _ _ h0 h1, .ret _, .ret _⟩

theorem fromX_ready {l s'} (he : Exec (two contXT (fromX.client (adR 2 "two") "two") writerX) l s') : fromX.Ready (adR 2 "two") (Moments l) := by
  have hk := contXT_right
  have hi := contXT_instances (A := srcX) rfl "x"
  rw [← two_srv contXT (fromX.client (adR 2 "two") "two") writerX] at hk hi
  refine C89_source_on_server (ks := "x") he adR_onServer hk xJobs_clients srcX_onServer (by decide) hi (fun j hj => ?_) srcX_fits
  by_cases h0 : j = 0
  · subst h0; cases hj
  · by_cases h1 : j = 1
    · subst h1; rw [two_cl1]; exact writerX_instances
    · rw [two_rest _ _ _ h0 h1]; exact .ret _

/-- C89: whatever the schedule, what the call leaves of the store while its source changes. -/
example (bs : List Bool) : ∃ l : List (Sys String (Except Err (Diff String) × World String (List Outcome))), ∀ {key : String}, OfStore "two" key → ∀ {o : Obj String},
    (Dict.get? (afterX bs).1 key = some o → Dict.get? contXT key = some o ∨ key = redisKey "two" o.m.type o.m.uid ∧ ∃ j J, xJobs j = some J ∧ MadeFrom J (adR 2 "two") (Moments l) o.m) ∧
    (Dict.get? contXT key = some o → Dict.get? (afterX bs).1 key = some o ∨ ∃ j J, xJobs j = some J ∧
      ((∃ t u, key = redisKey "two" t u ∧ Dropped J (adR 2 "two") "two" l t u) ∨ AlsoGone (Dropped J (adR 2 "two") "two" l) (StoredDuring l) "two" key)) := by
  obtain ⟨l, he⟩ := turns_exec bs contXT (fromX.client (adR 2 "two") "two") writerX
  refine ⟨l, fun {key} hkey {o} => ?_⟩
  unfold afterX
  generalize turns bs (contXT, fromX.client (adR 2 "two") "two", writerX) = x at he ⊢
  have hk := contXT_right
  have hi := contXT_instances (A := adR 2 "two") rfl "two"
  rw [← two_srv contXT (fromX.client (adR 2 "two") "two") writerX] at hk hi
  have h := C89_same_store (jobs := xJobs) (o := o) he adR_onServer hk hi xJobs_clients (fun j J hj => by
    by_cases h0 : j = 0
    · subst h0; rw [← Option.some.inj (show some fromX = some J from hj)]; exact fromX_ready he
    · simp [xJobs, h0] at hj) hkey
  rw [two_srv, two_srv] at h
  exact h

/-- The sites that are in a store. -/
def sitesIn (sid : String) (d : Dict (Obj String)) : List String := (d.filter fun p => p.1 == redisKey sid "site" p.2.m.uid).map fun p => p.2.m.uid
/-- The call alone; after the other client; and with the other client in between: here it has read the site `atl` before that is removed, and has missed `lax`. -/
example : (sitesIn "two" (afterX (List.replicate 60 false)).1 = ["nyc", "atl"] ∧ sitesIn "two" (afterX (List.replicate 10 true ++ List.replicate 60 false)).1 = ["nyc", "lax"]) ∧
    sitesIn "two" (afterX (List.replicate 5 false ++ List.replicate 10 true ++ List.replicate 60 false)).1 = ["nyc", "atl"] := by decide +kernel

end DS.Ex
