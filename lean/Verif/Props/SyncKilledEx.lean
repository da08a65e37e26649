import Verif.Props.SyncKilled
import Verif.Props.SyncRedisEx
/-! # C86: concrete syncs that are killed -/
set_option linter.unusedSectionVars false

namespace DS.Ex

/-- The first commands of a client that is alone on the server. -/
def cutAfter {α : Type} : Nat → Proc String α × Dict (Obj String) → Proc String α × Dict (Obj String)
  | 0, x => x
  | _ + 1, (.ret r, d) => (.ret r, d)
  | n + 1, (.cmd (.scan x) k, d) => cutAfter n (k (scanKeys d x), d)
  | n + 1, (.cmd (.get x) k, d) => cutAfter n (k (Cmd.exec (.get x) d).1, (Cmd.exec (.get x) d).2)
  | n + 1, (.cmd (.set x o) k, d) => cutAfter n (k (Cmd.exec (.set x o) d).1, (Cmd.exec (.set x o) d).2)
  | n + 1, (.cmd (.exist x) k, d) => cutAfter n (k (Cmd.exec (.exist x) d).1, (Cmd.exec (.exist x) d).2)
  | n + 1, (.cmd (.del x) k, d) => cutAfter n (k (Cmd.exec (.del x) d).1, (Cmd.exec (.del x) d).2)

theorem cutAfter_solo {α : Type} : ∀ (n : Nat) (x : Proc String α × Dict (Obj String)), Solo x (cutAfter n x)
  | 0, x => .done _
  | _ + 1, (.ret r, d) => .done _
  | n + 1, (.cmd (.scan x) k, d) => .scan (scanKeys d x) (fun y => by unfold scanKeys Found; rw [List.mem_filter]) (cutAfter_solo n _)
  | n + 1, (.cmd (.get x) k, d) => .cmd id (cutAfter_solo n _)
  | n + 1, (.cmd (.set x o) k, d) => .cmd id (cutAfter_solo n _)
  | n + 1, (.cmd (.exist x) k, d) => .cmd id (cutAfter_solo n _)
  | n + 1, (.cmd (.del x) k, d) => .cmd id (cutAfter_solo n _)

theorem cutAfter_kills {α : Type} (n : Nat) (p : Proc String α) (d : Dict (Obj String)) : KilledLeaves p d (cutAfter n (p, d)).2 :=
  ⟨_, cutAfter_solo n (p, d)⟩

/-- The sync of `wToRedis` as a client. -/
def cToRedis : Proc String (Except Err Bool × World String (List Outcome)) :=
  cPerformSync ⟨ad 1, adR 2 "two", 0, dToRedis.cls, scripted String, 20⟩ "two" 10 dToRedis wToRedis

/-- What it leaves when it is killed after so many commands. -/
def leftToRedis (n : Nat) : Dict (Obj String) := (cutAfter n (cToRedis, wToRedis.redis)).2

/-- C86: kill points of this sync: before the first creation, between creations and deletion, after the deletion. -/
example : Dict.keys (leftToRedis 4) = ["diffsync:two:site:nyc", "diffsync:two:device:a", "diffsync:two:site:lax"] ∧
    Dict.keys (leftToRedis 7) = ["diffsync:two:site:nyc", "diffsync:two:device:a", "diffsync:two:site:lax", "diffsync:two:device:b"] ∧
    Dict.keys (leftToRedis 10) = ["diffsync:two:site:nyc", "diffsync:two:device:a", "diffsync:two:site:lax", "diffsync:two:device:b", "diffsync:two:site:sfo"] ∧
    Dict.keys (leftToRedis 11) = ["diffsync:two:site:nyc", "diffsync:two:device:a", "diffsync:two:device:b", "diffsync:two:site:sfo"] := by decide +kernel

/-- C86: user code that gives up at the third of the four calls leaves what the sync does that is killed after seven commands. -/
example : Dict.keys (performSync (SyncCtx.upTo ⟨ad 1, adR 2 "two", 0, dToRedis.cls, scripted String, 20⟩) 10 dToRedis (wToRedis.upTo 2)).2.redis = Dict.keys (leftToRedis 7) ∧
    (match (performSync (SyncCtx.upTo ⟨ad 1, adR 2 "two", 0, dToRedis.cls, scripted String, 20⟩) 10 dToRedis (wToRedis.upTo 2)).1 with
      | .error e => some e
      | .ok _ => none) = some (.user 0) := by decide +kernel

/-- C86: what the theorems say of this sync. -/
example (n : Nat) {t u : String} {m : Model String} (h : (snap (adR 2 "two") (wToRedis.onServer (leftToRedis n))).find t u = some m) :
    (snap (adR 2 "two") wToRedis).find t u = some m ∨ ∃ e, InTree e dToRedis.kids ∧ e.action = some .create ∧ ElemKey (adR 2 "two") e (t, u) :=
  (C86_adds_and_removes ready_wToRedis run_wToRedis.1.good rfl (cutAfter_kills n cToRedis wToRedis.redis)).1 h
example (n : Nat) (t u : String) : (snap (adR 3 "three") (wToRedis.onServer (leftToRedis n))).find t u = (snap (adR 3 "three") wToRedis).find t u :=
  C86_others ready_wToRedis run_wToRedis.1.good rfl (cutAfter_kills n cToRedis wToRedis.redis) (A := adR 3 "three") ⟨by decide, by decide +kernel⟩ t u

/-- A destination in Redis with a site flagged SKIP_CHILDREN_ON_DELETE and its devices, and an empty source. -/
def wSkipRedis : World String (List Outcome) :=
  addModels (adR 2 "two") [{ site "lax" ["a", "b"] with flags := MF.SKIP_CHILDREN_ON_DELETE }, device "a" "leaf" [], device "b" "leaf" []] (world0 String _ [])
def dSkipRedis : Diff String :=
  match (diffFrom 10 (adR 2 "two") (ad 1) (DiffClass.default _) 0 wSkipRedis).1 with
  | .ok d => d
  | .error _ => ⟨DiffClass.default _, [], 0⟩
def leftSkip (n : Nat) : Dict (Obj String) :=
  (cutAfter n (cPerformSync ⟨ad 1, adR 2 "two", 0, dSkipRedis.cls, scripted String, 20⟩ "two" 10 dSkipRedis wSkipRedis, wSkipRedis.redis)).2

/-- C86: a kill amid the removal of the site with its devices. -/
example : Dict.keys (leftSkip 2) = ["diffsync:two:site:lax", "diffsync:two:device:a", "diffsync:two:device:b"] ∧
    Dict.keys (leftSkip 7) = ["diffsync:two:device:b"] ∧ Dict.keys (leftSkip 11) = [] := by decide +kernel
example : ∃ k w1, performSync (SyncCtx.upTo ⟨ad 1, adR 2 "two", 0, dSkipRedis.cls, scripted String, 20⟩) 10 dSkipRedis (wSkipRedis.upTo k) = (.error (.user 0), w1) ∧
    (w1.redis = leftSkip 7 ∨ AmidRemoval (adR 2 "two") dSkipRedis.kids "two" w1 (leftSkip 7)) := by
  rcases C86_killed (S := ⟨ad 1, adR 2 "two", 0, dSkipRedis.cls, scripted String, 20⟩) (sid := "two") rfl (cutAfter_kills 7 _ _) with h | h
  · have : Dict.keys (performSync ⟨ad 1, adR 2 "two", 0, dSkipRedis.cls, scripted String, 20⟩ 10 dSkipRedis wSkipRedis).2.redis = [] := by decide +kernel
    rw [h] at this
    exact absurd this (by decide +kernel)
  · exact h

/-- **C86**, a limit: what a sync has left that was killed amid such a removal, another sync does not remove: the devices are listed by no site any more, so no diff
mentions them. -/
theorem C86_orphans_stay :
    let d' := leftSkip 7
    let r := syncFrom 10 20 (scripted String) (adR 2 "two") (ad 1) (DiffClass.default _) 0 none (wSkipRedis.onServer d')
    KilledLeaves (cPerformSync ⟨ad 1, adR 2 "two", 0, dSkipRedis.cls, scripted String, 20⟩ "two" 10 dSkipRedis wSkipRedis) wSkipRedis.redis d' ∧
    r.1.toOption.isSome = true ∧ Dict.keys r.2.redis = ["diffsync:two:device:b"] ∧
    Dict.keys (syncFrom 10 20 (scripted String) (adR 2 "two") (ad 1) (DiffClass.default _) 0 none wSkipRedis).2.redis = [] :=
  ⟨cutAfter_kills _ _ _, by decide +kernel, by decide +kernel, by decide +kernel⟩

end DS.Ex
