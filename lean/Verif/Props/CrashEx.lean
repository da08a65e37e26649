import Verif.Props.Crash
import Verif.Model.Concrete
/-! # C67: concrete clients that are killed -/

namespace DS.Ex

def crashObjs : List (Obj String) := [{ m := site "nyc" ["a", "b"] }, { m := device "a" "leaf" [] }, { m := device "b" "leaf" [] }]
/-- A server with a site and its two devices. -/
def crashSrv : Dict (Obj String) := ((pAddAll "x" crashObjs).run []).2
def crashAd : Adapter String := { ref := ⟨7, .redis "x"⟩, topLevel := ["site"], classes := [("site", siteC), ("device", deviceC)] }

/-- The first `k` commands of a client that sends no `SCAN`. -/
def stopAfter {α : Type} : Nat → Proc String α × Dict (Obj String) → Proc String α × Dict (Obj String)
  | 0, x => x
  | _ + 1, (.ret r, d) => (.ret r, d)
  | _ + 1, (.cmd (.scan p) k, d) => (.cmd (.scan p) k, d)
  | n + 1, (.cmd (.get x) k, d) => stopAfter n (k (Cmd.exec (.get x) d).1, (Cmd.exec (.get x) d).2)
  | n + 1, (.cmd (.set x o) k, d) => stopAfter n (k (Cmd.exec (.set x o) d).1, (Cmd.exec (.set x o) d).2)
  | n + 1, (.cmd (.exist x) k, d) => stopAfter n (k (Cmd.exec (.exist x) d).1, (Cmd.exec (.exist x) d).2)
  | n + 1, (.cmd (.del x) k, d) => stopAfter n (k (Cmd.exec (.del x) d).1, (Cmd.exec (.del x) d).2)

theorem stopAfter_solo {α : Type} : ∀ (n : Nat) (x : Proc String α × Dict (Obj String)), Solo x (stopAfter n x)
  | 0, x => .done _
  | _ + 1, (.ret r, d) => .done _
  | _ + 1, (.cmd (.scan p) k, d) => .done _
  | n + 1, (.cmd (.get x) k, d) => .cmd id (stopAfter_solo n _)
  | n + 1, (.cmd (.set x o) k, d) => .cmd id (stopAfter_solo n _)
  | n + 1, (.cmd (.exist x) k, d) => .cmd id (stopAfter_solo n _)
  | n + 1, (.cmd (.del x) k, d) => .cmd id (stopAfter_solo n _)

theorem stopAfter_kills {α : Type} (n : Nat) (p : Proc String α) (d : Dict (Obj String)) : KilledLeaves p d (stopAfter n (p, d)).2 :=
  ⟨_, stopAfter_solo n (p, d)⟩

/-- The keys on the server when the removal of the site with its devices is killed after so many commands. -/
def keysAfter (n : Nat) : List String := Dict.keys (stopAfter n (pRemove crashAd "x" 5 (site "nyc" ["a", "b"]) true, crashSrv)).2

/-- C67: kill points of a removal with children. -/
example : keysAfter 1 = ["diffsync:x:site:nyc", "diffsync:x:device:a", "diffsync:x:device:b"] ∧ keysAfter 2 = ["diffsync:x:device:a", "diffsync:x:device:b"] ∧
    keysAfter 5 = ["diffsync:x:device:b"] ∧ keysAfter 8 = [] := by decide +kernel
example : ∃ l, TakenFrom crashSrv "x" (site "nyc" ["a", "b"]) l ∧ Dict.get? (stopAfter 5 (pRemove crashAd "x" 5 (site "nyc" ["a", "b"]) true, crashSrv)).2 "diffsync:x:device:b" ≠ none := by
  obtain ⟨l, h, _⟩ := C67_remove (stopAfter_kills 5 (pRemove crashAd "x" 5 (site "nyc" ["a", "b"]) true) crashSrv)
  exact ⟨l, h, by decide +kernel⟩

/-- **C67**, a limit: a removal with children that was killed cannot be completed by calling it again: the object itself is gone, so the call raises
`ObjectNotFound`, and children that were still there stay. -/
theorem C67_remove_not_resumable :
    let d' := (stopAfter 5 (pRemove crashAd "x" 5 (site "nyc" ["a", "b"]) true, crashSrv)).2
    KilledLeaves (pRemove crashAd "x" 5 (site "nyc" ["a", "b"]) true) crashSrv d' ∧
    ((pRemove crashAd "x" 5 (site "nyc" ["a", "b"]) true).run d').1.toOption = none ∧
    Dict.keys ((pRemove crashAd "x" 5 (site "nyc" ["a", "b"]) true).run d').2 = ["diffsync:x:device:b"] :=
  ⟨stopAfter_kills _ _ _, by decide +kernel, by decide +kernel⟩

/-- C67: a load that is killed in the middle, and again. -/
example : Dict.keys (stopAfter 3 (pAddAll "x" crashObjs, ([] : Dict (Obj String)))).2 = ["diffsync:x:site:nyc"] ∧
    (pAddAll "x" crashObjs).run (stopAfter 3 (pAddAll "x" crashObjs, ([] : Dict (Obj String)))).2 = (pAddAll "x" crashObjs).run [] := by
  refine ⟨by decide +kernel, C67_load_again ?_ (stopAfter_kills 3 _ _)⟩
  intro o ho
  simp only [crashObjs, List.mem_cons, List.not_mem_nil, or_false] at ho
  rcases ho with rfl | rfl | rfl <;> (unfold Dict.WF; decide +kernel)
example : Dict.keys (stopAfter 2 (pUpdateAll "x" crashObjs, ([] : Dict (Obj String)))).2 = ["diffsync:x:site:nyc", "diffsync:x:device:a"] := by decide +kernel

end DS.Ex
