import Verif.Props.Refused
import Verif.Props.DiffRefEx
import Verif.Props.RedisNextEx
/-! # Instances of the theorems of `Verif.Props.Refused` -/
set_option maxRecDepth 100000

namespace DS
open Ex

/-- Two devices `a`, one a spine (0) and one a leaf (2), and a site that has one (1): the leaf is refused. -/
def wTwo : World String (List Outcome) := addModels (ad 1) [device "a" "spine" [], site "nyc" ["a"], device "a" "leaf" []] (world0 String _ [])
/-- The same with a Redis store. -/
def wTwoR : World String (List Outcome) := addModels (adR 2 "two") [device "a" "spine" [], device "a" "leaf" []] (world0 String _ [])

/-- The class of the exception and its `existing_object`. -/
def caught {V E : Type} (x : Except Thrown Unit × World V E) : Option (Err × Option Nat) :=
  match x.1 with
  | .ok _ => none
  | .error x => some (x.kind, x.existing)

theorem caught_some {V E : Type} {x : Except Thrown Unit × World V E} {e : Err} {r : Option Nat} (h : caught x = some (e, r)) : x = (.error ⟨e, r⟩, x.2) := by
  obtain ⟨a, w⟩ := x
  cases a with
  | ok _ => cases h
  | error y => cases y; cases h; rfl

theorem refusedTwo : caught (addX (ad 1) 2 wTwo) = some (.objectAlreadyExists, some 2) := by decide +kernel
/-- C96: the exception carries the leaf, 2; the store has the spine, 0. -/
example : ∃ there, findRef wTwo 1 "device" "a" = some there ∧ findRef (addX (ad 1) 2 wTwo).2 1 "device" "a" = some there ∧ some 2 ≠ some there :=
  (C96_local_partial (A := ad 1) (sid := 1) rfl (r := 2) (w := wTwo) (caught_some refusedTwo)).2.2
example : findRef wTwo 1 "device" "a" = some 0 := by decide +kernel

theorem refusedTwoR : caught (addX (adR 2 "two") 1 wTwoR) = some (.objectAlreadyExists, some 1) := by decide +kernel
example : ∃ there, Dict.get? wTwoR.redis (redisKey "two" "device" "a") = some there ∧ there.m.dictEq (wTwoR.heap 1).m = false :=
  (C96_redis_partial (A := adR 2 "two") (sid := "two") rfl (r := 1) (w := wTwoR) (caught_some refusedTwoR)).2.2.2

/-- C96: the second device `a` is refused by the site's diff, which has the first. -/
example : ∃ x, hT.addX 0 3 = (.error x, hT) ∧ x.existing = some 3 ∧ ∃ there ∈ logT 0, (x.existing = some there ↔ there = 3) := by
  obtain ⟨h1, h2, h3, y, hy, _, _, h4⟩ := C96_diff_partial hT_made (d := 0) (e := 3) (x := alreadyExists 3) (h' := (hT.addX 0 3).2) rfl
  exact ⟨alreadyExists 3, Prod.ext rfl h3, h2, y, hy, h4⟩
example : (3 : Nat) ∉ logT 0 := by decide

/-- C96: the site has a device `a` already; the exception carries whichever was given. -/
theorem refusedKid : caught (addChildX 1 2 wTwo) = some (.objectAlreadyExists, some 2) := by decide +kernel
example : (addChildX 1 2 wTwo).2 = wTwo := (C96_add_child (p := 1) (c := 2) (w := wTwo) (caught_some refusedKid)).1
example : caught (addChildX 0 1 wTwo) = some (.objectStoreWrongType, none) := by decide +kernel

end DS
