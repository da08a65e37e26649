import Verif.Props.SyncRuns
import Verif.Props.SyncAnyOrder
import Verif.Props.SyncOrderEx
import Verif.Props.OutcomeEx
/-! # Instances of the theorems of `Verif.Props.SyncRuns` -/
set_option maxRecDepth 100000

namespace DS
open Ex

/-- `wK` with calls that fail in all ways. -/
def wKf : World String (List Outcome) :=
  withEnv wK [{ applied := false, result := .raises .objectNotCreated }, {}, { result := .none }, { applied := false, result := .raises .objectNotDeleted },
    { applied := false, result := .none }, { applied := false, result := .raises .objectNotDeleted }]
theorem canKf : CanConverge 10 (ad 1) (ad 2) 2 wKf := canConverge_of (by decide) (withEnv_ok wK_ok _) (by decide +kernel) (by decide +kernel) (by constructor <;> decide +kernel)
/-- The world after the sync. -/
def wKf1 := (sync wKf GF.CONTINUE_ON_FAILURE).2
theorem retKf : ∃ d, (sync wKf GF.CONTINUE_ON_FAILURE).1 = .ok d := by
  have : (match (sync wKf GF.CONTINUE_ON_FAILURE).1 with
    | .ok _ => true
    | .error _ => false) = true := by decide +kernel
  cases hr : (sync wKf GF.CONTINUE_ON_FAILURE).1 with
  | ok d => exact ⟨d, rfl⟩
  | error x => rw [hr] at this; cases this

/-- C95: nothing is created below the site that could not be created, nor deleted below the one that could not be deleted. -/
example : RunFor GF.CONTINUE_ON_FAILURE (snap (ad 1) wKf) (snap (ad 2) wKf) (visible GF.CONTINUE_ON_FAILURE (topPlaces (ad 1) (ad 2) (snap (ad 1) wKf) (snap (ad 2) wKf)))
    (callsOf (newEvents wKf wKf1)) := by
  obtain ⟨rest, h1, h2⟩ := C95_run canKf (rl := 20) (hooks := scripted String) (dc := .default _) (flags := GF.CONTINUE_ON_FAILURE) (by decide) (fun _ _ => rfl) (Prod.eta _).symm
  rw [h2 retKf, List.append_nil] at h1
  exact h1
theorem listKf : (callsOf (newEvents wKf wKf1)).map Prod.fst =
    [.create "site" [("name", "sfo")] [],
     .create "device" [("name", "b")] [("role", "spine")], .update "device" "a" [("role", "leaf")], .delete "device" "c",
     .delete "site" "ams", .delete "device" "n", .delete "site" "nat", .delete "site" "skp"] := by decide +kernel

/-- C95: without CONTINUE_ON_FAILURE the sync stops at its first call. -/
example : ∃ rest, RunFor 0 (snap (ad 1) wKf) (snap (ad 2) wKf) (visible 0 (topPlaces (ad 1) (ad 2) (snap (ad 1) wKf) (snap (ad 2) wKf)))
    (callsOf (newEvents wKf (sync wKf 0).2) ++ rest) := by
  obtain ⟨rest, h1, _⟩ := C95_run canKf (rl := 20) (hooks := scripted String) (dc := .default _) (flags := 0) (by decide) (fun _ _ => rfl) (Prod.eta _).symm
  exact ⟨rest, h1⟩
example : callsOf (newEvents wKf (sync wKf 0).2) = [(.create "site" [("name", "sfo")] [], { applied := false, result := .raises .objectNotCreated })] := by decide +kernel

/-- C95: a Redis store. -/
example : ∃ rest, RunFor 0 (snap (ad 1) (wR m5 m6)) (snap (adR 2 "two") (wR m5 m6))
    (visible 0 (topPlaces (ad 1) (adR 2 "two") (snap (ad 1) (wR m5 m6)) (snap (adR 2 "two") (wR m5 m6))))
    (callsOf (newEvents (wR m5 m6) (sR m5 m6).2) ++ rest) := by
  obtain ⟨rest, h1, _⟩ := C95_redis_run pairC.pair (rl := 20) (hooks := scripted String) (dc := .default _) (flags := 0) (by decide) (fun _ _ => rfl) (Prod.eta _).symm
  exact ⟨rest, h1⟩

/-- C95: with other code in the calls, which answers as the first does. -/
example : callsOf (newEvents wK (sync wK 0).2) <+: callsOf (newEvents wK (syncW wK 0).2) :=
  C95_same_calls canK canK (rl := 20) (rl' := 20) (hooks := scripted String) (hooks' := willing) (dc := .default _) (dc' := .default _) (flags := 0)
    (by decide) (by decide) (fun _ _ => rfl) (fun _ _ => rfl) rfl rfl (Prod.eta _).symm (Prod.eta _).symm (by decide +kernel)
example : callsOf (newEvents (wR m1 m2) (sR m1 m2).2) <+: callsOf (newEvents (wR m1 m2) (syncFrom 10 20 willing (adR 2 "two") (ad 1) (DiffClass.default _) 0 none (wR m1 m2)).2) :=
  C95_redis_same_calls pairA.pair pairA.pair (rl := 20) (rl' := 20) (hooks := scripted String) (hooks' := willing) (dc := .default _) (dc' := .default _) (flags := 0)
    (by decide) (by decide) (fun _ _ => rfl) (fun _ _ => rfl) rfl rfl (Prod.eta _).symm (Prod.eta _).symm (by decide +kernel)

/-- C95: with a diff class that takes the elements of each type backwards the types come in the same order, the objects of one type in another. -/
example : ∃ q rest, Arranged (visible 0 (topPlaces (ad 1) (ad 2) (snap (ad 1) wK) (snap (ad 2) wK))) q ∧
    RunAny 0 (snap (ad 1) wK) (snap (ad 2) wK) q (callsOf (newEvents wK (syncFrom 10 20 (scripted String) (ad 2) (ad 1) backwards 0 none wK).2) ++ rest) := by
  obtain ⟨q, rest, h1, h2, _⟩ := C95_any_order canK (rl := 20) (hooks := scripted String) (flags := 0) (by decide) reorders_backwards (Prod.eta _).symm
  exact ⟨q, rest, h1, h2⟩
example : (callsOf (newEvents wK (syncFrom 10 20 (scripted String) (ad 2) (ad 1) backwards 0 none wK).2)).map Prod.fst =
    [.delete "site" "skp", .delete "device" "n", .delete "site" "nat", .delete "site" "ams", .delete "device" "m",
     .delete "device" "c", .update "device" "a" [("role", "leaf")], .create "device" [("name", "b")] [("role", "spine")],
     .create "site" [("name", "sfo")] [], .create "device" [("name", "s")] [("role", "leaf")]] := by decide +kernel
/-- C95: a Redis store. -/
example : ∃ q rest, Arranged (visible 0 (topPlaces (ad 1) (adR 2 "two") (snap (ad 1) (wR m5 m6)) (snap (adR 2 "two") (wR m5 m6)))) q ∧
    RunAny 0 (snap (ad 1) (wR m5 m6)) (snap (adR 2 "two") (wR m5 m6)) q
      (callsOf (newEvents (wR m5 m6) (syncFrom 10 20 (scripted String) (adR 2 "two") (ad 1) backwards 0 none (wR m5 m6)).2) ++ rest) := by
  obtain ⟨q, rest, h1, h2, _⟩ := C95_redis_any_order pairC.pair (rl := 20) (hooks := scripted String) (flags := 0) (by decide) reorders_backwards (Prod.eta _).symm
  exact ⟨q, rest, h1, h2⟩

end DS
