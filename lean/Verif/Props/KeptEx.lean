import Verif.Props.Kept
import Verif.Props.SyncRunsEx
/-! # Instances of the theorems of `Verif.Props.Kept` -/
set_option maxRecDepth 100000

namespace DS
open Ex

/-- The diff of the adapters of `wK`. -/
def dK : Diff String :=
  match (diffFrom 10 (ad 2) (ad 1) (.default _) 0 wK).1 with
  | .ok d => d
  | .error _ => ⟨.default _, [], 0⟩
theorem dK_eq : ∃ w1, diffFrom 10 (ad 2) (ad 1) (.default _) 0 wK = (.ok dK, w1) := by
  obtain ⟨d, w1, hd⟩ := canK.diff (.default _) 0
  refine ⟨w1, ?_⟩
  have : dK = d := by unfold dK; rw [hd]
  rw [this, hd]
theorem dK_len : dK.len ≠ 0 := by decide +kernel
theorem snap_withEnv (A : Adapter String) (w : World String (List Outcome)) (os : List Outcome) : snap A (withEnv w os) = snap A w := rfl
/-- It was computed in `wK`, and is used where other code answers the calls. -/
theorem keptK : KeptDiff 10 (ad 1) (ad 2) (.default _) 0 wKf dK := by
  obtain ⟨w1, h⟩ := dK_eq
  exact ⟨wK, w1, canK.comparable, h, (snap_withEnv _ _ _).symm, (snap_withEnv _ _ _).symm⟩
theorem keptK' : KeptDiff 10 (ad 1) (ad 2) (.default _) 0 wK dK := by
  obtain ⟨w1, h⟩ := dK_eq
  exact ⟨wK, w1, canK.comparable, h, rfl, rfl⟩
/-- The sync with it. -/
def syncKept (w : World String (List Outcome)) (fl : Nat) := syncFrom 10 20 (scripted String) (ad 2) (ad 1) (.default _) fl (some dK) w

/-- C97: with failing calls, and with CONTINUE_ON_FAILURE, which the diff was not computed with. -/
example : ∃ rest, RunFor 0 (snap (ad 1) wKf) (snap (ad 2) wKf) (visible 0 (topPlaces (ad 1) (ad 2) (snap (ad 1) wKf) (snap (ad 2) wKf)))
    (callsOf (newEvents wKf (syncKept wKf GF.CONTINUE_ON_FAILURE).2) ++ rest) := by
  obtain ⟨rest, h1, _⟩ := C97_run canKf (rl := 20) (hooks := scripted String) (dc := .default _) (fl := GF.CONTINUE_ON_FAILURE) (by decide) keptK dK_len (by decide) (fun _ _ => rfl)
    (Prod.eta _).symm
  exact ⟨rest, h1⟩
example : ∃ q rest, Arranged (visible 0 (topPlaces (ad 1) (ad 2) (snap (ad 1) wKf) (snap (ad 2) wKf))) q ∧
    RunAny 0 (snap (ad 1) wKf) (snap (ad 2) wKf) q (callsOf (newEvents wKf (syncKept wKf 0).2) ++ rest) := by
  obtain ⟨q, rest, h1, h2, _⟩ := C97_any_order canKf (rl := 20) (hooks := scripted String) (dc := .default _) (fl := 0) (by decide) keptK dK_len (by decide) (fun _ _ => List.Perm.refl _)
    (Prod.eta _).symm
  exact ⟨q, rest, h1, h2⟩
example : (callsOf (newEvents wKf (syncKept wKf GF.CONTINUE_ON_FAILURE).2)).map Prod.fst =
    [.create "site" [("name", "sfo")] [],
     .create "device" [("name", "b")] [("role", "spine")], .update "device" "a" [("role", "leaf")], .delete "device" "c",
     .delete "site" "ams", .delete "device" "n", .delete "site" "nat", .delete "site" "skp"] := by decide +kernel
/-- C97: without CONTINUE_ON_FAILURE the sync passes on what the first call raises. -/
example : (syncKept wKf 0).1 = .ok dK ∨ ∃ x, (syncKept wKf 0).1 = .error x ∧ ∃ L c out R, newEvents wKf (syncKept wKf 0).2 = L ++ .call c out :: R ∧ callsOf R = [] ∧
    out.result = .raises x ∧ (flagOn 0 GF.CONTINUE_ON_FAILURE = true → x.isCrud = false) :=
  C97_result canKf (by decide) keptK dK_len (by decide) (fun _ _ => List.Perm.refl _) (Prod.eta _).symm
example : callsOf (newEvents wKf (syncKept wKf 0).2) = [(.create "site" [("name", "sfo")] [], { applied := false, result := .raises .objectNotCreated })] := by decide +kernel

theorem allK : AllSucceed (newEvents wK (syncKept wK 0).2) := by
  intro c out h
  have : ∀ x ∈ callsOf (newEvents wK (syncKept wK 0).2), x.2 = {} := by decide +kernel
  have := this (c, out) (mem_callsOf.2 h)
  dsimp only at this
  subst this
  exact ⟨rfl, fun _ => rfl⟩
/-- C97: all calls succeed. -/
example : (syncKept wK 0).1 = .ok dK ∧ Synced (ad 1) (ad 2) 0 (snap (ad 1) wK) (snap (ad 2) wK) (snap (ad 2) (syncKept wK 0).2) :=
  C97_outcome canK (by decide) keptK' dK_len (by decide) (fun _ _ => List.Perm.refl _) (Prod.eta _).symm allK
/-- C97: the calls of the sync that computes its diff. -/
example : callsOf (newEvents wKf (syncKept wKf 0).2) <+: callsOf (newEvents wKf (sync wKf 0).2) :=
  (C97_same_calls canKf canKf (rl := 20) (rl' := 20) (hooks := scripted String) (hooks' := scripted String) (dc := .default _) (dc' := .default _) (fl := 0)
    (by decide) (by decide) keptK dK_len (by decide) (fun _ _ => rfl) (fun _ _ => rfl) rfl rfl (Prod.eta _).symm (Prod.eta _).symm).1 (by decide +kernel)

/-- C97: a Redis store. -/
def dKeptR : Diff String :=
  match (diffFrom 10 (adR 2 "two") (ad 1) (.default _) 0 (wR m5 m6)).1 with
  | .ok d => d
  | .error _ => ⟨.default _, [], 0⟩
theorem dKeptR_len : dKeptR.len ≠ 0 := by decide +kernel
theorem keptR : KeptDiff 10 (ad 1) (adR 2 "two") (.default _) 0 (wR m5 m6) dKeptR := by
  obtain ⟨d, hd⟩ := (diff_returns_iff (n := 10) (dc := .default _) (flags := 0) pairC.pair.comparable).2
    (pairC.pair.reconcilable.no_problem pairC.pair.instOf pairC.pair.comparable.src_ok pairC.pair.comparable.dst_ok 0)
  refine ⟨wR m5 m6, (diffFrom 10 (adR 2 "two") (ad 1) (.default _) 0 (wR m5 m6)).2, pairC.pair.comparable, ?_, rfl, rfl⟩
  have : dKeptR = d := by unfold dKeptR; rw [hd]
  rw [this, ← hd]
example : ∃ rest, RunFor 0 (snap (ad 1) (wR m5 m6)) (snap (adR 2 "two") (wR m5 m6))
    (visible 0 (topPlaces (ad 1) (adR 2 "two") (snap (ad 1) (wR m5 m6)) (snap (adR 2 "two") (wR m5 m6))))
    (callsOf (newEvents (wR m5 m6) (syncFrom 10 20 (scripted String) (adR 2 "two") (ad 1) (.default _) 0 (some dKeptR) (wR m5 m6)).2) ++ rest) := by
  obtain ⟨rest, h1, _⟩ := C97_redis_run pairC.pair (rl := 20) (hooks := scripted String) (dc := .default _) (fl := 0) (by decide) keptR dKeptR_len (by decide) (fun _ _ => rfl) (Prod.eta _).symm
  exact ⟨rest, h1⟩
example : ∃ q rest, Arranged (visible 0 (topPlaces (ad 1) (adR 2 "two") (snap (ad 1) (wR m5 m6)) (snap (adR 2 "two") (wR m5 m6)))) q ∧
    RunAny 0 (snap (ad 1) (wR m5 m6)) (snap (adR 2 "two") (wR m5 m6)) q
      (callsOf (newEvents (wR m5 m6) (syncFrom 10 20 (scripted String) (adR 2 "two") (ad 1) (.default _) 0 (some dKeptR) (wR m5 m6)).2) ++ rest) := by
  obtain ⟨q, rest, h1, h2, _⟩ := C97_redis_any_order pairC.pair (rl := 20) (hooks := scripted String) (dc := .default _) (fl := 0) (by decide) keptR dKeptR_len (by decide)
    (fun _ _ => List.Perm.refl _) (Prod.eta _).symm
  exact ⟨q, rest, h1, h2⟩
example {res w'} (hs : syncFrom 10 20 (scripted String) (adR 2 "two") (ad 1) (.default _) 0 (some dKeptR) (wR m5 m6) = (res, w')) :
    res = .ok dKeptR ∨ ∃ x, res = .error x ∧ ∃ L c out R, newEvents (wR m5 m6) w' = L ++ .call c out :: R ∧ callsOf R = [] ∧ out.result = .raises x ∧
      (flagOn 0 GF.CONTINUE_ON_FAILURE = true → x.isCrud = false) :=
  C97_redis_result pairC.pair (by decide) keptR dKeptR_len (by decide) (fun _ _ => List.Perm.refl _) hs

/-- C97: an empty diff, and the diff just computed. -/
example : syncFrom 10 20 (scripted String) (ad 2) (ad 1) (.default _) 0 (some ⟨.default _, [], 0⟩) wK = sync wK 0 := C97_empty (by decide +kernel)
example {w1} (h : diffFrom 10 (ad 2) (ad 1) (.default _) 0 wK = (.ok dK, w1)) : syncKept w1 0 = sync wK 0 := C97_at_once h dK_len (by decide)

end DS
