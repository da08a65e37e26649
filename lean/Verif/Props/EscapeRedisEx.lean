import Verif.Props.EscapeRedis
import Verif.Props.RedisNextEx
/-! # C77 and C91 on concrete adapters with a Redis store -/
set_option maxRecDepth 100000

namespace DS.Ex

/-- User code that refuses to delete, and does everything else. -/
def keeper : Hooks String (List Outcome) := fun env c => match c with
  | .delete _ _ => ({ result := .raises .objectNotDeleted, applied := false }, env)
  | _ => ({}, env)

def sK (flags : Nat) := syncFrom 10 20 keeper (adR 2 "two") (ad 1) (DiffClass.default _) flags none (wR m1 m2)

theorem errK : (sK 0).1 = .error .objectNotDeleted := by
  have : (match (sK 0).1 with
    | .error x => decide (x = .objectNotDeleted)
    | .ok _ => false) = true := by decide +kernel
  cases hr : (sK 0).1 with
  | error x => rw [hr] at this; simpa using this
  | ok d => rw [hr] at this; cases this

/-- The sync raises just what the refused deletion raised. -/
example : ∃ L c out R, newEvents (wR m1 m2) (sK 0).2 = L ++ .call c out :: R ∧ callsOf R = [] ∧ out.result = .raises .objectNotDeleted ∧
    (flagOn 0 GF.CONTINUE_ON_FAILURE = true → Err.objectNotDeleted.isCrud = false) :=
  C77_redis_raises_only_user_exceptions pairA.pair reorders_default (by decide) (Prod.eta _).symm errK
example : (callsOf (newEvents (wR m1 m2) (sK 0).2)).length = 4 := by decide +kernel

/-- With CONTINUE_ON_FAILURE it returns. -/
example : ∃ d w1, (sK GF.CONTINUE_ON_FAILURE).1 = .ok d ∧ diffFrom 10 (adR 2 "two") (ad 1) (DiffClass.default _) GF.CONTINUE_ON_FAILURE (wR m1 m2) = (.ok d, w1) :=
  C77_redis_returns pairA.pair reorders_default (by decide) (Prod.eta _).symm (by
    intro c out x hm hr
    have : ∀ p ∈ callsOf (newEvents (wR m1 m2) (sK GF.CONTINUE_ON_FAILURE).2), (match p.2.result with
      | .raises x => x.isCrud
      | _ => true) = true := by decide +kernel
    have := this (c, out) (mem_callsOf.2 hm)
    rw [hr] at this
    exact ⟨by decide, this⟩)

/-- C91: a sync whose calls all succeed goes through. -/
example : ∃ d, (sR m1 m2).1 = .ok d ∧ WentThrough 10 20 (scripted String) (ad 1) (adR 2 "two") (DiffClass.default _) 0 (wR m1 m2) d (sR m1 m2).2 :=
  C91_goes_through pairA.pair reorders_default (by decide) (Prod.eta _).symm (allSucceedR_of (by decide +kernel)) (aloneR pairA (by decide +kernel) 0)

end DS.Ex
