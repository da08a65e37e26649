import Verif.Props.Escape
import Verif.Props.RetryEx
/-! # C77 on concrete adapters -/
set_option maxRecDepth 100000

namespace DS.Ex

/-- The third call raises ObjectNotDeleted: the sync raises just that. -/
theorem errRta : (sync wRta 0).1 = .error .objectNotDeleted := by
  have : (match (sync wRta 0).1 with
    | .error x => decide (x = .objectNotDeleted)
    | .ok _ => false) = true := by decide +kernel
  cases hr : (sync wRta 0).1 with
  | error x => rw [hr] at this; simpa using this
  | ok d => rw [hr] at this; cases this
example : ∃ L c out R, newEvents wRta (sync wRta 0).2 = L ++ .call c out :: R ∧ callsOf R = [] ∧ out.result = .raises .objectNotDeleted ∧
    (flagOn 0 GF.CONTINUE_ON_FAILURE = true → Err.objectNotDeleted.isCrud = false) :=
  C77_raises_only_user_exceptions (hooks := scripted String) canRta reorders_default (by decide) (Prod.eta _).symm errRta
example : callsOf (newEvents wRta (sync wRta 0).2) = [(.update "device" "a" [("role", "core")], {}), (.create "device" [("name", "b")] [("role", "leaf")], {}),
    (.delete "site" "lax", { result := .raises .objectNotDeleted, applied := false })] := by decide +kernel

/-- With CONTINUE_ON_FAILURE it returns, although two calls fail. -/
example : ∃ d w1, (sync wRta GF.CONTINUE_ON_FAILURE).1 = .ok d ∧ diffFrom 10 (ad 2) (ad 1) (DiffClass.default _) GF.CONTINUE_ON_FAILURE wRta = (.ok d, w1) :=
  C77_returns (hooks := scripted String) canRta reorders_default (by decide) (Prod.eta _).symm (by
    intro c out x hm hr
    have : ∀ p ∈ callsOf (newEvents wRta (sync wRta GF.CONTINUE_ON_FAILURE).2), (match p.2.result with
      | .raises x => x.isCrud
      | _ => true) = true := by decide +kernel
    have := this (c, out) (mem_callsOf.2 hm)
    rw [hr] at this
    exact ⟨by decide, this⟩)

end DS.Ex
