import Verif.Props.SyncCallback
import Verif.Props.DifferOpenEx
import Verif.Props.OpenSyncEx
/-! # Concrete syncs with callbacks -/
set_option linter.unusedSectionVars false

namespace DS.Ex

/-- The callback gives up at the `k`-th object or element. -/
def untilK (k : Nat) : OpenHooks String (List Outcome) := { gentle with callback := fun c _ => if k ≤ c then M.raise .valueError else pure () }

theorem untilK_looks (k : Nat) : OnlyLooks (untilK k).callback := by
  refine ⟨fun c t w => ?_, fun c t w r _ => ?_, fun c t w sid ty => ?_, fun c t w => ?_⟩ <;>
    · unfold untilK
      dsimp only
      split <;> first | rfl | exact Nat.le_refl _

def cSync (h : OpenHooks String (List Outcome)) := cSyncFrom 10 20 h (ad 2) (ad 1) (DiffClass.default _) 0 none w1

/-- At the fifth object: while the diff is computed. Nothing is created. -/
example : errOf (oDiffFrom (untilK 5).callback 10 (ad 2) (ad 1) (DiffClass.default _) 0 w1) = some .valueError ∧ errOf (cSync (untilK 5)) = some .valueError ∧
    (callsOf (newEvents w1 (cSync (untilK 5)).2)).length = 0 := by decide +kernel

/-- Never: the sync calls what it calls without callback. -/
example : (callsOf (newEvents w1 (cSync (untilK 99)).2)).length = (callsOf (newEvents w1 (oSync gentle 0).2)).length ∧
    0 < (callsOf (newEvents w1 (cSync (untilK 99)).2)).length ∧ errOf (cSync (untilK 99)) = errOf (oSync gentle 0) := by decide +kernel

/-- With a diff that has elements the callback is called only while it is applied; with an empty one, of any class, while the diff is computed too. -/
example : (callsOf (newEvents w1 (cSyncFrom 10 20 (untilK 99) (ad 2) (ad 1) (DiffClass.default _) 0 (some { cls := { DiffClass.default String with id := 7, bases := [7] }, kids := [] }) w1).2)).length =
    (callsOf (newEvents w1 (cSync (untilK 99)).2)).length := by decide +kernel

example : (DiffClass.default String).id ∈ (DiffClass.default String).bases ∧ w1.OK := ⟨by decide, w1_ok⟩

end DS.Ex
