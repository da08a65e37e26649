import Verif.Model.DifferOpen
import Verif.Spec.World
/-! # Vocabulary for diffs with a callback -/

namespace DS
variable {V E : Type} [PyVal V]

/-- A callback that looks and does not touch: however it ends, the objects that exist stay as they are and every store holds what it held.  It may
make objects of its own, change any state of user code, and raise. -/
structure OnlyLooks (cb : Nat → Nat → M V E Unit) : Prop where
  next : ∀ c t w, w.next ≤ (cb c t w).2.next
  heap : ∀ c t w r, r < w.next → (cb c t w).2.heap r = w.heap r
  tables : ∀ c t w sid ty, tbl (cb c t w).2 sid ty = tbl w sid ty
  redis : ∀ c t w, (cb c t w).2.redis = w.redis

/-- A call of the callback with these arguments returned. -/
def Passed (cb : Nat → Nat → M V E Unit) (c t : Nat) : Prop := ∃ w w', cb c t w = (.ok (), w')

/-- A call of the callback with these arguments raised `e` and left the world `w'`. -/
def Raised (cb : Nat → Nat → M V E Unit) (c t : Nat) (e : Err) (w' : World V E) : Prop := ∃ w, runCallback (cb c t) w = (.error e, w')

end DS
