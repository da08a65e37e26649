import Verif.Props.BackRefs
import Verif.Props.HistoryEx
/-! # Examples for C62 -/
set_option linter.unusedSectionVars false

namespace DS.Ex

theorem returned {α : Type} {x : Except Err α × World String (List Outcome)} {a : α} (h : x.1.toOption = some a) : x = (.ok a, x.2) := by
  obtain ⟨r, w⟩ := x
  cases r with
  | error e => cases h
  | ok b => cases h; rfl

/-- After a failing sync into a local store and one into Redis: the objects of the local store, one of them created by the first sync. -/
example : Owned (ad 2) wH2 := C62_stored_objects_refer_back (F := famF) wH2_reachable (ad 2)
example : Attached (ad 2) (get (ad 2) (.name "device") (.uid "b") wH2).2 15 :=
  C62_got_objects_refer_back wH2_reachable (ad_family 2) (returned (by decide +kernel))
example : ∀ r ∈ [1, 15], Attached (ad 2) (getAll (ad 2) "device" wH2).2 r :=
  C62_all_objects_refer_back wH2_reachable (ad_family 2) (returned (by decide +kernel))
/-- The objects read from Redis are new ones. -/
example : ∀ r ∈ [24, 25], Attached (adR 1 "one") (getAll (adR 1 "one") "device" wH2).2 r :=
  C62_all_objects_refer_back wH2_reachable (adR_family 1 (by decide)) (returned (by decide +kernel))
example : ∀ r ∈ [24], Attached (adR 1 "one") (getByUids (adR 1 "one") ["b"] "device" wH2).2 r :=
  C62_got_by_uids_refer_back wH2_reachable (adR_family 1 (by decide)) (returned (by decide +kernel))
example := C62_fit_for_str wH2_reachable (ad_family 2)

/-- Removing an object: it is detached. -/
theorem wH2_attached : Attached (ad 2) wH2 15 := ⟨(ad 2).ref, by decide +kernel, rfl⟩
example : (countStore (ad 2).ref.store (remove (ad 2) 20 15 false wH2).2 ≠ 0 → ((remove (ad 2) 20 15 false wH2).2.heap 15).adapter = none) :=
  (C62_removed_objects wH2_attached (returned (a := ()) (by decide +kernel))).1
example : countStore (ad 2).ref.store (remove (ad 2) 20 15 false wH2).2 = 2 := by decide +kernel

/-- A store with one object. -/
def wOne : World String (List Outcome) := addModels (ad 2) [device "a" "core" []] (world0 String _ [])
/-- **C62** The last object of a store still refers to the adapter after it was removed. -/
theorem C62_last_removed_object_stays_attached : countStore (ad 2).ref.store wOne = 1 ∧
    (remove (ad 2) 20 0 false wOne).1.toOption = some () ∧ countStore (ad 2).ref.store (remove (ad 2) 20 0 false wOne).2 = 0 ∧
    ((remove (ad 2) 20 0 false wOne).2.heap 0).adapter = some (ad 2).ref := by decide +kernel

/-- **C62** Why the program has to mind: an object of a local store that is also passed to `remove` of a Redis store loses its adapter, and
stays in the local store. -/
theorem C62_removed_elsewhere : Reachable famF False wH3 ∧ ¬ Owned (ad 2) wH3 := by
  refine ⟨wH3_reachable, fun h => ?_⟩
  obtain ⟨a, ha, _⟩ := h 2 rfl "site" "nyc" 0 (by decide +kernel)
  have : (wH3.heap 0).adapter = none := by decide +kernel
  rw [this] at ha; cases ha

/-- A fresh object, passed to `update` of a local store. -/
def wUpd : World String (List Outcome) := (update (ad 2) 1 (alloc { m := device "b" "leaf" [] } wOne).2).2
/-- **C62** `update` of a local store stores an object that has no adapter as it is. -/
theorem C62_update_does_not_attach : findRef wUpd 2 "device" "b" = some 1 ∧ (wUpd.heap 1).adapter = none := by decide +kernel

end DS.Ex
