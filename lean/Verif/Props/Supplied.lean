import Verif.Props.OpenSyncEx
/-! # Supplied diffs, whatever they are (C35) -/
namespace DS
variable {V E : Type} [PyVal V]

/-- **C35** With a diff supplied that is not empty no comparison takes place, and a sync that returns, returns that diff: for every such diff,
in every state, whatever the user's methods decide. -/
theorem C35_not_recomputed {n rl : Nat} {hooks : Hooks V E} {dst src : Adapter V} {dc : DiffClass V} {flags : Nat} {d : Diff V} {w w' : World V E}
    {res : Except Err (Diff V)} (hl : d.len ≠ 0) (hs : syncFrom n rl hooks dst src dc flags (some d) w = (res, w')) :
    (∀ a b, Event.diffProgress a b ∉ newEvents w w') ∧ ∀ d', res = .ok d' → d' = d := by
  have h := syncFrom_supplied n rl hooks dst src dc flags hl w
  rw [hs] at h
  exact h

/-- **C35** The same when the user's methods may do anything to the adapters. -/
theorem C35_not_recomputed_open {n rl : Nat} {hooks : OpenHooks V E} {dst src : Adapter V} {dc : DiffClass V} {flags : Nat} {d : Diff V} {w w' : World V E}
    {res : Except Err (Diff V)} (hl : d.len ≠ 0) (hs : oSyncFrom n rl hooks dst src dc flags (some d) w = (res, w')) :
    (∀ a b, Event.diffProgress a b ∉ newEvents w w') ∧ ∀ d', res = .ok d' → d' = d := by
  have h := oSyncFrom_supplied n rl hooks dst src dc flags hl w
  rw [hs] at h
  obtain ⟨⟨evs, h1, h2⟩, h3⟩ := h
  refine ⟨fun a b hm => ?_, h3⟩
  unfold newEvents at hm
  rw [h1] at hm
  simp only [List.drop_left] at hm
  exact h2 a b hm

end DS

namespace DS.Ex

/-- A diff as a user may build it: the site `lax` is to be deleted, its device `c` to be updated. -/
def dMixed : Diff String :=
  { cls := DiffClass.default _, kids :=
    [{ type := "site", name := "lax", keys := [("name", "lax")], srcName := "s", dstName := "d", src := none, dst := some [], kids :=
      [{ type := "device", name := "c", keys := [("name", "c")], srcName := "s", dstName := "d", src := some [("role", "spine")], dst := some [("role", "leaf")],
         kids := [] }] }] }

/-- **C35**, where it fails: the diff deletes the site, which is flagged NATURAL_DELETION_ORDER, and updates its device.  The site is asked to
update itself instead, for that is the action of the last child, and it stays; the device is updated twice. -/
theorem C35_mixed_deletion :
    let r := syncFrom 10 20 (scripted String) (ad 2) (ad 1) (DiffClass.default _) 0 (some dMixed) (wDel 16 0 [])
    r.1.toOption.isSome = true ∧ dMixed.kids.map Elem.action = [some .delete] ∧
    calls (newEvents (wDel 16 0 []) r.2) = [.update "device" "c" [("role", "spine")], .update "site" "lax" [], .update "device" "c" [("role", "spine")]] ∧
    (snap (ad 2) r.2).find "site" "lax" ≠ none := by decide +kernel

/-- Diffs that are not of the shape that `diff_from` computes: applied as they are. -/
example : dMixed.len ≠ 0 ∧ ¬ GoodDiff (ad 2) dMixed.kids := by
  refine ⟨by decide +kernel, fun h => ?_⟩
  have h1 := h.del _ (.here (List.mem_singleton.2 rfl)) (by decide +kernel) _ (.here (List.mem_singleton.2 rfl))
  revert h1
  decide +kernel

/-- With user code that changes the destination on its own. -/
example (res : Except Err (Diff String)) (w' : World String (List Outcome))
    (hs : oSyncFrom 10 20 meddler (ad 2) (ad 1) (DiffClass.default _) 0 (some dMixed) (wDel 16 0 []) = (res, w')) : ∀ d', res = .ok d' → d' = dMixed :=
  have hl : dMixed.len ≠ 0 := by decide +kernel
  (C35_not_recomputed_open hl hs).2

end DS.Ex
