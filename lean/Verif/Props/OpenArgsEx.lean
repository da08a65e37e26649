import Verif.Props.OpenArgs
import Verif.Props.OpenSyncEx
/-! # Concrete syncs that meet the hypotheses of C73

The user code is `meddler`: it removes objects, adds objects and changes flags while the sync runs. -/

namespace DS.Ex

theorem oSync_eq (h : OpenHooks String (List Outcome)) (flags : Nat) :
    oSyncFrom 10 20 h (ad 2) (ad 1) (DiffClass.default _) flags none w1 = ((oSync h flags).1, (oSync h flags).2) := by
  generalize hx : oSync h flags = x; exact hx

theorem meddler_calls : (callsOf (newEvents w1 (oSync meddler 0).2)).map (·.1) =
    [.update "device" "a" [("role", "leaf")], .create "interface" [("device_name", "a"), ("name", "eth0")] [("type", "ethernet"), ("desc", "up")],
      .delete "interface" "a__eth1", .create "device" [("name", "b")] [("role", "spine")], .delete "device" "c", .delete "interface" "c__eth0",
      .create "site" [("name", "sfo")] []] := by decide +kernel

theorem meddler_call {c : CrudCall String} (h : c ∈ (callsOf (newEvents w1 (oSync meddler 0).2)).map (·.1)) :
    ∃ out, Event.call c out ∈ newEvents w1 (oSync meddler 0).2 := by
  obtain ⟨⟨_, out⟩, h1, rfl⟩ := List.mem_map.1 h
  exact ⟨out, mem_callsOf.1 h1⟩

/-- C73: the device `b` is created from the one that the source had. -/
example : ∃ p m, Compared (ad 1) (ad 2) 0 (snap (ad 1) w1) (snap (ad 2) w1) p ∧ p.Visible 0 ∧ p.src = some m ∧ p.dst = none ∧
    [("name", "b")] = m.identifiers ∧ Dict.get? m.attrs "role" = some "spine" := by
  obtain ⟨out, hc⟩ := meddler_call (c := .create "device" [("name", "b")] [("role", "spine")]) (by rw [meddler_calls]; decide)
  obtain ⟨_, p, m, h1, h2, _, h3, h4, _, h5, h6⟩ := C73_create comparable_w1 run1.1.ready.valid.names (oSync_eq meddler 0) hc
  exact ⟨p, m, h1, h2, h3, h4, h5, (h6 "role").symm⟩

/-- C73: the role of the device `a` is updated. -/
example : ∃ p s m, Compared (ad 1) (ad 2) 0 (snap (ad 1) w1) (snap (ad 2) w1) p ∧ p.src = some s ∧ p.dst = some m ∧
    Dict.get? s.attrs "role" = some "leaf" ∧ Dict.get? m.attrs "role" ≠ none := by
  obtain ⟨out, hc⟩ := meddler_call (c := .update "device" "a" [("role", "leaf")]) (by rw [meddler_calls]; decide)
  obtain ⟨_, p, s, m, h1, _, h3, h4, _, _, h5⟩ := C73_update comparable_w1 run1.1.ready.valid.names (oSync_eq meddler 0) hc
  obtain ⟨g1, v, g2, _⟩ := (h5 "role" "leaf").1 rfl
  exact ⟨p, s, m, h1, h3, h4, g1, by rw [g2]; simp⟩

/-- C73: the device `c` is deleted, which only the destination had. -/
example : ∃ p m, Compared (ad 1) (ad 2) 0 (snap (ad 1) w1) (snap (ad 2) w1) p ∧ p.src = none ∧ p.dst = some m := by
  obtain ⟨out, hc⟩ := meddler_call (c := .delete "device" "c") (by rw [meddler_calls]; decide)
  obtain ⟨_, p, m, h1, _, h3, h4, _⟩ := C73_delete comparable_w1 run1.1.ready.valid.names (oSync_eq meddler 0) hc
  exact ⟨p, m, h1, h3, h4⟩

/-- C73: the same sync with SKIP_UNMATCHED_DST makes calls, but no delete call. -/
example : (callsOf (newEvents w1 (oSync meddler GF.SKIP_UNMATCHED_DST).2)).length = 4 ∧
    ∀ t u out, Event.call (.delete t u) out ∉ newEvents w1 (oSync meddler GF.SKIP_UNMATCHED_DST).2 :=
  ⟨by decide +kernel, fun _ _ _ hc => by
    have := (C73_delete comparable_w1 run1.1.ready.valid.names (oSync_eq meddler GF.SKIP_UNMATCHED_DST) hc).1
    revert this; decide⟩

end DS.Ex
