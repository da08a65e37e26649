import Verif.Props.UnknownAttr
import Verif.Props.SyncEx
/-! # C39: a concrete call with an attribute that is not a field -/

namespace DS.Ex

/-- A new device is stored, with its role, although the call raises. -/
example := C39_unknown_attribute (ad 2) rfl deviceC
  ⟨by decide +kernel, by decide +kernel, by decide +kernel, by decide +kernel, by decide +kernel, by decide +kernel⟩
  [("name", "a")] [("role", "core")] [("site", "sfo")] "rack" "7" (world0 String (List Outcome) []) (world0_ok _) "a" (by decide +kernel)
  (keepsIds_untyped rfl _) (by unfold Dict.WF; decide +kernel) (fun r h => by cases h)
  (fun _ => ⟨⟨_, rfl⟩, by decide +kernel, by decide +kernel⟩)

end DS.Ex
