import Verif.Props.Load
import Verif.Props.ParseEx
/-! # Concrete loads -/
set_option linter.unusedSectionVars false

namespace DS.Ex

/-- Three VLANs, the second without a note, and a type that the adapter does not declare. -/
def vlanData (number : String) : Dict (Dict (ObjDict String)) :=
  [("vlan", [("x", ⟨[("name", "x"), ("number", "007"), ("note", "n"), ("extra", "?")], [], none⟩), ("y", ⟨[("name", "y"), ("number", number)], [], some 1⟩),
      ("z", ⟨[("name", "z"), ("number", "3")], [], none⟩)]),
   ("port", [("p", ⟨[("number", "1")], [], none⟩)])]

def loadV (number : String) := loadFromDict (flat 2 vlanD) (vlanData number) wV

/-- The data is fit for `C80_load_from_dict`, and is read: `007` as the number 7; a number that is none is refused; an id that is taken is refused. -/
example : wV.OK ∧ (∀ t ∈ (flat 2 vlanD).topLevel, t ∈ Dict.keys (flat 2 vlanD).classes) ∧
    (∀ t c, Dict.get? (flat 2 vlanD).classes t = some c → c.Valid) := ⟨wV_ok, by decide, flat_valid.valid⟩

example : toLoad (flat 2 vlanD) (vlanData "8") = [(vlanD, ⟨[("name", "x"), ("number", "007"), ("note", "n"), ("extra", "?")], [], none⟩),
    (vlanD, ⟨[("name", "y"), ("number", "8")], [], some 1⟩), (vlanD, ⟨[("name", "z"), ("number", "3")], [], none⟩)] := rfl

example : (match (loadV "8").1 with | .ok _ => true | .error _ => false) = true ∧
    ((snap (flat 2 vlanD) (loadV "8").2).find "vlan" "x").map Model.vals = some [("name", "x"), ("number", "7"), ("note", "n")] ∧
    ((snap (flat 2 vlanD) (loadV "8").2).find "vlan" "y").map (fun m => (m.vals, m.flags)) = some ([("name", "y"), ("number", "8"), ("note", "-")], 1) ∧
    ((snap (flat 2 vlanD) (loadV "8").2).find "vlan" "z").isSome ∧ ((snap (flat 2 vlanD) (loadV "8").2).find "port" "p") = none := by decide +kernel

example : (match (loadV "many").1 with | .error .validationError => true | _ => false) = true ∧
    ((snap (flat 2 vlanD) (loadV "many").2).find "vlan" "x").isSome ∧ ((snap (flat 2 vlanD) (loadV "many").2).find "vlan" "y") = none ∧
    ((snap (flat 2 vlanD) (loadV "many").2).find "vlan" "z") = none := by decide +kernel

/-- Loading the same data again is refused at the first entry. -/
example : (match (loadFromDict (flat 2 vlanD) (vlanData "9") (loadV "8").2).1 with | .error .objectAlreadyExists => true | _ => false) = true ∧
    ((snap (flat 2 vlanD) (loadFromDict (flat 2 vlanD) (vlanData "9") (loadV "8").2).2).find "vlan" "y").map Model.vals =
      some [("name", "y"), ("number", "8"), ("note", "-")] := by decide +kernel

/-- Three new objects, with the status that new objects have. -/
example : (loadV "8").2.next = wV.next + 3 ∧ ((loadV "8").2.heap (wV.next + 2)).getStatus = (.success, "") := by decide +kernel

/-- An update that is carried out, and one that stops halfway. -/
example : ∀ k ∈ Dict.keys [("number", "008"), ("note", "m")], k ∈ (wV.heap 0).m.cls.fieldNames := by decide +kernel
example : ((updateBase 0 [("number", "008"), ("note", "m")] wV).2.heap 0).m.vals = [("name", "b"), ("number", "008"), ("note", "m")] := by decide +kernel
example : "colour" ∉ (wV.heap 0).m.cls.fieldNames ∧
    ((updateBase 0 ([("number", "008")] ++ ("colour", "red") :: [("note", "m")]) wV).2.heap 0).m.vals = [("name", "b"), ("number", "008"), ("note", "-")] := by decide +kernel

end DS.Ex
