import Verif.Props.DiffOrder
import Verif.Props.ChainEx
/-! # Instances of the theorems of `Verif.Props.DiffOrder` -/

namespace DS
open Ex

/-- The source holds `sfo` before `nyc`; the target has `ams` before `nyc`; their lists for `nyc` differ as well. -/
def wO : World String (List Outcome) :=
  addModels (ad 1) [device "a" "leaf" [], site "sfo" [], site "nyc" ["b", "a"], device "b" "spine" []]
  (addModels (ad 2) [site "ams" [], device "c" "spine" [], site "nyc" ["c", "a"], device "a" "spine" []] (world0 String _ []))
theorem wO_ok : wO.OK := addModels_ok _ _ _ (addModels_ok _ _ _ (world0_ok _))
theorem wO_comparable : Comparable (ad 1) (ad 2) wO :=
  comparable_local wO_ok rfl rfl (by decide +kernel) (by decide +kernel) (by decide : (ad 0).topLevel.Nodup)

/-- The places at the top, and those below `nyc`. -/
theorem wO_top : (topPlaces (ad 1) (ad 2) (snap (ad 1) wO) (snap (ad 2) wO)).map (fun p => (p.type, p.uid)) =
    [("site", "sfo"), ("site", "nyc"), ("site", "ams")] := by decide +kernel
theorem wO_kids : (childPlaces (snap (ad 1) wO) (snap (ad 2) wO) ⟨"site", "nyc", some (site "nyc" ["b", "a"]), some (site "nyc" ["c", "a"])⟩).map
    (fun p => (p.type, p.uid)) = [("device", "b"), ("device", "a"), ("device", "c")] := by decide +kernel

/-- C93 applies to the diff of the two. -/
example : ∃ d w', diffFrom 10 (ad 2) (ad 1) (DiffClass.default _) 0 wO = (.ok d, w') ∧
    (d.kids.length = (visible 0 (topPlaces (ad 1) (ad 2) (snap (ad 1) wO) (snap (ad 2) wO))).length ∧
      ∀ x ∈ d.kids.zip (visible 0 (topPlaces (ad 1) (ad 2) (snap (ad 1) wO) (snap (ad 2) wO))),
        InOrder (ad 1) (ad 2) 0 (snap (ad 1) wO) (snap (ad 2) wO) x.1 x.2) ∧
    getChildren (DiffClass.default _) d.kids = d.kids := by
  obtain ⟨d, h⟩ := diff_ok (w := wO) (i := 1) (j := 2) (by decide +kernel)
  exact ⟨d, _, h, C93_diff_in_order wO_comparable h, (C93_get_children wO_comparable h (fun _ _ => rfl)).1⟩

/-- And the names come out as they should. -/
example : (diffFrom 10 (ad 2) (ad 1) (DiffClass.default _) 0 wO).1.toOption.map (fun d => d.kids.map (fun e => (e.name, e.kids.map Elem.name))) =
    some [("sfo", []), ("nyc", ["b", "a", "c"]), ("ams", [])] := by decide +kernel

end DS
