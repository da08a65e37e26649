import Verif.Props.RedisScan
import Verif.Props.BackRefsEx
/-! # C63: concrete stores -/
set_option linter.unusedSectionVars false

namespace DS.Ex

/-- Stores with the ids `a?` and `ab`, `x*y` and `c[d]`. -/
def wGlob : World String (List Outcome) :=
  addModels (adR 1 "a?") [device "p" "leaf" []] (addModels (adR 2 "ab") [device "q" "spine" []]
  (addModels (adR 3 "x*y") [device "r" "leaf" []] (addModels (adR 4 "c[d]") [device "s" "leaf" []] (world0 String _ []))))
theorem wGlob_wf : Dict.WF wGlob.redis := by unfold Dict.WF; decide +kernel

theorem wGlob_ok : wGlob.OK := addModels_ok _ _ _ (addModels_ok _ _ _ (addModels_ok _ _ _ (addModels_ok _ _ _ (world0_ok _))))
example := C63_get_all (A := adR 1 "a?") rfl (t := "device") wGlob_ok wGlob_wf
theorem wGlob_get : (get (adR 3 "x*y") (.name "device") (.uid "r") wGlob).1.toOption = some 4 := by decide +kernel
example := C63_sees_its_objects (A := adR 3 "x*y") (sid := "x*y") rfl (by decide) (by decide) wGlob_ok wGlob_wf (returned wGlob_get)
example := C63_count (A := adR 4 "c[d]") rfl wGlob_wf
example : (count (adR 1 "a?") none wGlob).1.toOption = some 2 ∧ (count (adR 2 "ab") none wGlob).1.toOption = some 1 := by decide +kernel
/-- **C63** A store whose id has wildcards sees objects of other stores as well. -/
theorem C63_wildcards_see_others : (∀ u o, Dict.get? wGlob.redis (redisKey "a?" "device" u) = some o → u = "p") ∧
    (getAll (adR 1 "a?") "device" wGlob).1.toOption.map (List.map (fun r => ((getAll (adR 1 "a?") "device" wGlob).2.heap r).m)) =
      some [device "q" "spine" [], device "p" "leaf" []] := by
  refine ⟨fun u o h => ?_, by decide +kernel⟩
  have := Dict.mem_keys_iff.2 ⟨o, h⟩
  have hk : Dict.keys wGlob.redis = ["diffsync:c[d]:device:s", "diffsync:x*y:device:r", "diffsync:ab:device:q", "diffsync:a?:device:p"] := by decide +kernel
  rw [hk] at this
  have e : redisKey "a?" "device" u = "diffsync:a?:device:" ++ u := by rw [← String.toList_inj, redisKey_toList]; simp [String.toList_append]
  rw [e] at this
  simp only [List.mem_cons, List.not_mem_nil, or_false, ← String.toList_inj, String.toList_append] at this
  rcases this with h | h | h | h <;> simp at h
  exact String.toList_inj.1 (h.trans (by decide))
/-- **C63** A store whose id has brackets may see none of its objects. -/
theorem C63_brackets_see_nothing : (get (adR 4 "c[d]") (.name "device") (.uid "s") wGlob).1.toOption = some 4 ∧
    (getAll (adR 4 "c[d]") "device" wGlob).1.toOption = some [] ∧ (count (adR 4 "c[d]") none wGlob).1.toOption = some 0 := by decide +kernel

end DS.Ex
