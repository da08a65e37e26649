import Verif.Model.Concrete
/-!
# Sanity checks of the model

Scenarios in the style of the project's own unit tests, evaluated by the kernel.  These are tests of
the *model*, not proofs of properties.
-/

namespace DS.Ex

/-- Source: site nyc with devices a (if0) and b; -/
def w1 : World String (List Outcome) :=
  addModels (ad 1) [site "nyc" ["a", "b"], device "a" "leaf" ["a__eth0"], device "b" "spine" [], interface "a" "eth0" "up",
                    site "sfo" []]
  (addModels (ad 2) [site "nyc" ["a", "c"], device "a" "spine" ["a__eth1"], device "c" "leaf" ["c__eth0"],
                     interface "a" "eth1" "x", interface "c" "eth0" "y", site "lax" []]
  (world0 String _ []))

def d1 := diffFrom 10 (ad 2) (ad 1) (DiffClass.default _) 0 w1

/-- Summary of a diff result. -/
def sumOf {E : Type} (r : Except Err (Diff String) × World String E) : Option (Summary × Int × Nat × Bool) :=
  match r.1 with
  | .ok d => some (d.summary, d.skip, d.len, d.hasDiffs)
  | .error _ => none


example : sumOf d1 = some (⟨3, 1, 4, 1⟩, 0, 9, true) := by decide +kernel
example : sumOf (diffFrom 10 (ad 2) (ad 1) (DiffClass.default _) 0
    (syncFrom 10 10 (scripted String) (ad 2) (ad 1) (DiffClass.default _) 0 none w1).2) = some (⟨0,0,0,5⟩, 0, 5, false) := by
  decide +kernel
end DS.Ex
