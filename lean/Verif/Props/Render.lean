import Verif.Lemmas.RenderBlank
import Verif.Props.Diff
/-! # C58: the text of a diff -/

namespace DS
set_option linter.unusedSectionVars false
variable {V : Type} [PyVal V]

/-- **C58** `str()` of a diff is `(no diffs)` exactly when `has_diffs()` is false. -/
theorem C58_no_diffs (d : Diff V) (i : Nat) : d.str i = "(no diffs)" ↔ d.hasDiffs = false := by
  constructor
  · intro h
    cases hd : d.hasDiffs with
    | false => rfl
    | true =>
      have := (diffText_of_diffs (f := fun c => c.str (i + 2)) (i := i) hd).2
      unfold Diff.str at h
      rw [h] at this
      simp at this
  · intro h; exact diffText_noDiffs h

/-- **C58** Every create, delete and update anywhere in the diff is reported in the text: which side lacks the
element, or each differing attribute with both values. -/
theorem C58_every_difference_shown (d : Diff V) (i : Nat) (e : Elem V) (he : InTree e d.kids) (ha : e.action ≠ none) :
    ∃ pad, Appears (e.report pad) (d.str i) := by
  have hx : e.hasDiffs = true := (hasDiffs_iff e).2 (.inl ha)
  obtain ⟨j, hj⟩ := str_occurs he hx i
  refine ⟨margin j, Appears.trans ?_ hj⟩
  rw [Elem.str_eq, ownText_eq]
  exact (Appears.refl _).left _

/-- **C58** `str()` of one element is its own report, without a margin, followed by the text of what is different below it, indented by two, if anything
is; of an element that neither side has, with nothing different below it, the text ends in `(no diffs)`. -/
theorem C58_element (e : Elem V) (dc : DiffClass V) (n : Nat) :
    e.str = e.report "" ++
      (if (⟨dc, e.kids, n⟩ : Diff V).hasDiffs then "\n" ++ (⟨dc, e.kids, n⟩ : Diff V).str 2
       else if e.src = none ∧ e.dst = none then " (no diffs)" else "") := by
  rw [Elem.str_eq, ownText_eq]
  cases hs : e.src <;> cases hd : e.dst <;> simp [Diff.hasDiffs, Diff.str, margin]

/-- **C58** Nothing else is shown: the text does not depend on elements without differences, on attributes that are
equal, nor on the attribute values of elements that only one side has. -/
theorem C58_only_differences_shown (d : Diff V) (i : Nat) : ({ d with kids := blankL d.kids } : Diff V).str i = d.str i := by
  unfold Diff.str
  rw [blankL_eq]
  simp only [diffText]
  rw [diffLines_blank (f := fun c => c.str (i + 2)) (fun c _ hd => Elem.str_blank c hd (i + 2))]

namespace Ex

-- a diff with all kinds of differences, and one without any
example : (⟨revOrder, tree1, 0⟩ : Diff String).str =
    "site\n  site: nyc\n    device\n      device: a\n        role    src(leaf)    dst(spine)\n      device: b MISSING in dst\n        interface\n          interface: eth0 MISSING in dst\n  site: sfo MISSING in src" := by
  decide +kernel
example : (⟨revOrder, [el "site" "lax" (some []) (some [])], 0⟩ : Diff String).str = "(no diffs)" := by decide +kernel
-- an element on its own
example : (el "device" "a" (some [("role", "leaf"), ("x", "1")]) (some [("x", "1"), ("role", "spine"), ("y", "2")])).str =
    "device: a\n  role    src(leaf)    dst(spine)" := by decide +kernel
-- the update two levels down is reported
example : ∃ pad, Appears ((el "device" "a" (some [("role", "leaf"), ("x", "1")])
    (some [("x", "1"), ("role", "spine"), ("y", "2")])).report pad) ((⟨revOrder, tree1, 0⟩ : Diff String).str) :=
  C58_every_difference_shown _ 0 _ (.under (k := tree1.head (by simp [tree1])) (by simp [tree1]) (.here (by simp [tree1, el])))
    (by decide +kernel)
example : (el "device" "a" (some [("role", "leaf"), ("x", "1")]) (some [("x", "1"), ("role", "spine"), ("y", "2")])).report "" =
    "device: a\n  role    src(leaf)    dst(spine)" := by decide +kernel
-- blanking drops the unchanged site and the equal attributes
example : (blankL tree1).map (fun e => (e.name, e.kids.map (fun k => (k.name, Dict.keys (k.src.getD []))))) =
    [("nyc", [("a", ["role"]), ("b", [])]), ("sfo", []), ("", [])] := by decide +kernel

end Ex
end DS
