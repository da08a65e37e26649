import Verif.Model.Diff
/-! # Text of a diff: `Diff.str()` and `DiffElement.str()` (/repo/diffsync/diff.py:133-148, 356-378) -/

namespace DS

/-- `" " * indent`, /repo/diffsync/diff.py:135, 358. -/
def margin (n : Nat) : String := String.ofList (List.replicate n ' ')

section
variable {V : Type} [PyVal V]

/-- One line of the loop over differing attributes, /repo/diffsync/diff.py:363-368.  `attrs_diffs['-'][attr]` is
there whenever `attrs_diffs['+'][attr]` is (`C03_attrs_diffs_exact`); the `""` is never used. -/
def attrLine (e : Elem V) (i : Nat) (p : String × V) : String :=
  "\n" ++ margin i ++ "  " ++ p.1 ++ "    " ++ e.srcName ++ "(" ++ PyVal.str p.2 ++ ")" ++ "    " ++ e.dstName ++ "(" ++
    ((Dict.get? (e.minus.getD []) p.1).map PyVal.str).getD "" ++ ")"

/-- The part of `DiffElement.str()` about the element itself, /repo/diffsync/diff.py:358-372. -/
def ownText (e : Elem V) (i : Nat) : String :=
  margin i ++ e.type ++ ": " ++ e.name ++
    match e.src, e.dst with
    | some _, some _ => String.join ((e.plus.getD []).map (attrLine e i))
    | none, some _ => " MISSING in " ++ e.srcName
    | some _, none => " MISSING in " ++ e.dstName
    | none, none => ""

/-- The lines of `Diff.str()`, /repo/diffsync/diff.py:136-144; `f` renders a child. -/
def diffLines (f : Elem V → String) (i : Nat) (kids : List (Elem V)) : List String :=
  (groups kids).flatMap (fun g =>
    match (group kids g).filter Elem.hasDiffs with
    | [] => []
    | c :: cs => (margin i ++ g) :: f c :: cs.map f)

/-- `Diff.str()`, /repo/diffsync/diff.py:133-148. -/
def diffText (f : Elem V → String) (i : Nat) (kids : List (Elem V)) : String :=
  let result := joinSep "\n" (diffLines f i kids)
  if result = "" then "(no diffs)" else result

/-- `DiffElement.str()`, /repo/diffsync/diff.py:356-378, to recursion depth `n`. -/
def Elem.strF : Nat → Nat → Elem V → String
  | 0, _, _ => ""
  | n + 1, i, e =>
    ownText e i ++
      if Elem.hasDiffsL e.kids then "\n" ++ diffText (Elem.strF n (i + 4)) (i + 2) e.kids
      else if e.src.isNone && e.dst.isNone then " (no diffs)" else ""

/-- `DiffElement.str(indent)`, /repo/diffsync/diff.py:356-378.  The element's depth is enough (`Elem.str_eq`). -/
def Elem.str (e : Elem V) (i : Nat := 0) : String := Elem.strF e.depth i e

/-- `Diff.str(indent)`, /repo/diffsync/diff.py:133-148. -/
def Diff.str (d : Diff V) (i : Nat := 0) : String := diffText (fun c => c.str (i + 2)) i d.kids

end
end DS
