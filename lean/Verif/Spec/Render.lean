import Verif.Spec.Diff
/-! # Vocabulary for statements about the text of a diff -/

namespace DS

/-- The text `t` occurs in `s`. -/
def Appears (t s : String) : Prop := ∃ a b, s = a ++ t ++ b

section
variable {V : Type} [PyVal V]

/-- What a reader expects to see about one difference of an element, `pad` being the indentation: a missing side,
or each attribute that differs with both its values, in the order of `get_attrs_diffs()["+"]`. -/
def Elem.report (e : Elem V) (pad : String) : String :=
  pad ++ e.type ++ ": " ++ e.name ++
    match e.action with
    | some .create => " MISSING in " ++ e.dstName
    | some .delete => " MISSING in " ++ e.srcName
    | some .update =>
      String.join ((e.plus.getD []).map (fun (k, v) =>
        "\n" ++ pad ++ "  " ++ k ++ "    " ++ e.srcName ++ "(" ++ PyVal.str v ++ ")" ++ "    " ++
          e.dstName ++ "(" ++ ((e.dstVal k).map PyVal.str).getD "" ++ ")"))
    | none => ""

/-- The entries of `d` for keys that both dictionaries have with different values. -/
def onlyDiffering (s d x : Dict V) : Dict V :=
  (Dict.keys d).filterMap (fun k =>
    match Dict.get? s k, Dict.get? d k with
    | some v, some w => if PyVal.eq v w then none else (Dict.get? x k).map (fun y => (k, y))
    | _, _ => none)

mutual
/-- An element without anything that is equal on both sides: attributes that do not differ are dropped, and so are
the attribute values of an element that only one side has; an element without differences, at any depth, is
replaced by an empty one of the same type. -/
def Elem.blank : Elem V → Elem V
  | ⟨t, n, k, sn, dn, s, d, ks⟩ =>
    if Elem.hasDiffs ⟨t, n, k, sn, dn, s, d, ks⟩ then
      match s, d with
      | some s, some d => ⟨t, n, [], sn, dn, some (onlyDiffering s d s), some (onlyDiffering s d d), blankL ks⟩
      | some _, none => ⟨t, n, [], sn, dn, some [], none, blankL ks⟩
      | none, some _ => ⟨t, n, [], sn, dn, none, some [], blankL ks⟩
      | none, none => ⟨t, n, [], sn, dn, none, none, blankL ks⟩
    else ⟨t, "", [], "", "", none, none, []⟩
/-- `blank` on each element of a forest. -/
def blankL : List (Elem V) → List (Elem V)
  | [] => []
  | k :: ks => k.blank :: blankL ks
end

end
end DS
