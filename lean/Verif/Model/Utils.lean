import Verif.Py.Dict
/-! # /repo/diffsync/utils.py -/

namespace DS

/-- `intersection`, /repo/diffsync/utils.py:31-34. -/
def intersection (l1 l2 : List String) : List String := l1.filter (fun v => l2.contains v)

/-- Insert into a sorted list (helper for Python's `sorted`, /repo/diffsync/utils.py:41). -/
def insertSorted (x : String) : List String → List String
  | [] => [x]
  | y :: ys => if x < y then x :: y :: ys else y :: insertSorted x ys

/-- Python's `sorted` on strings (/repo/diffsync/utils.py:41): ascending, stable. -/
def sortStrings : List String → List String
  | [] => []
  | x :: xs => insertSorted x (sortStrings xs)

/-- Python's `set(l)` as a duplicate-free list. -/
def dedup : List String → List String
  | [] => []
  | x :: xs => if xs.contains x then dedup xs else x :: dedup xs

/-- `symmetric_difference`, /repo/diffsync/utils.py:37-41: `sorted(set(lst1) ^ set(lst2))`. -/
def symmetricDifference (l1 l2 : List String) : List String :=
  sortStrings (dedup (l1.filter (fun v => !l2.contains v)) ++ dedup (l2.filter (fun v => !l1.contains v)))

/-- A nested Python dictionary, as handled by `set_key`, `get_path` and `_tree`
(/repo/diffsync/utils.py:59-96); `leaf` is any value that is not a `dict`. -/
inductive NVal where
  | leaf
  | dict (d : List (String × NVal))

/-- `set_key`, /repo/diffsync/utils.py:80-84.  `none` is the `AttributeError` of calling
`.setdefault` on a value that is not a dictionary. -/
def setKey : List String → Dict NVal → Option (Dict NVal)
  | [], d => some d
  | k :: ks, d =>
    match Dict.get? d k with
    | none => (setKey ks []).map (fun c => Dict.set d k (.dict c))
    | some (.dict c) => (setKey ks c).map (fun c' => Dict.set d k (.dict c'))
    | some .leaf => if ks = [] then some d else none

mutual
/-- The recursive call of `get_path` on a value, /repo/diffsync/utils.py:92-93. -/
def getPathV (s : String) : NVal → Option (List String)
  | .leaf => none
  | .dict d => getPath s d
/-- `get_path`, /repo/diffsync/utils.py:87-96. -/
def getPath (s : String) : List (String × NVal) → Option (List String)
  | [] => none
  | p :: d => getPathP s p (getPath s d)
/-- One iteration of the loop of `get_path`, /repo/diffsync/utils.py:89-95; `rest` is the outcome of
the remaining iterations. -/
def getPathP (s : String) : String × NVal → Option (List String) → Option (List String)
  | (k, v), rest =>
    if k = s then some [k]
    else match getPathV s v with
      | some p => some (k :: p)
      | none => rest
end

/-! The drawing characters, /repo/diffsync/utils.py:21-24. -/
/-- utils.py:21 -/ def SPACE : String := "    "
/-- utils.py:22 -/ def BRANCH : String := "│   "
/-- utils.py:23 -/ def TEE : String := "├── "
/-- utils.py:24 -/ def LAST : String := "└── "

mutual
/-- The recursive call of `_tree`, /repo/diffsync/utils.py:69-72. -/
def treeV (pfx : String) : NVal → List String
  | .leaf => []
  | .dict d => treeLines pfx d
/-- `_tree`, /repo/diffsync/utils.py:59-72: all but the last entry get `TEE`, the last gets `LAST`. -/
def treeLines (pfx : String) : List (String × NVal) → List String
  | [] => []
  | p :: d => treeP pfx d.isEmpty p ++ treeLines pfx d
/-- One iteration of the loop of `_tree`, /repo/diffsync/utils.py:67-72. -/
def treeP (pfx : String) (last : Bool) : String × NVal → List String
  | (k, v) =>
    (pfx ++ (if last then LAST else TEE) ++ k) :: treeV (pfx ++ (if last then SPACE else BRANCH)) v
end

/-- `tree_string`, /repo/diffsync/utils.py:75-77, as the list of lines joined by newlines. -/
def treeString (d : List (String × NVal)) (root : String) : List String := root :: treeLines "" d

end DS
