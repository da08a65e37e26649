import Verif.Model.Utils
/-! # Vocabulary for nested dictionaries -/

namespace DS

/-- `d[k1][k2]...[kn]` exists. -/
inductive HasPath : List String → List (String × NVal) → Prop where
  | last {k v d} : (k, v) ∈ d → HasPath [k] d
  | step {k c d p} : (k, NVal.dict c) ∈ d → HasPath p c → HasPath (k :: p) d

/-- Key `s` occurs at some depth. -/
def Occurs (s : String) (d : List (String × NVal)) : Prop := ∃ p, HasPath p d ∧ p.getLast? = some s

mutual
/-- Number of keys at all depths of a value. -/
def NVal.size : NVal → Nat
  | .leaf => 0
  | .dict d => nsize d
/-- Number of keys at all depths of a nested dictionary. -/
def nsize : List (String × NVal) → Nat
  | [] => 0
  | p :: d => psize p + nsize d
/-- Number of keys of one entry. -/
def psize : String × NVal → Nat
  | (_, v) => 1 + v.size
end

mutual
/-- The keys of a nested dictionary at any depth, each as the path that leads to it, a dictionary's key before those below it
and in the order of the dictionaries.  Each step of a path tells whether the key is the last of its dictionary. -/
def rows : List (String × NVal) → List (List (String × Bool))
  | [] => []
  | p :: d => rowsP d.isEmpty p ++ rows d
def rowsP (last : Bool) : String × NVal → List (List (String × Bool))
  | (k, v) => [(k, last)] :: (rowsV v).map ((k, last) :: ·)
def rowsV : NVal → List (List (String × Bool))
  | .leaf => []
  | .dict d => rows d
end

/-- The picture of a key: a bar for each dictionary around it that goes on below, a branch, and the key. -/
def drawRow : List (String × Bool) → String
  | [] => ""
  | [(k, last)] => (if last then "└── " else "├── ") ++ k
  | (_, last) :: r => (if last then "    " else "│   ") ++ drawRow r

end DS
