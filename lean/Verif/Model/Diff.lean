import Verif.Py.Val
import Verif.Model.Enum
import Verif.Model.Err
import Verif.Model.Utils
/-! # `Diff` and `DiffElement` (/repo/diffsync/diff.py) -/

namespace DS

/-- `DiffElement`, /repo/diffsync/diff.py:160-197.  `kids` is `child_diff.children`, flattened: the
elements in the order they were added.  The two-level dictionary `children[type][name]` (diff.py:35-39)
is recovered by `groups`/`group`; within a group the insertion order is kept. -/
structure Elem (V : Type) where
  type : String
  name : String
  keys : Dict V
  srcName : String
  dstName : String
  /-- `source_attrs`, 195 -/
  src : Option (Dict V)
  /-- `dest_attrs`, 196 -/
  dst : Option (Dict V)
  kids : List (Elem V)

/-- A `Diff` subclass: its `order_children_*` methods (/repo/diffsync/diff.py:91-108) as one function from
the group name and the group's elements to the elements yielded.  Modelling assumption `sub`: order
methods only yield elements they were given.  `id`/`bases` are used for `isinstance`
(/repo/diffsync/__init__.py:601). -/
structure DiffClass (V : Type) where
  id : Nat := 0
  bases : List Nat := [0]
  order : String → List (Elem V) → List (Elem V)
  sub : ∀ g l x, x ∈ order g l → x ∈ l

/-- The class `Diff` itself: `order_children_default`, /repo/diffsync/diff.py:102-108. -/
def DiffClass.default (V : Type) : DiffClass V := ⟨0, [0], fun _ l => l, fun _ _ _ h => h⟩

/-- A `Diff` instance, /repo/diffsync/diff.py:30-40; `kids` as for `Elem`. -/
structure Diff (V : Type) where
  cls : DiffClass V
  kids : List (Elem V)
  processed : Nat := 0

section
variable {V : Type} [PyVal V]

/-- The new `children` of `Diff.add`, /repo/diffsync/diff.py:56-66. -/
def addElem (kids : List (Elem V)) (e : Elem V) : Except Err (List (Elem V)) :=
  if kids.any (fun k => k.type == e.type && k.name == e.name) then .error .objectAlreadyExists
  else .ok (kids ++ [e])

/-- A loop of `Diff.add` calls (/repo/diffsync/helpers.py:94-95, 278-279). -/
def addElems : List (Elem V) → List (Elem V) → Except Err (List (Elem V))
  | kids, [] => .ok kids
  | kids, e :: es =>
    match addElem kids e with
    | .ok kids' => addElems kids' es
    | .error err => .error err

/-- `groups()`, /repo/diffsync/diff.py:68-70: keys of `children` in order of first insertion. -/
def groups : List (Elem V) → List String
  | [] => []
  | e :: es => e.type :: (groups es).filter (fun g => !(g == e.type))

/-- `children[group].values()`, /repo/diffsync/diff.py:79, 100. -/
def group (kids : List (Elem V)) (g : String) : List (Elem V) := kids.filter (fun e => e.type == g)

/-- `Diff.get_children()`, /repo/diffsync/diff.py:85-100. -/
def getChildren (dc : DiffClass V) (kids : List (Elem V)) : List (Elem V) :=
  (groups kids).flatMap (fun g => dc.order g (group kids g))

namespace Elem

/-- `get_attrs_keys()`, /repo/diffsync/diff.py:266-279. -/
def attrsKeys (e : Elem V) : List String :=
  match e.src, e.dst with
  | some s, some d => intersection (Dict.keys d) (Dict.keys s)
  | none, some d => Dict.keys d
  | some s, none => Dict.keys s
  | none, none => []

/-- `source_attrs[k] != dest_attrs[k]` for a shared key (/repo/diffsync/diff.py:250, 293, 298, 330). -/
def differs (s d : Dict V) (k : String) : Bool :=
  match Dict.get? s k, Dict.get? d k with
  | some v, some w => !PyVal.eq v w
  | _, _ => false

/-- `action`, /repo/diffsync/diff.py:236-254. -/
def action (e : Elem V) : Option Action :=
  match e.src, e.dst with
  | some _, none => some .create
  | none, some _ => some .delete
  | some s, some d => if e.attrsKeys.any (differs s d) then some .update else none
  | none, none => none

/-- `{key: attrs[key] for key in keys if p key}`. -/
def pick (attrs : Dict V) (keys : List String) : Dict V :=
  keys.filterMap (fun k => (Dict.get? attrs k).map (fun v => (k, v)))

/-- The `"+"` entry of `get_attrs_diffs()`, /repo/diffsync/diff.py:281-305 (`none`: absent). -/
def plus (e : Elem V) : Option (Dict V) :=
  match e.src, e.dst with
  | some s, some d => some (pick s (e.attrsKeys.filter (differs s d)))
  | some s, none => some (pick s e.attrsKeys)
  | _, _ => none

/-- The `"-"` entry of `get_attrs_diffs()`, /repo/diffsync/diff.py:281-305 (`none`: absent). -/
def minus (e : Elem V) : Option (Dict V) :=
  match e.src, e.dst with
  | some s, some d => some (pick d (e.attrsKeys.filter (differs s d)))
  | none, some d => some (pick d e.attrsKeys)
  | _, _ => none

/-- `has_diffs(include_children=False)`, /repo/diffsync/diff.py:324-331. -/
def hasDiffsOwn (e : Elem V) : Bool :=
  match e.src, e.dst with
  | some _, none => true
  | none, some _ => true
  | some s, some d => e.attrsKeys.any (differs s d)
  | none, none => false

mutual
/-- `has_diffs(include_children=True)`, /repo/diffsync/diff.py:318-337. -/
def hasDiffs : Elem V → Bool
  | ⟨t, n, k, sn, dn, s, d, ks⟩ => hasDiffsOwn ⟨t, n, k, sn, dn, s, d, []⟩ || hasDiffsL ks
/-- `Diff.has_diffs()`, /repo/diffsync/diff.py:72-83.  The Python loop goes group by group; the order
does not matter for an `any`. -/
def hasDiffsL : List (Elem V) → Bool
  | [] => false
  | k :: ks => hasDiffs k || hasDiffsL ks
end

mutual
/-- Depth of the tree below an element (used only to bound recursions over `getChildren`). -/
def depth : Elem V → Nat
  | ⟨_, _, _, _, _, _, _, ks⟩ => 1 + depthL ks
/-- Depth of a list of elements. -/
def depthL : List (Elem V) → Nat
  | [] => 0
  | k :: ks => max (depth k) (depthL ks)
end

/-- `DiffElement.__len__`, /repo/diffsync/diff.py:229-234, to recursion depth `n`. -/
def lenF (dc : DiffClass V) : Nat → Elem V → Nat
  | 0, _ => 0
  | n + 1, e => 1 + ((getChildren dc e.kids).map (lenF dc n)).sum

/-- `DiffElement.__len__`, /repo/diffsync/diff.py:229-234.  The recursion follows `get_children()`, whose
elements are children, so the element's depth suffices (`Elem.len_eq`). -/
def len (dc : DiffClass V) (e : Elem V) : Nat := lenF dc e.depth e

/-- `__lt__`, /repo/diffsync/diff.py:199-204: `(type, name) < (type, name)`. -/
def lt (a b : Elem V) : Bool := decide (a.type < b.type) || (a.type == b.type && decide (a.name < b.name))

/-- `__eq__`, /repo/diffsync/diff.py:206-220. -/
def eq (a b : Elem V) : Bool :=
  a.type == b.type && a.name == b.name && Dict.pyEq a.keys b.keys && optDictEq a.src b.src &&
    optDictEq a.dst b.dst

/-- `<=` as generated by `functools.total_ordering` (/repo/diffsync/diff.py:159): `a < b or a == b`. -/
def le (a b : Elem V) : Bool := a.lt b || a.eq b

/-- `>` as generated by `functools.total_ordering`: `not a < b and a != b`. -/
def gt (a b : Elem V) : Bool := !a.lt b && !a.eq b

/-- `>=` as generated by `functools.total_ordering`: `not a < b`. -/
def ge (a b : Elem V) : Bool := !a.lt b

end Elem

/-- The counters of `summary()`, /repo/diffsync/diff.py:110-131, 339-354, without `skip`. -/
structure Summary where
  create : Nat := 0
  update : Nat := 0
  delete : Nat := 0
  noChange : Nat := 0
  deriving DecidableEq, Repr

namespace Summary
/-- `for key in summary: summary[key] += child_summary[key]`, /repo/diffsync/diff.py:120-121, 352-353. -/
def add (a b : Summary) : Summary :=
  ⟨a.create + b.create, a.update + b.update, a.delete + b.delete, a.noChange + b.noChange⟩
/-- `summary[self.action] += 1` or `summary["no-change"] += 1`, /repo/diffsync/diff.py:347-350. -/
def single : Option Action → Summary
  | some .create => { create := 1 }
  | some .update => { update := 1 }
  | some .delete => { delete := 1 }
  | none => { noChange := 1 }
/-- Sum over children. -/
def sum (l : List Summary) : Summary := l.foldr add {}
end Summary

namespace Elem
/-- `DiffElement.summary()`, /repo/diffsync/diff.py:339-354, to recursion depth `n`. -/
def summaryF (dc : DiffClass V) : Nat → Elem V → Summary
  | 0, _ => {}
  | n + 1, e => (Summary.single e.action).add (Summary.sum ((getChildren dc e.kids).map (summaryF dc n)))

/-- `DiffElement.summary()`, /repo/diffsync/diff.py:339-354. -/
def summary (dc : DiffClass V) (e : Elem V) : Summary := summaryF dc e.depth e
end Elem

/-- `DiffElement.dict()`, /repo/diffsync/diff.py:380-390: the optional `"-"` and `"+"` entries and the
children's dictionaries.  Simplification: a child type literally named `"+"` or `"-"` (which would
overwrite those entries) is kept apart. -/
structure ElemDict (V : Type) where
  minus : Option (Dict V)
  plus : Option (Dict V)
  kids : List (String × List (String × ElemDict V))

/-- `result[child.type][child.name] = d` on an `OrderedDefaultDict`, /repo/diffsync/diff.py:155. -/
def setDict2 (r : Dict (Dict (ElemDict V))) (t n : String) (d : ElemDict V) : Dict (Dict (ElemDict V)) :=
  Dict.set r t (Dict.set ((Dict.get? r t).getD []) n d)

/-- `Diff.dict()` / `DiffElement.dict()`, /repo/diffsync/diff.py:150-156, 380-390, to recursion depth `n`. -/
def dictF (dc : DiffClass V) : Nat → List (Elem V) → Dict (Dict (ElemDict V))
  | 0, _ => []
  | n + 1, kids =>
    ((getChildren dc kids).filter Elem.hasDiffs).foldl
      (fun r c => setDict2 r c.type c.name
        ⟨c.minus, c.plus, if Elem.hasDiffsL c.kids then dictF dc n c.kids else []⟩) []

namespace Diff
/-- `Diff.__len__`, /repo/diffsync/diff.py:42-47. -/
def len (d : Diff V) : Nat := ((getChildren d.cls d.kids).map (Elem.len d.cls)).sum
/-- `Diff.has_diffs()`, /repo/diffsync/diff.py:72-83. -/
def hasDiffs (d : Diff V) : Bool := Elem.hasDiffsL d.kids
/-- `Diff.summary()` without `skip`, /repo/diffsync/diff.py:110-121. -/
def summary (d : Diff V) : Summary := Summary.sum ((getChildren d.cls d.kids).map (Elem.summary d.cls))
/-- `Diff.summary()["skip"]`, /repo/diffsync/diff.py:122-130 (a Python integer, may be negative). -/
def skip (d : Diff V) : Int :=
  (d.processed : Int) - d.summary.create - 2 * d.summary.update - d.summary.delete - 2 * d.summary.noChange
/-- `Diff.dict()`, /repo/diffsync/diff.py:150-156. -/
def dict (d : Diff V) : Dict (Dict (ElemDict V)) := dictF d.cls (Elem.depthL d.kids) d.kids
/-- `Diff.add()`, /repo/diffsync/diff.py:56-66. -/
def add (d : Diff V) (e : Elem V) : Except Err Unit × Diff V :=
  match addElem d.kids e with
  | .ok ks => (.ok (), { d with kids := ks })
  | .error err => (.error err, d)
end Diff

end
end DS
