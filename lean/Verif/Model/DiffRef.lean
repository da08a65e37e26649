import Verif.Model.Diff
import Verif.Model.Render
/-! # Diffs as objects (/repo/diffsync/diff.py)

`Verif/Model/Diff.lean` has diffs and elements as trees.  Here they are what they are in Python: objects that refer to each other, made and filled by `Diff()`,
`DiffElement(...)`, `add_attrs`, `add` and `add_child`; an element may be added in several places, or below itself.
Simplifications: the attributes `type`, `name`, ... are not assigned to after the element was made, and the dictionaries given to `add_attrs` are not changed
afterwards.  The class of all diffs is `Diff`, so that children come in the default order. -/

namespace DS
variable {V : Type} [PyVal V] {α β : Type}

/-- A `DiffElement` object, /repo/diffsync/diff.py:160-197; `diff` refers to its `child_diff`. -/
structure ElemObj (V : Type) where
  type : String
  name : String
  keys : Dict V
  srcName : String
  dstName : String
  src : Option (Dict V)
  dst : Option (Dict V)
  diff : Nat

/-- The element without its children. -/
def ElemObj.bare (x : ElemObj V) : Elem V := ⟨x.type, x.name, x.keys, x.srcName, x.dstName, x.src, x.dst, []⟩

/-- The objects there are: elements and diffs by reference.  A diff is its `children` dictionary, /repo/diffsync/diff.py:33-40: type, name, element. -/
structure DiffHeap (V : Type) where
  elem : Nat → ElemObj V
  nElem : Nat
  diff : Nat → Dict (Dict Nat)
  nDiff : Nat

/-- Assignment to one reference. -/
def assign (f : Nat → α) (i : Nat) (x : α) : Nat → α := fun j => if j = i then x else f j

namespace DiffHeap

/-- No objects. -/
def empty (V : Type) : DiffHeap V := ⟨fun _ => ⟨"", "", [], "", "", none, none, 0⟩, 0, fun _ => [], 0⟩

/-- `Diff()`, /repo/diffsync/diff.py:33-40; the reference is `nDiff` of before. -/
def newDiff (h : DiffHeap V) : DiffHeap V := { h with diff := assign h.diff h.nDiff [], nDiff := h.nDiff + 1 }

/-- `DiffElement(type, name, keys, source_name, dest_name)`, /repo/diffsync/diff.py:163-197; the reference is `nElem` of before.  The check that `type` and `name`
are strings is left out: they are. -/
def newElem (h : DiffHeap V) (type name : String) (keys : Dict V) (srcName : String := "source") (dstName : String := "dest") : DiffHeap V :=
  { elem := assign h.elem h.nElem ⟨type, name, keys, srcName, dstName, none, none, h.nDiff⟩, nElem := h.nElem + 1,
    diff := assign h.diff h.nDiff [], nDiff := h.nDiff + 1 }

/-- `add_attrs(source, dest)`, /repo/diffsync/diff.py:257-264. -/
def addAttrs (h : DiffHeap V) (e : Nat) (source dest : Option (Dict V)) : DiffHeap V :=
  { h with elem := assign h.elem e { h.elem e with src := source.or (h.elem e).src, dst := dest.or (h.elem e).dst } }

/-- `Diff.add(element)`, /repo/diffsync/diff.py:56-66.  `self.children[element.type]` makes the group if it is not there (`OrderedDefaultDict.__missing__`,
/repo/diffsync/utils.py:52-55). -/
def add (h : DiffHeap V) (d e : Nat) : Except Err Unit × DiffHeap V :=
  let g := (Dict.get? (h.diff d) (h.elem e).type).getD []
  if Dict.has g (h.elem e).name then
    (.error .objectAlreadyExists, { h with diff := assign h.diff d (Dict.set (h.diff d) (h.elem e).type g) })
  else
    (.ok (), { h with diff := assign h.diff d (Dict.set (h.diff d) (h.elem e).type (Dict.set g (h.elem e).name e)) })

/-- `DiffElement.add_child(element)`, /repo/diffsync/diff.py:307-312. -/
def addChild (h : DiffHeap V) (p e : Nat) : Except Err Unit × DiffHeap V := h.add (h.elem p).diff e

/-- `Diff.groups()`, /repo/diffsync/diff.py:68-70. -/
def groups (h : DiffHeap V) (d : Nat) : List String := Dict.keys (h.diff d)

/-- `Diff.get_children()`, /repo/diffsync/diff.py:85-108, and the order of the loop in `has_diffs`, 79-83. -/
def children (h : DiffHeap V) (d : Nat) : List Nat := (h.diff d).flatMap fun p => Dict.values p.2

/-- `DiffElement.get_children()`, /repo/diffsync/diff.py:314-316. -/
def kids (h : DiffHeap V) (e : Nat) : List Nat := h.children (h.elem e).diff

/-- `[f(x) for x in l]` where `f` may raise. -/
def each (f : Nat → Except Err α) : List Nat → Except Err (List α)
  | [] => .ok []
  | x :: xs =>
    match f x with
    | .error e => .error e
    | .ok y =>
      match each f xs with
      | .error e => .error e
      | .ok ys => .ok (y :: ys)

/-- `for x in l: if f(x): return True`, then `return False`, where `f` may raise. -/
def anyOf (f : Nat → Except Err Bool) : List Nat → Except Err Bool
  | [] => .ok false
  | x :: xs =>
    match f x with
    | .error e => .error e
    | .ok true => .ok true
    | .ok false => anyOf f xs

/-- `[x for x in l if f(x)]` where `f` may raise. -/
def those (f : Nat → Except Err Bool) : List Nat → Except Err (List Nat)
  | [] => .ok []
  | x :: xs =>
    match f x with
    | .error e => .error e
    | .ok b =>
      match those f xs with
      | .error e => .error e
      | .ok ys => .ok (if b then x :: ys else ys)

/-- `len(element)`, /repo/diffsync/diff.py:229-234; `n` is the number of nested calls that Python's recursion limit permits. -/
def len (h : DiffHeap V) : Nat → Nat → Except Err Nat
  | 0, _ => .error .recursionError
  | n + 1, e =>
    match each (len h n) (h.kids e) with
    | .error err => .error err
    | .ok l => .ok (1 + l.sum)

/-- `len(diff)`, /repo/diffsync/diff.py:42-47. -/
def lenDiff (h : DiffHeap V) (n d : Nat) : Except Err Nat :=
  match each (len h n) (h.children d) with
  | .error err => .error err
  | .ok l => .ok l.sum

/-- `element.has_diffs()`, /repo/diffsync/diff.py:318-337, with `Diff.has_diffs`, 72-83. -/
def hasDiffs (h : DiffHeap V) : Nat → Nat → Except Err Bool
  | 0, _ => .error .recursionError
  | n + 1, e => if (h.elem e).bare.hasDiffsOwn then .ok true else anyOf (hasDiffs h n) (h.kids e)

/-- `element.summary()`, /repo/diffsync/diff.py:339-354, with `Diff.summary`, 110-121. -/
def summary (h : DiffHeap V) : Nat → Nat → Except Err Summary
  | 0, _ => .error .recursionError
  | n + 1, e =>
    match each (summary h n) (h.kids e) with
    | .error err => .error err
    | .ok l => .ok ((Summary.single (h.elem e).bare.action).add (Summary.sum l))

/-- The lines that `Diff.str()` makes of its groups, /repo/diffsync/diff.py:136-144; `f` renders a child and `p` tells whether it has diffs.  Simplification: `p` is
asked for all children of a group before the first is rendered. -/
def lines (f : Nat → Except Err String) (p : Nat → Except Err Bool) (i : Nat) : Dict (Dict Nat) → Except Err (List String)
  | [] => .ok []
  | (g, cs) :: rest =>
    match those p (Dict.values cs) with
    | .error e => .error e
    | .ok xs =>
      match each f xs with
      | .error e => .error e
      | .ok ss =>
        match lines f p i rest with
        | .error e => .error e
        | .ok ls => .ok ((if ss.isEmpty then [] else (margin i ++ g) :: ss) ++ ls)

/-- `diff.str(indent)`, /repo/diffsync/diff.py:133-148; `f` renders a child. -/
def text (h : DiffHeap V) (f : Nat → Except Err String) (n i d : Nat) : Except Err String :=
  match lines f (h.hasDiffs n) i (h.diff d) with
  | .error e => .error e
  | .ok ls => .ok (if joinSep "\n" ls = "" then "(no diffs)" else joinSep "\n" ls)

/-- `element.str(indent)`, /repo/diffsync/diff.py:356-378. -/
def str (h : DiffHeap V) : Nat → Nat → Nat → Except Err String
  | 0, _, _ => .error .recursionError
  | n + 1, i, e =>
    match anyOf (h.hasDiffs n) (h.kids e) with
    | .error err => .error err
    | .ok true =>
      match h.text (str h n (i + 4)) n (i + 2) (h.elem e).diff with
      | .error err => .error err
      | .ok t => .ok (ownText (h.elem e).bare i ++ ("\n" ++ t))
    | .ok false => .ok (ownText (h.elem e).bare i ++ (if (h.elem e).src.isNone && (h.elem e).dst.isNone then " (no diffs)" else ""))

end DiffHeap
end DS
