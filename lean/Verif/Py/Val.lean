import Verif.Py.Dict
/-!
# Python values, strings

Attribute and identifier values are opaque.  Only two operations of the language are used on them by
diffsync: `==` and `str()`; and pydantic parses them when an instance is made.
-/

namespace DS

/-- What diffsync uses of Python values: `==` (/repo/diffsync/diff.py:250, 293, 298, 330) and `str()`
(/repo/diffsync/__init__.py:325, 373); and what pydantic (`BaseModel`, 61) makes of a value given to the constructor for a field with an
annotation, the text of which is the first argument: `none` stands for a refused value.  `eq` is *not* assumed reflexive (`float('nan')`),
symmetric or transitive, nor `parse` idempotent; theorems needing such laws say so. -/
class PyVal (V : Type) where
  eq : V → V → Bool
  str : V → String
  parse : String → V → Option V := fun _ v => some v

/-- Python `==` is reflexive on these values (false of NaN). -/
class PyVal.Refl (V : Type) [PyVal V] : Prop where
  eq_refl : ∀ v : V, PyVal.eq v v = true

/-- Python `==` is an equivalence relation on these values. -/
class PyVal.Equiv (V : Type) [PyVal V] : Prop extends PyVal.Refl V where
  eq_symm : ∀ v w : V, PyVal.eq v w = true → PyVal.eq w v = true
  eq_trans : ∀ u v w : V, PyVal.eq u v = true → PyVal.eq v w = true → PyVal.eq u w = true

/-- `sep.join(parts)` (used with `"__"`, /repo/diffsync/__init__.py:325, 373). -/
def joinSep (sep : String) : List String → String
  | [] => ""
  | [s] => s
  | s :: t :: rest => s ++ (sep ++ joinSep sep (t :: rest))

/-- `[f(a) for a in l]` where `f` may raise (`none`). -/
def traverse {α β : Type} (f : α → Option β) : List α → Option (List β)
  | [] => some []
  | a :: l =>
    match f a with
    | none => none
    | some b => (traverse f l).map (fun bs => b :: bs)

/-- Python `d == e` for dictionaries with string keys: same keys, equal values, order irrelevant
(/repo/diffsync/helpers.py:160, /repo/diffsync/diff.py:216-218, /repo/diffsync/store/redis.py:174).
Simplification: CPython's identity shortcut for values (`is` before `==`) is not modelled. -/
def Dict.pyEqBy {α : Type} (eq : α → α → Bool) (d e : Dict α) : Bool :=
  d.length == e.length &&
    d.all (fun p => match Dict.get? e p.1 with
      | some w => eq p.2 w
      | none => false)

/-- `d == e` for dictionaries of opaque values. -/
def Dict.pyEq {V : Type} [PyVal V] (d e : Dict V) : Bool := Dict.pyEqBy PyVal.eq d e

/-- `a == b` for `Optional[Dict]`. -/
def optDictEq {V : Type} [PyVal V] : Option (Dict V) → Option (Dict V) → Bool
  | none, none => true
  | some d, some e => Dict.pyEq d e
  | _, _ => false

end DS
