/-!
# Python dictionaries

`Dict α` models a Python `dict` with string keys: an association list in insertion order.  The
lookup, update and delete operations are those of the language (used e.g. by
`/repo/diffsync/store/local.py:20`, `/repo/diffsync/diff.py:35`, `/repo/diffsync/helpers.py:114`).
-/

namespace DS

/-- A Python `dict` with `str` keys, in insertion order (PEP 468 / CPython ≥ 3.7 semantics;
used for `LocalStore._data`, /repo/diffsync/store/local.py:20, `_children`,
/repo/diffsync/__init__.py:104, attribute dictionaries, /repo/diffsync/diff.py:195-196). -/
abbrev Dict (α : Type) := List (String × α)

namespace Dict
variable {α β : Type}

/-- `d.get(x)` (e.g. /repo/diffsync/store/local.py:103): first (only) entry for `x`. -/
def get? : Dict α → String → Option α
  | [], _ => none
  | (k, v) :: d, x => if k = x then some v else get? d x

/-- `d[x] = v` (e.g. /repo/diffsync/store/local.py:113): replaces in place or appends at the end. -/
def set : Dict α → String → α → Dict α
  | [], x, v => [(x, v)]
  | (k, w) :: d, x, v => if k = x then (k, v) :: d else (k, w) :: set d x v

/-- `del d[x]` (e.g. /repo/diffsync/store/local.py:134); no-op if absent (callers check). -/
def erase (d : Dict α) (x : String) : Dict α := d.filter (fun p => !decide (p.1 = x))

/-- `list(d.keys())`. -/
def keys (d : Dict α) : List String := d.map Prod.fst

/-- `list(d.values())` (e.g. /repo/diffsync/store/local.py:65). -/
def values (d : Dict α) : List α := d.map Prod.snd

/-- `x in d` (e.g. /repo/diffsync/store/local.py:47). -/
def has (d : Dict α) (x : String) : Bool := (get? d x).isSome

/-- Dictionary display / comprehension: later entries overwrite earlier ones in place
(e.g. /repo/diffsync/helpers.py:114). -/
def ofList (l : List (String × α)) : Dict α := l.foldl (fun d p => set d p.1 p.2) []

/-- Keys are pairwise distinct: holds of every dictionary built by `set`/`erase`. -/
def WF (d : Dict α) : Prop := (keys d).Nodup

end Dict
end DS
