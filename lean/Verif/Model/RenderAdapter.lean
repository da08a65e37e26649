import Verif.Model.Render
import Verif.Model.Store
/-! # Text of models and adapters: `DiffSyncModel.str()` and `Adapter.str()` (/repo/diffsync/__init__.py:185-205, 544-558) -/

namespace DS

/-- Python's `str()` of a dictionary of attributes and of a list of ids, as used in f-strings
(/repo/diffsync/__init__.py:188, 195).  Arbitrary functions here: nothing depends on their format. -/
structure Reprs (V : Type) where
  attrs : Dict V → String
  ids : List String → String

section
variable {V E : Type} [PyVal V]

/-- The adapter object behind `DiffSyncModel.adapter`.  Only its store matters for a `get` with a unique id
(/repo/diffsync/__init__.py:199, 728-743). -/
def AdRef.adapter (a : AdRef) : Adapter V := ⟨a, "", [], []⟩

/-- The first line of `DiffSyncModel.str()`, /repo/diffsync/__init__.py:187-188. -/
def headText (R : Reprs V) (m : Model V) (i : Nat) : String :=
  margin i ++ m.type ++ ": " ++ m.uid ++ ": " ++ R.attrs m.attrs

/-- The line of a child field, /repo/diffsync/__init__.py:190. -/
def fieldText (f : String) (i : Nat) : String := "\n" ++ margin i ++ "  " ++ f

/-- The line of a child that is not found, /repo/diffsync/__init__.py:202. -/
def missingText (u : String) (i : Nat) : String := "\n" ++ margin i ++ "    " ++ u ++ " (ERROR: details unavailable)"

/-- One iteration of the inner loop of `DiffSyncModel.str()`, /repo/diffsync/__init__.py:197-202; `rec` is `child.str(…)`. -/
def childStr (rec : Obj V → M V E String) (a : AdRef) (i : Nat) (ct u : String) : M V E String :=
  M.tryCatch
    (do let r ← getRaw a.adapter ct u
        let c ← deref r
        let s ← rec c
        pure ("\n" ++ s))
    Err.isNotFound
    (fun _ => pure (missingText u i))

/-- One iteration of the outer loop of `DiffSyncModel.str()`, /repo/diffsync/__init__.py:189-202. -/
def fieldStr (R : Reprs V) (rec : Obj V → M V E String) (o : Obj V) (includeChildren : Bool) (i : Nat) (p : String × String) :
    M V E String :=
  let ids := (o.m.kidList p.2).getD []
  if ids.isEmpty then pure (fieldText p.2 i ++ ": []")
  else do
    let w ← M.read
    match o.adapter, adapterTruthy o.adapter w && includeChildren with
    | some a, true => do
      let ls ← M.mapEach (childStr rec a i p.1) ids
      pure (fieldText p.2 i ++ String.join ls)
    | _, _ => pure (fieldText p.2 i ++ ": " ++ R.ids ids)

/-- `DiffSyncModel.str(include_children, indent)`, /repo/diffsync/__init__.py:185-203, with recursion limit `n`.
The pieces appended to `output` are collected in lists. -/
def modelStr (R : Reprs V) : Nat → Obj V → Bool → Nat → M V E String
  | 0, _, _, _ => M.raise .recursionError
  | n + 1, o, includeChildren, i => do
    let parts ← M.mapEach (fieldStr R (fun c => modelStr R n c includeChildren (i + 4)) o includeChildren i) o.m.cls.children
    pure (headText R o.m i ++ String.join parts)

/-- One iteration of the inner loop of `Adapter.str()`, /repo/diffsync/__init__.py:556-557. -/
def modelLine (R : Reprs V) (n i : Nat) (r : Ref) : M V E String := do
  let o ← deref r
  let s ← modelStr R n o true (i + 2)
  pure ("\n" ++ s)

/-- One iteration of the loop of `Adapter.str()`, /repo/diffsync/__init__.py:551-557, without the separating newline. -/
def topStr (R : Reprs V) (A : Adapter V) (n i : Nat) (t : String) : M V E String := do
  let rs ← getAll A t
  if rs.isEmpty then pure (margin i ++ t ++ ": []")
  else do
    let ls ← M.mapEach (modelLine R n i) rs
    pure (margin i ++ t ++ String.join ls)

/-- `Adapter.str(indent)`, /repo/diffsync/__init__.py:544-558. -/
def adapterStr (R : Reprs V) (A : Adapter V) (n i : Nat) : M V E String := do
  let blocks ← M.mapEach (topStr R A n i) A.topLevel
  pure (blocks.foldl (fun output b => (if output = "" then "" else output ++ "\n") ++ b) "")

/-- `Adapter.__str__`, /repo/diffsync/__init__.py:498-502; `type` defaults to the class name (459-464). -/
def adapterName (type name : String) : String := if type ≠ name then type ++ " \"" ++ name ++ "\"" else type

end
end DS
