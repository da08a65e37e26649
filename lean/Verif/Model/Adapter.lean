import Verif.Model.Syncer
/-! # `Adapter` (/repo/diffsync/__init__.py:431-913) -/

namespace DS
variable {V E : Type} [PyVal V]

/-- `not diff` / `if diff`: `Diff` defines `__len__` (/repo/diffsync/diff.py:42), so an empty diff is false. -/
def Diff.truthy (d : Diff V) : Bool := d.len != 0

/-- The class check of `sync_from`, /repo/diffsync/__init__.py:600-604. -/
def checkDiffClass (dc : DiffClass V) (diff : Option (Diff V)) : M V E Unit :=
  match diff with
  | some d => if d.truthy && !d.cls.bases.contains dc.id then M.raise .diffClassMismatch else pure ()
  | none => pure ()

/-- The diff `sync_from` uses, /repo/diffsync/__init__.py:606-608. -/
def chooseDiff (n : Nat) (dst src : Adapter V) (dc : DiffClass V) (flags : Nat) (diff : Option (Diff V)) : M V E (Diff V) :=
  match diff with
  | some d => if d.truthy then pure d else diffFrom n dst src dc flags
  | none => diffFrom n dst src dc flags

/-- `Adapter.sync_from`, /repo/diffsync/__init__.py:577-620; `n` and `rlimit` are recursion limits. -/
def syncFrom (n rlimit : Nat) (hooks : Hooks V E) (dst src : Adapter V) (dc : DiffClass V) (flags : Nat)
    (diff : Option (Diff V)) : M V E (Diff V) := do
  checkDiffClass dc diff
  let d ← chooseDiff n dst src dc flags diff
  let changed ← performSync ⟨src, dst, flags, d.cls, hooks, rlimit⟩ n d
  if changed then M.emit (.syncComplete dst.ref.id src.ref.id) else pure ()
  pure d

/-- `Adapter.sync_to`, /repo/diffsync/__init__.py:622-645. -/
def syncTo (n rlimit : Nat) (hooks : Hooks V E) (self target : Adapter V) (dc : DiffClass V) (flags : Nat)
    (diff : Option (Diff V)) : M V E (Diff V) :=
  syncFrom n rlimit hooks target self dc flags diff

/-- `_get_initial_value_order`, /repo/diffsync/__init__.py:512-530. -/
def valueOrder (A : Adapter V) : List String :=
  A.topLevel ++ (Dict.keys A.classes).filter (fun k => !A.topLevel.contains k)

/-- What `obj.dict(exclude_defaults=…)` exports of one object (/repo/diffsync/__init__.py:169-173, 542): scalar
fields, child lists, and `model_flags` if present. -/
structure ObjDict (V : Type) where
  vals : Dict V
  kids : Dict (List String)
  flags : Option Nat

/-- `obj.dict(exclude_defaults=…)`, /repo/diffsync/__init__.py:169-173 (pydantic's `model_dump`): with
`exclude_defaults`, a field equal to its default is left out. -/
def Model.toDict (m : Model V) (excludeDefaults : Bool) : ObjDict V :=
  if excludeDefaults then
    { vals := m.vals.filter (fun p => match Dict.get? m.cls.fields p.1 with
        | some (some d) => !PyVal.eq p.2 d
        | _ => true)
      kids := m.kids.filter (fun p => !p.2.isEmpty)
      flags := if m.flags = m.cls.defaultFlags then none else some m.flags }
  else { vals := m.vals, kids := m.kids, flags := some m.flags }

/-- The inner loop of `Adapter.dict`, /repo/diffsync/__init__.py:541-542; `KeyError` if the object's type is not yet a
key of `data`. -/
def dictModels (ed : Bool) : List (Model V) → Dict (Dict (ObjDict V)) → Except Err (Dict (Dict (ObjDict V)))
  | [], data => .ok data
  | m :: ms, data =>
    match Dict.get? data m.type with
    | none => .error .keyError
    | some d => dictModels ed ms (Dict.set data m.type (Dict.set d m.uid (m.toDict ed)))

/-- The outer loop of `Adapter.dict`, /repo/diffsync/__init__.py:539-542. -/
def dictNames (A : Adapter V) (ed : Bool) : List String → Dict (Dict (ObjDict V)) → M V E (Dict (Dict (ObjDict V)))
  | [], data => pure data
  | t :: ts, data => do
    let ms ← getAllModels A t
    let data' ← M.ofExcept (dictModels ed ms (Dict.set data t []))
    dictNames A ed ts data'

/-- `Adapter.dict`, /repo/diffsync/__init__.py:536-543. -/
def adapterDict (A : Adapter V) (ed : Bool) : M V E (Dict (Dict (ObjDict V))) := do
  let names ← getAllModelNames A
  dictNames A ed names []

/-- `self.add(model_class(**values))`, /repo/diffsync/__init__.py:571. -/
def loadOne (A : Adapter V) (c : ModelClass V) (v : ObjDict V) : M V E Unit := do
  let m ← M.ofExcept (c.instantiate v.vals v.kids v.flags)
  let r ← alloc { m := m }
  add A r

/-- `Adapter.load_from_dict`, /repo/diffsync/__init__.py:561-571. -/
def loadFromDict (A : Adapter V) (data : Dict (Dict (ObjDict V))) : M V E Unit :=
  M.forEach (fun t => do
    let c ← M.ofOption .attributeError (Dict.get? A.classes t)
    M.forEach (loadOne A c) (Dict.values ((Dict.get? data t).getD []))) (valueOrder A)

/-- The loop over children of `get_tree_traversal`, /repo/diffsync/__init__.py:812-815. -/
def treeChildren (key : String) : List String → Dict NVal → Option (Dict NVal)
  | [], d => some d
  | c :: cs, d => (setKey ((getPath key d).getD [key] ++ [c]) d).bind (treeChildren key cs)

/-- The outer loop of `get_tree_traversal`, /repo/diffsync/__init__.py:806-815. -/
def treeKeys (A : Adapter V) : List String → Dict NVal → Option (Dict NVal)
  | [], d => some d
  | k :: ks, d =>
    (if (getPath k d).isNone then setKey [k] d else some d).bind fun d =>
    (treeChildren k ((Dict.get? A.classes k).elim [] (fun c => Dict.keys c.children)) d).bind (treeKeys A ks)

/-- `get_tree_traversal(as_dict=True)`, /repo/diffsync/__init__.py:794-817. -/
def treeTraversal (A : Adapter V) : Option (Dict NVal) := treeKeys A (valueOrder A) []

end DS
