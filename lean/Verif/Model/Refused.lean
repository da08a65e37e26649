import Verif.Model.Syncer
import Verif.Model.DiffRef
/-! # Exceptions with their `existing_object`

Elsewhere an exception is only its class (`Err`).  `ObjectAlreadyExists` has an attribute besides, the object given to its constructor.  Here are the functions that raise it,
with this attribute; that they are otherwise the functions of the other files is proved (`C96_add_same`, ...). -/

namespace DS
variable {V E : Type} [PyVal V]

/-- An exception: its class, and the attribute `existing_object` if it has one (/repo/diffsync/exceptions.py:45-51).  Objects and elements are references. -/
structure Thrown where
  kind : Err
  existing : Option Nat

/-- `ObjectAlreadyExists(message, existing_object)`, /repo/diffsync/exceptions.py:48-51.  The message is left out. -/
def alreadyExists (existing : Nat) : Thrown := ⟨.objectAlreadyExists, some existing⟩

/-- The exception without the attribute. -/
def forget {α : Type} : Except Thrown α → Except Err α
  | .ok a => .ok a
  | .error x => .error x.kind

/-- `LocalStore.add(obj=...)`, /repo/diffsync/store/local.py:91-113. -/
def addLocalX (A : Adapter V) (sid : Nat) (r : Ref) (w : World V E) : Except Thrown Unit × World V E :=
  let o := w.heap r
  let d := (Dict.get? (touch (w.loc sid) o.m.type) o.m.type).getD []
  let w1 := w.setLoc sid (touch (w.loc sid) o.m.type)
  match Dict.get? d o.m.uid with
  | some existing => if existing ≠ r then (.error (alreadyExists r), w1) else (.ok (), w1)
  | none =>
    let w2 := if adapterTruthy o.adapter w1 then w1 else w1.setObj r { o with adapter := some A.ref }
    (.ok (), w2.setLoc sid (Dict.set (w2.loc sid) o.m.type (Dict.set d o.m.uid r)))

/-- `RedisStore.add(obj=...)`, /repo/diffsync/store/redis.py:154-184. -/
def addRedisX (sid : String) (r : Ref) (w : World V E) : Except Thrown Unit × World V E :=
  let o := w.heap r
  let key := redisKey sid o.m.type o.m.uid
  match Dict.get? w.redis key with
  | some existing => if !existing.m.dictEq o.m then (.error (alreadyExists r), w) else (.ok (), w)
  | none => (.ok (), { w with redis := Dict.set w.redis key { o with adapter := none } })

/-- `Adapter.add(obj)`, /repo/diffsync/__init__.py:820-829. -/
def addX (A : Adapter V) (r : Ref) (w : World V E) : Except Thrown Unit × World V E :=
  match A.ref.store with
  | .local sid => addLocalX A sid r w
  | .redis sid => addRedisX sid r w

/-- `parent.add_child(child)`, /repo/diffsync/__init__.py:380-405. -/
def addChildX (parent child : Ref) (w : World V E) : Except Thrown Unit × World V E :=
  let p := w.heap parent
  let c := w.heap child
  match Dict.get? p.m.cls.children c.m.type with
  | none => (.error ⟨.objectStoreWrongType, none⟩, w)
  | some f =>
    match p.m.kidList f with
    | none => (.error ⟨.attributeError, none⟩, w)
    | some l =>
      if l.contains c.m.uid then (.error (alreadyExists child), w)
      else (.ok (), w.setObj parent { p with m := { p.m with kids := Dict.set p.m.kids f (l ++ [c.m.uid]) } })

/-- `Diff.add(element)`, /repo/diffsync/diff.py:56-66. -/
def DiffHeap.addX (h : DiffHeap V) (d e : Nat) : Except Thrown Unit × DiffHeap V :=
  let g := (Dict.get? (h.diff d) (h.elem e).type).getD []
  let h1 := { h with diff := assign h.diff d (Dict.set (h.diff d) (h.elem e).type g) }
  if Dict.has g (h.elem e).name then (.error (alreadyExists e), h1)
  else (.ok (), { h with diff := assign h.diff d (Dict.set (h.diff d) (h.elem e).type (Dict.set g (h.elem e).name e)) })

end DS
