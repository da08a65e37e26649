import Verif.Spec.Store
import Verif.Spec.Obj
import Verif.Spec.World
import Verif.Model.Adapter
/-! # Vocabulary for exporting and loading -/

namespace DS
variable {V E : Type} [PyVal V]

/-- `m'` is `m` again: same class, flags and child lists, and the same field values.  When fields equal to their defaults were left
out, a value may have been replaced by the default it is equal to. -/
structure Restored (excludeDefaults : Bool) (m m' : Model V) : Prop where
  cls : m'.cls = m.cls
  uid : m'.uid = m.uid
  flags : m'.flags = m.flags
  kids : ∀ f, m'.kidList f = m.kidList f
  keys : Dict.keys m'.vals = Dict.keys m.vals
  vals : ∀ f v, Dict.get? m.vals f = some v → ∃ v', Dict.get? m'.vals f = some v' ∧
    (v' = v ∨ (excludeDefaults = true ∧ PyVal.eq v v' = true ∧ Dict.get? m.cls.fields f = some (some v')))

/-- `m'` restores `m`, or there is nothing to restore. -/
def RestoredO (ed : Bool) : Option (Model V) → Option (Model V) → Prop
  | none, none => True
  | some m, some m' => Restored ed m m' ∧ m'.Complete
  | _, _ => False

/-- Two exports of an object are equal as Python dictionaries. -/
structure SameDict (a b : ObjDict V) : Prop where
  vals : ∀ f, Dict.get? a.vals f = Dict.get? b.vals f
  kids : ∀ f, Dict.get? a.kids f = Dict.get? b.kids f
  flags : a.flags = b.flags

/-- The two exports are both missing or both there and equal. -/
def SameEntry : Option (ObjDict V) → Option (ObjDict V) → Prop
  | none, none => True
  | some a, some b => SameDict a b
  | _, _ => False

/-- The export of one object in the export of an adapter. -/
def entry (data : Dict (Dict (ObjDict V))) (t u : String) : Option (ObjDict V) := (Dict.get? data t).bind (fun d => Dict.get? d u)

/-- Leaving out values equal to defaults is harmless: the default then equals itself, and, in an identifier, has the same string form. -/
def PlainDefaults (m : Model V) : Prop :=
  ∀ f v d, Dict.get? m.vals f = some v → Dict.get? m.cls.fields f = some (some d) → PyVal.eq v d = true →
    PyVal.eq d d = true ∧ (f ∈ m.cls.identifiers → PyVal.str d = PyVal.str v)

/-- The values of the object are taken as they are when they are given to its class again. -/
def Reparses (m : Model V) : Prop := ∀ f v, Dict.get? m.vals f = some v → m.cls.reads f v = some v

/-- Contents that can be exported and loaded: the objects are complete instances of the adapter's classes. -/
structure Exportable (A : Adapter V) (w : World V E) : Prop where
  ok : w.OK
  consistent : (snap A w).Consistent
  known : ∀ t u m, (snap A w).find t u = some m → Dict.get? A.classes t = some m.cls
  valid : ∀ t u m, (snap A w).find t u = some m → m.cls.Valid
  complete : ∀ t u m, (snap A w).find t u = some m → m.Complete
  plain : ∀ t u m, (snap A w).find t u = some m → PlainDefaults m
  parsed : ∀ t u m, (snap A w).find t u = some m → Reparses m

/-- Another adapter of the same class. -/
structure SameClass (A B : Adapter V) : Prop where
  classes : B.classes = A.classes
  topLevel : B.topLevel = A.topLevel
  top_nodup : A.topLevel.Nodup
  classes_wf : Dict.WF A.classes
  top_known : ∀ t ∈ A.topLevel, t ∈ Dict.keys A.classes

end DS
