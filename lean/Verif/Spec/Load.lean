import Verif.Spec.Obj
import Verif.Spec.Store
import Verif.Spec.World
import Verif.Model.Adapter
/-! # What an instance is constructed from, and what `load_from_dict` adds -/

namespace DS
variable {V E : Type} [PyVal V]

/-- `m` is what `cls(**values)` gives: it has all scalar fields of the class and no others, each with what the class reads from the value given for it,
or with its default if none is given; its child lists and its flags are the given ones, or else empty and the class's default. -/
structure IsNew (c : ModelClass V) (v : ObjDict V) (m : Model V) : Prop where
  cls : m.cls = c
  keys : Dict.keys m.vals = c.fieldNames
  given : ∀ f x, f ∈ c.fieldNames → Dict.get? v.vals f = some x → ∃ y, c.reads f x = some y ∧ Dict.get? m.vals f = some y
  default : ∀ f d, (f, d) ∈ c.fields → Dict.get? v.vals f = none → ∃ y, d = some y ∧ Dict.get? m.vals f = some y
  kids_keys : ∀ f, f ∈ Dict.keys m.kids ↔ f ∈ c.childFields
  kids : ∀ f ∈ c.childFields, Dict.get? m.kids f = some ((Dict.get? v.kids f).getD [])
  flags : m.flags = v.flags.getD c.defaultFlags

/-- The entries of the data that the adapter takes, in order, each with its class: the top level types first, then the other declared types.
Entries of types that the adapter does not declare are passed over. -/
def toLoad (A : Adapter V) (data : Dict (Dict (ObjDict V))) : List (ModelClass V × ObjDict V) :=
  (A.topLevel ++ (Dict.keys A.classes).filter (fun t => !A.topLevel.contains t)).flatMap fun t =>
    match Dict.get? A.classes t, Dict.get? data t with
    | some c, some es => es.map (fun e => (c, e.2))
    | _, _ => []

/-- `D'` is `D` with the objects `ms` added, which are new and have distinct keys. -/
structure Adds (D : Snap V) (ms : List (Model V)) (D' : Snap V) : Prop where
  distinct : (ms.map (fun m => (m.type, m.uid))).Nodup
  fresh : ∀ m ∈ ms, D.find m.type m.uid = none
  stored : ∀ m ∈ ms, D'.find m.type m.uid = some m
  others : ∀ t u, (t, u) ∉ ms.map (fun m => (m.type, m.uid)) → D'.find t u = D.find t u

end DS
