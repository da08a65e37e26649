import Verif.Model.Obj
/-! # Vocabulary for statements about model classes and instances -/

namespace DS
variable {V : Type}

/-- A class as accepted by pydantic and by `__pydantic_init_subclass__`: scalar field names are distinct,
the class variables refer to fields, and no field plays two roles. -/
structure ModelClass.Valid (c : ModelClass V) : Prop where
  fields_nodup : c.fieldNames.Nodup
  children_nodup : (Dict.keys c.children).Nodup
  ids_fields : ∀ k ∈ c.identifiers, k ∈ c.fieldNames
  short_fields : ∀ k ∈ c.shortname, k ∈ c.fieldNames
  attrs_fields : ∀ k ∈ c.attributes, k ∈ c.fieldNames
  ids_attrs : ∀ k ∈ c.identifiers, k ∉ c.attributes

/-- What an instance holds in a field if it is constructed with a value for it: what the field's annotation makes of the value, or the value itself if
the field has no annotation; nothing if the annotation refuses it. -/
def ModelClass.reads [PyVal V] (c : ModelClass V) (f : String) (v : V) : Option V :=
  match Dict.get? c.types f with
  | some t => PyVal.parse t v
  | none => some v

/-- Instances made with these identifiers have identifiers that read the same: parsing leaves their texts as they are. -/
def ModelClass.KeepsIds [PyVal V] (c : ModelClass V) (ids : Dict V) : Prop :=
  ∀ f ∈ c.identifiers, ∀ v v', Dict.get? ids f = some v → c.reads f v = some v' → PyVal.str v' = PyVal.str v

/-- The value that a new instance has in a field: what the class makes of the identifier or attribute given for it, else the default. -/
def ModelClass.newValue [PyVal V] (c : ModelClass V) (ids attrs : Dict V) (f : String) (d : Option V) : Option V :=
  match (Dict.get? ids f).or (Dict.get? attrs f) with
  | some v => c.reads f v
  | none => d

/-- An instance has a value for exactly the scalar fields of its class and a list for exactly its
child fields. -/
structure Model.Complete (m : Model V) : Prop where
  vals_keys : Dict.keys m.vals = m.cls.fieldNames
  kids_wf : Dict.WF m.kids
  kids_keys : ∀ f, f ∈ Dict.keys m.kids ↔ f ∈ m.cls.childFields

end DS
