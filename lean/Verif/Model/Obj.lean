import Verif.Py.Val
import Verif.Model.Enum
import Verif.Model.Err
/-! # `DiffSyncModel` (/repo/diffsync/__init__.py:61-428) -/

namespace DS

/-- Which data store an adapter uses: an instance of `LocalStore` (by identity) or a `RedisStore` with a
given `store_id` on the (single) Redis server (/repo/diffsync/store/local.py:16-20,
/repo/diffsync/store/redis.py:27-58). -/
inductive StoreKind where
  | local (sid : Nat)
  | redis (storeId : String)
  deriving DecidableEq, Repr

/-- A reference to an `Adapter` instance, as held in `DiffSyncModel.adapter`
(/repo/diffsync/__init__.py:118): its identity and the store it uses (`Adapter.store`, 453-457). -/
structure AdRef where
  id : Nat
  store : StoreKind
  deriving DecidableEq, Repr

/-- A `DiffSyncModel` subclass: the class variables of /repo/diffsync/__init__.py:74-112 and its scalar
fields in declaration order with their defaults (`none`: required).  Child-list fields are those named
by `children` and default to `[]`.  Simplifications: fields that are neither scalar nor child lists, and
computed fields, are not modelled; child-list fields always have default `[]`. -/
structure ModelClass (V : Type) where
  /-- `_modelname`, 74 -/
  name : String
  /-- pydantic `model_fields` that hold scalar values -/
  fields : List (String × Option V)
  /-- `_identifiers`, 80 -/
  identifiers : List String
  /-- `_shortname`, 86 -/
  shortname : List String := []
  /-- `_attributes`, 93 -/
  attributes : List String := []
  /-- `_children`, 104 : model name ↦ field name -/
  children : Dict String := []
  /-- class-level default of `model_flags`, 112 -/
  defaultFlags : Nat := 0
  /-- the annotations of the scalar fields, as texts; `Any` for a field without -/
  types : Dict String := []
  deriving DecidableEq

/-- The data of a `DiffSyncModel` instance that diff and sync look at: class, scalar field values in
field order, child lists per child field, and `model_flags`. -/
structure Model (V : Type) where
  cls : ModelClass V
  vals : Dict V
  kids : Dict (List String)
  flags : Nat
  deriving DecidableEq

/-- A `DiffSyncModel` instance on the heap: its data plus `adapter` (118), `_status` (121) and
`_status_message` (124). -/
structure Obj (V : Type) where
  m : Model V
  adapter : Option AdRef := none
  status : Status := .success
  msg : String := ""
  deriving DecidableEq

/-- `get_status`, /repo/diffsync/__init__.py:376-378. -/
def Obj.getStatus {V : Type} (o : Obj V) : Status × String := (o.status, o.msg)

namespace ModelClass
variable {V : Type}

/-- Names of the scalar fields. -/
def fieldNames (c : ModelClass V) : List String := c.fields.map Prod.fst

/-- Names of the child-list fields. -/
def childFields (c : ModelClass V) : List String := Dict.values c.children

/-- `create_unique_id(**identifiers)`, /repo/diffsync/__init__.py:318-325; `none` is the `KeyError` for a
missing identifier. -/
def createUniqueId [PyVal V] (c : ModelClass V) (ids : Dict V) : Option String :=
  (traverse (fun k => Dict.get? ids k) c.identifiers).map (fun vs => joinSep "__" (vs.map PyVal.str))

/-- What pydantic makes of a value for a field (`BaseModel`, /repo/diffsync/__init__.py:61, 127): by the field's annotation; `none` if it
refuses the value. -/
def parse [PyVal V] (c : ModelClass V) (f : String) (v : V) : Option V :=
  match Dict.get? c.types f with
  | none => some v
  | some t => PyVal.parse t v

/-- The value of a field of a new instance: the parsed argument, or the default; `none` if there is none or it is refused. -/
def taken [PyVal V] (c : ModelClass V) (kw : Dict V) (f : String) (d : Option V) : Option V :=
  match Dict.get? kw f with
  | some v => c.parse f v
  | none => d

/-- `cls(**kwargs)`: pydantic's constructor as used by `create_base` (/repo/diffsync/__init__.py:222),
`load_from_dict` (571) and `get_or_instantiate` (/repo/diffsync/store/__init__.py:160).
A missing required field or a value that does not parse is a `ValidationError`; defaults are not parsed (pydantic's default
`validate_default=False`), unknown keywords are ignored (pydantic's default `extra='ignore'`).  Simplifications: child lists and flags
are not parsed; validators that look at several fields are not modelled. -/
def instantiate [PyVal V] (c : ModelClass V) (kw : Dict V) (kids : Dict (List String) := []) (flags : Option Nat := none) :
    Except Err (Model V) :=
  match traverse (fun p => (c.taken kw p.1 p.2).map (fun v => (p.1, v))) c.fields with
  | some vals =>
    .ok { cls := c, vals := vals,
          kids := Dict.ofList (c.childFields.map (fun f => (f, (Dict.get? kids f).getD []))),
          flags := flags.getD c.defaultFlags }
  | none => .error .validationError

/-- `cls(**ids, **attrs)`, /repo/diffsync/__init__.py:222, /repo/diffsync/store/__init__.py:160, 202: Python raises
`TypeError` for a keyword given twice. -/
def construct [PyVal V] (c : ModelClass V) (ids attrs : Dict V) : Except Err (Model V) :=
  if (Dict.keys attrs).any (fun k => (Dict.keys ids).contains k) then .error .typeError else c.instantiate (ids ++ attrs)

end ModelClass

/-- `__pydantic_init_subclass__`, /repo/diffsync/__init__.py:130-159: raises `AttributeError` for a
reference to a missing field or for a field in two of the three groups.  `fieldNames` are the names in
`model_fields`, `classAttrs` the other attributes of the class (138, `hasattr`). -/
def validateClass (fieldNames classAttrs identifiers shortname attributes : List String)
    (children : Dict String) : Except Err Unit :=
  if identifiers.any (fun a => !fieldNames.contains a && !classAttrs.contains a) then .error .attributeError
  else if shortname.any (fun a => !fieldNames.contains a) then .error .attributeError
  else if attributes.any (fun a => !fieldNames.contains a) then .error .attributeError
  else if (Dict.values children).any (fun a => !fieldNames.contains a) then .error .attributeError
  else if identifiers.any (fun a => attributes.contains a) then .error .attributeError
  else if identifiers.any (fun a => (Dict.values children).contains a) then .error .attributeError
  else if attributes.any (fun a => (Dict.values children).contains a) then .error .attributeError
  else .ok ()

namespace Model
variable {V : Type} [PyVal V]

/-- `get_type()`, /repo/diffsync/__init__.py:309-316. -/
def type (m : Model V) : String := m.cls.name

/-- `get_identifiers()`, /repo/diffsync/__init__.py:332-338: the identifier fields in field order. -/
def identifiers (m : Model V) : Dict V := m.vals.filter (fun p => m.cls.identifiers.contains p.1)

/-- `get_attrs()`, /repo/diffsync/__init__.py:340-351: the attribute fields in field order. -/
def attrs (m : Model V) : Dict V := m.vals.filter (fun p => m.cls.attributes.contains p.1)

/-- `str(getattr(self, key))`. -/
def strField (m : Model V) (k : String) : String :=
  match Dict.get? m.vals k with
  | some v => PyVal.str v
  | none => ""

/-- `get_unique_id()`, /repo/diffsync/__init__.py:353-361, which is
`create_unique_id(**get_identifiers())`.  Simplification: written directly on the field values, so the
`KeyError` of an identifier that is not a field does not appear; `Model.uid_eq_createUniqueId`
(Verif/Lemmas/Obj.lean) proves the two forms equal for every instance with all its fields. -/
def uid (m : Model V) : String := joinSep "__" (m.cls.identifiers.map m.strField)

/-- `get_shortname()`, /repo/diffsync/__init__.py:363-374. -/
def shortname (m : Model V) : String :=
  if m.cls.shortname.isEmpty then m.uid else joinSep "__" (m.cls.shortname.map m.strField)

/-- `getattr(self, child_fieldname)` for a child-list field; `none` is `AttributeError`. -/
def kidList (m : Model V) (f : String) : Option (List String) := Dict.get? m.kids f

/-- `setattr(self, attr, value)` on a scalar field; pydantic raises `ValueError` for an unknown field
(used by `update_base`, /repo/diffsync/__init__.py:260). -/
def setattr (m : Model V) (k : String) (v : V) : Except Err (Model V) :=
  if m.cls.fieldNames.contains k then .ok { m with vals := Dict.set m.vals k v } else .error .valueError

/-- The loop of `update_base`, /repo/diffsync/__init__.py:258-260.  Returns the object as it is when the
loop ends or raises, with the exception if any. -/
def setattrs (m : Model V) : Dict V → Model V × Option Err
  | [] => (m, none)
  | (k, v) :: d =>
    match m.setattr k v with
    | .ok m' => m'.setattrs d
    | .error e => (m, some e)

/-- `add_child(child)`, /repo/diffsync/__init__.py:380-405, given the child's type and unique id. -/
def addChild (m : Model V) (childType childUid : String) : Except Err (Model V) :=
  match Dict.get? m.cls.children childType with
  | none => .error .objectStoreWrongType
  | some f =>
    match m.kidList f with
    | none => .error .attributeError
    | some l => if l.contains childUid then .error .objectAlreadyExists
                else .ok { m with kids := Dict.set m.kids f (l ++ [childUid]) }

/-- `remove_child(child)`, /repo/diffsync/__init__.py:407-428, given the child's type and unique id. -/
def removeChild (m : Model V) (childType childUid : String) : Except Err (Model V) :=
  match Dict.get? m.cls.children childType with
  | none => .error .objectStoreWrongType
  | some f =>
    match m.kidList f with
    | none => .error .attributeError
    | some l => if l.contains childUid then .ok { m with kids := Dict.set m.kids f (l.erase childUid) }
                else .error .objectNotFound

/-- `dict() == other.dict()` (/repo/diffsync/__init__.py:169-173, /repo/diffsync/store/redis.py:172-174):
all fields except `adapter`.  -/
def dictEq (a b : Model V) : Bool :=
  Dict.pyEq a.vals b.vals && Dict.pyEqBy (fun x y => x == y) a.kids b.kids && a.flags == b.flags

end Model
end DS
