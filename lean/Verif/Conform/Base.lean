import Verif.Model.Concrete
import Verif.Model.RenderAdapter
import Verif.Model.Init
/-!
# The fixtures of the project's own unit tests (/repo/tests/unit/conftest.py)

The modules under `Verif/Conform` transcribe unit tests of the project, with the results the tests expect, and let the kernel evaluate them
on the model.  They are *tests of the model*, not proofs of properties: they say that the model does what the code is tested to do.
-/

namespace DS.Conf

/-- The Python values that the tests use for fields: strings, `None` and lists of strings. -/
inductive TV where
  | s (x : String)
  | none
  | list (l : List String)
  deriving DecidableEq, Repr

/-- `repr()` of a string without quotes and backslashes. -/
def quote (s : String) : String := "'" ++ s ++ "'"

/-- `str()` of a list of such strings. -/
def listStr (l : List String) : String := "[" ++ joinSep ", " (l.map quote) ++ "]"

instance : PyVal TV where
  eq a b := decide (a = b)
  str
    | .s x => x
    | .none => "None"
    | .list l => listStr l
  parse t v := match t, v with
    | "str", .s x => some (.s x)
    | "str", _ => Option.none
    | _, v => some v

/-- `repr()` of a value. -/
def TV.repr : TV → String
  | .s x => quote x
  | .none => "None"
  | .list l => listStr l

/-- `str()` of a dictionary of values and of a list of ids. -/
def reprs : Reprs TV where
  attrs d := "{" ++ joinSep ", " (d.map (fun p => quote p.1 ++ ": " ++ p.2.repr)) ++ "}"
  ids := listStr

/-! ## Model classes -/

/-- `Site`, conftest.py:86-94. -/
def Site : ModelClass TV where
  name := "site"
  fields := [("name", none)]
  identifiers := ["name"]
  children := [("device", "devices")]
  types := [("name", "str")]

/-- `Device`, conftest.py:110-121. -/
def Device : ModelClass TV where
  name := "device"
  fields := [("name", none), ("site_name", some .none), ("role", none)]
  identifiers := ["name"]
  attributes := ["role"]
  children := [("interface", "interfaces")]
  types := [("name", "str"), ("role", "str")]

/-- `Interface`, conftest.py:135-147. -/
def Interface : ModelClass TV where
  name := "interface"
  fields := [("device_name", none), ("name", none), ("interface_type", some (.s "ethernet")), ("description", some .none)]
  identifiers := ["device_name", "name"]
  shortname := ["name"]
  attributes := ["interface_type", "description"]
  types := [("device_name", "str"), ("name", "str"), ("interface_type", "str")]

/-- `UnusedModel`, conftest.py:167-173. -/
def Unused : ModelClass TV where
  name := "unused"
  fields := [("name", none)]
  identifiers := ["name"]

/-- `SiteA`, conftest.py:205-210. -/
def SiteA : ModelClass TV := { Site with children := [("device", "devices"), ("person", "people")] }

/-- `DeviceA`, conftest.py:213-218. -/
def DeviceA : ModelClass TV := { Device with fields := Device.fields ++ [("tag", some (.s ""))], attributes := ["role", "tag"] }

/-- `PersonA`, conftest.py:221-227. -/
def PersonA : ModelClass TV where
  name := "person"
  fields := [("name", none)]
  identifiers := ["name"]

/-- `SiteB`, conftest.py:347-352. -/
def SiteB : ModelClass TV := { Site with children := [("device", "devices"), ("place", "places")] }

/-- `DeviceB`, conftest.py:355-360. -/
def DeviceB : ModelClass TV := { Device with fields := Device.fields ++ [("vlans", some (.list []))], attributes := ["role", "vlans"] }

/-- `PlaceB`, conftest.py:363-369. -/
def PlaceB : ModelClass TV where
  name := "place"
  fields := [("name", none)]
  identifiers := ["name"]

/-- `DiffSyncModel` itself. -/
def Generic : ModelClass TV where
  name := "diffsyncmodel"
  fields := []
  identifiers := []

/-! ## Adapters and their data -/

/-- An instance of `BackendA` (conftest.py:230-257) with its own local store. -/
def backendA (k : Nat) : Adapter TV where
  ref := ⟨k, .local k⟩
  name := adapterNamed "BackendA" none none
  topLevel := ["site", "unused"]
  classes := [("device", DeviceA), ("interface", Interface), ("person", PersonA), ("site", SiteA), ("unused", Unused)]

/-- An instance of `BackendB` (conftest.py:372-401). -/
def backendB (k : Nat) : Adapter TV where
  ref := ⟨k, .local k⟩
  name := adapterNamed "BackendB" (some "Backend_B") (some "backend-b")
  topLevel := ["site", "unused"]
  classes := [("device", DeviceB), ("interface", Interface), ("place", PlaceB), ("site", SiteB), ("unused", Unused)]

/-- `Adapter()`. -/
def generic (k : Nat) : Adapter TV where
  ref := ⟨k, .local k⟩
  name := adapterNamed "Adapter" none none
  topLevel := []
  classes := []

/-- What `DATA` holds: sites, their devices with role and interfaces, and the descriptions of these. -/
abbrev Data := Dict (Dict (String × Dict String))

/-- The interfaces that most devices have. -/
def two : Dict String := [("eth0", "Interface 0"), ("eth1", "Interface 1")]

/-- `BackendA.DATA`, conftest.py:237-250. -/
def dataA : Data :=
  [("nyc", [("nyc-spine1", "spine", two), ("nyc-spine2", "spine", two)]),
   ("sfo", [("sfo-spine1", "spine", two),
            ("sfo-spine2", "spine", [("eth0", "TBD"), ("eth1", "ddd"), ("eth2", "Interface 2")])]),
   ("rdu", [("rdu-spine1", "spine", two), ("rdu-spine2", "spine", two)])]

/-- `BackendB.DATA`, conftest.py:381-394. -/
def dataB : Data :=
  [("nyc", [("nyc-spine1", "spine", [("eth0", "Interface 0/0"), ("eth1", "Interface 1")]), ("nyc-spine2", "spine", two)]),
   ("sfo", [("sfo-spine1", "leaf", two),
            ("sfo-spine2", "spine", [("eth0", "TBD"), ("eth1", "ddd"), ("eth3", "Interface 3")])]),
   ("atl", [("atl-spine1", "spine", two), ("atl-spine2", "spine", two)])]

section
variable {E : Type}

/-- `adapter.<type>(**kwargs)`: an instance of the class that the adapter has for a model name. -/
def new (A : Adapter TV) (t : String) (kw : Dict TV) : M TV E Ref := do
  let c ← M.ofOption .attributeError (Dict.get? A.classes t)
  let m ← M.ofExcept (c.instantiate kw)
  alloc { m := m }

/-- `cls(**kwargs)`. -/
def newOf (c : ModelClass TV) (kw : Dict TV) : M TV E Ref := do
  let m ← M.ofExcept (c.instantiate kw)
  alloc { m := m }

/-- `GenericBackend.load`, conftest.py:188-202. -/
def loadData (A : Adapter TV) (data : Data) : M TV E Unit :=
  M.forEach (fun s => do
    let site ← new A "site" [("name", .s s.1)]
    add A site
    M.forEach (fun d => do
      let dev ← new A "device" [("name", .s d.1), ("role", .s d.2.1), ("site_name", .s s.1)]
      add A dev
      addChildRef site dev
      M.forEach (fun i => do
        let intf ← new A "interface" [("name", .s i.1), ("device_name", .s d.1), ("description", .s i.2)]
        add A intf
        addChildRef dev intf) d.2.2) s.2) data

/-- `BackendA.load`, conftest.py:252-257. -/
def loadA (A : Adapter TV) : M TV E Unit := do
  loadData A dataA
  let p ← new A "person" [("name", .s "Glenn Matthews")]
  add A p
  let s ← get A (.name "site") (.uid "rdu")
  addChildRef s p

/-- `BackendB.load`, conftest.py:396-401. -/
def loadB (A : Adapter TV) : M TV E Unit := do
  loadData A dataB
  let p ← new A "place" [("name", .s "Statue of Liberty")]
  add A p
  let s ← get A (.name "site") (.uid "nyc")
  addChildRef s p

/-- `backend_a_with_extra_models`, conftest.py:269-278. -/
def loadExtra (A : Adapter TV) : M TV E Unit := do
  loadA A
  let s ← new A "site" [("name", .s "lax")]
  add A s
  let d ← new A "device" [("name", .s "nyc-spine3"), ("site_name", .s "nyc"), ("role", .s "spine")]
  let nyc ← get A (.cls SiteA) (.uid "nyc")
  addChildRef nyc d
  add A d

/-- `backend_a_minus_some_models`, conftest.py:282-290. -/
def loadMinus (A : Adapter TV) : M TV E Unit := do
  loadA A
  let rdu ← get A (.cls SiteA) (.uid "rdu")
  remove A 9 rdu false
  let d ← get A (.cls DeviceA) (.uid "sfo-spine2")
  let sfo ← get A (.cls SiteA) (.uid "sfo")
  removeChildRef sfo d
  remove A 9 d false

/-- `obj.model_flags |= flag` on a stored object. -/
def setFlag (A : Adapter TV) (t u : String) (flag : Nat) : M TV E Unit := do
  let r ← get A (.name t) (.uid u)
  let o ← deref r
  writeObj r { o with m := { o.m with flags := o.m.flags ||| flag } }

/-- The world before anything was made. -/
def blank (env : E) : World TV E := Ex.world0 TV E env

/-- What a test computes from an empty world. -/
def result {α : Type} (env : E) (x : M TV E α) : Except Err α := (x (blank env)).1

/-- The exception that a test expects. -/
def raised {α : Type} (env : E) (x : M TV E α) : Option Err :=
  match (x (blank env)).1 with
  | .ok _ => none
  | .error e => some e

/-- `diff_from`, called on the destination. -/
def diff (dst src : Adapter TV) (flags : Nat := 0) : M TV E (Diff TV) := diffFrom 9 dst src (DiffClass.default _) flags

/-- `sync_from`, called on the destination, with user code `h`. -/
def sync (h : Hooks TV E) (dst src : Adapter TV) (flags : Nat := 0) : M TV E (Diff TV) :=
  syncFrom 9 9 h dst src (DiffClass.default _) flags none

/-- `diff.summary()`: create, update, delete, no-change, skip. -/
def counts (d : Diff TV) : Nat × Nat × Nat × Nat × Int :=
  (d.summary.create, d.summary.update, d.summary.delete, d.summary.noChange, d.skip)

/-- Whether `get` finds an object. -/
def has (A : Adapter TV) (t u : String) : M TV E Bool := do
  let r ← getOrNone A (.name t) (.uid u)
  pure r.isSome

/-- A field of a stored object. -/
def field (A : Adapter TV) (t u f : String) : M TV E (Option TV) := do
  let r ← get A (.name t) (.uid u)
  let o ← deref r
  pure (Dict.get? o.m.vals f)

/-- A child list of a stored object. -/
def kids (A : Adapter TV) (t u f : String) : M TV E (Option (List String)) := do
  let r ← get A (.name t) (.uid u)
  let o ← deref r
  pure (o.m.kidList f)

/-- The unique ids that `get_all` yields. -/
def uids (A : Adapter TV) (t : String) : M TV E (List String) := do
  let rs ← getAll A t
  M.mapEach (fun r => do let o ← deref r; pure o.m.uid) rs

end

/-- User code that is not overridden. -/
abbrev plain : Hooks TV Unit := Hooks.default TV Unit

end DS.Conf
