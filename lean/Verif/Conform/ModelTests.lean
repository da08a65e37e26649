import Verif.Conform.Base
/-! # /repo/tests/unit/test_diffsync_model.py -/

namespace DS.Conf

set_option synthInstance.maxHeartbeats 400000
set_option synthInstance.maxSize 1024

/-- `make_site()`, conftest.py:98-107. -/
def site1 : Model TV := ⟨Site, [("name", .s "site1")], [("devices", [])], 0⟩
/-- `make_device()`, conftest.py:125-132. -/
def device1 : Model TV := ⟨Device, [("name", .s "device1"), ("site_name", .s "site1"), ("role", .s "default")], [("interfaces", [])], 0⟩
/-- `make_interface()`, conftest.py:151-158. -/
def device1_eth0 : Model TV :=
  ⟨Interface, [("device_name", .s "device1"), ("name", .s "eth0"), ("interface_type", .s "ethernet"), ("description", .none)], [], 0⟩
/-- `generic_diffsync_model`, conftest.py:28-30. -/
def genericModel : Model TV := ⟨Generic, [], [], 0⟩

-- the constructors make these instances
example : Site.instantiate [("name", .s "site1")] [("devices", [])] = .ok site1 ∧
    Device.instantiate [("name", .s "device1"), ("site_name", .s "site1"), ("role", .s "default")] = .ok device1 ∧
    Interface.instantiate [("device_name", .s "device1"), ("name", .s "eth0")] = .ok device1_eth0 ∧
    Generic.instantiate [] = .ok genericModel := by decide +kernel

-- test_generic_diffsync_model_methods, test_diffsync_model_dict_with_no_data, test_diffsync_model_str_with_no_data
example : genericModel.uid = "" ∧ genericModel.type = "diffsyncmodel" ∧ genericModel.identifiers = [] ∧ genericModel.attrs = [] ∧
    genericModel.shortname = "" ∧ genericModel.addChild site1.type site1.uid = .error .objectStoreWrongType ∧
    headText reprs genericModel 0 = "diffsyncmodel: : {}" := by decide +kernel

-- test_diffsync_model_subclass_getters
example : site1.uid = "site1" ∧ device1.uid = "device1" ∧ device1_eth0.uid = "device1__eth0" ∧
    site1.type = "site" ∧ device1.type = "device" ∧ device1_eth0.type = "interface" := by decide +kernel
example : site1.identifiers = [("name", .s "site1")] ∧ device1.identifiers = [("name", .s "device1")] ∧
    device1_eth0.identifiers = [("device_name", .s "device1"), ("name", .s "eth0")] := by decide +kernel
example : site1.attrs = [] ∧ device1.attrs = [("role", .s "default")] ∧
    device1_eth0.attrs = [("interface_type", .s "ethernet"), ("description", .none)] ∧
    site1.shortname = "site1" ∧ device1.shortname = "device1" ∧ device1_eth0.shortname = "eth0" := by decide +kernel

-- test_diffsync_model_dict_with_data, test_diffsync_model_json_with_data (which omits defaults)
example : (device1_eth0.toDict false).vals =
      [("device_name", .s "device1"), ("name", .s "eth0"), ("interface_type", .s "ethernet"), ("description", .none)] ∧
    (device1_eth0.toDict false).flags = some 0 ∧
    (device1_eth0.toDict true).vals = [("device_name", .s "device1"), ("name", .s "eth0")] ∧
    (device1_eth0.toDict true).flags = none := by decide +kernel

-- test_diffsync_model_str_with_data
example : headText reprs device1_eth0 0 = "interface: device1__eth0: {'interface_type': 'ethernet', 'description': None}" := by decide +kernel

/-- The child list of a model after a successful call. -/
def listAfter (m : Except Err (Model TV)) (f : String) : Except Err (Option (List String)) := m.map (fun m => m.kidList f)

-- test_diffsync_model_subclass_add_remove
example : site1.kidList "devices" = some [] ∧
    listAfter (site1.addChild device1.type device1.uid) "devices" = .ok (some ["device1"]) ∧
    site1.addChild device1_eth0.type device1_eth0.uid = .error .objectStoreWrongType := by decide +kernel
example : (site1.addChild device1.type device1.uid).bind (fun m => m.addChild device1.type device1.uid) = .error .objectAlreadyExists ∧
    listAfter ((site1.addChild device1.type device1.uid).bind (fun m => m.removeChild device1.type device1.uid)) "devices" = .ok (some []) ∧
    site1.removeChild device1_eth0.type device1_eth0.uid = .error .objectStoreWrongType ∧
    site1.removeChild device1.type device1.uid = .error .objectNotFound := by decide +kernel
example : listAfter (device1.addChild device1_eth0.type device1_eth0.uid) "interfaces" = .ok (some ["device1__eth0"]) ∧
    device1.addChild site1.type site1.uid = .error .objectStoreWrongType ∧
    (device1.addChild device1_eth0.type device1_eth0.uid).bind (fun m => m.addChild device1_eth0.type device1_eth0.uid) =
      .error .objectAlreadyExists ∧
    device1.removeChild site1.type site1.uid = .error .objectStoreWrongType ∧
    device1.removeChild device1_eth0.type device1_eth0.uid = .error .objectNotFound := by decide +kernel

/-- The setup of test_diffsync_model_dict_with_children and test_diffsync_model_str_with_children: the interface is not stored. -/
def nested : M TV Unit Ref := do
  let s ← alloc { m := site1 }
  let d ← alloc { m := device1 }
  let i ← alloc { m := device1_eth0 }
  addChildRef s d
  addChildRef d i
  add (generic 1) s
  add (generic 1) d
  pure s

-- test_diffsync_model_dict_with_children
example : result () (do
    let s ← nested
    let o ← deref s
    pure ((o.m.toDict false).vals, (o.m.toDict false).kids, (o.m.toDict false).flags)) =
      .ok ([("name", .s "site1")], [("devices", ["device1"])], some 0) := by decide +kernel

-- test_diffsync_model_str_with_children
example : result () (do
    let s ← nested
    let o ← deref s
    modelStr reprs 9 o true 0) = .ok "site: site1: {}
  devices
    device: device1: {'role': 'default'}
      interfaces
        device1__eth0 (ERROR: details unavailable)" := by decide +kernel
example : result () (do
    let s ← nested
    let o ← deref s
    modelStr reprs 9 o false 0) = .ok "site: site1: {}
  devices: ['device1']" := by decide +kernel

/-- A syncer's context with `generic_adapter` as destination and methods that are not overridden. -/
def ctx : SyncCtx TV Unit := ⟨generic 2, generic 1, 0, DiffClass.default _, plain, 9⟩

/-- Fields of the object that a method returned. -/
def fieldsOf (r : Option Ref) : M TV Unit (Option (Dict TV)) :=
  match r with
  | none => pure none
  | some r => do
    let o ← deref r
    pure (some o.m.vals)

-- test_diffsync_model_subclass_crud
example : result () (do
    let d ← hookCreate ctx Device [("name", .s "device1")] [("role", .s "spine")]
    let i ← hookCreate ctx Interface [("name", .s "eth0"), ("device_name", .s "device1")] [("description", .s "some description")]
    let o ← deref (d.getD 99)
    let v ← fieldsOf d
    let v' ← fieldsOf i
    pure (o.adapter == some (generic 1).ref, v, v')) =
      .ok (true, some [("name", .s "device1"), ("site_name", .none), ("role", .s "spine")],
        some [("device_name", .s "device1"), ("name", .s "eth0"), ("interface_type", .s "ethernet"), ("description", .s "some description")]) := by
  decide +kernel
example : result () (do
    let d ← hookCreate ctx Device [("name", .s "device1")] [("role", .s "spine")]
    let d' ← hookUpdate ctx (d.getD 99) [("site_name", .s "site1"), ("role", .s "leaf")]
    let v ← fieldsOf d'
    let d'' ← hookDelete ctx (d'.getD 99)
    pure (d' == d, v, d'' == d)) =
      .ok (true, some [("name", .s "device1"), ("site_name", .s "site1"), ("role", .s "leaf")], true) := by decide +kernel

-- test_diffsync_model_subclass_validation: BadIdentifier, BadShortname, BadAttributes, BadChildren
example : validateClass [] [] ["name"] [] [] [] = .error .attributeError ∧
    validateClass ["name"] [] ["name"] ["short_name"] [] [] = .error .attributeError ∧
    validateClass ["name", "short_name"] [] ["name"] ["short_name"] ["my_attr"] [] = .error .attributeError ∧
    validateClass ["name", "short_name", "my_attr"] [] ["name"] ["short_name"] ["my_attr"] [("device", "devices")] =
      .error .attributeError := by decide +kernel
-- IdAttrOverlap, IdChildOverlap, AttrChildOverlap
example : validateClass ["name"] [] ["name"] [] ["name"] [] = .error .attributeError ∧
    validateClass ["names"] [] ["names"] [] [] [("name", "names")] = .error .attributeError ∧
    validateClass ["devices"] [] [] [] ["devices"] [("device", "devices")] = .error .attributeError := by decide +kernel

/-- `Beta` of test_diffsync_model_subclass_inheritance, with the fields and class variables inherited from `Alpha`. -/
def Beta : ModelClass TV where
  name := "beta"
  fields := [("name", none), ("letter", none), ("nombre", none), ("letra", none)]
  identifiers := ["name", "nombre"]
  shortname := ["name"]
  attributes := ["letter", "letra"]
  children := [("number", "numbers")]

-- test_diffsync_model_subclass_inheritance
example : validateClass ["name", "letter", "numbers", "nombre", "letra"] [] Beta.identifiers Beta.shortname Beta.attributes Beta.children = .ok () ∧
    (Beta.instantiate [("name", .s "Beta"), ("letter", .s "β"), ("nombre", .s "Beta"), ("letra", .s "β")]).map (fun b => (b.uid, b.attrs)) =
      .ok ("Beta__Beta", [("letter", .s "β"), ("letra", .s "β")]) := by decide +kernel

end DS.Conf
