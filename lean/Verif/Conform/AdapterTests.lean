import Verif.Conform.Base
/-! # /repo/tests/unit/test_diffsync.py: stores, exports, diffs -/

namespace DS.Conf

set_option synthInstance.maxHeartbeats 400000
set_option synthInstance.maxSize 1024

/-! ## An empty adapter -/

-- test_diffsync_default_name_type, test_diffsync_subclass_default_name_type, test_diffsync_subclass_custom_name_type
example : adapterNamed "Adapter" none none = "Adapter" ∧ adapterType "Adapter" none = "Adapter" ∧
    adapterNamed "BackendA" none none = "BackendA" ∧ adapterType "BackendA" none = "BackendA" ∧
    adapterNamed "BackendB" (some "Backend_B") (some "backend-b") = "backend-b" ∧ adapterType "BackendB" (some "Backend_B") = "Backend_B" := by
  decide +kernel

-- test_diffsync_len_with_no_data, test_diffsync_str_with_no_data, test_diffsync_diff_self_with_no_data_has_no_diffs,
-- test_diffsync_sync_self_with_no_data_is_noop
example : result () (do
    let n ← lenAdapter (generic 1)
    let s ← adapterStr reprs (generic 1) 9 0
    let d ← diff (generic 1) (generic 1)
    let d' ← sync plain (generic 1) (generic 1)
    let w ← M.read
    pure (n, s, d.hasDiffs, d'.hasDiffs, w.trace.length)) = .ok (0, "", false, false, 0) := by decide +kernel

-- test_diffsync_get_with_no_data_fails, test_diffsync_get_by_uids_with_no_data
example : raised () (get (generic 1) (.name "anything") (.uid "myname")) = some .objectNotFound ∧
    raised () (get (generic 1) (.cls Generic) (.uid "")) = some .objectNotFound ∧
    raised () (getByUids (generic 1) ["any", "another"] "anything") = some .objectNotFound := by decide +kernel

-- test_diffsync_get_all_with_no_data_is_empty_list, test_diffsync_get_by_uids_with_no_data, test_diffsync_dict_with_no_data
example : result () (do
    let l ← getAll (generic 1) "anything"
    let l' ← getByUids (generic 1) [] "anything"
    pure (l, l')) = .ok ([], []) := by decide +kernel
example : (result () (adapterDict (generic 1) true)).map List.length = .ok 0 := by decide +kernel

/-! ## Adding and getting -/

-- test_diffsync_add_no_raises_existing_same_object
example : result () (do
    let p ← newOf PersonA [("name", .s "Mikhail Yohman")]
    add (generic 1) p
    let names ← getAllModelNames (generic 1)
    let us ← uids (generic 1) "person"
    add (generic 1) p
    let r ← get (generic 1) (.name "person") (.uid "Mikhail Yohman")
    let r' ← get (generic 1) (.cls PersonA) (.uid "Mikhail Yohman")
    pure (names, us, r == p, r' == p)) = .ok (["person"], ["Mikhail Yohman"], true, true) := by decide +kernel

-- test_diffsync_add_raises_already_exists_with_updated_object
example : raised () (do
    let i ← newOf Interface [("device_name", .s "device1"), ("name", .s "eth0")]
    add (generic 1) i
    let j ← newOf Interface [("device_name", .s "device1"), ("name", .s "eth0"), ("interface_type", .s "1000base-t")]
    add (generic 1) j) = some .objectAlreadyExists := by decide +kernel

/-- `intf_identifiers` of the tests. -/
def ethIds : Dict TV := [("device_name", .s "device1"), ("name", .s "eth1")]
/-- `intf_attrs` of the tests. -/
def ethAttrs : Dict TV := [("interface_type", .s "1000base-t"), ("description", .s "Testing")]
/-- `generic_adapter` with `generic_adapter.interface = Interface`. -/
def withInterface : Adapter TV := { generic 1 with classes := [("interface", Interface)] }

/-- What the tests look at: whether the object is the given one, whether it was created, two of its attributes, and whether it is the object
that `get` returns for class and for name. -/
def seen (A : Adapter TV) (given : Option Ref) (r : Ref × Bool) : M TV Unit (Bool × Bool × Option TV × Option TV × Bool × Bool) := do
  let o ← deref r.1
  let g ← get A (.cls Interface) (.dict ethIds)
  let g' ← getOrNone withInterface (.name "interface") (.dict ethIds)
  pure (given == some r.1, r.2, Dict.get? o.m.vals "interface_type", Dict.get? o.m.vals "description", g == r.1, g' == some r.1)

-- test_diffsync_get_or_instantiate_create_non_existent_object, …_retrieve_create_non_existent_w_attrs
example : raised () (get withInterface (.cls Interface) (.dict ethIds)) = some .objectNotFound := by decide +kernel
example : result () (do let r ← getOrInstantiate withInterface Interface ethIds []; seen withInterface none r) =
    .ok (false, true, some (.s "ethernet"), some .none, true, true) := by decide +kernel
example : result () (do let r ← getOrInstantiate withInterface Interface ethIds ethAttrs; seen withInterface none r) =
    .ok (false, true, some (.s "1000base-t"), some (.s "Testing"), true, true) := by decide +kernel

-- test_diffsync_get_or_instantiate_retrieve_existing_object, …_w_attrs, …_wo_attrs
example : result () (do
    let i ← newOf Interface ethIds
    add (generic 1) i
    let r ← getOrInstantiate (generic 1) Interface ethIds ethAttrs
    seen (generic 1) (some i) r) = .ok (true, false, some (.s "ethernet"), some .none, true, true) := by decide +kernel
example : result () (do
    let i ← newOf Interface ethIds
    add (generic 1) i
    let r ← getOrInstantiate (generic 1) Interface ethIds []
    seen (generic 1) (some i) r) = .ok (true, false, some (.s "ethernet"), some .none, true, true) := by decide +kernel

-- test_diffsync_get_or_add_model_instance_create_non_existent_object, …_retrieve_create_non_existent_w_attrs
example : result () (do
    let i ← newOf Interface ethIds
    let r ← getOrAddInstance withInterface i
    seen withInterface (some i) r) = .ok (true, true, some (.s "ethernet"), some .none, true, true) := by decide +kernel
example : result () (do
    let i ← newOf Interface (ethIds ++ ethAttrs)
    let r ← getOrAddInstance withInterface i
    seen withInterface (some i) r) = .ok (true, true, some (.s "1000base-t"), some (.s "Testing"), true, true) := by decide +kernel

-- test_diffsync_get_or_add_model_instance_retrieve_existing_object, …_w_attrs, …_wo_attrs
example : result () (do
    let i ← newOf Interface (ethIds ++ [("interface_type", .s "ethernet")])
    add (generic 1) i
    let r ← getOrAddInstance (generic 1) i
    seen (generic 1) (some i) r) = .ok (true, false, some (.s "ethernet"), some .none, true, true) := by decide +kernel

-- test_diffsync_update_or_instantiate_retrieve_existing_object, …_w_updated_attrs
example : result () (do
    let i ← newOf Interface ethIds
    add (generic 1) i
    let r ← updateOrInstantiate (generic 1) Interface ethIds []
    seen (generic 1) (some i) r) = .ok (true, false, some (.s "ethernet"), some .none, true, true) := by decide +kernel
example : result () (do
    let i ← newOf Interface ethIds
    add (generic 1) i
    let r ← updateOrInstantiate (generic 1) Interface ethIds ethAttrs
    seen (generic 1) (some i) r) = .ok (true, false, some (.s "1000base-t"), some (.s "Testing"), true, true) := by decide +kernel

-- test_diffsync_update_or_instantiate_create_object, …_w_attrs
example : result () (do let r ← updateOrInstantiate (generic 1) Interface ethIds []; seen (generic 1) none r) =
    .ok (false, true, some (.s "ethernet"), some .none, true, true) := by decide +kernel
example : result () (do let r ← updateOrInstantiate (generic 1) Interface ethIds ethAttrs; seen (generic 1) none r) =
    .ok (false, true, some (.s "1000base-t"), some (.s "Testing"), true, true) := by decide +kernel

-- test_diffsync_update_or_add_model_instance_retrieve_existing_object_w_updated_attrs
example : result () (do
    let i ← newOf Interface (ethIds ++ ethAttrs)
    add (generic 1) i
    let r ← updateOrAddInstance (generic 1) i
    seen (generic 1) (some i) r) = .ok (true, false, some (.s "1000base-t"), some (.s "Testing"), true, true) := by decide +kernel

-- test_diffsync_update_or_add_model_instance_create_object, …_w_attrs
example : result () (do
    let i ← newOf Interface ethIds
    let r ← updateOrAddInstance (generic 1) i
    seen (generic 1) (some i) r) = .ok (true, true, some (.s "ethernet"), some .none, true, true) := by decide +kernel
example : result () (do
    let i ← newOf Interface (ethIds ++ ethAttrs)
    let r ← updateOrAddInstance (generic 1) i
    seen (generic 1) (some i) r) = .ok (true, true, some (.s "1000base-t"), some (.s "Testing"), true, true) := by decide +kernel

/-- `generic_adapter.add(generic_diffsync_model)` -/
def withModel : M TV Unit Ref := do
  let r ← newOf Generic []
  add (generic 1) r
  pure r

-- test_diffsync_get_with_generic_model
example : result () (do
    let m ← withModel
    let r ← get (generic 1) (.cls Generic) (.uid "")
    let r' ← get (generic 1) (.name "diffsyncmodel") (.uid "")
    pure (r == m, r' == m)) = .ok (true, true) := by decide +kernel
example : raised () (do let _ ← withModel; get (generic 1) (.name "diffsyncmodel") (.dict [])) = some .valueError ∧
    raised () (do let _ ← withModel; get (generic 1) (.name "") (.uid "")) = some .objectNotFound ∧
    raised () (do let _ ← withModel; get (generic 1) (.cls Generic) (.uid "myname")) = some .objectNotFound := by decide +kernel

-- test_diffsync_get_all_with_generic_model, test_diffsync_get_by_uids_with_generic_model
example : result () (do
    let m ← withModel
    let l ← getAll (generic 1) "diffsyncmodel"
    let l' ← getAll (generic 1) "anything"
    let b ← getByUids (generic 1) [""] "diffsyncmodel"
    pure (l == [m], l', b == [m])) = .ok (true, [], true) := by decide +kernel
example : raised () (do let _ ← withModel; getByUids (generic 1) ["myname"] "diffsyncmodel") = some .objectNotFound ∧
    raised () (do let _ ← withModel; getByUids (generic 1) ["aname", "", "anothername"] "diffsyncmodel") = some .objectNotFound := by
  decide +kernel

-- test_diffsync_remove_with_generic_model
example : raised () (do let m ← withModel; remove (generic 1) 9 m false; remove (generic 1) 9 m false) = some .objectNotFound ∧
    raised () (do let m ← withModel; remove (generic 1) 9 m false; get (generic 1) (.cls Generic) (.uid "")) = some .objectNotFound ∧
    raised () (do let m ← withModel; remove (generic 1) 9 m false; getByUids (generic 1) [""] "diffsyncmodel") = some .objectNotFound := by
  decide +kernel
example : result () (do let m ← withModel; remove (generic 1) 9 m false; getAll (generic 1) "diffsyncmodel") = .ok [] := by decide +kernel

-- test_diffsync_subclass_validation_name_mismatch, …_missing_top_level
example : (Adapter.validate { generic 1 with classes := [("dev_class", Device)] }) = .error .attributeError ∧
    (Adapter.validate { generic 1 with topLevel := ["missing"] }) = .error .attributeError ∧
    (backendA 1).validate = .ok () ∧ (backendB 1).validate = .ok () := by decide +kernel

/-! ## Adapters with data -/

-- test_diffsync_len_with_data
example : result () (do loadA (backendA 1); lenAdapter (backendA 1)) = .ok 23 := by decide +kernel

deriving instance DecidableEq for ObjDict

/-- A device of the expected dictionary of test_diffsync_dict_with_data. -/
def devE (site name : String) (ifs : List String) : String × ObjDict TV :=
  (name, ⟨[("name", .s name), ("site_name", .s site), ("role", .s "spine")], [("interfaces", ifs)], none⟩)
/-- An interface of it. -/
def ifE (dev name desc : String) : String × ObjDict TV :=
  (dev ++ "__" ++ name, ⟨[("device_name", .s dev), ("name", .s name), ("description", .s desc)], [], none⟩)

/-- The expected dictionary of test_diffsync_dict_with_data.  (Python compares dictionaries without order; the order here is that of insertion.) -/
def expectedDict : Dict (Dict (ObjDict TV)) :=
  [("site", [("nyc", ⟨[("name", .s "nyc")], [("devices", ["nyc-spine1", "nyc-spine2"])], none⟩),
             ("sfo", ⟨[("name", .s "sfo")], [("devices", ["sfo-spine1", "sfo-spine2"])], none⟩),
             ("rdu", ⟨[("name", .s "rdu")], [("devices", ["rdu-spine1", "rdu-spine2"]), ("people", ["Glenn Matthews"])], none⟩)]),
   ("device", [devE "nyc" "nyc-spine1" ["nyc-spine1__eth0", "nyc-spine1__eth1"], devE "nyc" "nyc-spine2" ["nyc-spine2__eth0", "nyc-spine2__eth1"],
               devE "sfo" "sfo-spine1" ["sfo-spine1__eth0", "sfo-spine1__eth1"],
               devE "sfo" "sfo-spine2" ["sfo-spine2__eth0", "sfo-spine2__eth1", "sfo-spine2__eth2"],
               devE "rdu" "rdu-spine1" ["rdu-spine1__eth0", "rdu-spine1__eth1"], devE "rdu" "rdu-spine2" ["rdu-spine2__eth0", "rdu-spine2__eth1"]]),
   ("interface", [ifE "nyc-spine1" "eth0" "Interface 0", ifE "nyc-spine1" "eth1" "Interface 1", ifE "nyc-spine2" "eth0" "Interface 0",
                  ifE "nyc-spine2" "eth1" "Interface 1", ifE "sfo-spine1" "eth0" "Interface 0", ifE "sfo-spine1" "eth1" "Interface 1",
                  ifE "sfo-spine2" "eth0" "TBD", ifE "sfo-spine2" "eth1" "ddd", ifE "sfo-spine2" "eth2" "Interface 2",
                  ifE "rdu-spine1" "eth0" "Interface 0", ifE "rdu-spine1" "eth1" "Interface 1", ifE "rdu-spine2" "eth0" "Interface 0",
                  ifE "rdu-spine2" "eth1" "Interface 1"]),
   ("person", [("Glenn Matthews", ⟨[("name", .s "Glenn Matthews")], [], none⟩)])]

-- test_diffsync_dict_with_data
example : result () (do loadA (backendA 1); adapterDict (backendA 1) true) = .ok expectedDict := by decide +kernel

-- test_diffsync_load_from_dict: the same objects for each model name that the original has
example : result () (do
    loadFromDict (backendA 1) expectedDict
    let d ← adapterDict (backendA 1) true
    pure (expectedDict.map (fun p => (p.1, (Dict.get? d p.1).getD [])), d.filterMap (fun p => if p.2.isEmpty then none else some p.1))) =
      .ok (expectedDict, ["site", "device", "interface", "person"]) := by decide +kernel

/-- The text of an object of `backend_a` as it occurs in the text of the adapter, after `i` blanks less than its own indentation. -/
def textOf (i : Nat) (t u : String) : Except Err String :=
  result () (do
    loadA (backendA 1)
    let r ← get (backendA 1) (.name t) (.uid u)
    modelLine reprs 9 i r)

-- test_diffsync_str_with_data.  The kernel is slow on long strings, hence parts of the text: two devices, a whole site, and the frame of the
-- text of an adapter.
example : textOf 4 "device" "nyc-spine1" = .ok "
      device: nyc-spine1: {'role': 'spine', 'tag': ''}
        interfaces
          interface: nyc-spine1__eth0: {'interface_type': 'ethernet', 'description': 'Interface 0'}
          interface: nyc-spine1__eth1: {'interface_type': 'ethernet', 'description': 'Interface 1'}" := by decide +kernel
example : textOf 4 "device" "sfo-spine2" = .ok "
      device: sfo-spine2: {'role': 'spine', 'tag': ''}
        interfaces
          interface: sfo-spine2__eth0: {'interface_type': 'ethernet', 'description': 'TBD'}
          interface: sfo-spine2__eth1: {'interface_type': 'ethernet', 'description': 'ddd'}
          interface: sfo-spine2__eth2: {'interface_type': 'ethernet', 'description': 'Interface 2'}" := by decide +kernel
example : textOf 0 "site" "rdu" = .ok "
  site: rdu: {}
    devices
      device: rdu-spine1: {'role': 'spine', 'tag': ''}
        interfaces
          interface: rdu-spine1__eth0: {'interface_type': 'ethernet', 'description': 'Interface 0'}
          interface: rdu-spine1__eth1: {'interface_type': 'ethernet', 'description': 'Interface 1'}
      device: rdu-spine2: {'role': 'spine', 'tag': ''}
        interfaces
          interface: rdu-spine2__eth0: {'interface_type': 'ethernet', 'description': 'Interface 0'}
          interface: rdu-spine2__eth1: {'interface_type': 'ethernet', 'description': 'Interface 1'}
    people
      person: Glenn Matthews: {}" := by decide +kernel
example : result () (do
    add (backendA 1) (← newOf SiteA [("name", .s "nyc")])
    add (backendA 1) (← newOf SiteA [("name", .s "sfo")])
    adapterStr reprs (backendA 1) 9 0) = .ok "site
  site: nyc: {}
    devices: []
    people: []
  site: sfo: {}
    devices: []
    people: []
unused: []" := by decide +kernel

-- test_diffsync_diff_self_with_data_has_no_diffs, test_diffsync_diff_other_with_data_has_diffs
example : result () (do
    loadA (backendA 1)
    loadB (backendB 2)
    let d1 ← diff (backendA 1) (backendA 1)
    let d2 ← diff (backendA 1) (backendB 2)
    let d3 ← diff (backendB 2) (backendA 1)
    pure (d1.hasDiffs, d2.hasDiffs, d3.hasDiffs)) = .ok (false, true, true) := by decide +kernel

/-- The last progress report of a diff. -/
def lastProgress (w : World TV Unit) : Option (Nat × Nat) :=
  (w.trace.filterMap (fun | .diffProgress c t => some (c, t) | .syncProgress c t => some (c, t) | _ => none)).getLast?

-- test_diffsync_diff_with_callback
example : result () (do
    loadA (backendA 1)
    loadB (backendB 2)
    let n ← lenAdapter (backendA 1)
    let m ← lenAdapter (backendB 2)
    let _ ← diff (backendA 1) (backendB 2)
    let w ← M.read
    let _ ← diff (backendB 2) (backendA 1)
    let w' ← M.read
    pure (lastProgress w == some (n + m, n + m), lastProgress w' == some (n + m, n + m))) = .ok (true, true) := by decide +kernel

/-- The diff of `backend_a` from a variant, with flags. -/
def variant (load : Adapter TV → M TV Unit Unit) (flags : Nat) (before : M TV Unit Unit := pure ()) : Except Err (Nat × Nat × Nat × Nat × Int) :=
  result () (do
    loadA (backendA 1)
    load (backendA 2)
    before
    let d ← diff (backendA 1) (backendA 2) flags
    pure (counts d))

-- test_diffsync_diff_with_skip_unmatched_src_flag
example : variant loadExtra 0 = .ok (2, 0, 0, 23, 0) ∧ variant loadExtra GF.SKIP_UNMATCHED_SRC = .ok (0, 0, 0, 23, 2) := by decide +kernel
example : variant loadMinus GF.SKIP_UNMATCHED_SRC = .ok (0, 0, 12, 11, 0) := by decide +kernel

-- test_diffsync_diff_with_skip_unmatched_dst_flag
example : variant loadMinus 0 = .ok (0, 0, 12, 11, 0) ∧ variant loadMinus GF.SKIP_UNMATCHED_DST = .ok (0, 0, 0, 11, 2) := by decide +kernel
example : variant loadExtra GF.SKIP_UNMATCHED_DST = .ok (2, 0, 0, 23, 0) := by decide +kernel

-- test_diffsync_diff_with_skip_unmatched_both_flag
example : variant loadExtra GF.SKIP_UNMATCHED_BOTH = .ok (0, 0, 0, 23, 2) ∧
    variant loadMinus GF.SKIP_UNMATCHED_BOTH = .ok (0, 0, 0, 11, 2) := by decide +kernel

/-! ## /repo/tests/unit/test_diffsync_model_flags.py: diffs -/

-- test_diffsync_diff_with_skip_unmatched_src_flag_on_models
example : variant loadExtra 0 (setFlag (backendA 2) "site" "lax" MF.SKIP_UNMATCHED_SRC) = .ok (1, 0, 0, 23, 1) ∧
    variant loadExtra 0 (do
      setFlag (backendA 2) "site" "lax" MF.SKIP_UNMATCHED_SRC
      setFlag (backendA 2) "device" "nyc-spine3" MF.SKIP_UNMATCHED_SRC) = .ok (0, 0, 0, 23, 2) := by decide +kernel

-- test_diffsync_diff_with_skip_unmatched_dst_flag_on_models
example : variant loadMinus 0 (setFlag (backendA 1) "device" "rdu-spine1" MF.SKIP_UNMATCHED_DST) = .ok (0, 0, 9, 11, 1) ∧
    variant loadMinus 0 (do
      setFlag (backendA 1) "device" "rdu-spine1" MF.SKIP_UNMATCHED_DST
      setFlag (backendA 1) "device" "sfo-spine2" MF.SKIP_UNMATCHED_DST) = .ok (0, 0, 5, 11, 2) := by decide +kernel

-- test_diffsync_diff_with_ignore_flag_on_source_models, test_diffsync_diff_with_ignore_flag_on_target_models
example : result () (do
    loadA (backendA 1)
    loadExtra (backendA 2)
    loadA (backendA 3)
    loadMinus (backendA 4)
    setFlag (backendA 2) "site" "lax" MF.IGNORE
    setFlag (backendA 2) "site" "nyc" MF.IGNORE
    setFlag (backendA 3) "site" "rdu" MF.IGNORE
    setFlag (backendA 3) "site" "sfo" MF.IGNORE
    let d ← diff (backendA 1) (backendA 2)
    let d' ← diff (backendA 3) (backendA 4)
    pure (d.hasDiffs, d'.hasDiffs)) = .ok (false, false) := by decide +kernel

/-! ## The rest of test_diffsync.py that is not about syncs -/

-- test_diffsync_add_get_remove_with_subclass_and_data
example : result () (do
    loadA (backendA 1)
    let nyc ← get (backendA 1) (.cls Site) (.uid "nyc")
    let sfo ← get (backendA 1) (.name "site") (.uid "sfo")
    let rdu ← get (backendA 1) (.cls Site) (.uid "rdu")
    let atl ← newOf Site [("name", .s "atl")]
    add (backendA 1) atl
    let g ← get (backendA 1) (.cls Site) (.uid "atl")
    let l ← getAll (backendA 1) "site"
    let b ← getByUids (backendA 1) ["rdu", "sfo", "atl", "nyc"] "site"
    pure (g == atl, l == [nyc, sfo, rdu, atl], b == [rdu, sfo, atl, nyc])) = .ok (true, true, true) := by decide +kernel
example : raised () (do
    loadA (backendA 1)
    let atl ← newOf Site [("name", .s "atl")]
    add (backendA 1) atl
    remove (backendA 1) 9 atl false
    remove (backendA 1) 9 atl false) = some .objectNotFound := by decide +kernel

-- test_diffsync_remove_missing_child
example : result () (do
    loadA (backendA 1)
    let d ← get (backendA 1) (.cls Device) (.uid "rdu-spine1")
    let i ← get (backendA 1) (.cls Interface) (.uid "rdu-spine1__eth0")
    remove (backendA 1) 9 i false
    remove (backendA 1) 9 d true
    let w ← M.read
    let h ← has (backendA 1) "interface" "rdu-spine1__eth1"
    pure (w.trace, h)) = .ok ([.childNotFound "interface" "rdu-spine1__eth0" "device" "rdu-spine1"], false) := by decide +kernel

/-- Paths of a nested dictionary, up to depth `n`. -/
def paths : Nat → List (String × NVal) → List (List String)
  | 0, _ => []
  | n + 1, d => d.flatMap (fun p => [p.1] :: (match p.2 with | .leaf => [] | .dict c => (paths n c).map (fun q => p.1 :: q)))

-- test_diffsync_tree_traversal
example : (treeTraversal (backendA 1)).map (paths 9) =
    some [["site"], ["site", "device"], ["site", "device", "interface"], ["site", "person"], ["unused"]] := by decide +kernel
example : (treeTraversal (backendA 1)).map (fun d => joinSep "\n" (treeString d "BackendA")) = some "BackendA
├── site
│   ├── device
│   │   └── interface
│   └── person
└── unused" := by decide +kernel

-- test_diffsync_get_or_none
example : result () (do
    loadA (backendA 1)
    let a ← has (backendA 1) "site" "rdu"
    let b ← has (backendA 1) "site" "does-not-exist"
    pure (a, b)) = .ok (true, false) := by decide +kernel

-- test_diffsync_get_initial_value_order
example : valueOrder (backendA 1) = ["site", "unused", "device", "interface", "person"] := by decide +kernel

/-! ## /repo/tests/unit/test_redisstore.py -/

/-- An adapter whose store is `RedisStore(name="mystore", store_id="123", …)`. -/
def redis123 : Adapter TV := { generic 1 with ref := ⟨1, .redis "123"⟩ }

-- test_redisstore_add_obj, test_redisstore_add_obj_twice, test_redisstore_get_all_obj, test_redisstore_get_obj
example : result () (do
    let s ← newOf Site [("name", .s "site1")]
    add redis123 s
    let n ← count redis123 none
    add redis123 s
    let n' ← count redis123 none
    let us ← uids redis123 "site"
    let r ← get redis123 (.cls Site) (.uid "site1")
    let o ← deref r
    let o' ← deref s
    pure (n, n', us, o.m == o'.m)) = .ok (1, 1, ["site1"], true) := by decide +kernel

-- test_redisstore_remove_obj
example : result () (do
    let s ← newOf Site [("name", .s "site1")]
    add redis123 s
    let a ← count redis123 (some (.cls Site))
    let b ← count redis123 none
    remove redis123 9 s false
    let c ← count redis123 (some (.cls Site))
    let d ← count redis123 none
    pure (a, b, c, d)) = .ok (1, 1, 0, 0) := by decide +kernel

-- test_redisstore_get_all_model_names
example : result () (do
    let s ← newOf Site [("name", .s "site1")]
    add redis123 s
    let d ← newOf Device [("name", .s "device1"), ("site_name", .s "site1"), ("role", .s "default")]
    add redis123 d
    getAllModelNames redis123) = .ok ["site", "device"] := by decide +kernel

-- test_redisstore_init_wrong
example : redisInit (fun _ => .connectionError) "" { storeId := some "123", url := some "redis://wrong" } = .error .objectStore := by decide +kernel

end DS.Conf
