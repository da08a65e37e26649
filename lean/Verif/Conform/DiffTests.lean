import Verif.Conform.Base
/-! # /repo/tests/unit/test_diff.py and test_diff_element.py -/

namespace DS.Conf

/-- `DiffElement(type, name, keys)` after `add_attrs` and `add_child` calls. -/
def el (t n : String) (keys : Dict TV) (src dst : Option (Dict TV)) (kids : List (Elem TV) := []) : Elem TV :=
  ⟨t, n, keys, "source", "dest", src, dst, kids⟩

/-- `{"device_name": "device1", "name": n}` -/
def ifKeys (n : String) : Dict TV := [("device_name", .s "device1"), ("name", .s n)]

/-- The interface element that both fixtures have. -/
def eth0 : Elem TV :=
  el "interface" "eth0" (ifKeys "eth0") (some [("interface_type", .s "ethernet"), ("description", .s "my interface")])
    (some [("description", .s "your interface")])

/-- `diff_with_children`, conftest.py:423-455. -/
def diffWithChildren : Diff TV where
  cls := DiffClass.default _
  kids := [el "person" "Jimbo" [("name", .s "Jimbo")] (some []) none,
           el "person" "Sully" [("name", .s "Sully")] none (some []),
           el "device" "device1" [("name", .s "device1")] none none [eth0],
           el "address" "RTP" [("name", .s "RTP")] (some [("state", .s "NC")]) (some [("state", .s "NC")])]
  processed := 8

/-- `diff_element_with_children`, conftest.py:459-488. -/
def elemWithChildren : Elem TV :=
  el "device" "device1" [("name", .s "device1")] (some [("role", .s "switch"), ("location", .s "RTP")])
    (some [("role", .s "router"), ("location", .s "RTP")])
    [eth0, el "interface" "lo0" (ifKeys "lo0") (some []) none,
     el "interface" "lo1" (ifKeys "lo1") none (some [("description", .s "Loopback 1")]),
     el "interface" "lo100" (ifKeys "lo100") (some [("description", .s "Loopback 100")]) (some [("description", .s "Loopback 100")])]

/-- `Diff()` -/
def noDiff : Diff TV := { cls := DiffClass.default _, kids := [] }

-- test_diff_empty, test_diff_summary_with_no_diffs, test_diff_str_with_no_diffs, test_diff_dict_with_no_diffs, test_diff_len_with_no_diffs
example : groups noDiff.kids = [] ∧ noDiff.hasDiffs = false ∧ (getChildren noDiff.cls noDiff.kids).length = 0 ∧
    counts noDiff = (0, 0, 0, 0, 0) ∧ noDiff.str = "(no diffs)" ∧ noDiff.dict.length = 0 ∧ noDiff.len = 0 := by decide +kernel

-- test_diff_children
example :
    let device := el "device" "device1" [("name", .s "device1")] none none
    let intf := el "interface" "eth0" (ifKeys "eth0") none none
    let d1 := (noDiff.add device).2
    let d2 := (d1.add intf).2
    groups d1.kids = ["device"] ∧ d1.hasDiffs = false ∧ (d1.add device).1 = .error .objectAlreadyExists ∧
    groups d2.kids = ["device", "interface"] ∧ d2.hasDiffs = false ∧ (d2.add intf).1 = .error .objectAlreadyExists ∧
    (getChildren d2.cls d2.kids).map (fun e => (e.type, e.name)) = [("device", "device1"), ("interface", "eth0")] ∧
    Diff.hasDiffs { d2 with kids := [device, eth0] } = true := by decide +kernel

-- test_diff_summary_with_diffs, test_diff_len_with_diffs
example : counts diffWithChildren = (1, 1, 1, 2, 0) ∧ diffWithChildren.len = 5 := by decide +kernel

-- test_diff_str_with_diffs
example : diffWithChildren.str = "person
  person: Jimbo MISSING in dest
  person: Sully MISSING in source
device
  device: device1
    interface
      interface: eth0
        description    source(my interface)    dest(your interface)" := by decide +kernel

/-- A dictionary of a diff without nesting: path, `"-"` and `"+"` of each element, up to depth `n`. -/
def flat : Nat → List String → Dict (Dict (ElemDict TV)) → List (List String × Option (Dict TV) × Option (Dict TV))
  | 0, _, _ => []
  | n + 1, path, d => d.flatMap (fun g => g.2.flatMap (fun e =>
      (path ++ [g.1, e.1], e.2.minus, e.2.plus) :: flat n (path ++ [g.1, e.1]) e.2.kids))

-- test_diff_dict_with_diffs
example : flat 9 [] diffWithChildren.dict =
    [(["person", "Jimbo"], none, some []), (["person", "Sully"], some [], none), (["device", "device1"], none, none),
     (["device", "device1", "interface", "eth0"], some [("description", .s "your interface")], some [("description", .s "my interface")])] := by
  decide +kernel

-- test_diff_element_empty, test_diff_element_summary_with_no_diffs, …_str_…, …_dict_…, …_len_…
example :
    let e := el "interface" "eth0" (ifKeys "eth0") none none
    e.hasDiffs = false ∧ e.hasDiffsOwn = false ∧ e.attrsKeys = [] ∧ e.summary (DiffClass.default _) = ⟨0, 0, 0, 1⟩ ∧
    e.str = "interface: eth0 (no diffs)" ∧ e.plus = none ∧ e.minus = none ∧ e.len (DiffClass.default _) = 1 := by decide +kernel

-- test_diff_element_attrs, …_summary_with_diffs, …_str_with_diffs, …_dict_with_diffs, …_len_with_diffs
example :
    let e := { eth0 with dst := none }
    e.hasDiffs = true ∧ e.hasDiffsOwn = true ∧ e.attrsKeys = ["interface_type", "description"] ∧
    e.summary (DiffClass.default _) = ⟨1, 0, 0, 0⟩ ∧ e.str = "interface: eth0 MISSING in dest" ∧ e.minus = none ∧
    e.plus = some [("interface_type", .s "ethernet"), ("description", .s "my interface")] := by decide +kernel

example : eth0.hasDiffs = true ∧ eth0.hasDiffsOwn = true ∧ eth0.attrsKeys = ["description"] ∧
    eth0.summary (DiffClass.default _) = ⟨0, 1, 0, 0⟩ ∧ eth0.len (DiffClass.default _) = 1 ∧
    eth0.minus = some [("description", .s "your interface")] ∧ eth0.plus = some [("description", .s "my interface")] ∧
    eth0.str = "interface: eth0
  description    source(my interface)    dest(your interface)" := by decide +kernel

-- test_diff_element_dict_with_diffs_no_attrs
example :
    let e := el "interface" "eth0" (ifKeys "eth0") (some []) none
    e.plus = some [] ∧ e.minus = none ∧ Elem.plus { e with dst := some [] } = some [] ∧ Elem.minus { e with dst := some [] } = some [] := by
  decide +kernel

-- test_diff_element_children
example :
    let p (c : Elem TV) := el "device" "device1" [("name", .s "device1")] none none [c]
    (p { eth0 with src := none, dst := none }).hasDiffs = false ∧ (p eth0).hasDiffs = true ∧ (p eth0).hasDiffsOwn = false := by
  decide +kernel

-- test_diff_element_summary_with_child_diffs, …_len_with_child_diffs
example : elemWithChildren.summary (DiffClass.default _) = ⟨1, 2, 1, 1⟩ ∧ elemWithChildren.len (DiffClass.default _) = 5 := by decide +kernel

-- test_diff_element_str_with_child_diffs
example : elemWithChildren.str = "device: device1
  role    source(switch)    dest(router)
  interface
    interface: eth0
      description    source(my interface)    dest(your interface)
    interface: lo0 MISSING in dest
    interface: lo1 MISSING in source" := by decide +kernel

-- test_diff_element_dict_with_child_diffs
example : elemWithChildren.minus = some [("role", .s "router")] ∧ elemWithChildren.plus = some [("role", .s "switch")] ∧
    flat 9 [] (dictF (DiffClass.default _) 9 elemWithChildren.kids) =
      [(["interface", "eth0"], some [("description", .s "your interface")], some [("description", .s "my interface")]),
       (["interface", "lo0"], none, some []), (["interface", "lo1"], some [("description", .s "Loopback 1")], none)] := by
  decide +kernel

/-- Insert into a list of elements by name (Python's `sorted(children.keys())`). -/
def insertName (x : Elem TV) : List (Elem TV) → List (Elem TV)
  | [] => [x]
  | y :: ys => if x.name < y.name then x :: y :: ys else y :: insertName x ys

theorem mem_insertName {x y : Elem TV} : ∀ {l : List (Elem TV)}, y ∈ insertName x l → y = x ∨ y ∈ l
  | [], h => by simp [insertName] at h; exact .inl h
  | z :: zs, h => by
    simp only [insertName] at h
    split at h
    · rcases List.mem_cons.1 h with h | h
      · exact .inl h
      · exact .inr h
    · rcases List.mem_cons.1 h with h | h
      · exact .inr (h ▸ List.mem_cons_self)
      · rcases mem_insertName h with h | h
        · exact .inl h
        · exact .inr (List.mem_cons_of_mem _ h)

/-- Children by name. -/
def byName (l : List (Elem TV)) : List (Elem TV) := l.foldr insertName []

theorem mem_byName {y : Elem TV} : ∀ {l : List (Elem TV)}, y ∈ byName l → y ∈ l
  | [], h => h
  | x :: xs, h => by
    rcases mem_insertName (l := byName xs) h with h | h
    · exact h ▸ List.mem_cons_self
    · exact List.mem_cons_of_mem _ (mem_byName h)

/-- `MyDiff` of test_order_children_default. -/
def sortedDiff : DiffClass TV := ⟨1, [1, 0], fun _ l => byName l, fun _ _ _ h => mem_byName h⟩

/-- `MyDiff` of test_order_children_custom. -/
def siteDiff : DiffClass TV :=
  ⟨2, [2, 0], fun g l => if g = "site" then (byName l).reverse else l, fun g l x h => by
    split at h
    · exact mem_byName (List.mem_reverse.1 h)
    · exact h⟩

/-- The names of the children of the diff of `backend_a` from `backend_b`, with a diff class. -/
def namesIn (dc : DiffClass TV) : Except Err (List String) :=
  result () (do
    loadA (backendA 1)
    loadB (backendB 2)
    let d ← diffFrom 9 (backendA 1) (backendB 2) dc 0
    pure ((getChildren d.cls d.kids).map Elem.name))

-- test_order_children_default, test_order_children_custom
example : namesIn sortedDiff = .ok ["atl", "nyc", "rdu", "sfo"] ∧ namesIn siteDiff = .ok ["sfo", "rdu", "nyc", "atl"] := by decide +kernel

end DS.Conf
