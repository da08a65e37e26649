import Verif.Conform.Base
/-! # /repo/tests/unit/test_diffsync.py and test_diffsync_model_flags.py: syncs -/

namespace DS.Conf

set_option synthInstance.maxHeartbeats 400000
set_option synthInstance.maxSize 1024

/-- The `create`/`update`/`delete` calls in a world, as (action, type, name). -/
def called {E : Type} (w : World TV E) : List (String × String × String) :=
  w.trace.filterMap (fun
    | .call (.create t ids _) _ => some ("create", t, (Dict.get? ids "name").elim "" PyVal.str)
    | .call (.update t u _) _ => some ("update", t, u)
    | .call (.delete t u) _ => some ("delete", t, u)
    | _ => none)

/-- The adapters whose `sync_complete` was called. -/
def completed {E : Type} (w : World TV E) : List Nat := w.trace.filterMap (fun | .syncComplete d _ => some d | _ => none)

/-- The levels of the outcome records. -/
def levels {E : Type} (w : World TV E) : List Level := w.trace.filterMap (fun | .log l _ _ => some l | _ => none)

-- test_diffsync_sync_to_w_different_diff_class_raises
example : raised () (do
    loadA (backendA 1)
    loadB (backendB 2)
    let d ← diffTo 9 (backendB 2) (backendA 1) (DiffClass.default _) 0
    syncTo 9 9 plain (backendB 2) (backendA 1) ⟨7, [7, 0], fun _ l => l, fun _ _ _ h => h⟩ 0 (some d)) = some .diffClassMismatch := by
  decide +kernel

-- test_diffsync_sync_to_w_diff_no_mocks, test_diffsync_sync_to_w_diff, test_diffsync_sync_from_w_diff: with the diff given, no diff is computed
-- (there is no further progress report of a diff) and the result is that diff
example : result () (do
    loadA (backendA 1)
    loadB (backendB 2)
    let d ← diffTo 9 (backendB 2) (backendA 1) (DiffClass.default _) 0
    let w ← M.read
    let d' ← syncTo 9 9 plain (backendB 2) (backendA 1) (DiffClass.default _) 0 (some d)
    let w' ← M.read
    let post ← diffTo 9 (backendB 2) (backendA 1) (DiffClass.default _) 0
    let n := (w.trace.filter (fun | .diffProgress _ _ => true | _ => false)).length
    let n' := (w'.trace.filter (fun | .diffProgress _ _ => true | _ => false)).length
    pure (d.hasDiffs, d'.hasDiffs, n == n', post.hasDiffs)) = .ok (true, true, true, false) := by decide +kernel

/-- `backend_a.sync_from(backend_b)` -/
def synced {E : Type} (h : Hooks TV E) (flags : Nat := 0) : M TV E (Diff TV) := do
  loadA (backendA 1)
  loadB (backendB 2)
  sync h (backendA 1) (backendB 2) flags

-- test_diffsync_sync_from
example : result () (do
    let _ ← synced plain
    let w ← M.read
    let role ← field (backendA 1) "device" "sfo-spine1" "role"
    let l ← uids (backendA 1) "site"
    let l' ← getAll (backendA 1) "nothing"
    let a ← has (backendA 1) "site" "rdu"
    let b ← has (backendA 1) "nothing" ""
    pure (completed w, role, l, l', a, b)) = .ok ([1], some (.s "leaf"), ["nyc", "sfo", "atl"], [], false, false) := by decide +kernel
example : result () (do
    let _ ← synced plain
    let nyc ← get (backendA 1) (.cls Site) (.uid "nyc")
    let sfo ← get (backendA 1) (.name "site") (.uid "sfo")
    let x ← getByUids (backendA 1) ["nyc", "sfo"] "site"
    let y ← getByUids (backendA 1) ["sfo", "nyc"] "site"
    pure (x == [nyc, sfo], y == [sfo, nyc])) = .ok (true, true) := by decide +kernel
example : raised () (do let _ ← synced plain; getByUids (backendA 1) ["nyc", "sfo"] "device") = some .objectNotFound := by decide +kernel

-- test_diffsync_sync_with_callback
example : result () (do
    loadA (backendA 1)
    loadB (backendB 2)
    let d ← diff (backendA 1) (backendB 2)
    let _ ← sync plain (backendA 1) (backendB 2)
    let w ← M.read
    pure ((w.trace.filterMap (fun | .syncProgress c t => some (c, t) | _ => none)).getLast? == some (d.len, d.len))) = .ok true := by decide +kernel

-- test_diffsync_no_log_unchanged_by_default, test_diffsync_log_unchanged_even_if_no_changes_overall
example : result () (do
    loadA (backendA 1)
    let _ ← sync plain (backendA 1) (backendA 1)
    let w ← M.read
    let _ ← sync plain (backendA 1) (backendA 1) GF.LOG_UNCHANGED_RECORDS
    let w' ← M.read
    pure (levels w, levels w')) = .ok ([], List.replicate 23 .debug) := by decide +kernel

-- test_diffsync_sync_from_successful_logging: one record per element, all "debug" or "info"
example : result () (do
    let d ← synced plain GF.LOG_UNCHANGED_RECORDS
    let w ← M.read
    pure ((levels w).length == d.len, (levels w).all (fun l => l == .debug || l == .info))) = .ok (true, true) := by decide +kernel

/-- Counters of calls: `ErrorProneModelMixin._counter` (conftest.py:36) of the classes for sites, devices and interfaces. -/
abbrev Counters := Nat × Nat × Nat

/-- The model name of a call. -/
def typeOf : CrudCall TV → String
  | .create t _ _ => t
  | .update t _ _ => t
  | .delete t _ => t

/-- What a method of `ErrorProneModelMixin` does at its `n`-th call (conftest.py:38-66). -/
def prone (c : CrudCall TV) (n : Nat) : Outcome :=
  if n % 5 = 0 then { applied := false, result := .raises (match c with
    | .create .. => .objectNotCreated
    | .update .. => .objectNotUpdated
    | .delete .. => .objectNotDeleted) }
  else if n % 4 = 0 then { applied := false, result := .none }
  else {}

/-- `ErrorProneBackendA`, conftest.py:305-310. -/
def errorProne : Hooks TV Counters := fun (s, d, i) c =>
  if typeOf c = "site" then (prone c (s + 1), (s + 1, d, i))
  else if typeOf c = "device" then (prone c (d + 1), (s, d + 1, i))
  else if typeOf c = "interface" then (prone c (i + 1), (s, d, i + 1))
  else ({}, (s, d, i))

-- test_diffsync_sync_from_exceptions_are_not_caught_by_default
example : (raised (0, 0, 0) (synced errorProne)).map Err.isCrud = some true := by decide +kernel

/-- The counters that the previous test leaves. -/
def leftover : Counters := (synced errorProne 0 (blank (0, 0, 0))).2.env

-- test_diffsync_sync_from_with_continue_on_failure_flag, first sync: something is left, something succeeded, something failed
example : result leftover (do
    let _ ← synced errorProne (GF.CONTINUE_ON_FAILURE ||| GF.LOG_UNCHANGED_RECORDS)
    let w ← M.read
    let d ← diff (backendA 1) (backendB 2)
    let ok (a : Action) : Bool := w.trace.any (fun | .log .info ctx .success => ctx.action == some a | _ => false)
    pure (d.hasDiffs, ok .create, ok .update, ok .delete, (levels w).contains .error)) = .ok (true, true, true, true, true) := by decide +kernel

/-- The loop of retries: at each, whether errors were recorded, and whether there are diffs left; ends when there are none. -/
def retry : Nat → M TV Counters (List (Bool × Bool))
  | 0 => pure []
  | n + 1 => do
    M.modify (fun w => { w with trace := [] })
    let _ ← sync errorProne (backendA 1) (backendB 2) GF.CONTINUE_ON_FAILURE
    let w ← M.read
    let d ← diff (backendA 1) (backendB 2)
    let now := ((levels w).contains .error, d.hasDiffs)
    if d.hasDiffs then do
      let rest ← retry n
      pure (now :: rest)
    else pure [now]

-- test_diffsync_sync_from_with_continue_on_failure_flag, retries: errors are recorded as long as diffs are left, and none at the last
example : result leftover (do
    let _ ← synced errorProne (GF.CONTINUE_ON_FAILURE ||| GF.LOG_UNCHANGED_RECORDS)
    retry 10) = .ok [(true, true), (true, true), (false, false)] := by decide +kernel

-- test_diffsync_sync_with_skip_unmatched_src_flag
example : result () (do
    loadA (backendA 1)
    loadExtra (backendA 2)
    let _ ← sync plain (backendA 1) (backendA 2) GF.SKIP_UNMATCHED_SRC
    let a ← has (backendA 1) "site" "lax"
    let b ← has (backendA 1) "device" "nyc-spine3"
    let l ← kids (backendA 1) "site" "nyc" "devices"
    pure (a, b, l)) = .ok (false, false, some ["nyc-spine1", "nyc-spine2"]) := by decide +kernel

-- test_diffsync_sync_with_skip_unmatched_dst_flag
example : result () (do
    loadA (backendA 1)
    loadMinus (backendA 2)
    let _ ← sync plain (backendA 1) (backendA 2) GF.SKIP_UNMATCHED_DST
    let a ← has (backendA 1) "site" "rdu"
    let b ← has (backendA 1) "device" "sfo-spine2"
    let l ← kids (backendA 1) "site" "sfo" "devices"
    pure (a, b, l)) = .ok (true, true, some ["sfo-spine1", "sfo-spine2"]) := by decide +kernel

/-- `NoDeleteInterface` of test_diffsync_sync_skip_children_on_delete: deleting an interface raises `RuntimeError`. -/
def noDelete : Hooks TV Unit := fun _ c =>
  match c with
  | .delete "interface" _ => ({ applied := false, result := .raises .runtimeError }, ())
  | _ => ({}, ())

-- test_diffsync_sync_skip_children_on_delete
example : result () (do
    loadA (backendA 1)
    loadA (backendA 2)
    let d ← new (backendA 2) "device" [("name", .s "nyc-spine3"), ("site_name", .s "nyc"), ("role", .s "spine")]
    let o ← deref d
    writeObj d { o with m := { o.m with flags := MF.SKIP_CHILDREN_ON_DELETE ||| MF.NATURAL_DELETION_ORDER } }
    let nyc ← get (backendA 2) (.cls SiteA) (.uid "nyc")
    addChildRef nyc d
    add (backendA 2) d
    let i ← new (backendA 2) "interface" [("name", .s "eth0"), ("device_name", .s "nyc-spine3")]
    addChildRef d i
    add (backendA 2) i
    let before ← has (backendA 2) "interface" "nyc-spine3__eth0"
    let _ ← sync noDelete (backendA 2) (backendA 1)
    let after ← has (backendA 2) "interface" "nyc-spine3__eth0"
    let d ← diff (backendA 2) (backendA 1)
    pure (before, after, d.hasDiffs)) = .ok (true, false, false) := by decide +kernel

/-! ## /repo/tests/unit/test_diffsync_model_flags.py -/

-- test_diffsync_sync_with_skip_unmatched_src_flag_on_models
example : result () (do
    loadA (backendA 1)
    loadExtra (backendA 2)
    setFlag (backendA 2) "site" "lax" MF.SKIP_UNMATCHED_SRC
    setFlag (backendA 2) "device" "nyc-spine3" MF.SKIP_UNMATCHED_SRC
    let _ ← sync plain (backendA 1) (backendA 2)
    let a ← has (backendA 1) "site" "lax"
    let b ← has (backendA 1) "device" "nyc-spine3"
    let l ← kids (backendA 1) "site" "nyc" "devices"
    let d ← diff (backendA 1) (backendA 2)
    pure (a, b, l, counts d)) = .ok (false, false, some ["nyc-spine1", "nyc-spine2"], 0, 0, 0, 23, 2) := by decide +kernel

-- test_diffsync_sync_with_skip_unmatched_dst_flag_on_models
example : result () (do
    loadA (backendA 1)
    loadMinus (backendA 2)
    setFlag (backendA 1) "site" "rdu" MF.SKIP_UNMATCHED_DST
    setFlag (backendA 1) "device" "sfo-spine2" MF.SKIP_UNMATCHED_DST
    let _ ← sync plain (backendA 1) (backendA 2)
    let a ← has (backendA 1) "site" "rdu"
    let b ← has (backendA 1) "device" "rdu-spine1"
    let c ← has (backendA 1) "device" "sfo-spine2"
    let e ← has (backendA 1) "interface" "sfo-spine2__eth0"
    let l ← kids (backendA 1) "site" "sfo" "devices"
    pure (a, b, c, e, l)) = .ok (true, true, true, true, some ["sfo-spine1", "sfo-spine2"]) := by decide +kernel

/-- `TestModelChild`; `ChildModel` with an attribute. -/
def Child (attrs : List String) : ModelClass TV where
  name := "child"
  fields := ("name", none) :: attrs.map (fun a => (a, none))
  identifiers := ["name"]
  attributes := attrs

/-- `TestModelParent`; `ParentModel` with an attribute. -/
def Parent (attrs : List String) : ModelClass TV :=
  { Child attrs with name := "parent", children := [("child", "children")] }

/-- `TestBackend`; `TestAdapter` with an attribute. -/
def family (attrs : List String) (k : Nat) : Adapter TV where
  ref := ⟨k, .local k⟩
  topLevel := ["parent"]
  classes := [("child", Child attrs), ("parent", Parent attrs)]

/-- `load` of these adapters: the arguments for parent and child, and the flags of the child. -/
def loadFamily (A : Adapter TV) (p c : Dict TV) (flags : Nat) : M TV Unit Unit := do
  let par ← new A "parent" p
  let o ← deref par
  writeObj par { o with m := { o.m with flags := MF.NATURAL_DELETION_ORDER } }
  add A par
  let ch ← new A "child" c
  let o ← deref ch
  writeObj ch { o with m := { o.m with flags := flags } }
  addChildRef par ch
  add A ch

-- test_diffsync_diff_with_natural_deletion_order
example : result () (do
    loadFamily (family [] 1) [("name", .s "Test-Parent")] [("name", .s "Test-Child")] 0
    loadFamily (family [] 2) [("name", .s "Test-Parent")] [("name", .s "Test-Child")] 0
    let p ← get (family [] 1) (.name "parent") (.dict [("name", .s "Test-Parent")])
    remove (family [] 1) 9 p true
    let _ ← syncTo 9 9 plain (family [] 1) (family [] 2) (DiffClass.default _) 0 none
    let w ← M.read
    pure (called w)) = .ok [("delete", "child", "Test-Child"), ("delete", "parent", "Test-Parent")] := by decide +kernel

-- test_natural_deletion_order_with_noop_parent
example : result () (do
    loadFamily (family ["attribute"] 1) [("name", .s "Test Parent"), ("attribute", .s "This doesn't change")]
      [("name", .s "Test Child"), ("attribute", .s "Attribute from source")] MF.NATURAL_DELETION_ORDER
    loadFamily (family ["attribute"] 2) [("name", .s "Test Parent"), ("attribute", .s "This doesn't change")]
      [("name", .s "Test Child"), ("attribute", .s "Attribute from destination")] MF.NATURAL_DELETION_ORDER
    let _ ← syncTo 9 9 plain (family ["attribute"] 1) (family ["attribute"] 2) (DiffClass.default _) 0 none
    let w ← M.read
    pure (called w)) = .ok [("update", "child", "Test Child")] := by decide +kernel

end DS.Conf
