import Verif.Props.OpenSync
import Verif.Props.SyncEx
/-! # Concrete syncs with user code that meets the hypotheses of C66 -/

namespace DS.Ex

/-- User code that meddles with the destination: `create` also removes the site `lax`, `update` adds a device of its own and flags the
object it is called on, `delete` changes nothing. -/
def meddler : OpenHooks String (List Outcome) where
  create c ids attrs := do
    let m ← M.ofExcept (c.construct ids attrs)
    let r ← alloc { m := m, status := .success }
    let lax ← M.attempt (getRaw (ad 2) "site" "lax") (fun _ => true)
    match lax with
    | .ok q => remove (ad 2) 20 q false
    | .error _ => pure ()
    pure (some r)
  update r attrs := do
    setattrsRef r attrs
    let q ← alloc { m := device "zz" "leaf" [] }
    add (ad 2) q
    let o ← deref r
    writeObj r { o with status := .failure, m := { o.m with flags := MF.SKIP_CHILDREN_ON_DELETE } }
    pure (some r)
  delete r := pure (some r)
  callback _ _ := pure ()
  complete _ := pure ()

/-- The same with a callback that raises at the third report. -/
def impatient : OpenHooks String (List Outcome) := { meddler with callback := fun k _ => if k = 3 then M.raise .valueError else pure () }

/-- The same with deletions that fail with an exception of their own. -/
def brittle : OpenHooks String (List Outcome) := { meddler with delete := fun _ => M.raise .typeError }

/-- A sync of the example adapters. -/
def oSync (h : OpenHooks String (List Outcome)) (flags : Nat) := oSyncFrom 10 20 h (ad 2) (ad 1) (DiffClass.default _) flags none w1

theorem open1 (h : OpenHooks String (List Outcome)) : OpenRun 10 20 h (ad 2) (ad 1) (DiffClass.default _) 0 none w1 (dOf w1 0) (oSync h 0).1 (oSync h 0).2 where
  used := run1.1.used
  del := run1.1.good.del
  run := by generalize hx : oSync h 0 = x; exact hx

/-- User code that creates plain objects and otherwise meddles as before; it returns. -/
def gentle : OpenHooks String (List Outcome) :=
  { meddler with create := fun c ids attrs => do
      let m ← M.ofExcept (c.construct ids attrs)
      let r ← alloc { m := m, status := .success }
      pure (some r) }

theorem nodup_w1 : (nodesL (dOf w1 0).kids).Nodup := by
  have h : ((nodesL (dOf w1 0).kids).map (fun e => (e.type, e.keys))).Nodup := by decide +kernel
  exact List.Pairwise.of_map _ (fun _ _ hn he => hn (by rw [he])) h

/-- C66: seven calls are made, in the order of the diff; then the site `lax`, which user code has removed, cannot be deleted. -/
example : (callsOf (newEvents w1 (oSync meddler 0).2)).length = 7 ∧ errOf (oSync meddler 0) = some .objectNotDeleted ∧
    ∃ ps : List (Served String), callsOf (newEvents w1 (oSync meddler 0).2) = ps.map (fun q => (q.call, q.out)) ∧ (∀ q ∈ ps, Asks q.elem q.call) ∧
      ps.Pairwise (fun q q' => (InTree q'.elem q.elem.kids → q.out.result = .object) ∧ (InTree q.elem q'.elem.kids → q'.elem.action = some .delete)) := by
  refine ⟨by decide +kernel, by decide +kernel, ?_⟩
  obtain ⟨ps, _, h2, h3, h4⟩ := C66_calls (open1 meddler) run1.2.1 run1.1.ready.valid.names
  exact ⟨ps, h2, h3, h4 nodup_w1⟩

/-- C66: progress up to the point where user code stops the sync. -/
example : progressOf (newEvents w1 (oSync meddler 0).2) = countUp 9 0 8 ∧ (dOf w1 0).len = 9 := by decide +kernel

/-- C66: the callback raises at the third report. -/
example : errOf (oSync impatient 0) = some .valueError ∧ (∃ A, newEvents w1 (oSync impatient 0).2 = A ++ [.syncProgress 3 9] ∧ (callsOf A).length = 2) ∧
    ∀ w0, (impatient.callback 3 9 w0).1 ≠ .ok () :=
  ⟨by decide +kernel, ⟨(newEvents w1 (oSync impatient 0).2).dropLast, by decide +kernel, by decide +kernel⟩, fun w0 => by simp [impatient, M.raise]⟩

/-- C66: `delete` raises an exception of its own, at its first call. -/
example : errOf (oSync brittle 0) = some .typeError ∧ (callsOf (newEvents w1 (oSync brittle 0).2)).getLast? = some (.delete "interface" "a__eth1", { result := .raises .typeError }) ∧
    ∀ i j, Event.syncComplete i j ∉ newEvents w1 (oSync brittle 0).2 := by
  have hs : newEvents w1 (oSync brittle 0).2 = (newEvents w1 (oSync brittle 0).2).dropLast ++ .call (.delete "interface" "a__eth1") { result := .raises .typeError } :: [] := by decide +kernel
  exact ⟨by decide +kernel, by decide +kernel, (C66_exception (open1 brittle) hs rfl (fun h => by cases h)).2.2⟩

/-- C66: a sync that returns ends with `sync_complete`. -/
example : (oSync gentle 0).1.toOption.isSome = true ∧ Event.syncComplete 2 1 ∈ newEvents w1 (oSync gentle 0).2 ∧
    (snap (ad 2) (oSync gentle 0).2).find "device" "zz" ≠ none := by decide +kernel

end DS.Ex
