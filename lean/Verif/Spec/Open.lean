import Verif.Model.SyncerOpen
import Verif.Spec.Sync
/-! # What syncs promise whatever user code does -/

namespace DS
variable {V E : Type} [PyVal V]

/-- A diff element asks for a call: of the method of its action, a `create` with its model name, keys and source values, an `update`
with the values that differ. -/
def Asks (e : Elem V) : CrudCall V → Prop
  | .create t ids attrs => e.action = some .create ∧ t = e.type ∧ ids = e.keys ∧ attrs = e.plus.getD []
  | .update _ _ attrs => e.action = some .update ∧ attrs = e.plus.getD []
  | .delete _ _ => e.action = some .delete

/-- A call of `sync_from` with arbitrary user code: `d` is the diff the sync works with, and `(res, w')` is the outcome. -/
structure OpenRun (n rl : Nat) (hooks : OpenHooks V E) (dst src : Adapter V) (dc : DiffClass V) (flags : Nat) (diff : Option (Diff V))
    (w : World V E) (d : Diff V) (res : Except Err (Diff V)) (w' : World V E) : Prop where
  used : UsedDiff n dst src dc flags diff w d
  del : DelClosed d.kids
  run : oSyncFrom n rl hooks dst src dc flags diff w = (res, w')

/-- A call that was made for a diff element, and how it ended. -/
structure Served (V : Type) where
  elem : Elem V
  call : CrudCall V
  out : Outcome

/-! ## user code that leaves the adapters alone -/

/-- User code as `Verif.Model.Syncer` supposes it, as arbitrary computations. -/
def OpenHooks.ofHooks (hooks : Hooks V E) (dst : Adapter V) : OpenHooks V E where
  create c ids attrs := hookCreate ⟨dst, dst, 0, DiffClass.default V, hooks, 0⟩ c ids attrs
  update r attrs := hookUpdate ⟨dst, dst, 0, DiffClass.default V, hooks, 0⟩ r attrs
  delete r := hookDelete ⟨dst, dst, 0, DiffClass.default V, hooks, 0⟩ r
  callback _ _ := pure ()
  complete _ := pure ()

/-- An event, except for how a call ended. -/
def Event.bare : Event V → Event V
  | .call c _ => .call c {}
  | ev => ev

/-- A world, except for how recorded calls ended. -/
def World.bare (w : World V E) : World V E := { w with trace := w.trace.map Event.bare }

/-- The same stores, objects, counters and events, except for how recorded calls ended. -/
def Twin (w w' : World V E) : Prop := w.bare = w'.bare

end DS
