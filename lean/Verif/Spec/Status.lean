import Verif.Spec.Sync
/-! # What `get_status()` says after a sync -/

namespace DS
variable {V E : Type} [PyVal V]

/-- What the base method (`super().create()`, `update()`, `delete()`) says when it was successful. -/
def CrudCall.doneMsg : CrudCall V → String
  | .create .. => "Created successfully"
  | .update .. => "Updated successfully"
  | .delete .. => "Deleted successfully"

/-- What an object says about a call: the status that the user's method set, if it set one; otherwise SUCCESS with the message of
the base method, if that was called (a `create` that returns an object has called it); otherwise UNKNOWN. -/
def statusAfter (c : CrudCall V) (out : Outcome) : Status × String :=
  out.status.getD (if c.act = .create ∨ out.applied = true then (.success, c.doneMsg) else (.unknown, ""))

/-- `get_status()` of the object that a local store holds under a key. -/
def statusOf (w : World V E) (sid : Nat) (k : Key) : Option (Status × String) :=
  (findRef w sid k.1 k.2).map (fun r => (w.heap r).getStatus)

end DS
