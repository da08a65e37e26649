import Verif.Spec.SyncKilled
import Verif.Spec.Concurrent
/-! # Syncs into Redis stores at the same time as other clients of the server -/

namespace DS
variable {V E α : Type}

/-- The keys that a sync reads or writes: those of its destination's store `sid` and, if the source is on the server too, those of the source's store. -/
def SyncKeys (S : SyncCtx V E) (sid key : String) : Prop := OfStore sid key ∨ ∃ s, S.src.ref.store = .redis s ∧ OfStore s key

/-- The object was stored under the key at some time of an execution that goes through the states `l`. -/
def StoredDuring (l : List (Sys V α)) (key : String) (o : Obj V) : Prop := ∃ s ∈ l, Dict.get? s.srv key = some o

/-- The keys that go along with deleted objects flagged SKIP_CHILDREN_ON_DELETE: that of such an object (as it was stored at some time, `stored`) that one of
the diff elements `es` deletes, and those of the children that an object lists that was stored at some time under a key that goes along. -/
inductive AlongWith [PyVal V] (A : Adapter V) (stored : String → Obj V → Prop) (sid : String) (es : List (Elem V)) : String → Prop where
  | root {e t u o} : InTree e es → e.action = some .delete → ElemKey A e (t, u) → stored (redisKey sid t u) o →
      flagOn o.m.flags MF.SKIP_CHILDREN_ON_DELETE = true → AlongWith A stored sid es (redisKey sid t u)
  | down {key o t u} : AlongWith A stored sid es key → stored key o → ListsChild o.m t u → AlongWith A stored sid es (redisKey sid t u)

/-- The object that the element creates. -/
def CreatesAs [PyVal V] (A : Adapter V) (e : Elem V) (m : Model V) : Prop :=
  e.action = some .create ∧ ∃ c, Dict.get? A.classes e.type = some c ∧ c.construct e.keys (e.plus.getD []) = .ok m

/-- A sync that a client runs: the adapters, flags and user code, the recursion limit, the diff, and the client's memory. -/
structure SyncJob (V E : Type) where
  ctx : SyncCtx V E
  depth : Nat
  diff : Diff V
  mem : World V E

/-- The client that runs it, for a destination with this store. -/
def SyncJob.client [PyVal V] (J : SyncJob V E) (sid : String) : Proc V (Except Err Bool × World V E) := cPerformSync J.ctx sid J.depth J.diff J.mem

/-- What is assumed of a sync into the store `sid`: valid classes with names free of `:`, and a diff like those that `diff_from` computes. -/
structure SyncJob.Into [PyVal V] (J : SyncJob V E) (sid : String) : Prop where
  store : J.ctx.dst.ref.store = .redis sid
  valid : J.ctx.dst.Valid
  plain : ∀ t c, Dict.get? J.ctx.dst.classes t = some c → Plain t
  diff : GoodDiff J.ctx.dst J.diff.kids

end DS
