import Verif.Spec.Crash
import Verif.Spec.Sync
import Verif.Model.SyncCmd
/-! # Syncs into a Redis store that are killed

What a killed sync leaves on the server is compared with what a sync leaves whose user code raises: `Hooks.upTo` is the same user code, except that it
gives up, with an exception that the syncer does not catch (/repo/diffsync/helpers.py:448 only catches `ObjectCrudException`), when it has been called
a number of times. -/

namespace DS
variable {V E : Type}

/-- A call that does nothing but raise an exception that is not an `ObjectCrudException`. -/
def gaveUp : Outcome := { applied := false, status := none, result := .raises (.user 0) }

/-- The same user code for the first calls, as many as the number in its state says; the next call gives up. -/
def Hooks.upTo (h : Hooks V E) : Hooks V (Nat × E)
  | (0, e), _ => (gaveUp, (0, e))
  | (k + 1, e), c => ((h e c).1, (k, (h e c).2))

/-- The same world, for user code that gives up after `k` calls. -/
def World.upTo (w : World V E) (k : Nat) : World V (Nat × E) :=
  { heap := w.heap, next := w.next, loc := w.loc, redis := w.redis, env := (k, w.env), trace := w.trace, dproc := w.dproc, dtotal := w.dtotal,
    sproc := w.sproc, stotal := w.stotal, sact := w.sact, scls := w.scls, slog := w.slog }

/-- The same sync, with user code that gives up. -/
def SyncCtx.upTo (S : SyncCtx V E) : SyncCtx V (Nat × E) :=
  { src := S.src, dst := S.dst, flags := S.flags, dc := S.dc, hooks := S.hooks.upTo, rlimit := S.rlimit }

/-- `w` is the world in which user code gave up when it was called to delete an object, flagged SKIP_CHILDREN_ON_DELETE, that is stored on the server and that one of the
diff elements `es` deletes, and the contents `d'` are those in `w` with only some of those gone that are removed along with it: first the object itself, and each
other one after one that lists it. -/
def AmidRemoval [PyVal V] (A : Adapter V) (es : List (Elem V)) (sid : String) (w : World V E) (d' : Dict (Obj V)) : Prop :=
  ∃ e c u o l, InTree e es ∧ e.action = some .delete ∧ Dict.get? A.classes e.type = some c ∧ c.createUniqueId e.keys = some u ∧
    Dict.get? w.redis (redisKey sid c.name u) = some o ∧ flagOn o.m.flags MF.SKIP_CHILDREN_ON_DELETE = true ∧
    w.trace.getLast? = some (.call (.delete o.m.type o.m.uid) gaveUp) ∧ TakenFrom w.redis sid o.m l ∧
    ∀ key, (key ∈ l.map (fun x => redisKey sid x.type x.uid) → Dict.get? d' key = none) ∧
      (key ∉ l.map (fun x => redisKey sid x.type x.uid) → Dict.get? d' key = Dict.get? w.redis key)

/-- The keys that may go along with objects flagged SKIP_CHILDREN_ON_DELETE that a list of diff elements deletes. -/
inductive GoesWith [PyVal V] (A : Adapter V) (D : Snap V) (es : List (Elem V)) : Key → Prop where
  | root {e k} : InTree e es → e.action = some .delete → ElemKey A e k → SkipsChildren A D k → GoesWith A D es k
  | down {k k'} : GoesWith A D es k → EdgeIn A D es k k' → GoesWith A D es k'

/-- The same world, but for the contents of the server. -/
def World.onServer (w : World V E) (d : Dict (Obj V)) : World V E := { w with redis := d }

end DS
