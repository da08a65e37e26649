import Verif.Model.Differ
/-! # Vocabulary for statements about stores and worlds -/

namespace DS
variable {V E : Type} [PyVal V]

/-- The objects a local store holds for a model name: unique id ↦ object. -/
def tbl (w : World V E) (sid : Nat) (t : String) : Dict Ref := (Dict.get? (w.loc sid) t).getD []

/-- The object a local store holds under a model name and unique id. -/
def findRef (w : World V E) (sid : Nat) (t u : String) : Option Ref := Dict.get? (tbl w sid t) u

/-- What an adapter contains, as data: all objects of a type in order, and the object with a given type and
unique id. -/
structure Snap (V : Type) where
  all : String → List (Model V)
  find : String → String → Option (Model V)

/-- A name without `:` and without the special characters of glob patterns. -/
def Plain (s : String) : Prop := ∀ c ∈ s.toList, c ∉ [':', '*', '?', '[', '\\']

instance (s : String) : Decidable (Plain s) := inferInstanceAs (Decidable (∀ c ∈ _, _))

/-- The contents of an adapter in a world.  Those of a Redis store are given for plain model names only: for others, the keys are
ambiguous (`a:b` with id `c` and `a` with id `b:c` have the same key). -/
def snap (A : Adapter V) (w : World V E) : Snap V :=
  match A.ref.store with
  | .local sid =>
    { all := fun t => (Dict.values (tbl w sid t)).map (fun r => (w.heap r).m)
      find := fun t u => (findRef w sid t u).map (fun r => (w.heap r).m) }
  | .redis sid =>
    { all := fun t => if Plain t then (scanKeys w.redis (storeLabel sid ++ (":" ++ (t ++ ":")))).filterMap
        (fun k => (Dict.get? w.redis k).map Obj.m) else []
      find := fun t u => if Plain t then (Dict.get? w.redis (redisKey sid t u)).map Obj.m else none }

/-- The model names for which `snap` gives the contents. -/
def Adapter.Takes (A : Adapter V) (t : String) : Prop :=
  match A.ref.store with
  | .local _ => True
  | .redis _ => Plain t

/-- `snap` gives the contents for all types that matter in a comparison: the top-level types and the child types of stored objects.
(Always so for local stores.) -/
structure Serves (A : Adapter V) (S : Snap V) : Prop where
  top : ∀ t ∈ A.topLevel, A.Takes t
  all : ∀ t m, m ∈ S.all t → ∀ ct ∈ Dict.keys m.cls.children, A.Takes ct
  find : ∀ t u m, S.find t u = some m → ∀ ct ∈ Dict.keys m.cls.children, A.Takes ct

/-- What holds of local stores in every world reachable through the API: dictionaries have no duplicate keys,
stored references are allocated, and objects are stored under their own type and unique id. -/
structure World.OK (w : World V E) : Prop where
  loc_wf : ∀ sid, Dict.WF (w.loc sid)
  tbl_wf : ∀ sid t, Dict.WF (tbl w sid t)
  refs_lt : ∀ sid t u r, findRef w sid t u = some r → r < w.next
  key_ok : ∀ sid t u r, findRef w sid t u = some r → (w.heap r).m.type = t ∧ (w.heap r).m.uid = u

end DS
