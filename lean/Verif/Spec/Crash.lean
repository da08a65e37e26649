import Verif.Spec.Concurrent
/-! # Clients of a Redis server that are killed

A client that is killed, or loses its connection, has sent some of its commands and sends no more: `Solo (p, d) (q, d')` says that the client
`p` can get to `q` with the server's contents going from `d` to `d'`.  An error of the connection ends a method of the store as well, since
redis.py catches none of them after the connection is made (/repo/diffsync/store/redis.py:64-220) and `remove` only catches `ObjectNotFound`
(/repo/diffsync/store/__init__.py:107-109); the command that it hits may have reached the server or not. -/

namespace DS
variable {V α : Type}

/-- The server's contents may be `d'` when the client `p`, started with contents `d`, is killed. -/
def KilledLeaves (p : Proc V α) (d d' : Dict (Obj V)) : Prop := ∃ q, Solo (p, d) (q, d')

/-- An object lists a child of this type and unique id. -/
def ListsChild [PyVal V] (m : Model V) (t u : String) : Prop := ∃ f l, (t, f) ∈ m.cls.children ∧ m.kidList f = some l ∧ u ∈ l

/-- Objects that a removal of `m` with its children has taken from the store `sid` of the server with contents `d`, in this order: first `m`,
and each other one after one that lists it. -/
inductive TakenFrom [PyVal V] (d : Dict (Obj V)) (sid : String) (m : Model V) : List (Model V) → Prop
  | none : TakenFrom d sid m []
  | first : TakenFrom d sid m [m]
  | next {l : List (Model V)} {y : Model V} {t u : String} {o : Obj V} (h : TakenFrom d sid m l) (hy : y ∈ l) (hl : ListsChild y t u)
      (ho : Dict.get? d (redisKey sid t u) = some o) : TakenFrom d sid m (l ++ [o.m])

/-- Commands that change nothing. -/
def Cmd.ReadOnly : Cmd V → Prop
  | .set _ _ | .del _ => False
  | _ => True

end DS
