import Verif.Model.RedisCmd
import Verif.Spec.Store
/-! # Clients of one Redis server that run at the same time

Any number of clients, numbered; each goes through its commands in its order, and the server takes the commands of different clients in any
order.  A client may stop at any point (crash): nothing forces it to go on.

`GET`, `SET`, `EXISTS` and `DEL` are atomic.  `SCAN` is not: while it runs, other clients may add and remove keys.  The server guarantees that
it returns all keys that were there all the time, and only keys that were there at some time; it may return a key more than once, in any
order. -/

namespace DS
variable {V α : Type}

/-- A client at work: about to do what `p` says, or amid a `SCAN` of the keys that match `pfx*`, where `must` are the matching keys that
were there all the time since its begin, and `may` those that were there at some time. -/
inductive Stage (V α : Type) where
  | at (p : Proc V α)
  | scanning (pfx : String) (must may : String → Prop) (k : List String → Proc V α)

/-- The keys that match `pfx*`. -/
def Found (d : Dict (Obj V)) (pfx key : String) : Prop := key ∈ Dict.keys d ∧ globMatch (pfx ++ "*") key = true

/-- A `SCAN` that is under way when the contents of the server become `d`. -/
def Stage.see (d : Dict (Obj V)) : Stage V α → Stage V α
  | .at p => .at p
  | .scanning pfx must may k => .scanning pfx (fun x => must x ∧ Found d pfx x) (fun x => may x ∨ Found d pfx x) k

/-- The server's contents and the clients. -/
structure Sys (V α : Type) where
  srv : Dict (Obj V)
  cl : Nat → Stage V α

/-- Whether a command is a `SCAN`. -/
def Cmd.isScan : Cmd V → Prop
  | .scan _ => True
  | _ => False

/-- One step of client `i`. -/
inductive Move (i : Nat) (s : Sys V α) : Sys V α → Prop
  | cmd {c : Cmd V} {k : c.Reply → Proc V α} (h : s.cl i = .at (.cmd c k)) (hc : ¬ c.isScan) :
      Move i s ⟨(c.exec s.srv).2, fun j => if j = i then .at (k (c.exec s.srv).1) else (s.cl j).see (c.exec s.srv).2⟩
  | scanBegins {pfx : String} {k : List String → Proc V α} (h : s.cl i = .at (.cmd (.scan pfx) k)) :
      Move i s ⟨s.srv, fun j => if j = i then .scanning pfx (Found s.srv pfx) (Found s.srv pfx) k else s.cl j⟩
  | scanEnds {pfx : String} {must may : String → Prop} {k : List String → Proc V α} (h : s.cl i = .scanning pfx must may k)
      (ks : List String) (h1 : ∀ x, must x → x ∈ ks) (h2 : ∀ x ∈ ks, may x ∧ globMatch (pfx ++ "*") x = true) :
      Move i s ⟨s.srv, fun j => if j = i then .at (k ks) else s.cl j⟩

/-- An execution: `l` are the states it goes through, from `s` to `s'`, both included. -/
inductive Exec : Sys V α → List (Sys V α) → Sys V α → Prop
  | done (s : Sys V α) : Exec s [s] s
  | step {i : Nat} {s s1 s' : Sys V α} {l : List (Sys V α)} (h : Move i s s1) (hs : Exec s1 l s') : Exec s (s :: l) s'

/-! ## One client for itself -/

/-- Steps of a client that is alone on the server, where a `SCAN` returns exactly the matching keys, in any order. -/
inductive Solo : Proc V α × Dict (Obj V) → Proc V α × Dict (Obj V) → Prop
  | done (x) : Solo x x
  | cmd {c : Cmd V} {k : c.Reply → Proc V α} {d : Dict (Obj V)} {x} (hc : ¬ c.isScan) (h : Solo (k (c.exec d).1, (c.exec d).2) x) : Solo (.cmd c k, d) x
  | scan {pfx : String} {k : List String → Proc V α} {d : Dict (Obj V)} {x} (ks : List String) (hk : ∀ y, y ∈ ks ↔ Found d pfx y)
      (h : Solo (k ks, d) x) : Solo (.cmd (.scan pfx) k, d) x

/-- Where a client is: at `p`, or in the `SCAN` that `p` begins with. -/
def Stage.IsAt (p : Proc V α) : Stage V α → Prop
  | .at q => q = p
  | .scanning pfx _ _ k => p = .cmd (.scan pfx) k

/-- Keys that belong to the store with this id. -/
def OfStore (sid key : String) : Prop := ∃ rest : String, key = "diffsync:" ++ sid ++ ":" ++ rest

/-- Replies that a command can get: those of `SCAN` match the pattern. -/
def Cmd.Possible : (c : Cmd V) → c.Reply → Prop
  | .scan pfx, ks => ∀ key, List.Mem key ks → globMatch (pfx ++ "*") key = true
  | _, _ => True

/-- A client all of whose commands satisfy `P`, whatever the server replies. -/
inductive Sends (P : Cmd V → Prop) : Proc V α → Prop
  | ret (r) : Sends P (.ret r)
  | cmd {c k} (h : P c) (hk : ∀ x, c.Possible x → Sends P (k x)) : Sends P (.cmd c k)

/-- Commands about these keys only. -/
def Cmd.About (K : String → Prop) : Cmd V → Prop
  | .get key | .set key _ | .exist key | .del key => K key
  | .scan pfx => ∀ key, globMatch (pfx ++ "*") key = true → K key

/-- Commands that neither set nor delete these keys. -/
def Cmd.Spares (K : String → Prop) : Cmd V → Prop
  | .set key _ | .del key => ¬ K key
  | _ => True

/-- Commands about keys of the store `sid` only. -/
def Cmd.Within (sid : String) : Cmd V → Prop := Cmd.About (OfStore sid)

/-- Commands that neither set nor delete keys of the store `sid`. -/
def Cmd.Outside (sid : String) : Cmd V → Prop := Cmd.Spares (OfStore sid)

/-- Commands that, if they store an object, do so under its own type and unique id in some store, without its adapter. -/
def Cmd.Proper [PyVal V] : Cmd V → Prop
  | .set key o => ∃ sid, Plain sid ∧ Plain o.m.type ∧ key = redisKey sid o.m.type o.m.uid ∧ o.adapter = none
  | _ => True

/-- Every object on the server is stored under its own type and unique id, without adapter. -/
def KeysRight [PyVal V] (d : Dict (Obj V)) : Prop :=
  ∀ key o, Dict.get? d key = some o → ∃ sid, Plain sid ∧ Plain o.m.type ∧ key = redisKey sid o.m.type o.m.uid ∧ o.adapter = none

/-- The clients, wherever they are. -/
def Stage.All (P : Proc V α → Prop) : Stage V α → Prop
  | .at p => P p
  | .scanning pfx _ _ k => P (.cmd (.scan pfx) k)

end DS
