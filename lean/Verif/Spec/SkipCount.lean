import Verif.Spec.Differ
/-! # What the `skip` counter of a diff counts

Stated on the contents of the two adapters, without reference to the algorithm. -/

namespace DS
variable {V : Type} [PyVal V]

/-- The unique ids the object on one side lists as its children of type `ct`. -/
def idsListed (o : Option (Model V)) (ct : String) : List String :=
  match o with
  | none => []
  | some m => match Dict.get? m.cls.children ct with
    | none => []
    | some f => (m.kidList f).getD []

/-- How many children `m` lists of types for which `o` declares no children. -/
def undeclared (m o : Model V) : Nat :=
  (((Dict.keys m.cls.children).filter (fun ct => !(Dict.keys o.cls.children).contains ct)).map
    (fun ct => (idsListed (some m) ct).length)).sum

/-- Children at a place with two objects that are not looked at, since the class of only one of the objects declares
their type. -/
def Pos.oneSided (p : Pos V) : Nat :=
  match p.src, p.dst with
  | some s, some d => undeclared s d + undeclared d s
  | _, _ => 0

/-- The number of places of type `ct` among `ps`. -/
def placesOf (ps : List (Pos V)) (ct : String) : Nat := (ps.filter (fun c => c.type == ct)).length

/-- By how much the child lists of type `ct` at `p` are longer than the number of places (`ps`) they lead to: more than
zero only if a list has repetitions. -/
def Pos.repeats (p : Pos V) (ps : List (Pos V)) (ct : String) : Nat :=
  ((idsListed p.src ct).length - placesOf ps ct) + ((idsListed p.dst ct).length - placesOf ps ct)

/-- `PassedOver flags S D p k`: visiting the place `p` and what is below adds `k` to `skip`.

An excluded place adds one, whether it has one object or two, and what is below it adds nothing.  A place that is
shown adds the children of types only one of its objects declares, the repetitions in its child lists (`cts` are the
types that are compared), and what the places below it add. -/
inductive PassedOver (flags : Nat) (S D : Snap V) : Pos V → Nat → Prop where
  | excluded {p : Pos V} : Hidden flags p.src p.dst → PassedOver flags S D p 1
  | shown {p : Pos V} (cts : List String) (below : List (Pos V × Nat)) :
      p.Visible flags →
      cts.Nodup → (∀ ct, ct ∈ cts ↔ comparesType p.src p.dst ct) →
      DistinctPos (below.map Prod.fst) → (∀ c, c ∈ below.map Prod.fst ↔ IsChild S D p c) →
      (∀ x ∈ below, PassedOver flags S D x.1 x.2) →
      PassedOver flags S D p
        (p.oneSided + (cts.map (p.repeats (below.map Prod.fst))).sum + (below.map Prod.snd).sum)

/-- The objects of the types that are top level in one of the adapters only: `ts` are these types. -/
def topOnly (dst : Adapter V) (S D : Snap V) (ts : List String) : Nat :=
  (ts.map (fun t => if t ∈ dst.topLevel then (D.all t).length else (S.all t).length)).sum

/-- No object lists a child twice. -/
def Snap.NoRepeats (S : Snap V) : Prop :=
  ∀ t u m ct, S.find t u = some m → (idsListed (some m) ct).Nodup

end DS
