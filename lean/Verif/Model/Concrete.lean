import Verif.Model.Adapter
/-!
# Concrete values, classes and adapters used in examples and counterexamples

The classes follow the `Site`/`Device`/`Interface` classes of the project's own tests
(/repo/tests/unit/conftest.py).
-/

namespace DS.Ex

deriving instance DecidableEq for Except

/-- Concrete Python values: strings, integers and `float('nan')`. -/
inductive PV where
  | s (x : String)
  | i (n : Int)
  | nan
  deriving DecidableEq, Repr

/-- Decimal digits (enough for examples). -/
def natStr (n : Nat) : String := String.ofList (Nat.toDigits 10 n)

/-- The number that a string of decimal digits stands for; `none` for other strings. -/
def readNat (s : String) : Option Nat :=
  if s.toList.isEmpty || s.toList.any (fun c => !c.isDigit) then none
  else some (s.toList.foldl (fun n c => 10 * n + (c.toNat - 48)) 0)

instance : PyVal PV where
  eq
    | .s a, .s b => a == b
    | .i a, .i b => a == b
    | _, _ => false
  str
    | .s a => a
    | .i (.ofNat n) => natStr n
    | .i (.negSucc n) => "-" ++ natStr (n + 1)
    | .nan => "nan"
  parse t v := match t, v with
    | "int", .s x => (readNat x).map (fun n => .i (.ofNat n))
    | "int", .i n => some (.i n)
    | "int", .nan => none
    | "str", .s x => some (.s x)
    | "str", _ => none
    | _, v => some v

/-- Values without NaN, for examples where `==` is an equivalence. For a field annotated `int` only digits are accepted, and leading zeros
dropped. -/
instance : PyVal String where
  eq a b := a == b
  str a := a
  parse t v := if t = "int" then (readNat v).map natStr else some v

instance : PyVal.Equiv String where
  eq_refl := by simp [PyVal.eq]
  eq_symm := by simp only [PyVal.eq, beq_iff_eq]; exact fun _ _ h => h.symm
  eq_trans := by simp only [PyVal.eq, beq_iff_eq]; exact fun _ _ _ h1 h2 => h1.trans h2

/-- User code driven by a script of outcomes; successful once the script is used up. -/
def scripted (V : Type) : Hooks V (List Outcome) := fun e _ =>
  match e with
  | [] => ({}, [])
  | o :: os => (o, os)

/-- `Interface`: identifiers `device_name`, `name`; shortname `name`. -/
def interfaceC : ModelClass String where
  name := "interface"
  fields := [("device_name", none), ("name", none), ("type", some "ethernet"), ("desc", some "")]
  identifiers := ["device_name", "name"]
  shortname := ["name"]
  attributes := ["type", "desc"]

/-- `Device`. -/
def deviceC : ModelClass String where
  name := "device"
  fields := [("name", none), ("site", some "nyc"), ("role", some "leaf")]
  identifiers := ["name"]
  attributes := ["role"]
  children := [("interface", "interfaces")]

/-- `Site`. -/
def siteC : ModelClass String where
  name := "site"
  fields := [("name", none)]
  identifiers := ["name"]
  children := [("device", "devices")]

/-- Adapter with local store number `k`. -/
def ad (k : Nat) : Adapter String where
  ref := ⟨k, .local k⟩
  name := "backend"
  topLevel := ["site"]
  classes := [("device", deviceC), ("interface", interfaceC), ("site", siteC)]

/-- Adapter with a Redis store. -/
def adR (k : Nat) (sid : String) : Adapter String := { ad k with ref := ⟨k, .redis sid⟩ }

/-- A site object. -/
def site (name : String) (devices : List String) (flags : Nat := 0) : Model String :=
  ⟨siteC, [("name", name)], [("devices", devices)], flags⟩
/-- A device object. -/
def device (name role : String) (ifs : List String) (flags : Nat := 0) : Model String :=
  ⟨deviceC, [("name", name), ("site", "nyc"), ("role", role)], [("interfaces", ifs)], flags⟩
/-- An interface object. -/
def interface (dev name desc : String) (flags : Nat := 0) : Model String :=
  ⟨interfaceC, [("device_name", dev), ("name", name), ("type", "ethernet"), ("desc", desc)], [], flags⟩

/-- The empty world. -/
def world0 (V E : Type) [Inhabited (ModelClass V)] (env : E) : World V E where
  heap := fun _ => { m := ⟨default, [], [], 0⟩ }
  next := 0
  loc := fun _ => []
  redis := []
  env := env
  trace := []

instance (V : Type) : Inhabited (ModelClass V) := ⟨⟨"", [], [], [], [], [], 0, []⟩⟩

/-- Add instances of the given models to an adapter (`adapter.add(model)`). -/
def addModels {V E : Type} [PyVal V] (A : Adapter V) (ms : List (Model V)) (w : World V E) : World V E :=
  (M.forEach (fun m => do let r ← alloc { m := m }; add A r) ms w).2

/-- Contents of an adapter: models per (type, unique id), as `get` finds them. -/
def contents {V E : Type} [PyVal V] (A : Adapter V) (keys : List (String × String)) (w : World V E) :
    List (Option (Model V)) :=
  keys.map (fun k => match getRaw A k.1 k.2 w with
    | (.ok r, w') => some (w'.heap r).m
    | _ => none)

/-- The `create`/`update`/`delete` calls in a trace. -/
def calls {V : Type} (t : List (Event V)) : List (CrudCall V) :=
  t.filterMap (fun | .call c _ => some c | _ => none)

end DS.Ex
