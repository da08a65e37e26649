import Verif.Model.DiffCmd
import Verif.Spec.Concurrent
import Verif.Spec.Differ
/-! # What a diff tells that is computed while other clients write to the stores

There is then no single content that the diff could describe.  What can be said is stated with respect to the moments of the diff: the contents that the
server has from its begin to its end. -/

namespace DS
variable {V : Type} [PyVal V]

/-- What the adapter holds under a type and unique id when the server has the contents `d`. -/
def View.find : View V → Dict (Obj V) → String → String → Option (Model V)
  | .held _ find, _, t, u => find t u
  | .server _ sid, d, t, u => (Dict.get? d (redisKey sid t u)).map Obj.m

/-- How a diff reads an adapter: one with a local store by its contents, one with a Redis store through the server. -/
def View.of {E : Type} (A : Adapter V) (w : World V E) : View V :=
  match A.ref.store with
  | .local _ => .held (snap A w).all (snap A w).find
  | .redis sid => .server A sid

/-- The type names that the store can tell apart. -/
def View.Takes : View V → String → Prop
  | .held _ _, _ => True
  | .server _ _, t => Plain t

/-- At some moment, this is what the adapter held under the type and unique id. -/
def Seen (v : View V) (H : Dict (Obj V) → Prop) (t u : String) (o : Option (Model V)) : Prop := ∃ d, H d ∧ v.find d t u = o

/-- The contents that the server had in the course of an execution. -/
def Moments {α : Type} (l : List (Sys V α)) (d : Dict (Obj V)) : Prop := ∃ s ∈ l, s.srv = d

/-- At all moments, objects are stored under their own type and unique id, and their classes declare each child type once. -/
structure View.Sound (v : View V) (H : Dict (Obj V) → Prop) : Prop where
  lists : match v with
    | .held all find => (⟨all, find⟩ : Snap V).Consistent
    | .server _ sid => Plain sid
  keys : ∀ t u m, v.Takes t → Seen v H t u (some m) → m.type = t ∧ m.uid = u
  kids : ∀ t u m, v.Takes t → Seen v H t u (some m) → (Dict.keys m.cls.children).Nodup ∧ ∀ ct ∈ Dict.keys m.cls.children, v.Takes ct

/-- A diff that runs while the server goes through the contents `H`. -/
structure Readable (C : DiffCtx V) (vs vd : View V) (H : Dict (Obj V) → Prop) : Prop where
  src : vs.Sound H
  dst : vd.Sound H
  src_types : ∀ t ∈ C.src.topLevel, vs.Takes t
  dst_types : ∀ t ∈ C.dst.topLevel, vd.Takes t
  fields : ∀ t u s d, Seen vs H t u (some s) → Seen vd H t u (some d) →
    ∀ ct f f', Dict.get? s.cls.children ct = some f → Dict.get? d.cls.children ct = some f' → f = f'
  top_nodup : C.dst.topLevel.Nodup

/-- A place at the top: each of its two sides is what was stored there at some moment. -/
structure TopSeen (C : DiffCtx V) (vs vd : View V) (H : Dict (Obj V) → Prop) (c : Pos V) : Prop where
  src_top : c.type ∈ C.src.topLevel
  dst_top : c.type ∈ C.dst.topLevel
  src : Seen vs H c.type c.uid c.src
  dst : Seen vd H c.type c.uid c.dst
  some_side : c.src ≠ none ∨ c.dst ≠ none

/-- One side of a place below: if the object above lists it, an object that was stored there at some moment; nothing otherwise. -/
def SideSeen (v : View V) (H : Dict (Obj V) → Prop) (above : Option (Model V)) (ct u : String) (o : Option (Model V)) : Prop :=
  if listsO above ct u then o ≠ none ∧ Seen v H ct u o else o = none

/-- A place below another one, as the objects there list it. -/
structure ChildSeen (vs vd : View V) (H : Dict (Obj V) → Prop) (p c : Pos V) : Prop where
  compared : comparesType p.src p.dst c.type
  listed : listsO p.src c.type c.uid = true ∨ listsO p.dst c.type c.uid = true
  src : SideSeen vs H p.src c.type c.uid c.src
  dst : SideSeen vd H p.dst c.type c.uid c.dst

/-- An element reports a place: its data are those of the objects there, and its children report, one for one, distinct visible places below; every place that the
objects list is among them, unless the flags exclude it. -/
inductive Reports (C : DiffCtx V) (vs vd : View V) (H : Dict (Obj V) → Prop) : Elem V → Pos V → Prop where
  | mk {e : Elem V} {p : Pos V} (ps : List (Pos V)) :
      Header C.src C.dst e p →
      DistinctPos ps →
      (∀ c ∈ ps, ChildSeen vs vd H p c ∧ c.Visible C.flags) →
      (∀ ct u, comparesType p.src p.dst ct → (listsO p.src ct u = true ∨ listsO p.dst ct u = true) →
        ∃ c, c.type = ct ∧ c.uid = u ∧ ChildSeen vs vd H p c ∧ (c ∈ ps ∨ Hidden C.flags c.src c.dst)) →
      e.kids.length = ps.length →
      (∀ x ∈ e.kids.zip ps, Reports C vs vd H x.1 x.2) →
      Reports C vs vd H e p

/-- The elements of a diff report, one for one, distinct visible places at the top; every object that is there at all moments is among them, unless the flags
exclude it. -/
def ReportsTop (C : DiffCtx V) (vs vd : View V) (H : Dict (Obj V) → Prop) (es : List (Elem V)) : Prop :=
  ∃ ps : List (Pos V), DistinctPos ps ∧
    (∀ c ∈ ps, TopSeen C vs vd H c ∧ c.Visible C.flags) ∧
    (∀ t u, t ∈ C.src.topLevel → t ∈ C.dst.topLevel → (¬ Seen vs H t u none ∨ ¬ Seen vd H t u none) →
      ∃ c, c.type = t ∧ c.uid = u ∧ TopSeen C vs vd H c ∧ (c ∈ ps ∨ Hidden C.flags c.src c.dst)) ∧
    es.length = ps.length ∧ ∀ x ∈ es.zip ps, Reports C vs vd H x.1 x.2

/-! ## Why such a diff raises -/

/-- The places that take part, with the number of steps from the top. -/
inductive Met (C : DiffCtx V) (vs vd : View V) (H : Dict (Obj V) → Prop) : Nat → Pos V → Prop where
  | top {c} : TopSeen C vs vd H c → Met C vs vd H 0 c
  | child {k p c} : Met C vs vd H k p → p.Visible C.flags → ChildSeen vs vd H p c → Met C vs vd H (k + 1) c

/-- An object was there at one moment and not at another. -/
def Unsteady (v : View V) (H : Dict (Obj V) → Prop) (t u : String) : Prop := (∃ m, Seen v H t u (some m)) ∧ Seen v H t u none

/-- What must be the case when a diff with recursion limit `N` raises the given exception. -/
def DiffTrouble (C : DiffCtx V) (vs vd : View V) (H : Dict (Obj V) → Prop) (N : Nat) : Err → Prop
  | .objectNotFound =>
      (∃ t u, (t ∈ C.src.topLevel ∧ Unsteady vs H t u) ∨ (t ∈ C.dst.topLevel ∧ Unsteady vd H t u)) ∨
      ∃ k p ct u, Met C vs vd H k p ∧ p.Visible C.flags ∧ comparesType p.src p.dst ct ∧
        ((listsO p.src ct u = true ∧ Seen vs H ct u none) ∨ (listsO p.dst ct u = true ∧ Seen vd H ct u none))
  | .valueError => ∃ k p, Met C vs vd H k p ∧ p.Unlike
  | .objectAlreadyExists => ∃ c c', c.Visible C.flags ∧ c'.Visible C.flags ∧ Clash c c' ∧
      ((TopSeen C vs vd H c ∧ TopSeen C vs vd H c') ∨
       ∃ k p, Met C vs vd H k p ∧ p.Visible C.flags ∧ ChildSeen vs vd H p c ∧ ChildSeen vs vd H p c')
  | .attributeError => ∃ k p, Met C vs vd H k p ∧ p.Visible C.flags ∧ p.Incomplete
  | .recursionError => (N = 0 ∧ ∃ t, t ∈ C.src.topLevel ∧ t ∈ C.dst.topLevel) ∨
      ∃ k p, N = k + 1 ∧ Met C vs vd H k p ∧ p.Visible C.flags ∧ ∃ ct, comparesType p.src p.dst ct
  | _ => False

end DS
