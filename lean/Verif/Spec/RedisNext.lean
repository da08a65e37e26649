import Verif.Spec.Converge
import Verif.Spec.Remains
/-! # What a successful sync leaves in a Redis store, and what the next diff shows

Objects that come from a Redis store are copies.  A sync stores what it creates when it creates it, and changes updated objects and child lists only in
copies (/repo/diffsync/store/redis.py, /repo/diffsync/helpers.py:263-391). -/

namespace DS
variable {V : Type} [PyVal V]

/-- `D'` is what a sync from `S` into a Redis store makes of `D`. -/
structure SyncedRedis (src dst : Adapter V) (flags : Nat) (S D D' : Snap V) : Prop where
  /-- Objects that the source does not have are gone. -/
  deleted : ∀ k : Key, Shown src dst flags S D k → S.find k.1 k.2 = none → D'.find k.1 k.2 = none
  /-- Objects that the destination did not have are there: instances of the destination's class, with the source's identifiers and
  attributes, and defaults otherwise; they have no children. -/
  created : ∀ (k : Key) s, Shown src dst flags S D k → S.find k.1 k.2 = some s → D.find k.1 k.2 = none →
    ∃ c m, Dict.get? dst.classes k.1 = some c ∧ D'.find k.1 k.2 = some m ∧ m.cls = c ∧ m.flags = c.defaultFlags ∧
      (∀ f d, (f, d) ∈ c.fields → Dict.get? m.vals f = c.newValue s.identifiers s.attrs f d) ∧
      ∀ ct f, Dict.get? c.children ct = some f → m.kidList f = some []
  /-- All other objects are as they were, those of both sides included, and child lists too. -/
  others : ∀ k : Key, ¬ (Shown src dst flags S D k ∧ (S.find k.1 k.2 = none ∨ D.find k.1 k.2 = none)) → D'.find k.1 k.2 = D.find k.1 k.2

/-- No object that the sync deletes takes along what is below it. -/
def NoneTakesAlong (src dst : Adapter V) (flags : Nat) (S D : Snap V) : Prop :=
  ∀ k : Key, Shown src dst flags S D k → S.find k.1 k.2 = none → ¬ SkipsChildren dst D k

/-- Some object that the source does not have is in the child list of one that the source has. -/
def DeletesBelowKept (src dst : Adapter V) (flags : Nat) (S D : Snap V) : Prop :=
  ∃ k c : Key, S.find k.1 k.2 ≠ none ∧ listsO (D.find k.1 k.2) c.1 c.2 = true ∧ Shown src dst flags S D c ∧ S.find c.1 c.2 = none

/-- Objects of this type are at the top of a diff. -/
def AtTop (src dst : Adapter V) (k : Key) : Prop := k.1 ∈ src.topLevel ∧ k.1 ∈ dst.topLevel

/-- New objects are not excluded from diffs by the default flags of their classes. -/
def NotIgnored (dst : Adapter V) : Prop := ∀ t c, Dict.get? dst.classes t = some c → flagOn c.defaultFlags MF.IGNORE = false

end DS

namespace DS
variable {V E : Type} [PyVal V]

/-- A source and a destination with a Redis store that can be reconciled within the recursion limit `n`. -/
structure RedisPair (n : Nat) (src dst : Adapter V) (sid : String) (w : World V E) : Prop where
  comparable : Comparable src dst w
  ready : DstReady dst w
  store : dst.ref.store = .redis sid
  separate : Separate src dst w
  reconcilable : Reconcilable src dst n (snap src w) (snap dst w)

/-- A sync, from `w` to `w'`, that returns the diff `d`, in which all calls succeed and every element has its object. -/
structure WentThrough (n rl : Nat) (hooks : Hooks V E) (src dst : Adapter V) (dc : DiffClass V) (flags : Nat) (w : World V E) (d : Diff V) (w' : World V E) : Prop where
  run : syncFrom n rl hooks dst src dc flags none w = (.ok d, w')
  reorders : dc.Reorders
  found : NoMissing (newEvents w w')
  succeed : AllSucceed (newEvents w w')
  alone : NoneTakesAlong src dst flags (snap src w) (snap dst w)

end DS
