import Verif.Spec.Concurrent
/-! # Executions without end, and what it takes for a client to come to its end -/

namespace DS
variable {V α : Type}

/-- An execution without end: the `n`th step is one of client `who n`, from `f n` to `f (n + 1)`. -/
def Endless (who : Nat → Nat) (f : Nat → Sys V α) : Prop := ∀ n, Move (who n) (f n) (f (n + 1))

/-- Client `i` can go on. -/
def CanGoOn (i : Nat) (s : Sys V α) : Prop := ∃ s', Move i s s'

/-- Client `i` has come to its end, with a result or an exception. -/
def Ended (i : Nat) (s : Sys V α) : Prop := ∃ r, s.cl i = .at (.ret r)

/-- Whenever client `i` can go on, it does so sooner or later. -/
def FairTo (i : Nat) (who : Nat → Nat) (f : Nat → Sys V α) : Prop := ∀ n, CanGoOn i (f n) → ∃ m, n ≤ m ∧ who m = i

/-- No `SCAN` is under way. -/
def AtRest (s : Sys V α) : Prop := ∀ j, ∃ p, s.cl j = .at p

/-- The client comes to its end after at most `n` commands, whatever the replies are. -/
inductive AtMost : Nat → Proc V α → Prop
  | ret {n} (r) : AtMost n (.ret r)
  | cmd {n c k} (h : ∀ x, AtMost n (k x)) : AtMost (n + 1) (.cmd c k)

end DS
