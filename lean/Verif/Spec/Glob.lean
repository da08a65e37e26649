import Verif.Model.Glob
/-! # The patterns of Redis

`Glob p s`: the whole of `s` matches the pattern `p`, by the rules of the Redis documentation of `KEYS`/`SCAN` and, where it says nothing (a bracket that is not
closed, a range in descending order), by those of the server's code. -/

namespace DS

/-- `Brackets p I r`: the text `p` that follows `[` or `[^` lists the ranges `I` of characters (a character by itself is a range), and the pattern goes on with `r`. -/
inductive Brackets : List Char → List (Char × Char) → List Char → Prop where
  | closed {p} : Brackets (']' :: p) [] p
  /-- the `]` may be missing at the end of the pattern -/
  | unclosed : Brackets [] [] []
  /-- a backslash quotes the next character -/
  | quoted {p I r} (c : Char) : Brackets p I r → Brackets ('\\' :: c :: p) ((c, c) :: I) r
  /-- `a-b` -/
  | range {p I r} {a : Char} (b : Char) : a ≠ ']' → a ≠ '\\' → Brackets p I r → Brackets (a :: '-' :: b :: p) ((a, b) :: I) r
  /-- a character that does not begin one of these -/
  | one {p I r} {c : Char} : c ≠ ']' → (c = '\\' → p = []) → (∀ b p', p ≠ '-' :: b :: p') → Brackets p I r → Brackets (c :: p) ((c, c) :: I) r

/-- The character is in one of the ranges. -/
def InRanges (I : List (Char × Char)) (c : Char) : Prop := ∃ i ∈ I, (i.1 ≤ c ∧ c ≤ i.2) ∨ (i.2 ≤ c ∧ c ≤ i.1)

inductive Glob : List Char → List Char → Prop where
  | done : Glob [] []
  /-- `*` matches any text -/
  | star {p s} (x : List Char) : Glob p s → Glob ('*' :: p) (x ++ s)
  /-- `?` matches one character -/
  | one {p s} (c : Char) : Glob p s → Glob ('?' :: p) (c :: s)
  /-- `\c` matches `c` -/
  | quoted {p s} (c : Char) : Glob p s → Glob ('\\' :: c :: p) (c :: s)
  /-- a backslash with nothing after it matches itself -/
  | backslash : Glob ['\\'] ['\\']
  /-- `[...]` matches one of the characters -/
  | among {p I r s} {c : Char} : (∀ p', p ≠ '^' :: p') → Brackets p I r → InRanges I c → Glob r s → Glob ('[' :: p) (c :: s)
  /-- `[^...]` matches one other character -/
  | other {p I r s} {c : Char} : Brackets p I r → ¬ InRanges I c → Glob r s → Glob ('[' :: '^' :: p) (c :: s)
  /-- any other character matches itself -/
  | lit {p s} {c : Char} : c ≠ '*' → c ≠ '?' → c ≠ '\\' → c ≠ '[' → Glob p s → Glob (c :: p) (c :: s)

end DS
