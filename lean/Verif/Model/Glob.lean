import Verif.Py.Dict
/-! # Patterns of `SCAN`

Every pattern that the Redis store uses (/repo/diffsync/store/redis.py:81, 126, 216, 222) is interpreted by the server as a glob pattern
(`stringmatchlen` in Redis): `*`, `?`, `[...]` and `\` are special.  Store ids and model names are put into the pattern as they are.
Simplification: the server matches bytes, the model characters. -/

namespace DS

/-- One part of a pattern. -/
inductive Tok where
  | any
  | one
  | lit (c : Char)
  | cls (neg : Bool) (items : List (Char × Char))

/-- What is being read: the pattern itself, or the inside of a `[...]`. -/
inductive GMode where
  | outside
  | inside (neg : Bool) (items : List (Char × Char))

/-- Reads a pattern (`stringmatchlen`, the `switch` on `pattern[0]`). -/
def parseGlob : GMode → List Char → List Tok
  | .outside, [] => []
  | .outside, '*' :: p => .any :: parseGlob .outside p
  | .outside, '?' :: p => .one :: parseGlob .outside p
  | .outside, '[' :: '^' :: p => parseGlob (.inside true []) p
  | .outside, '[' :: p => parseGlob (.inside false []) p
  | .outside, '\\' :: c :: p => .lit c :: parseGlob .outside p
  | .outside, c :: p => .lit c :: parseGlob .outside p
  | .inside neg items, [] => [.cls neg items]
  | .inside neg items, '\\' :: c :: p => parseGlob (.inside neg ((c, c) :: items)) p
  | .inside neg items, ']' :: p => .cls neg items :: parseGlob .outside p
  | .inside neg items, a :: '-' :: b :: p => parseGlob (.inside neg ((a, b) :: items)) p
  | .inside neg items, c :: p => parseGlob (.inside neg ((c, c) :: items)) p

/-- Some suffix satisfies `f`. -/
def anySuffix (f : List Char → Bool) : List Char → Bool
  | [] => f []
  | c :: s => f (c :: s) || anySuffix f s

/-- A character is in one of the ranges, given in either direction. -/
def inItems (items : List (Char × Char)) (c : Char) : Bool :=
  items.any (fun r => (decide (r.1.val ≤ c.val) && decide (c.val ≤ r.2.val)) || (decide (r.2.val ≤ c.val) && decide (c.val ≤ r.1.val)))

/-- Matches the whole string. -/
def matchToks : List Tok → List Char → Bool
  | [], s => s.isEmpty
  | .any :: ts, s => anySuffix (matchToks ts) s
  | _ :: _, [] => false
  | .one :: ts, _ :: s => matchToks ts s
  | .lit a :: ts, c :: s => a == c && matchToks ts s
  | .cls neg items :: ts, c :: s => (inItems items c != neg) && matchToks ts s

/-- `stringmatchlen(pattern, string, nocase=0)`. -/
def globMatch (pattern string : String) : Bool := matchToks (parseGlob .outside pattern.toList) string.toList

/-- The characters that are special outside `[...]`. -/
def globChars : List Char := ['*', '?', '[', '\\']

theorem parseGlob_plain (p q : List Char) (h : ∀ c ∈ p, c ∉ globChars) : parseGlob .outside (p ++ q) = p.map Tok.lit ++ parseGlob .outside q := by
  induction p with
  | nil => rfl
  | cons c p ih =>
    have hc := h c (by simp)
    simp only [globChars, List.mem_cons, List.not_mem_nil, or_false, not_or] at hc
    obtain ⟨h1, h2, h3, h4⟩ := hc
    rw [List.cons_append, List.map_cons, List.cons_append, ← ih (fun x hx => h x (List.mem_cons_of_mem _ hx))]
    rw [parseGlob]
    all_goals simp_all

theorem matchToks_prefix (p s : List Char) : matchToks (p.map Tok.lit ++ [.any]) s = p.isPrefixOf s := by
  induction p generalizing s with
  | nil =>
    show anySuffix (matchToks []) s = _
    induction s with
    | nil => rfl
    | cons c s ih => simp [anySuffix, ih]
  | cons a p ih =>
    cases s with
    | nil => rfl
    | cons c s => simp [matchToks, ih, List.isPrefixOf]

/-- Without special characters, `prefix*` finds the keys that start with the prefix. -/
theorem globMatch_prefix {p : String} (h : ∀ c ∈ p.toList, c ∉ globChars) (k : String) : globMatch (p ++ "*") k = p.toList.isPrefixOf k.toList := by
  unfold globMatch
  rw [String.toList_append, parseGlob_plain _ _ h]
  exact matchToks_prefix _ _

example : globMatch "diffsync:a*:site:*" "diffsync:ab:site:nyc" = true ∧ globMatch "diffsync:a[0-9]:*" "diffsync:a7:site:x" = true ∧
    globMatch "diffsync:a[^0-9]:*" "diffsync:a7:site:x" = false ∧ globMatch "diffsync:a?:*" "diffsync:ab:x" = true ∧
    globMatch "diffsync:a\\*:*" "diffsync:a*:x" = true ∧ globMatch "diffsync:a:*" "diffsync:a:" = true ∧ globMatch "a[b" "ab" = true := by decide +kernel

end DS
