import Verif.Model.Py

/-
The fragment of Python's `re` used by the operators of `uttut/pipeline/ops`.

A matching position in a string is a zipper `(before, after)`: `before` is the text to the left of the
position, reversed. `Re.ends r before after` lists the lengths of all matches of `r` starting at the
position, in the order in which CPython's backtracking matcher tries them; the first one is the match.
-/

namespace Uttut

/-- Regular expressions. -/
inductive Re
  /-- one character of a class: `[...]`, an escaped or literal character -/
  | cls (p : Char → Bool)
  /-- greedy `[...]+` -/
  | plus (p : Char → Bool)
  /-- concatenation -/
  | seq (a b : Re)
  /-- ordered alternation `a|b` -/
  | alt (a b : Re)
  /-- negative look-behind of one character `(?<![...])` -/
  | notBehind (p : Char → Bool)
  /-- negative look-ahead of one character `(?![...])` -/
  | notAhead (p : Char → Bool)
  /-- `\A` -/
  | bos
  /-- `\Z` -/
  | eos

/-- `[n, n-1, ..., 1]`: lengths tried by a greedy `+` that can consume at most `n` characters. -/
def downFrom : Nat → List Nat
  | 0 => []
  | n + 1 => (n + 1) :: downFrom n

/-- Lengths of the matches of a regex at a position, in backtracking order. -/
def Re.ends : Re → (before after : Str) → List Nat
  | .cls p, _, after =>
    match after with
    | c :: _ => if p c then [1] else []
    | [] => []
  | .plus p, _, after => downFrom (after.takeWhile p).length
  | .seq a b, before, after =>
    (a.ends before after).flatMap fun n =>
      (b.ends ((after.take n).reverse ++ before) (after.drop n)).map fun m => n + m
  | .alt a b, before, after => a.ends before after ++ b.ends before after
  | .notBehind p, before, _ =>
    match before with
    | c :: _ => if p c then [] else [0]
    | [] => [0]
  | .notAhead p, _, after =>
    match after with
    | c :: _ => if p c then [] else [0]
    | [] => [0]
  | .bos, before, _ => if before.isEmpty then [0] else []
  | .eos, _, after => if after.isEmpty then [0] else []

/-- A literal string. -/
def Re.lit : Str → Re
  | [] => .notBehind fun _ => false -- the empty pattern: matches everywhere with length 0
  | [c] => .cls (· == c)
  | c :: d :: cs => .seq (.cls (· == c)) (Re.lit (d :: cs))

/-- Scan to the right for the first position with a match: `(start, end)`. -/
def Re.searchFrom (r : Re) : (before after : Str) → Option (Nat × Nat)
  | before, [] =>
    match r.ends before [] with
    | n :: _ => some (before.length, before.length + n)
    | [] => none
  | before, c :: cs =>
    match r.ends before (c :: cs) with
    | n :: _ => some (before.length, before.length + n)
    | [] => r.searchFrom (c :: before) cs

/-- `Pattern.search(string, pos)`: `pos` only restricts where matches may start; look-behind and `\A`
see the whole string. -/
def Re.search (r : Re) (s : Str) (pos : Nat) : Option (Nat × Nat) :=
  r.searchFrom (s.take pos).reverse (s.drop pos)

/-- Any implementation of `Pattern.search(string, pos)` returning `(match.start(), match.end())`. -/
abbrev Matcher := Str → Nat → Option (Nat × Nat)

end Uttut
