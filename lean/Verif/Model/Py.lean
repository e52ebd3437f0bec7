/-
Python primitives used by the modelled code.

These definitions model the behaviour of CPython built-ins (the code of /repo calls them but does not
define them); each comment says which built-in is modelled and where /repo relies on it.
-/

namespace Uttut

/-- The exception classes raised by the modelled code: CPython built-ins plus
`uttut/exceptions.py:1-12` (`EntityPositionError`, `EntityOverlapping`, `DifferentUtterance`) and
`re.error`; NameError is raised by programs only (`Model/Objects.lean`).
`nonTermination` is no exception: it marks a call that never returns (see `patternTransform`). -/
inductive Exc
  | valueError | typeError | keyError | indexError | runtimeError | assertionError
  | overflowError | zeroDivisionError | attributeError | notImplementedError
  | entityPositionError | entityOverlapping | differentUtterance | reError | nonTermination | nameError
  deriving DecidableEq, Repr

/-- Result of a Python call: a value, or a raised exception. -/
abbrev Res (α : Type) := Except Exc α

/-- Instances so that results can be compared in `decide`d examples. -/
instance {ε α : Type} [DecidableEq ε] [DecidableEq α] : DecidableEq (Except ε α)
  | .ok a, .ok b => if h : a = b then isTrue (by rw [h]) else isFalse (fun h' => h (by cases h'; rfl))
  | .error a, .error b =>
    if h : a = b then isTrue (by rw [h]) else isFalse (fun h' => h (by cases h'; rfl))
  | .ok _, .error _ => isFalse (fun h => by cases h)
  | .error _, .ok _ => isFalse (fun h => by cases h)

/-- Python `str`: a sequence of code points (lone surrogates are not modelled). -/
abbrev Str := List Char

/-- Python slice `l[i:j]` with non-negative bounds. -/
def slice {α : Type} (l : List α) (i j : Nat) : List α := (l.take j).drop i

/-- Resolution of one Python slice bound against a length: negative bounds count from the end,
out-of-range bounds are clamped (CPython `PySlice_AdjustIndices`). -/
def clampIdx (n : Nat) (i : Int) : Nat :=
  if i < 0 then (i + n).toNat else min i.toNat n

/-- Python slice `l[i:j]` with arbitrary integer bounds. -/
def pySlice {α : Type} (l : List α) (i j : Int) : List α :=
  slice l (clampIdx l.length i) (clampIdx l.length j)

/-- Resolution of a Python index: negative indices count from the end; `none` = IndexError. -/
def pyIndex? (n : Nat) (i : Int) : Option Nat :=
  if 0 ≤ i then (if i.toNat < n then some i.toNat else none)
  else (if 0 ≤ i + n then some (i + n).toNat else none)

/-- Python slice assignment `l[i:j] = new` on a list with non-negative bounds: bounds are clamped to
the length, and `j` is raised to `i` if smaller. -/
def sliceAssign {α : Type} (l : List α) (i j : Nat) (new : List α) : List α :=
  l.take i ++ new ++ l.drop (max i j)

/-- One step of `sorted`: insert `x` in front of the first element with a key that is not smaller. -/
def insertByKey {α : Type} (key : α → Int) (x : α) : List α → List α
  | [] => [x]
  | y :: ys => if key x ≤ key y then x :: y :: ys else y :: insertByKey key x ys

/-- Python `sorted(l, key=key)`; stable (elements with equal keys keep their order). Modelled as
insertion sort, CPython's timsort computes the same function. -/
def pySorted {α : Type} (key : α → Int) : List α → List α
  | [] => []
  | x :: xs => insertByKey key x (pySorted key xs)

/-- Elements of `set(l)`, listed in order of first insertion (later equal elements are ignored). -/
def pyDedup {α : Type} [DecidableEq α] : List α → List α
  | [] => []
  | x :: xs => x :: (pyDedup xs).filter (fun y => y ≠ x)

/-- `sub in prefix position`: does `t` start the list `s`? (`str.startswith`). -/
def startsWith {α : Type} [DecidableEq α] : (t s : List α) → Bool
  | [], _ => true
  | _ :: _, [] => false
  | a :: t, b :: s => if a = b then startsWith t s else false

/-- Scan for `t` from the front of `s`; `i` is the position of the front of `s`. -/
def findAux {α : Type} [DecidableEq α] (t : List α) : (s : List α) → (i : Nat) → Option Nat
  | [], i => if startsWith t [] then some i else none
  | c :: s, i => if startsWith t (c :: s) then some i else findAux t s (i + 1)

/-- Python `s.find(t, start)` with `start ≥ 0`; `none` models the result `-1`. -/
def pyFind {α : Type} [DecidableEq α] (s t : List α) (start : Nat) : Option Nat :=
  if start ≤ s.length then findAux t (s.drop start) start else none

/-- Code points with `str.isspace() == True`; CPython uses the same table for `\s` in `re` and for
`str.split()` (`_PyUnicode_IsWhitespace`, `Objects/unicodetype_db.h`). -/
def isSpace (c : Char) : Bool :=
  let n := c.toNat
  (0x09 ≤ n && n ≤ 0x0D) || (0x1C ≤ n && n ≤ 0x1F) || n == 0x20 || n == 0x85 || n == 0xA0
  || n == 0x1680 || (0x2000 ≤ n && n ≤ 0x200A) || n == 0x2028 || n == 0x2029 || n == 0x202F
  || n == 0x205F || n == 0x3000

/-- Worker of `str.split()`: `cur` is the word being collected (reversed). -/
def splitAux : (cur : Str) → Str → List Str
  | cur, [] => if cur.isEmpty then [] else [cur.reverse]
  | cur, c :: cs =>
    if isSpace c then
      (if cur.isEmpty then splitAux [] cs else cur.reverse :: splitAux [] cs)
    else splitAux (c :: cur) cs

/-- Python `s.split()` (no separator: split on runs of whitespace, no empty words). -/
def pySplit (s : Str) : List Str := splitAux [] s

/-- Python `sep.join(words)`. -/
def pyJoin (sep : Str) : List Str → Str
  | [] => []
  | [w] => w
  | w :: v :: ws => w ++ sep ++ pyJoin sep (v :: ws)

/-- Collapse: read an association list (Python `dict` in insertion order). -/
def dictGet {κ ν : Type} [DecidableEq κ] (d : List (κ × ν)) (k : κ) : Option ν :=
  match d with
  | [] => none
  | (k', v) :: d => if k' = k then some v else dictGet d k

/-- Python `d[k] = v` on a dict in insertion order: overwrite in place or append. -/
def dictSet {κ ν : Type} [DecidableEq κ] (d : List (κ × ν)) (k : κ) (v : ν) : List (κ × ν) :=
  match d with
  | [] => [(k, v)]
  | (k', v') :: d => if k' = k then (k, v) :: d else (k', v') :: dictSet d k v

/-- Largest value of C `unsigned int` (32 bit) plus one. -/
def uintBound : Nat := 2 ^ 32

/-- Conversion of a Python int to C `unsigned int` as generated by Cython (OverflowError if negative
or too large); used by every `unsigned int` argument of `pipeline/edit/*.pyx`. -/
def toUInt (i : Int) : Res Nat :=
  if 0 ≤ i ∧ i < uintBound then .ok i.toNat else .error .overflowError

end Uttut
