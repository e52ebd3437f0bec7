import Verif.Model.Json

/-!
Which texts are JSON and what they stand for (RFC 8259), written as a grammar. Numbers with fractions or exponents and
lone surrogates are left out, as in the model.
-/

namespace Uttut.Spec.JsonText

/-- White space of JSON. -/
def Ws (w : Str) : Prop := ∀ c ∈ w, c = ' ' ∨ c = '\t' ∨ c = '\n' ∨ c = '\r'

/-- `c` is a hexadecimal digit of value `n`. -/
def HexDigit (c : Char) (n : Nat) : Prop :=
  "0123456789abcdef".toList[n]? = some c ∨ "0123456789ABCDEF".toList[n]? = some c

/-- Four hexadecimal digits. -/
def Hex4 (t : Str) (n : Nat) : Prop :=
  ∃ a b c d x y z u, t = [a, b, c, d] ∧ HexDigit a x ∧ HexDigit b y ∧ HexDigit c z ∧ HexDigit d u ∧
    n = ((x * 16 + y) * 16 + z) * 16 + u

/-- The escapes of two characters. -/
def shortEscapes : List (Char × Char) :=
  [('"', '"'), ('\\', '\\'), ('/', '/'), ('b', Char.ofNat 8), ('f', Char.ofNat 12), ('n', '\n'), ('r', '\r'), ('t', '\t')]

/-- What is between the quotes, and the text it stands for. -/
inductive Body : Str → Str → Prop
  | nil : Body [] []
  | plain (c : Char) {t s : Str} (h1 : c ≠ '"') (h2 : c ≠ '\\') (h3 : 0x20 ≤ c.toNat) (h : Body t s) : Body (c :: t) (c :: s)
  | short (e c : Char) {t s : Str} (he : (e, c) ∈ shortEscapes) (h : Body t s) : Body ('\\' :: e :: t) (c :: s)
  | unit (x : Str) (n : Nat) {t s : Str} (hx : Hex4 x n) (hn : n < 0xd800 ∨ 0xdfff < n) (h : Body t s) :
      Body ('\\' :: 'u' :: x ++ t) (Char.ofNat n :: s)
  | pair (x y : Str) (n m : Nat) {t s : Str} (hx : Hex4 x (0xd800 + n)) (hn : n < 0x400) (hy : Hex4 y (0xdc00 + m))
      (hm : m < 0x400) (h : Body t s) :
      Body ('\\' :: 'u' :: x ++ '\\' :: 'u' :: y ++ t) (Char.ofNat (0x10000 + n * 0x400 + m) :: s)

/-- `c` is a digit of value `n`. -/
def Digit (c : Char) (n : Nat) : Prop := "0123456789".toList[n]? = some c

/-- Digits and their value. -/
inductive Digits : Str → Nat → Prop
  | nil : Digits [] 0
  | snoc {t : Str} {n : Nat} (h : Digits t n) {c : Char} {k : Nat} (hc : Digit c k) : Digits (t ++ [c]) (10 * n + k)

/-- An integer: no leading zeros, no plus sign. -/
inductive IntText : Str → Int → Prop
  | zero : IntText ['0'] 0
  | pos {c : Char} {t : Str} {n : Nat} (hc : c ≠ '0') (h : Digits (c :: t) n) : IntText (c :: t) n
  | minusZero : IntText ['-', '0'] 0
  | neg {c : Char} {t : Str} {n : Nat} (hc : c ≠ '0') (h : Digits (c :: t) n) : IntText ('-' :: c :: t) (-n)

/-- The distinct elements in the order in which they appear first. -/
def distinct : List Str → List Str
  | [] => []
  | k :: ks => k :: (distinct ks).filter fun x => decide (x ≠ k)

/-- The dict of some pairs: keys in the order in which they appear first, each with its last value. -/
structure DictOf (pairs d : List (Str × PyVal)) : Prop where
  keys : d.map Prod.fst = distinct (pairs.map Prod.fst)
  value : ∀ k v, (k, v) ∈ d ↔ ∃ pre post, pairs = pre ++ (k, v) :: post ∧ k ∉ post.map Prod.fst

/-- What a piece of text can stand for. -/
inductive Node
  | value (v : PyVal)
  | items (l : List PyVal)
  | pairs (l : List (Str × PyVal))

/-- The texts of values, of items with commas between them, and of pairs with commas between them. -/
inductive Text : Str → Node → Prop
  | null : Text "null".toList (.value .none)
  | true : Text "true".toList (.value (.bool true))
  | false : Text "false".toList (.value (.bool false))
  | int {t : Str} {i : Int} (h : IntText t i) : Text t (.value (.int i))
  | str {t s : Str} (h : Body t s) : Text ('"' :: t ++ ['"']) (.value (.str s))
  | emptyList {w : Str} (hw : Ws w) : Text ('[' :: w ++ [']']) (.value (.list []))
  | list {w t : Str} {l : List PyVal} (hw : Ws w) (h : Text t (.items l)) : Text ('[' :: w ++ t ++ [']']) (.value (.list l))
  | emptyDict {w : Str} (hw : Ws w) : Text ('{' :: w ++ ['}']) (.value (.dict []))
  | dict {w t : Str} {l d : List (Str × PyVal)} (hw : Ws w) (h : Text t (.pairs l)) (hd : DictOf l d) :
      Text ('{' :: w ++ t ++ ['}']) (.value (.dict d))
  | lastItem {t w : Str} {v : PyVal} (h : Text t (.value v)) (hw : Ws w) : Text (t ++ w) (.items [v])
  | item {t w w' r : Str} {v : PyVal} {l : List PyVal} (h : Text t (.value v)) (hw : Ws w) (hw' : Ws w') (hr : Text r (.items l)) :
      Text (t ++ w ++ ',' :: w' ++ r) (.items (v :: l))
  | lastPair {kt k w1 w2 t w : Str} {v : PyVal} (hk : Body kt k) (h1 : Ws w1) (h2 : Ws w2) (h : Text t (.value v)) (hw : Ws w) :
      Text ('"' :: kt ++ '"' :: w1 ++ ':' :: w2 ++ t ++ w) (.pairs [(k, v)])
  | pair {kt k w1 w2 t w w' r : Str} {v : PyVal} {l : List (Str × PyVal)} (hk : Body kt k) (h1 : Ws w1) (h2 : Ws w2)
      (h : Text t (.value v)) (hw : Ws w) (hw' : Ws w') (hr : Text r (.pairs l)) :
      Text ('"' :: kt ++ '"' :: w1 ++ ':' :: w2 ++ t ++ w ++ ',' :: w' ++ r) (.pairs ((k, v) :: l))

/-- `text` is JSON for `v`: a value, with white space around it. -/
def IsJson (text : Str) (v : PyVal) : Prop := ∃ w t w', Ws w ∧ Ws w' ∧ Text t (.value v) ∧ text = w ++ t ++ w'

end Uttut.Spec.JsonText
