import Verif.Spec.Interchange
import Verif.Spec.Ops

/-! Steps on texts, by the characters that they deal with and the characters that they write. -/

namespace Uttut.Spec

/-- Integers and what the decimals are not. -/
def wholeNames : List String := ["IntToken", "IntTokenWithSpace", "NumTokenWithSpace"]

/-- Decimals. -/
def decimalNames : List String := ["FloatToken", "FloatTokenWithSpace"]

/-- The steps spoken of. -/
def dealingNames : List String := wholeNames ++ decimalNames ++
  ["MergeWhiteSpaceCharacters", "Lowercase", "AddWhitespaceAroundCJK", "AddWhitespaceAroundPunctuation",
   "PunctuationExceptEndpointToWhitespace"]

/-- The characters a step looks for: number characters, white space, capitals, ideographs, punctuation marks. -/
def DealsWith (u : Unicode) (name : String) (c : Char) : Prop :=
  if name ∈ wholeNames ++ decimalNames then c = '.' ∨ u.isDecimal c = true ∨ c ∈ "０１２３４５６７８９".toList
  else if name = "MergeWhiteSpaceCharacters" then isSpace c = true
  else if name = "Lowercase" then c ∈ capitals
  else if name = "AddWhitespaceAroundCJK" then ∃ b ∈ cjkBlocks, b.1 ≤ c.toNat ∧ c.toNat ≤ b.2
  else if name = "AddWhitespaceAroundPunctuation" then c ∈ asciiPunctuation ∨ u.isCatP c = true
  else (c ∈ asciiPunctuation ∨ u.isCatP c = true) ∧ c ≠ '.'

/-- The characters a step puts into the text. -/
def written (name : String) : Str :=
  if name = "IntToken" then "_int_".toList
  else if name = "IntTokenWithSpace" then " _int_ ".toList
  else if name = "NumTokenWithSpace" then " _num_ ".toList
  else if name = "FloatToken" then "_float_".toList
  else if name = "FloatTokenWithSpace" then " _float_ ".toList
  else if name = "Lowercase" then smalls
  else " ".toList

/-- Steps that keep out of each other's way: no character concerns both, and neither writes a character that concerns the
other. -/
def KeepApart (u : Unicode) (n m : String) : Prop :=
  (∀ c, ¬ (DealsWith u n c ∧ DealsWith u m c)) ∧ (∀ c ∈ written n, ¬ DealsWith u m c) ∧ ∀ c ∈ written m, ¬ DealsWith u n c

/-- What is usual of the characters of Unicode: digits are no white space, digits and punctuation marks are no ideographs,
punctuation marks are neither ASCII letters nor white space. -/
structure UsualClasses (u : Unicode) : Prop where
  digits : ∀ c, u.isDecimal c = true → isSpace c = false
  ideographs : ∀ c, u.isDecimal c = true ∨ u.isCatP c = true → ¬ ∃ b ∈ cjkBlocks, b.1 ≤ c.toNat ∧ c.toNat ≤ b.2
  letters : ∀ c, u.isCatP c = true → c ∉ capitals ++ smalls
  spaces : ∀ c, u.isCatP c = true → isSpace c = false

/-- Two of the steps that keep apart, or one for integers and one for decimals. -/
def StepsApart (env : Env) (x y : Op) : Prop :=
  ∃ n m, Made env n x ∧ Made env m y ∧
    (n ∈ dealingNames ∧ m ∈ dealingNames ∧ KeepApart env.u n m ∨ n ∈ wholeNames ∧ m ∈ decimalNames ∨
      n ∈ decimalNames ∧ m ∈ wholeNames)

/-- The pairs of steps that can be exchanged. -/
def exchangePairs : List (String × String) :=
  ((wholeNames ++ decimalNames).flatMap fun n => [(n, "Lowercase"), (n, "AddWhitespaceAroundCJK")]) ++
  (["IntToken", "FloatToken"].map fun n => (n, "MergeWhiteSpaceCharacters")) ++
  (["MergeWhiteSpaceCharacters", "AddWhitespaceAroundCJK", "AddWhitespaceAroundPunctuation",
    "PunctuationExceptEndpointToWhitespace"].map fun n => ("Lowercase", n)) ++
  (["AddWhitespaceAroundPunctuation", "PunctuationExceptEndpointToWhitespace"].map fun n => ("AddWhitespaceAroundCJK", n)) ++
  wholeNames.flatMap fun n => decimalNames.map fun m => (n, m)

end Uttut.Spec
