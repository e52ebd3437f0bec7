import Verif.Spec.Interchange
import Verif.Spec.Ops

/-! Specification vocabulary for C109: the characters that are not white space, and their labels. -/

namespace Uttut.Spec

/-- The characters that are not white space. -/
def ink (s : Str) : Str := s.filter fun c => !isSpace c

/-- The labels of the characters that are not white space. -/
def inkLabels (s : Str) (ls : List Int) : List Int := ((s.zip ls).filter fun p => !isSpace p.1).map Prod.snd

/-- `ls` are labels of `s`, 0 on white space and `zs` on the other characters. -/
structure OnInk (s : Str) (ls zs : List Int) : Prop where
  length : ls.length = s.length
  white : ∀ p ∈ s.zip ls, isSpace p.1 = true → p.2 = 0
  rest : inkLabels s ls = zs

/-- Steps that put in, take out or merge white space, or lower letters. -/
def spacingNames : List String :=
  ["AddWhitespaceAroundCJK", "AddWhitespaceAroundPunctuation", "AddWhitespaceAroundWordnZhChar",
   "MergeWhiteSpaceCharacters", "StripWhiteSpaceCharacters", "Lowercase"]

/-- Tokenizers that cut at white space. -/
def cuttingNames : List String := ["WhiteSpaceTokenizer", "EngTokenizer", "ZhCharTokenizer"]

/-- Every token's label for each of its characters. -/
def eachChar (words : List Str) (ys : List Int) : List Int := (words.zip ys).flatMap fun x => List.replicate x.1.length x.2

end Uttut.Spec
