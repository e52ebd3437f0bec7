import Verif.Spec.Raise
import Verif.Spec.Ops

/-! Entities that stay in one piece. -/

namespace Uttut.Spec

/-- The place holds something that counts: in a text anything but white space, in a list every token. -/
def Counts : Seq → Nat → Prop
  | .str s, i => ∀ c, s[i]? = some c → isSpace c = false
  | .list _, _ => True

/-- What carries the label is in one piece: all that counts between two places with the label has it as well. -/
def OnePiece (l : Int) (s : Seq) (ls : List Int) : Prop :=
  ∀ i j k : Nat, i < j → j < k → ls[i]? = some l → ls[k]? = some l → Counts s j → ls[j]? = some l

/-- The places with the label are consecutive. -/
def Unbroken (l : Int) (ls : List Int) : Prop :=
  ∀ i j k : Nat, i < j → j < k → ls[i]? = some l → ls[k]? = some l → ls[j]? = some l

/-- The operators that may put white space, labelled 0, into a text, or leave the texts between white space alone. -/
def looseNames : List String :=
  ["Lowercase", "AddWhitespaceAroundCJK", "AddWhitespaceAroundPunctuation", "AddWhitespaceAroundWordnZhChar",
   "PunctuationExceptEndpointToWhitespace", "IntToken", "FloatToken", "IntTokenWithSpace", "FloatTokenWithSpace",
   "NumTokenWithSpace", "MergeWhiteSpaceCharacters", "StripWhiteSpaceCharacters", "StopwordsToWhitespace",
   "WhiteSpaceTokenizer", "EngTokenizer", "ZhCharTokenizer", "AddSosEos", "AddEndToken", "Pad", "Token2Index",
   "Token2IndexwithHash", "PureNum2Token", "SpanSubwords"]

/-- The operators that put nothing labelled 0 into the middle of a sequence. -/
def strictNames : List String :=
  ["Lowercase", "StripAccentToken", "IntToken", "FloatToken", "MergeWhiteSpaceCharacters", "StripWhiteSpaceCharacters",
   "CharTokenizer", "CustomWordTokenizer", "WhiteSpaceTokenizer", "EngTokenizer", "ZhCharTokenizer", "AddSosEos",
   "AddEndToken", "Pad", "Token2Index", "Token2IndexwithHash", "PureNum2Token", "SpanSubwords"]

/-- An object of one of these operator classes, made with any arguments the class accepts. -/
def OneOf (env : Env) (names : List String) (op : Op) : Prop :=
  ∃ name ∈ names, ∃ args kwargs, MadeBy env name args kwargs op

/-- A match is also found if the search starts where it begins (`Pattern.search` sees the text before the start). -/
def SteadyMatcher (m : Matcher) (s : Str) : Prop :=
  ∀ pos i j, pos ≤ s.length → m s pos = some (i, j) → m s i = some (i, j)

/-- `ReplaceAwithB(a, b)`. -/
def Replacer (env : Env) (op : Op) : Prop :=
  ∃ p b m, env.compile p = some m ∧ (∀ s, SteadyMatcher m s) ∧ create env "ReplaceAwithB" [.str p, .str b] [] = .ok op

end Uttut.Spec
