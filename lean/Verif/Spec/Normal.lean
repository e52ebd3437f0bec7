import Verif.Spec.Interchange
import Verif.Spec.Ops
import Verif.Spec.Bert

/-! Specification vocabulary for C110: which characters a pipe cuts off, read off the names of its steps. -/

namespace Uttut.Spec

/-- Steps whose effect on tokens depends on single characters only. -/
def characterNames : List String :=
  ["AddWhitespaceAroundCJK", "AddWhitespaceAroundPunctuation", "MergeWhiteSpaceCharacters", "StripWhiteSpaceCharacters",
   "Lowercase"]

/-- The characters that become tokens of their own in a pipe with the steps `names`: ideographs if one of the steps
deals with them, punctuation if one of the steps deals with it. -/
def cutOff (u : Unicode) (names : List String) (c : Char) : Bool :=
  ((names.contains "AddWhitespaceAroundCJK" || names.contains "ZhCharTokenizer") && ideograph c) ||
  ((names.contains "AddWhitespaceAroundPunctuation" || names.contains "EngTokenizer" || names.contains "ZhCharTokenizer") &&
    (asciiPunctuation.contains c || u.isCatP c))

/-- What happens to the letters of a text in a pipe with the steps `names`. -/
def recased (names : List String) (w : Str) : Str := if names.contains "Lowercase" then w.map asciiLower else w

/-- Words with single blanks between them. -/
def spacedOut : List Str → Str
  | [] => []
  | [w] => w
  | w :: v :: ws => w ++ ' ' :: spacedOut (v :: ws)

end Uttut.Spec
