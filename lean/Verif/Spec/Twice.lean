import Verif.Spec.Interchange
import Verif.Spec.OnePiece

/-! Calling an operator on its own output. -/

namespace Uttut.Spec

/-- Doing the step twice has the same outcome as doing it once: the same output or exception and the same answer to every list
of labels, in both directions. -/
def Repeats (op : Op) (s : Seq) : Prop :=
  SameOutcome (Pipe.transformSequence ⟨[op, op], []⟩ s) (Pipe.transformSequence ⟨[op], []⟩ s)

/-- The operators for which this is so on every input. -/
def steadyNames : List String :=
  ["Lowercase", "MergeWhiteSpaceCharacters", "StripWhiteSpaceCharacters", "PunctuationExceptEndpointToWhitespace", "IntToken",
   "FloatToken", "IntTokenWithSpace", "FloatTokenWithSpace", "NumTokenWithSpace", "StopwordsToWhitespace", "Pad"]

end Uttut.Spec
