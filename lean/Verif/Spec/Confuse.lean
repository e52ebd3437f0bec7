import Verif.Spec.Interchange
import Verif.Spec.Ops
import Mathlib.Data.List.Forall2

/-! Which inputs a step makes the same of. -/

namespace Uttut.Spec

/-- The step makes the same sequence of both. -/
def Confuses (op : Op) (x y : Seq) : Prop := ∃ out a b, op.transform x = .ok (out, a) ∧ op.transform y = .ok (out, b)

/-- The pipe makes the same sequence of both. -/
def PipeConfuses (p : Pipe) (x y : Seq) : Prop :=
  ∃ out as coll as' coll', p.transformSequence x = .ok (out, as, coll) ∧ p.transformSequence y = .ok (out, as', coll')

/-- The same character, or an ASCII letter in its two cases. -/
def SameLetter (c d : Char) : Prop := c = d ∨ ∃ p ∈ capitals.zip smalls, (c = p.1 ∨ c = p.2) ∧ (d = p.1 ∨ d = p.2)

/-- The same run, or both of white space. -/
def SameButSpace (r t : Str) : Prop := r = t ∨ (∀ c ∈ r, isSpace c = true) ∧ ∀ c ∈ t, isSpace c = true

/-- A blank, or a punctuation mark other than the point. -/
def BlankOrMark (u : Unicode) (c : Char) : Prop := c = ' ' ∨ (c ∈ asciiPunctuation ∨ u.isCatP c = true) ∧ c ≠ '.'

/-- A text that is not in the dictionary or stands there for unknown tokens, or a number. -/
def Unlisted (keys : List Str) (unk : Str) (t : Tok) : Prop := ∀ s, t = .str s → s ∉ keys ∨ s = unk

end Uttut.Spec
