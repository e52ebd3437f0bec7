import Verif.Spec.OnePiece

/-! Predicted entities that come back in one piece. -/

namespace Uttut.Spec

/-- Between two places with the label every place has it too, or holds white space and has the label 0. -/
def Gapless (l : Int) (s : Seq) (ls : List Int) : Prop :=
  ∀ i j k : Nat, i < j → j < k → ls[i]? = some l → ls[k]? = some l → ls[j]? = some l ∨ ls[j]? = some 0 ∧ ¬ Counts s j

/-- The operators that give every character and token but white space a label of what stands for it. -/
def returnNames : List String :=
  ["Lowercase", "AddWhitespaceAroundCJK", "AddWhitespaceAroundPunctuation", "AddWhitespaceAroundWordnZhChar", "IntToken",
   "FloatToken", "IntTokenWithSpace", "FloatTokenWithSpace", "NumTokenWithSpace", "MergeWhiteSpaceCharacters",
   "StripWhiteSpaceCharacters", "CharTokenizer", "CustomWordTokenizer", "WhiteSpaceTokenizer", "EngTokenizer",
   "ZhCharTokenizer", "AddSosEos", "AddEndToken", "Pad", "Token2Index", "Token2IndexwithHash", "PureNum2Token"]

/-- Operators on inputs where nothing but white space is left without a label on the way back: those above on any input,
`ReplaceAwithB(a, b)` if `b` is not blank, `StripAccentToken` if it puts white space only for white space, `SpanSubwords` if
no token is empty. -/
inductive Returns (env : Env) : Op → Seq → Prop
  | named (op : Op) (s : Seq) : OneOf env returnNames op → Returns env op s
  | replace (op : Op) (s : Str) (p b : Str) (m : Matcher) : env.compile p = some m →
      create env "ReplaceAwithB" [.str p, .str b] [] = .ok op → (∃ c ∈ b, isSpace c = false) → Returns env op (.str s)
  | accent (op : Op) (s : Str) : OneOf env ["StripAccentToken"] op →
      (∀ (i : Nat) c c', s[i]? = some c → ((env.u.nfd s).filter fun c => !env.u.isMn c)[i]? = some c' →
        isSpace c' = true → isSpace c = true) → Returns env op (.str s)
  | subwords (op : Op) (l : List Tok) : OneOf env ["SpanSubwords"] op → .str [] ∉ l → Returns env op (.list l)

end Uttut.Spec
