import Verif.Spec.Arguments
import Verif.Spec.Builtins
import Verif.Spec.Construct

/-! Specification vocabulary for C90: which calls raise an exception, and how large results are. -/

namespace Uttut.Spec

/-- What a step takes and gives: a text, a list of non-empty texts, or a list of any tokens. -/
inductive Kind
  | text
  | words
  | tokens

/-- The sequence is of the kind. -/
def Kind.Holds : Kind → Seq → Prop
  | .text, x => ∃ s, x = .str s
  | .words, x => ∃ l : List Str, x = .list (l.map Tok.str) ∧ ∀ w ∈ l, w ≠ []
  | .tokens, x => ∃ l, x = .list l

/-- Every sequence of the first kind is of the second. -/
inductive Kind.Fits : Kind → Kind → Prop
  | same (q : Kind) : Kind.Fits q q
  | words : Kind.Fits .words .tokens

/-- The token may stand in a list of the kind. -/
def Kind.Allows : Kind → Tok → Prop
  | .text, _ => False
  | .words, t => ∃ w, w ≠ [] ∧ t = .str w
  | .tokens, _ => True

/-- The size of a token: its characters, at least 1. -/
def tokSize : Tok → Nat
  | .str w => max 1 w.length
  | .int _ => 1

/-- The size of a sequence: the characters of a text, the sizes of the tokens of a list together. -/
def seqSize : Seq → Nat
  | .str s => s.length
  | .list l => (l.map tokSize).sum

/-- The operators from text to text without arguments that accept every text, and the factor by which the text grows
at most. -/
def textSteps : List (String × Nat) :=
  [("Lowercase", 1), ("AddWhitespaceAroundCJK", 3), ("AddWhitespaceAroundPunctuation", 3),
   ("PunctuationExceptEndpointToWhitespace", 1), ("IntToken", 5), ("FloatToken", 3), ("IntTokenWithSpace", 7),
   ("FloatTokenWithSpace", 3), ("NumTokenWithSpace", 7), ("MergeWhiteSpaceCharacters", 1),
   ("StripWhiteSpaceCharacters", 1), ("StopwordsToWhitespace", 1)]

/-- The tokenizers without arguments. -/
def tokenizerNames : List String := ["CharTokenizer", "WhiteSpaceTokenizer", "EngTokenizer", "ZhCharTokenizer"]

/-- `op_factory[name](*args, **kwargs)` returned `op`; no keyword twice. -/
def MadeBy (env : Env) (name : String) (args : List PyVal) (kwargs : List (Str × PyVal)) (op : Op) : Prop :=
  create env name args kwargs = .ok op ∧ (kwargs.map Prod.fst).Nodup

/-- A step of a pipe made with arguments of the documented types: the kinds it takes and gives, the factor and the summand
that bound the growth of the size, and the exceptions it may raise. -/
inductive Step (env : Env) : Op → Kind → Kind → Nat → Nat → List Exc → Prop
  | text (op : Op) (name : String) (k : Nat) : (name, k) ∈ textSteps → MadeBy env name [] [] op →
    Step env op .text .text k 0 []
  | aroundWords (op : Op) (args : List PyVal) (kwargs : List (Str × PyVal)) (v sh : PyVal) (ws : List Str) :
    MadeBy env "AddWhitespaceAroundWordnZhChar" args kwargs op → bound wordParams args kwargs = some [v, sh] →
    WordsIn v ws → Step env op .text .text 3 0 []
  | stripAccent (op : Op) : MadeBy env "StripAccentToken" [] [] op → Step env op .text .text 1 0 [.assertionError]
  | replace (op : Op) (args : List PyVal) (kwargs : List (Str × PyVal)) (a b : Str) :
    MadeBy env "ReplaceAwithB" args kwargs op → bound replaceParams args kwargs = some [.str a, .str b] → b ≠ [] →
    Step env op .text .text (b.length + 1) 0 [.nonTermination]
  | tokenizer (op : Op) (name : String) : name ∈ tokenizerNames → MadeBy env name [] [] op →
    Step env op .text .words 1 0 []
  | userWords (op : Op) (args : List PyVal) (kwargs : List (Str × PyVal)) (v sh : PyVal) (ws : List Str) :
    MadeBy env "CustomWordTokenizer" args kwargs op → bound wordParams args kwargs = some [v, sh] → WordsIn v ws →
    Step env op .text .words 1 0 []
  | sosEos (op : Op) (args : List PyVal) (kwargs : List (Str × PyVal)) (v w : PyVal) (s e : Tok) (q : Kind) :
    MadeBy env "AddSosEos" args kwargs op → bound sosEosParams args kwargs = some [v, w] → IsToken v s → IsToken w e →
    q.Allows s → q.Allows e → Step env op q q 1 (tokSize s + tokSize e) []
  | endToken (op : Op) (args : List PyVal) (kwargs : List (Str × PyVal)) (e : Str) (q : Kind) :
    MadeBy env "AddEndToken" args kwargs op → bound endTokenParams args kwargs = some [.str e] → q.Allows (.str e) →
    Step env op q q 1 e.length []
  | pad (op : Op) (args : List PyVal) (kwargs : List (Str × PyVal)) (v w : PyVal) (n : Nat) (t : Tok) (q : Kind) :
    MadeBy env "Pad" args kwargs op → bound padParams args kwargs = some [v, w] → IsNumber v n → IsToken w t →
    q.Allows t → Step env op q q 1 (n * tokSize t) []
  | token2index (op : Op) (args : List PyVal) (kwargs : List (Str × PyVal)) (d : List (Str × Int)) (unk : Str) :
    MadeBy env "Token2Index" args kwargs op → (d.map Prod.fst).Nodup →
    bound token2indexParams args kwargs = some [.dict (d.map fun kv => (kv.1, .int kv.2)), .str unk] →
    Step env op .tokens .tokens 1 0 []
  | token2indexHash (op : Op) (args : List PyVal) (kwargs : List (Str × PyVal)) (d : List (Str × Int)) :
    MadeBy env "Token2IndexwithHash" args kwargs op → (d.map Prod.fst).Nodup →
    bound token2indexHashParams args kwargs = some [.dict (d.map fun kv => (kv.1, .int kv.2))] →
    Step env op .words .tokens 1 0 []
  | pureNum (op : Op) (args : List PyVal) (kwargs : List (Str × PyVal)) (v : PyVal) (t : Tok) (q : Kind) :
    MadeBy env "PureNum2Token" args kwargs op → bound pureNumParams args kwargs = some [v] →
    v = .none ∧ t = .str "_num_".toList ∨ IsToken v t → q.Allows t →
    Step env op .words q (tokSize t) 0 []
  | subwords (op : Op) (args : List PyVal) (kwargs : List (Str × PyVal)) (v n : PyVal) (unk : Str) (k : Int) :
    MadeBy env "SpanSubwords" args kwargs op → bound subwordParams args kwargs = some [v, .str unk, n] → unk ≠ [] →
    Askable v → IsNumber n k → Step env op .words .words (max 3 unk.length) 0 []

/-- Steps that fit together: the kinds the first takes and the last gives, the bound on the size of the output in terms of
the size of the input, and the exceptions they may raise. -/
inductive Assembled (env : Env) : List Op → Kind → Kind → (Nat → Nat) → List Exc → Prop
  | nil (q : Kind) : Assembled env [] q q id []
  | cons (op : Op) (ops : List Op) (i o i' q : Kind) (k c : Nat) (f : Nat → Nat) (es es' : List Exc) :
    Step env op i o k c es → o.Fits i' → Assembled env ops i' q f es' →
    Assembled env (op :: ops) i q (fun n => f (k * n + c)) (es ++ es')

end Uttut.Spec
