import Verif.Model.Label
import Verif.Model.Regex

/-
Model of the operator and aligner base classes: `uttut/pipeline/ops/base.py`,
`uttut/pipeline/ops/pattern_recognizers/base.py`, `uttut/pipeline/ops/tokenizers/base.py`.
-/

namespace Uttut

/-- An element of a token list: a string, or (after `Token2Index`) an integer. -/
inductive Tok
  | str (s : Str)
  | int (i : Int)
  deriving DecidableEq, Repr

/-- A value flowing through a pipe: `str` or `list`. -/
inductive Seq
  | str (s : Str)
  | list (l : List Tok)
  deriving DecidableEq, Repr

/-- `len(sequence)`. -/
def Seq.length : Seq → Nat
  | .str s => s.length
  | .list l => l.length

/-- The classes used as `_input_type` / `_output_type`. -/
inductive SeqType
  | str | list
  deriving DecidableEq, Repr

/-- `type(sequence)`. -/
def Seq.type : Seq → SeqType
  | .str _ => .str
  | .list _ => .list

/-- The Unicode tables consulted by the code (`unicodedata`, `\d` of `re`); left abstract. -/
structure Unicode where
  /-- `\d`: general category Nd -/
  isDecimal : Char → Bool
  /-- `unicodedata.category(c).startswith("P")` -/
  isCatP : Char → Bool
  /-- `unicodedata.category(c) == "Mn"` -/
  isMn : Char → Bool
  /-- `unicodedata.normalize("NFD", text)` -/
  nfd : Str → Str

/-- `ops/base.py:177-182` a label aligner; `fwd`/`bwd` are the overridden `_transform` and
`_inverse_transform`. -/
structure Aligner where
  inputLength : Nat
  outputLength : Nat
  fwd : List Int → Res (List Int)
  bwd : List Int → Res (List Int)

namespace Aligner

/-- `ops/base.py:220-222` `_validate_input`. -/
def validateInput (a : Aligner) (labels : List Int) : Res Unit :=
  if labels.length ≠ a.inputLength then .error .valueError else .ok ()

/-- `ops/base.py:224-226` `_validate_output`. -/
def validateOutput (a : Aligner) (labels : List Int) : Res Unit :=
  if labels.length ≠ a.outputLength then .error .valueError else .ok ()

/-- `ops/base.py:184-200` `transform`. -/
def transform (a : Aligner) (labels : List Int) : Res (List Int) := do
  a.validateInput labels
  let out ← a.fwd labels
  a.validateOutput out
  return out

/-- `ops/base.py:202-218` `inverse_transform`. -/
def inverseTransform (a : Aligner) (labels : List Int) : Res (List Int) := do
  a.validateOutput labels
  let out ← a.bwd labels
  a.validateInput out
  return out

/-- `ops/base.py:237-243` `NullLabelAligner`. -/
def null (inputLength outputLength : Nat) : Aligner :=
  { inputLength, outputLength, fwd := fun l => .ok l, bwd := fun l => .ok l }

/-- The aligners built on one string edit: `pattern_recognizers/base.py:63-84`,
`add_whitespace_around_character.py:51-73`, `strip_accent_token.py:61-82`, ...: all propagate the labels
through the edit, backwards through `str2str.inverse`, with their own transducers. -/
def ofStrEdit (σ : SetOrder) (input : Str) (edit : ReplacementGroup Str) (outputLength : Nat)
    (f b : Transducer) : Aligner :=
  { inputLength := input.length
    outputLength := outputLength
    fwd := fun labels => propagate labels edit f
    bwd := fun labels => do
      let inv ← Str2Str.inverse σ input edit
      propagate labels inv b }

/-- The aligners built on one list edit: `add_sos_eos.py:69-90`, `pad.py:69-90`,
`span_subwords.py:88-109`. -/
def ofLstEdit (σ : SetOrder) (input : List Tok) (edit : ReplacementGroup (List Tok))
    (outputLength : Nat) (f b : Transducer) : Aligner :=
  { inputLength := input.length
    outputLength := outputLength
    fwd := fun labels => propagate labels edit f
    bwd := fun labels => do
      let inv ← Lst2Lst.inverse σ input edit
      propagate labels inv b }

/-- `tokenizers/base.py:52-81` `TokenizerAligner`. -/
def ofTokens (σ : SetOrder) (input : Str) (edit : ReplacementGroup Str) (spans : SpanGroup)
    (outputLength : Nat) (f b : Transducer) : Aligner :=
  { inputLength := input.length
    outputLength := outputLength
    fwd := fun labels => do
      let l ← propagate labels edit f
      reduceBySpanGroup l spans
    bwd := fun labels => do
      let inv ← Str2Str.inverse σ input edit
      let l ← expandBySpanGroup labels spans
      propagate l inv b }

end Aligner

/-- Result of a potentially non-terminating call: `none` = still running after the given number of
loop iterations. -/
abbrev Run (α : Type) := Option (Res α)

/-- `pattern_recognizers/base.py:48-58` (and `lowercase.py:50-61`): the search loop. `newValue s a b` is
the replacement text for the match `s[a:b]`. `none` = fuel exhausted. Bounds from 2^32 on raise OverflowError in the code:
that is in `Model/Machine.lean` (C91). -/
def searchLoop (m : Matcher) (newValue : Str → Nat → Nat → Str) (s : Str) :
    (fuel shift : Nat) → ReplacementGroup Str → Option (ReplacementGroup Str)
  | 0, _, _ => none
  | fuel + 1, shift, g =>
    if shift < s.length then
      match m s shift with
      | none => some g
      | some (a, b) => searchLoop m newValue s fuel b (g.add a b (newValue s a b))
    else some g

/-- `pattern_recognizers/base.py:40-60` `_gen_forward_replacement_group` with a bound on the number of
iterations. -/
def patternGroup (σ : SetOrder) (m : Matcher) (newValue : Str → Nat → Nat → Str) (fuel : Nat)
    (s : Str) : Run (ReplacementGroup Str) :=
  (searchLoop m newValue s fuel 0 ReplacementGroup.empty).map fun g => g.done σ

/-- `pattern_recognizers/base.py:29-38` `PatternRecognizer._transform` with iteration bound `fuel`,
token `token` and transducers `f`, `b` of its aligner class. -/
def patternTransformFuel (σ : SetOrder) (m : Matcher) (token : Str) (f b : Transducer) (fuel : Nat)
    (s : Str) : Run (Str × Aligner) :=
  (patternGroup σ m (fun _ _ _ => token) fuel s).map fun rg => do
    let g ← rg
    let out ← Str2Str.apply s g
    return (out, Aligner.ofStrEdit σ s g out.length f b)

/-- `pattern_recognizers/base.py:29-38` `PatternRecognizer._transform`. Every iteration that finds a
non-empty match advances, so a loop still running after `len(s) + 1` iterations runs forever
(`Verif/Props/Pattern.lean` proves this); `nonTermination` marks that case. -/
def patternTransform (σ : SetOrder) (m : Matcher) (token : Str) (f b : Transducer) (s : Str) :
    Res (Str × Aligner) :=
  match patternTransformFuel σ m token f b (s.length + 1) s with
  | some r => r
  | none => .error .nonTermination

/-- `tokenizers/base.py:29-46` `Tokenizer._transform` for the token list computed by `_tokenize`. -/
def tokenizerTransform (σ : SetOrder) (f b : Transducer) (s : Str) (tokens : List Str) :
    Res (List Str × Aligner) := do
  let g ← Str2Lst.genReplacementGroup σ s tokens
  let temp ← Str2Str.apply s g
  let spans ← Str2Lst.genSpanGroup temp tokens
  return (tokens, Aligner.ofTokens σ s g spans tokens.length f b)

end Uttut
