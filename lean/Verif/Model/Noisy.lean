import Verif.Model.Warnings
import Verif.Model.Extend

/-!
The operators, label aligners and pipes once more, with the warnings they issue: every use of `len(group)` inside
`edit/` goes through the functions of `Model/Warnings.lean`. Building a group (`add`, `done`, `add_all`) and
`propagate_by_replacement_group` (`label_propagation.pyx:8-58`, which only iterates) never ask for the length of a group
and are taken over. Constructors make no groups.
-/

namespace Uttut.Noisy

open Warned

/-- `ops/base.py:177-182` a label aligner. -/
structure Aligner where
  inputLength : Nat
  outputLength : Nat
  fwd : List Int → Warned (List Int)
  bwd : List Int → Warned (List Int)

/-- `ops/base.py:184-200` `transform`. -/
def Aligner.transform (a : Aligner) (labels : List Int) : Warned (List Int) :=
  if labels.length ≠ a.inputLength then lift (.error .valueError)
  else do
    let out ← a.fwd labels
    if out.length ≠ a.outputLength then lift (.error .valueError) else return out

/-- `ops/base.py:202-218` `inverse_transform`. -/
def Aligner.inverseTransform (a : Aligner) (labels : List Int) : Warned (List Int) :=
  if labels.length ≠ a.outputLength then lift (.error .valueError)
  else do
    let out ← a.bwd labels
    if out.length ≠ a.inputLength then lift (.error .valueError) else return out

/-- `ops/base.py:237-243` `NullLabelAligner`. -/
def Aligner.null (inputLength outputLength : Nat) : Aligner :=
  { inputLength, outputLength, fwd := fun l => pure l, bwd := fun l => pure l }

/-- The aligners built on one edit (`Uttut.Aligner.ofStrEdit`, `Uttut.Aligner.ofLstEdit`). -/
def ofEdit {β : Type} [DecidableEq β] [NewValue (List β)] (σ : SetOrder) (input : List β)
    (edit : ReplacementGroup (List β)) (outputLength : Nat) (f b : Transducer) : Aligner :=
  { inputLength := input.length
    outputLength := outputLength
    fwd := fun labels => lift (propagate labels edit f)
    bwd := fun labels => do
      let inv ← editInverseW σ input edit
      lift (propagate labels inv b) }

/-- `tokenizers/base.py:52-81` `TokenizerAligner`. -/
def ofTokens (σ : SetOrder) (input : Str) (edit : ReplacementGroup Str) (spans : SpanGroup)
    (outputLength : Nat) (f b : Transducer) : Aligner :=
  { inputLength := input.length
    outputLength := outputLength
    fwd := fun labels => do
      let l ← lift (propagate labels edit f)
      reduceW l spans getMostCommonLabel
    bwd := fun labels => do
      let inv ← editInverseW (β := Char) σ input edit
      let l ← expandW labels spans
      lift (propagate l inv b) }

/-! ### Operators -/

/-- `_transform` of the operators that go through the characters of a text (`Uttut.charwiseTransform`). -/
def charwiseTransform {α : Type} (σ : SetOrder) (nv : α → Res (Option Str)) (xs : List α) (s : Str)
    (f b : Transducer) : Warned (Str × Aligner) := do
  let g ← lift (enumAdd nv xs 0 ReplacementGroup.empty)
  let g ← lift (g.done σ)
  let out ← editApplyW (β := Char) s g
  return (out, ofEdit (β := Char) σ s g out.length f b)

/-- `_transform` of the operators that go through the tokens of a list (`Uttut.tokenwiseTransform`). -/
def tokenwiseTransform (σ : SetOrder) (nv : Tok → Res (Option (List Tok))) (l : List Tok)
    (mkAligner : ReplacementGroup (List Tok) → Nat → Aligner) : Warned (List Tok × Aligner) := do
  let g ← lift (enumAdd nv l 0 ReplacementGroup.empty)
  let g ← lift (g.done σ)
  let out ← editApplyW l g
  return (out, mkAligner g out.length)

/-- `pattern_recognizers/base.py:29-38` `PatternRecognizer._transform`. -/
def patternTransform (σ : SetOrder) (m : Matcher) (token : Str) (f b : Transducer) (s : Str) :
    Warned (Str × Aligner) :=
  match patternGroup σ m (fun _ _ _ => token) (s.length + 1) s with
  | none => lift (.error .nonTermination)
  | some rg => do
    let g ← lift rg
    let out ← editApplyW (β := Char) s g
    return (out, ofEdit (β := Char) σ s g out.length f b)

/-- `lowercase.py:34-63` `Lowercase._transform`. -/
def lowercase (σ : SetOrder) (s : Str) : Warned (Str × Aligner) :=
  match patternGroup σ Lowercase.regex.search Lowercase.newValue (s.length + 1) s with
  | none => lift (.error .nonTermination)
  | some rg => do
    let g ← lift rg
    let out ← editApplyW (β := Char) s g
    if s.length = out.length then return (out, Aligner.null s.length out.length)
    else lift (.error .assertionError)

/-- `add_whitespace_around_word_n_zhchar.py:60-101` `_transform`. -/
def aroundWords (σ : SetOrder) (t : Trie) (shortest : Bool) (s : Str) : Warned (Str × Aligner) :=
  match AddWhitespaceAroundWordnZhChar.loop t shortest s (s.length + 1) 0 ReplacementGroup.empty with
  | none => lift (.error .nonTermination)
  | some g => do
    let g ← lift (g.done σ)
    let out ← editApplyW (β := Char) s g
    return (out, ofEdit (β := Char) σ s g out.length AddWhitespaceAroundWordnZhChar.fwd AddWhitespaceAroundWordnZhChar.bwd)

/-- `tokenizers/base.py:29-46` `Tokenizer._transform`. -/
def tokenizerTransform (σ : SetOrder) (f b : Transducer) (s : Str) (tokens : List Str) :
    Warned (List Str × Aligner) := do
  let g ← lift (Str2Lst.genReplacementGroup σ s tokens)
  let temp ← editApplyW (β := Char) s g
  let spans ← genSpanGroupW temp tokens
  return (tokens, ofTokens σ s g spans tokens.length f b)

/-- `_transform` of `add_sos_eos.py:42-66`, `add_end_token.py:48-64`, `pad.py:38-49`, after the group is made by
`add_all`. -/
def groupTransform (σ : SetOrder) (group : Res (ReplacementGroup (List Tok))) (l : List Tok) :
    Warned (List Tok × Aligner) := do
  let g ← lift group
  let out ← editApplyW l g
  return (out, ofEdit σ l g out.length Transduce.getNotEntity Transduce.getNotEntity)

/-! ### Classes: as in `Model/Builtins.lean`, over the operators above -/

/-- `_transform` from `str` to `str`; the other case is unreachable (`ops/base.py:132`). -/
def strOp (f : Str → Warned (Str × Aligner)) : Seq → Warned (Seq × Aligner)
  | .str s => do
    let (out, a) ← f s
    return (.str out, a)
  | .list _ => lift (.error .typeError)

/-- `str` to list of tokens. -/
def tokOp (f : Str → Warned (List Str × Aligner)) : Seq → Warned (Seq × Aligner)
  | .str s => do
    let (out, a) ← f s
    return (.list (out.map Tok.str), a)
  | .list _ => lift (.error .typeError)

/-- List to list. -/
def lstOp (f : List Tok → Warned (List Tok × Aligner)) : Seq → Warned (Seq × Aligner)
  | .list l => do
    let (out, a) ← f l
    return (.list out, a)
  | .str _ => lift (.error .typeError)

/-- `add_whitespace_around_character.py:21-45`. -/
def aroundChar (σ : SetOrder) (valid : Char → Bool) (s : Str) : Warned (Str × Aligner) :=
  charwiseTransform σ (AddWhitespaceAroundChar.newValue valid) s s AddWhitespaceAroundChar.fwd AddWhitespaceAroundChar.bwd

/-- `strip_accent_token.py:33-58`. -/
def stripAccentToken (σ : SetOrder) (u : Unicode) (s : Str) : Warned (Str × Aligner) :=
  let out := StripAccentToken.stripAccents u s
  if s.length = out.length then
    charwiseTransform σ StripAccentToken.newValue (s.zip out) s Transduce.getMostCommonExceptNotEntity
      Transduce.getMostCommonExceptNotEntity
  else lift (.error .assertionError)

/-- `replace_a_with_b.py:7-49`. -/
def replaceAwithB (σ : SetOrder) (m : Matcher) (b : Str) (s : Str) : Warned (Str × Aligner) :=
  patternTransform σ m b Transduce.getMostCommonExceptNotEntity Transduce.getMostCommonExceptNotEntity s

/-- `pattern_recognizers/base.py:29-60`, `ReplaceAwithB` with a `b` that is no `str` (`Builtin.replaceNoStr`). -/
def replaceNoStr (env : Env) (m : Matcher) (s : Str) : Warned (Str × Aligner) := do
  let (out, a) ← replaceAwithB env.σ m [' '] s
  if s.length > 0 ∧ (m s 0).isSome then lift (.error .typeError)
  else return (out, a)

/-- `pattern_recognizers/int_token.py:11-47` and the other recognisers of numbers: regex, token, forward transducer. -/
def numberToken (σ : SetOrder) (r : Re) (token : Str) (f : Transducer) (s : Str) : Warned (Str × Aligner) :=
  patternTransform σ r.search token f Transduce.getMostCommonExceptNotEntity s

/-- `eng_tokenizer.py`, `zh_char_tokenizer.py`, `whitespace_tokenizer.py`: a tokenizer given by its `_tokenize`. -/
def wordTokenizer (σ : SetOrder) (tokenize : Str → List Str) (s : Str) : Warned (List Str × Aligner) :=
  tokenizerTransform σ Transduce.getMostCommonExceptNotEntity Transduce.getMostCommonExceptNotEntity s (tokenize s)

/-- `custom_word_tokenizer.py:8-66`. -/
def customTokenizer (σ : SetOrder) (t : Trie) (shortest : Bool) (s : Str) : Warned (List Str × Aligner) :=
  match CustomWordTokenizer.tokenize t shortest s with
  | none => lift (.error .nonTermination)
  | some tokens => wordTokenizer σ (fun _ => tokens) s

/-- `token_to_index.py:55-81`, `token_to_index_with_hash.py:44-70`, `pure_num_to_token.py:42-67`: one new token for one
old one. -/
def perToken (σ : SetOrder) (nv : Tok → Res (Option (List Tok))) (l : List Tok) : Warned (List Tok × Aligner) :=
  tokenwiseTransform σ nv l fun _ n => Aligner.null l.length n

/-- `span_subwords.py:52-85`. -/
def subwords (σ : SetOrder) (vocab : Str → Bool) (unk : Str) (maxChars : Int) (l : List Tok) :
    Warned (List Tok × Aligner) :=
  tokenwiseTransform σ (SpanSubwords.newValue vocab unk maxChars) l fun g n =>
    ofEdit σ l g n Transduce.getMostCommon Transduce.getMostCommonExceptNotEntity

/-- `span_subwords.py:68-85, 111-171` with arguments of any type (`Builtin.spanSubwordsRun`). -/
def spanSubwordsRun (env : Env) (vocab : PyVal) (unk : Str) (n : PyVal) (l : List Tok) : Warned (List Tok × Aligner) :=
  match n.asInt, vocab.has with
  | .ok n, .ok has => subwords env.σ has unk n l
  | .ok n, .error e =>
    if l.any (Builtin.looksUp n) then lift (.error e)
    else subwords env.σ (fun _ => false) unk n l
  | .error e, _ => if l.isEmpty then subwords env.σ (fun _ => false) unk 0 l else lift (.error e)

/-- `_transform` of an object, as `__init__` leaves it. -/
abbrev Body := Seq → Warned (Seq × Aligner)

/-- `add_whitespace_around_word_n_zhchar.py:46-53` `__init__`. -/
def aroundWordInit (env : Env) : List PyVal → Res Body
  | [words, shortest] => do
    let t ← Builtin.userWords words
    return strOp (aroundWords env.σ t shortest.truthy)
  | _ => .error .typeError

/-- `pattern_recognizers/replace_a_with_b.py:39-43` `__init__`. -/
def replaceInit (env : Env) : List PyVal → Res Body
  | [a, b] => do
    let p ← a.asStr
    match env.compile p with
    | some m =>
      match b with
      | .str new => return strOp (replaceAwithB env.σ m new)
      | _ => return strOp (replaceNoStr env m)
    | none => .error .reError
  | _ => .error .typeError

/-- `custom_word_tokenizer.py:37-44` `__init__`. -/
def customTokInit (env : Env) : List PyVal → Res Body
  | [words, shortest] => do
    let t ← Builtin.userWords words
    return tokOp (customTokenizer env.σ t shortest.truthy)
  | _ => .error .typeError

/-- `add_sos_eos.py:34-66`. -/
def sosEosInit (env : Env) : List PyVal → Res Body
  | [s, e] => do
    let s ← s.asTok
    let e ← e.asTok
    return lstOp fun l => groupTransform env.σ
      (ReplacementGroup.addAll env.σ [(0, 0, [s]), ((l.length : Int), (l.length : Int), [e])]) l
  | _ => .error .typeError

/-- `add_end_token.py:33-64`. -/
def endTokInit (env : Env) : List PyVal → Res Body
  | [.none] => .error .valueError
  | [e] => do
    let e ← e.asStr
    let e ← AddEndToken.init e
    return lstOp fun l => groupTransform env.σ
      (ReplacementGroup.addAll env.σ [((l.length : Int), (l.length : Int), [.str e])]) l
  | _ => .error .typeError

/-- `pad.py:34-66`. -/
def padInit (env : Env) : List PyVal → Res Body
  | [n, t] => do
    let t ← t.asTok
    return lstOp fun l => do
      let n ← lift n.asInt
      groupTransform env.σ (Pad.group env.σ n t l) l
  | _ => .error .typeError

/-- `token_to_index.py:45-53` `__init__`. -/
def token2indexInit (env : Env) : List PyVal → Res Body
  | [d, unk] => do
    let d ← d.asIndex
    match unk with
    | .str unk => do
      Token2Index.init d unk
      return lstOp (perToken env.σ (Token2Index.newValue d unk))
    | v => do
      validateContinuity d
      if v.hashable then .error .keyError else .error .typeError
  | _ => .error .typeError

/-- `span_subwords.py:16-50` `__init__`. -/
def spanSubwordsInit (env : Env) : List PyVal → Res Body
  | [vocab, unk, n] => do
    let unk ← unk.asStr
    return lstOp (spanSubwordsRun env vocab unk n)
  | _ => .error .typeError

/-- `token_to_index_with_hash.py:37-42` `__init__`. -/
def token2indexHashInit (env : Env) : List PyVal → Res Body
  | [d] => do
    let d ← d.asIndex
    Token2IndexwithHash.init d
    return lstOp (perToken env.σ (Token2IndexwithHash.newValue d))
  | _ => .error .typeError

/-- `pure_num_to_token.py:17, 38-40` `__init__`. -/
def pureNumInit (env : Env) : List PyVal → Res Body
  | [.none] => .ok (lstOp (perToken env.σ (PureNum2Token.newValue env.u (.str numToken))))
  | [t] => do
    let t ← t.asTok
    return lstOp (perToken env.σ (PureNum2Token.newValue env.u t))
  | _ => .error .typeError

/-- An operator class: name, types and signature as in the model without warnings, and its own `__init__` and
`_transform`. -/
structure Class where
  sig : OpClass
  init : List PyVal → Res Body

/-- A class that inherits the parameterless `__init__`. -/
def simple (sig : OpClass) (run : Body) : Class := ⟨sig, fun _ => .ok run⟩

/-- The classes of `Builtin.all`, in the same order, over the operators of this file. -/
def all (env : Env) : List Class :=
  [⟨Builtin.operator, fun _ => .error .typeError⟩,
   simple (Builtin.aroundCharacter env) (strOp fun s => charwiseTransform env.σ (fun _ => .error .notImplementedError) s s
     AddWhitespaceAroundChar.fwd AddWhitespaceAroundChar.bwd),
   simple Builtin.patternRecognizer (strOp fun s =>
     if s.length = 0 then lift (.error .typeError) else lift (.error .attributeError)),
   simple Builtin.tokenizer (tokOp fun _ => lift (.error .notImplementedError)),
   simple (Builtin.lowercase env) (strOp (lowercase env.σ)),
   simple (Builtin.aroundCJK env) (strOp (aroundChar env.σ isCJK)),
   simple (Builtin.aroundPunctuation env) (strOp (aroundChar env.σ (isPunctuation env.u))),
   ⟨Builtin.aroundWord env, aroundWordInit env⟩,
   simple (Builtin.stripAccent env) (strOp (stripAccentToken env.σ env.u)),
   simple (Builtin.punctuationToWhitespace env) (strOp fun s =>
     charwiseTransform env.σ (PunctuationExceptEndpointToWhitespace.newValue env.u) s s Transduce.getNotEntity
       Transduce.getNotEntity),
   simple (Builtin.intTok env) (strOp (numberToken env.σ (intRegex env.u) intToken Transduce.getMostCommon)),
   simple (Builtin.floatTok env) (strOp (numberToken env.σ (floatRegex env.u) floatToken Transduce.getMostCommon)),
   simple (Builtin.intTokSpace env)
     (strOp (numberToken env.σ (intRegex env.u) intTokenWithSpace (withSpaceFwd intTokenWithSpace))),
   simple (Builtin.floatTokSpace env)
     (strOp (numberToken env.σ (floatRegex env.u) floatTokenWithSpace (withSpaceFwd floatTokenWithSpace))),
   simple (Builtin.mergeWs env)
     (strOp (patternTransform env.σ (Re.plus isSpace).search [' '] Transduce.getMostCommon Transduce.getMostCommon)),
   simple (Builtin.stripWs env)
     (strOp (patternTransform env.σ stripRegex.search [] Transduce.getNotEntity Transduce.getNotEntity)),
   simple (Builtin.stopwords env)
     (strOp (patternTransform env.σ StopwordsToWhitespace.regex.search [' '] Transduce.getNotEntity Transduce.getNotEntity)),
   simple (Builtin.numTokSpace env)
     (strOp (numberToken env.σ (intRegex env.u) numTokenWithSpace (withSpaceFwd numTokenWithSpace))),
   ⟨Builtin.replace env, replaceInit env⟩,
   simple (Builtin.charTok env)
     (tokOp fun s => tokenizerTransform env.σ noneTransducer noneTransducer s (s.map fun c => [c])),
   simple (Builtin.engTok env) (tokOp (wordTokenizer env.σ (EngTokenizer.tokenize env.u))),
   simple (Builtin.zhTok env) (tokOp (wordTokenizer env.σ (ZhCharTokenizer.tokenize env.u))),
   simple (Builtin.wsTok env) (tokOp (wordTokenizer env.σ pySplit)),
   ⟨Builtin.customTok env, customTokInit env⟩,
   ⟨Builtin.sosEos env, sosEosInit env⟩,
   ⟨Builtin.pad env, padInit env⟩,
   ⟨Builtin.token2index env, token2indexInit env⟩,
   ⟨Builtin.spanSubwords env, spanSubwordsInit env⟩,
   ⟨Builtin.token2indexHash env, token2indexHashInit env⟩,
   ⟨Builtin.pureNum env, pureNumInit env⟩,
   ⟨Builtin.endTok env, endTokInit env⟩]

/-! ### Classes written by users: as in `Model/Extend.lean` -/

/-- A class statement of a user: a subclass of `Tokenizer`, `PatternRecognizer` or `AddWhitespaceAroundCharacter` (functions
written by the user issue no warnings). -/
inductive OwnClass
  | tokenizer (f b : Transducer) (c : UserClass (Str → Res (List Str)))
  | recognizer (f b : Transducer) (c : UserClass (Matcher × Str))
  | around (c : UserClass (Char → Res Bool))

/-- The class in the model without warnings. -/
def OwnClass.plain (env : Env) : OwnClass → OpClass
  | .tokenizer f b c => c.tokenizer env f b
  | .recognizer f b c => c.recognizer env f b
  | .around c => c.around env

/-- `tokenizers/base.py:11-48`, `pattern_recognizers/base.py:9-67`, `add_whitespace_around_character.py:11-48`: subclasses. -/
def OwnClass.noisy (env : Env) : OwnClass → Class
  | .tokenizer f b c => ⟨c.tokenizer env f b, fun vals => do
      let tokenize ← c.init vals
      return tokOp fun s => do
        let tokens ← lift (tokenize s)
        tokenizerTransform env.σ f b s tokens⟩
  | .recognizer f b c => ⟨c.recognizer env f b, fun vals => do
      let mt ← c.init vals
      return strOp (patternTransform env.σ mt.1 mt.2 f b)⟩
  | .around c => ⟨c.around env, fun vals => do
      let valid ← c.init vals
      return strOp fun s => charwiseTransform env.σ
        (fun ch => do
          let v ← valid ch
          return if v then some [' ', ch, ' '] else none) s s AddWhitespaceAroundChar.fwd AddWhitespaceAroundChar.bwd⟩

/-- `ops/base.py:17-20` the registry (model without warnings) after class statements of users; a name that is taken is not
registered again, and looking up finds the first. -/
def registryWith (env : Env) (own : List OwnClass) : Factory :=
  (Builtin.all env ++ own.map (·.plain env)).map fun c => (c.name, c)

/-! ### Objects and pipes -/

/-- An operator object. -/
structure Op where
  inputType : SeqType
  outputType : SeqType
  run : Body

/-- `ops/base.py:24-43` calling the class. -/
def Class.call (c : Class) (args : List PyVal) (kwargs : List (Str × PyVal)) : Res Op := do
  let vals ← c.sig.bindArgs args kwargs
  let run ← c.init vals
  return { inputType := c.sig.inputType, outputType := c.sig.outputType, run }

/-- `ops/base.py:114-137` `Operator.transform`. -/
def Op.transform (op : Op) (s : Seq) : Warned (Seq × Aligner) :=
  if s.type ≠ op.inputType then lift (.error .typeError)
  else do
    let (out, a) ← op.run s
    if out.type ≠ op.outputType then lift (.error .typeError)
    else return (out, a)

/-- `pipe.py:215-222` the loop of `transform_sequence`. -/
def runSteps : List Op → Seq → (aligners : List Aligner) → (collection : List Seq) →
    Warned (Seq × List Aligner × List Seq)
  | [], s, as, coll => pure (s, as, coll)
  | op :: ops, s, as, coll => do
    let (s, a) ← op.transform s
    runSteps ops s (as ++ [a]) (coll ++ [s])

/-- `pipe.py:200-224` `transform_sequence`. -/
def transformSequence (steps : List Op) (s : Seq) : Warned (Seq × List Aligner × List Seq) :=
  runSteps steps s [] [s]

/-- `pipe.py:271-284` `LabelAlignerSequence.transform`. -/
def alignAll : List Aligner → List Int → Warned (List Int)
  | [], labels => pure labels
  | a :: as, labels => do
    let labels ← a.transform labels
    alignAll as labels

/-- The loop of `pipe.py:296-298`, over the aligners already reversed. -/
def realignLoop : List Aligner → List Int → Warned (List Int)
  | [], labels => pure labels
  | a :: as, labels => do
    let labels ← a.inverseTransform labels
    realignLoop as labels

/-- `pipe.py:286-298` `LabelAlignerSequence.inverse_transform`. -/
def realignAll (as : List Aligner) (labels : List Int) : Warned (List Int) := realignLoop as.reverse labels

/-- `pipe.py:178-198` result of `Pipe.transform`. -/
structure Transformed where
  output : Seq
  intentLabels : List Int
  entityLabels : List Int
  aligners : List Aligner
  collection : List Seq

/-- `pipe.py:178-198` `transform`. -/
def transform (steps : List Op) (d : Datum) : Warned Transformed := do
  let (utterance, intents, entities) ← lift (unpackDatum d)
  let (out, aligners, collection) ← transformSequence steps (.str utterance)
  let labels ← alignAll aligners entities
  return ⟨out, intents, labels, aligners, collection⟩

/-- Several operators made by calling classes by name (`op_factory[name](*args, **kwargs)`, `factory.py:22-25`). -/
def makeAll (classes : List Class) : List (Str × List PyVal × List (Str × PyVal)) → Res (List Op)
  | [] => .ok []
  | (name, args, kwargs) :: rest => do
    match classes.find? fun c => c.sig.name = name with
    | none => .error .keyError
    | some c =>
      let op ← c.call args kwargs
      let ops ← makeAll classes rest
      return op :: ops

end Uttut.Noisy
