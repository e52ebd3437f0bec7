import Verif.Model.Ops
import Verif.Model.Pipe

/-!
The operator classes of `uttut/pipeline/ops` as classes: their names, declared types, constructors and
`_transform`, the registry they form, and the predefined pipes of `uttut/pipeline/bert`.

The constructors check little, so arguments of unexpected types are often taken and fail later, or never; the
model follows the code in that. Simplifications: arguments of type `float` or dicts with other than string keys are
not modelled (`PyVal`). These raise TypeError here, while Python takes them: tokens (`start_token`, `end_token`
of `AddSosEos`, `pad_token`, `token`) that are neither `str` nor `int`, an `unk_token` of `SpanSubwords` that is no
`str`, and user words that are themselves lists, tuples or dicts. A dict given as `token2index` with several tuples as
values is refused with TypeError here, in Python with TypeError or ValueError, depending on the order of a set.
-/

namespace Uttut

/-- What the operators take from outside: the iteration order of sets, the Unicode tables, and
`re.compile` (`none` = the pattern is refused with `re.error`). -/
structure Env where
  σ : SetOrder
  u : Unicode
  compile : Str → Option Matcher

/-! ### Arguments -/

/-- A `str` argument. -/
def PyVal.asStr : PyVal → Res Str
  | .str s => .ok s
  | _ => .error .typeError

/-- An `int` argument (a `bool` is an `int`). -/
def PyVal.asInt : PyVal → Res Int
  | .int i => .ok i
  | .bool b => .ok (if b then 1 else 0)
  | _ => .error .typeError

/-- The truth of a value (`shortest` is used in nothing but `if shortest`, `ops/utils/trie.py:63`). -/
def PyVal.truthy : PyVal → Bool
  | .none => false
  | .bool b => b
  | .int i => i != 0
  | .str s => !s.isEmpty
  | .list l => !l.isEmpty
  | .tuple l => !l.isEmpty
  | .dict d => !d.isEmpty

/-- A token: a `str` or an `int` (a `bool` is an `int`). -/
def PyVal.asTok : PyVal → Res Tok
  | .str s => .ok (.str s)
  | .int i => .ok (.int i)
  | .bool b => .ok (.int (if b then 1 else 0))
  | _ => .error .typeError

mutual
/-- Whether `hash(value)` works. -/
def PyVal.hashable : PyVal → Bool
  | .list _ => false
  | .dict _ => false
  | .tuple l => PyVal.hashables l
  | _ => true
/-- Whether all elements of a tuple can be hashed. -/
def PyVal.hashables : List PyVal → Bool
  | [] => true
  | v :: vs => v.hashable && PyVal.hashables vs
end

/-- `len(value)` followed by iterating over it: the elements of a list or tuple, the characters of a `str`, the
keys of a dict. -/
def PyVal.elements : PyVal → Res (List PyVal)
  | .str s => .ok (s.map fun c => .str [c])
  | .list l => .ok l
  | .tuple l => .ok l
  | .dict d => .ok (d.map fun kv => .str kv.1)
  | _ => .error .typeError

/-- `len(set(values)) < len(values)` (`token_to_index.py:12`). -/
def PyVal.repeated : List PyVal → Bool
  | [] => false
  | v :: vs => vs.any (PyVal.eq v) || PyVal.repeated vs

/-- A `str`. -/
def PyVal.isStr : PyVal → Bool
  | .str _ => true
  | _ => false

/-- `token_to_index.py:10-18` `validate_continuity` for a dict with a value that is no number: `set` (L11) refuses what
cannot be hashed, repeated values are a ValueError (L12-13), `min` (L15) refuses to compare numbers, texts, tuples
and `None` with each other, and the least of several texts, or a single value, is not 0 (L17-18). Several tuples: see
the top of this file. -/
def PyVal.indexFault (vals : List PyVal) : Exc :=
  if vals.all PyVal.hashable = false then .typeError
  else if PyVal.repeated vals then .valueError
  else if vals.length = 1 || vals.all PyVal.isStr then .valueError
  else .typeError

/-- A dict from `str` to `int`; other values have no `items` (`token_to_index.py:11`). -/
def PyVal.asIndex : PyVal → Res (List (Str × Int))
  | .dict d =>
    match d.mapM fun kv => (do
      let i ← kv.2.asInt
      return (kv.1, i) : Res (Str × Int)) with
    | .ok r => .ok r
    | .error _ => .error (PyVal.indexFault (d.map Prod.snd))
  | _ => .error .attributeError

/-- `substr in vocab` (`span_subwords.py:158`): a key of the dict, an element of the list or tuple, a part of the
`str`. -/
def PyVal.has : PyVal → Res (Str → Bool)
  | .dict d => .ok fun w => (d.map Prod.fst).contains w
  | .list l => .ok fun w => l.any (PyVal.eq (.str w))
  | .tuple l => .ok fun w => l.any (PyVal.eq (.str w))
  | .str s => .ok fun w => decide (w <:+: s)
  | _ => .error .typeError

/-! ### `_transform` on sequences

`Operator.transform` has checked the type (`ops/base.py:132`), so the other cases are unreachable. -/

/-- `str` to `str`. -/
def strOp (f : Str → Res (Str × Aligner)) : Seq → Res (Seq × Aligner)
  | .str s => do
    let (out, a) ← f s
    return (.str out, a)
  | .list _ => .error .typeError

/-- `str` to list of tokens. -/
def tokOp (f : Str → Res (List Str × Aligner)) : Seq → Res (Seq × Aligner)
  | .str s => do
    let (out, a) ← f s
    return (.list (out.map Tok.str), a)
  | .list _ => .error .typeError

/-- List to list. -/
def lstOp (f : List Tok → Res (List Tok × Aligner)) : Seq → Res (Seq × Aligner)
  | .list l => do
    let (out, a) ← f l
    return (.list out, a)
  | .str _ => .error .typeError

namespace Builtin

/-! ### Classes without constructor parameters -/

/-- A class that inherits the parameterless `__init__`. -/
def simple (name : String) (i o : SeqType) (run : Seq → Res (Seq × Aligner)) : OpClass :=
  { name := name.toList, inputType := i, outputType := o, params := [], defaults := [], ownInit := false
    init := fun _ => .ok run }

/-! The base classes are registered like the others (`ops/base.py:17, 46-49`: at the time `__init_subclass__`
runs, `__abstractmethods__` is not yet set, so `is_abstract` is False). -/

/-- `ops/base.py:77, 139` `Operator`: creating an object raises TypeError (`_transform` is abstract). Its types
are `None` in the code; no object of it exists. -/
def operator : OpClass :=
  { name := "Operator".toList, inputType := .str, outputType := .str, params := [], defaults := []
    ownInit := false, init := fun _ => .error .typeError }

/-- `add_whitespace_around_character.py:11` used directly: `_is_valid_char` (L47-48) raises. -/
def aroundCharacter (env : Env) : OpClass :=
  simple "AddWhitespaceAroundCharacter" .str .str (strOp fun s =>
    charwiseTransform env.σ (fun _ => .error .notImplementedError) s s fun g n =>
      Aligner.ofStrEdit env.σ s g n AddWhitespaceAroundChar.fwd AddWhitespaceAroundChar.bwd)

/-- `pattern_recognizers/base.py:9` used directly: `REGEX_PATTERN` is missing, and without needing it (empty
text) `_label_aligner_class` is `None`. -/
def patternRecognizer : OpClass :=
  simple "PatternRecognizer" .str .str (strOp fun s =>
    if s.length = 0 then .error .typeError else .error .attributeError)

/-- `tokenizers/base.py:13` used directly: `_tokenize` (L48-49) raises. -/
def tokenizer : OpClass :=
  simple "Tokenizer" .str .list (tokOp fun _ => .error .notImplementedError)

/-- `lowercase.py:10`. -/
def lowercase (env : Env) : OpClass := simple "Lowercase" .str .str (strOp (Lowercase.transform env.σ))
/-- `add_whitespace_around_cjk.py:4`. -/
def aroundCJK (env : Env) : OpClass :=
  simple "AddWhitespaceAroundCJK" .str .str (strOp (AddWhitespaceAroundCJK.transform env.σ))
/-- `add_whitespace_around_punctuation.py:6`. -/
def aroundPunctuation (env : Env) : OpClass :=
  simple "AddWhitespaceAroundPunctuation" .str .str
    (strOp (AddWhitespaceAroundPunctuation.transform env.σ env.u))
/-- `strip_accent_token.py:11`. -/
def stripAccent (env : Env) : OpClass :=
  simple "StripAccentToken" .str .str (strOp (StripAccentToken.transform env.σ env.u))
/-- `punctuation_except_endpoint_to_whitespace.py:11`. -/
def punctuationToWhitespace (env : Env) : OpClass :=
  simple "PunctuationExceptEndpointToWhitespace" .str .str
    (strOp (PunctuationExceptEndpointToWhitespace.transform env.σ env.u))
/-- `pattern_recognizers/int_token.py:19`. -/
def intTok (env : Env) : OpClass := simple "IntToken" .str .str (strOp (IntToken.transform env.σ env.u))
/-- `pattern_recognizers/float_token.py:8`. -/
def floatTok (env : Env) : OpClass := simple "FloatToken" .str .str (strOp (FloatToken.transform env.σ env.u))
/-- `pattern_recognizers/int_token_with_space.py:27`. -/
def intTokSpace (env : Env) : OpClass :=
  simple "IntTokenWithSpace" .str .str (strOp (IntTokenWithSpace.transform env.σ env.u))
/-- `pattern_recognizers/float_token_with_space.py:26`. -/
def floatTokSpace (env : Env) : OpClass :=
  simple "FloatTokenWithSpace" .str .str (strOp (FloatTokenWithSpace.transform env.σ env.u))
/-- `pattern_recognizers/num_token_with_space.py:27`. -/
def numTokSpace (env : Env) : OpClass :=
  simple "NumTokenWithSpace" .str .str (strOp (NumTokenWithSpace.transform env.σ env.u))
/-- `pattern_recognizers/merge_whitespace_characters.py:18`. -/
def mergeWs (env : Env) : OpClass :=
  simple "MergeWhiteSpaceCharacters" .str .str (strOp (MergeWhiteSpaceCharacters.transform env.σ))
/-- `pattern_recognizers/strip_whitespace_characters.py:18`. -/
def stripWs (env : Env) : OpClass :=
  simple "StripWhiteSpaceCharacters" .str .str (strOp (StripWhiteSpaceCharacters.transform env.σ))
/-- `pattern_recognizers/stopwords_to_whitespace.py:21`. -/
def stopwords (env : Env) : OpClass :=
  simple "StopwordsToWhitespace" .str .str (strOp (StopwordsToWhitespace.transform env.σ))
/-- `tokenizers/char_tokenizer.py:15`. -/
def charTok (env : Env) : OpClass := simple "CharTokenizer" .str .list (tokOp (CharTokenizer.transform env.σ))
/-- `tokenizers/eng_tokenizer.py:18`. -/
def engTok (env : Env) : OpClass := simple "EngTokenizer" .str .list (tokOp (EngTokenizer.transform env.σ env.u))
/-- `tokenizers/zh_char_tokenizer.py:6`. -/
def zhTok (env : Env) : OpClass :=
  simple "ZhCharTokenizer" .str .list (tokOp (ZhCharTokenizer.transform env.σ env.u))
/-- `tokenizers/whitespace_tokenizer.py:16`. -/
def wsTok (env : Env) : OpClass :=
  simple "WhiteSpaceTokenizer" .str .list (tokOp (WhiteSpaceTokenizer.transform env.σ))

/-! ### Classes with constructor parameters -/

/-- `for word in self.user_words: trie.insert(word)`; inserting what is no `str` raises TypeError
(`ops/utils/trie.py:48`), the words before it having been inserted. -/
def insertWords : Trie → List PyVal → Res Trie
  | t, [] => .ok t
  | t, v :: vs => do
    let w ← v.asStr
    let t ← t.insert w
    insertWords t vs

/-- `custom_word_tokenizer.py:37-49`, `add_whitespace_around_word_n_zhchar.py:46-58`: the trie of the
user words; `None` raises ValueError like an empty list. -/
def userWords (v : PyVal) : Res Trie :=
  match v with
  | .none => .error .valueError
  | v => do
    let vs ← v.elements
    if vs.length < 1 then .error .valueError
    else insertWords TrieNode.empty vs

/-- `add_whitespace_around_word_n_zhchar.py:46-53` `__init__`. -/
def aroundWordInit (env : Env) : List PyVal → Res (Seq → Res (Seq × Aligner))
  | [words, shortest] => do
    let t ← userWords words
    return strOp (AddWhitespaceAroundWordnZhChar.transform env.σ t shortest.truthy)
  | _ => .error .typeError

/-- `add_whitespace_around_word_n_zhchar.py:12`. -/
def aroundWord (env : Env) : OpClass :=
  { name := "AddWhitespaceAroundWordnZhChar".toList, inputType := .str, outputType := .str
    params := ["user_words".toList, "shortest".toList], defaults := [.bool false], ownInit := true
    init := aroundWordInit env }

/-- `pattern_recognizers/base.py:29-60` `_transform` of `ReplaceAwithB` with a `b` that is no `str`: as soon as something
is replaced, joining the pieces (`edit/str2str.py:16`) raises TypeError. The text `' '` below is never used. -/
def replaceNoStr (env : Env) (m : Matcher) (s : Str) : Res (Str × Aligner) := do
  let (out, a) ← ReplaceAwithB.transform env.σ m [' '] s
  if s.length > 0 ∧ (m s 0).isSome then .error .typeError
  else return (out, a)

/-- `pattern_recognizers/replace_a_with_b.py:39-43` `__init__`: only `a` is looked at. -/
def replaceInit (env : Env) : List PyVal → Res (Seq → Res (Seq × Aligner))
  | [a, b] => do
    let p ← a.asStr
    match env.compile p with
    | some m =>
      match b with
      | .str new => return strOp (ReplaceAwithB.transform env.σ m new)
      | _ => return strOp (replaceNoStr env m)
    | none => .error .reError
  | _ => .error .typeError

/-- `pattern_recognizers/replace_a_with_b.py:16`. -/
def replace (env : Env) : OpClass :=
  { name := "ReplaceAwithB".toList, inputType := .str, outputType := .str
    params := ["a".toList, "b".toList], defaults := [], ownInit := true, init := replaceInit env }

/-- `custom_word_tokenizer.py:37-44` `__init__`. -/
def customTokInit (env : Env) : List PyVal → Res (Seq → Res (Seq × Aligner))
  | [words, shortest] => do
    let t ← userWords words
    return tokOp (CustomWordTokenizer.transform env.σ t shortest.truthy)
  | _ => .error .typeError

/-- `tokenizers/custom_word_tokenizer.py:17`. -/
def customTok (env : Env) : OpClass :=
  { name := "CustomWordTokenizer".toList, inputType := .str, outputType := .list
    params := ["user_words".toList, "shortest".toList], defaults := [.bool false], ownInit := true
    init := customTokInit env }

/-- `add_sos_eos.py:34-40` `__init__`: the tokens are not checked. -/
def sosEosInit (env : Env) : List PyVal → Res (Seq → Res (Seq × Aligner))
  | [s, e] => do
    let s ← s.asTok
    let e ← e.asTok
    return lstOp (AddSosEos.transform env.σ s e)
  | _ => .error .typeError

/-- `add_sos_eos.py:11`. -/
def sosEos (env : Env) : OpClass :=
  { name := "AddSosEos".toList, inputType := .list, outputType := .list
    params := ["start_token".toList, "end_token".toList], defaults := [.str startToken, .str endToken]
    ownInit := true, init := sosEosInit env }

/-- `add_end_token.py:33-46` `__init__`. -/
def endTokInit (env : Env) : List PyVal → Res (Seq → Res (Seq × Aligner))
  | [.none] => .error .valueError
  | [e] => do
    let e ← e.asStr
    let e ← AddEndToken.init e
    return lstOp (AddEndToken.transform env.σ (.str e))
  | _ => .error .typeError

/-- `add_end_token.py:10`. -/
def endTok (env : Env) : OpClass :=
  { name := "AddEndToken".toList, inputType := .list, outputType := .list
    params := ["end_token".toList], defaults := [.str endToken], ownInit := true, init := endTokInit env }

/-- `pad.py:34-36` `__init__`: nothing is checked; with a `maxlen` that is no number every transform raises
TypeError (L46 `self.maxlen - seqlen`). -/
def padInit (env : Env) : List PyVal → Res (Seq → Res (Seq × Aligner))
  | [n, t] => do
    let t ← t.asTok
    return lstOp fun l => do
      let n ← n.asInt
      Pad.transform env.σ n t l
  | _ => .error .typeError

/-- `pad.py:12`. -/
def pad (env : Env) : OpClass :=
  { name := "Pad".toList, inputType := .list, outputType := .list
    params := ["maxlen".toList, "pad_token".toList], defaults := [.str padToken], ownInit := true
    init := padInit env }

/-- `token_to_index.py:45-53` `__init__`: an `unk_token` that is no `str` is no key of the dict (L52). -/
def token2indexInit (env : Env) : List PyVal → Res (Seq → Res (Seq × Aligner))
  | [d, unk] => do
    let d ← d.asIndex
    match unk with
    | .str unk => do
      Token2Index.init d unk
      return lstOp (Token2Index.transform env.σ d unk)
    | v => do
      validateContinuity d
      if v.hashable then .error .keyError else .error .typeError
  | _ => .error .typeError

/-- `token_to_index.py:21`. -/
def token2index (env : Env) : OpClass :=
  { name := "Token2Index".toList, inputType := .list, outputType := .list
    params := ["token2index".toList, "unk_token".toList], defaults := [.str unkToken], ownInit := true
    init := token2indexInit env }

/-- `span_subwords.py:143, 158`: a `vocab` that cannot be asked fails at this token: it is no `str`, or neither empty nor
too long. -/
def looksUp (n : Int) : Tok → Bool
  | .str w => !w.isEmpty && decide ((w.length : Int) ≤ n)
  | .int _ => true

/-- `span_subwords.py:68-85, 111-171` with arguments of any type: a `maxlen_per_token` that is no number fails at the first
token (L143), a `vocab` that cannot be asked at the first token that is not empty and not too long (L158); a token
that is no `str` has no length. -/
def spanSubwordsRun (env : Env) (vocab : PyVal) (unk : Str) (n : PyVal) (l : List Tok) : Res (List Tok × Aligner) :=
  match n.asInt, vocab.has with
  | .ok n, .ok has => SpanSubwords.transform env.σ has unk n l
  | .ok n, .error e =>
    if l.any (looksUp n) then .error e
    else SpanSubwords.transform env.σ (fun _ => false) unk n l
  | .error e, _ => if l.isEmpty then SpanSubwords.transform env.σ (fun _ => false) unk 0 l else .error e

/-- `span_subwords.py:16-50` `__init__`: nothing is checked. -/
def spanSubwordsInit (env : Env) : List PyVal → Res (Seq → Res (Seq × Aligner))
  | [vocab, unk, n] => do
    let unk ← unk.asStr
    return lstOp (spanSubwordsRun env vocab unk n)
  | _ => .error .typeError

/-- `span_subwords.py:11`. -/
def spanSubwords (env : Env) : OpClass :=
  { name := "SpanSubwords".toList, inputType := .list, outputType := .list
    params := ["vocab".toList, "unk_token".toList, "maxlen_per_token".toList]
    defaults := [.str unkToken, .int 200], ownInit := true, init := spanSubwordsInit env }

/-- `token_to_index_with_hash.py:37-42` `__init__`. -/
def token2indexHashInit (env : Env) : List PyVal → Res (Seq → Res (Seq × Aligner))
  | [d] => do
    let d ← d.asIndex
    Token2IndexwithHash.init d
    return lstOp (Token2IndexwithHash.transform env.σ d)
  | _ => .error .typeError

/-- `token_to_index_with_hash.py:11`. -/
def token2indexHash (env : Env) : OpClass :=
  { name := "Token2IndexwithHash".toList, inputType := .list, outputType := .list
    params := ["token2index".toList], defaults := [], ownInit := true, init := token2indexHashInit env }

/-- `pure_num_to_token.py:17, 38-40` `__init__`: `None` stands for `_num_`. -/
def pureNumInit (env : Env) : List PyVal → Res (Seq → Res (Seq × Aligner))
  | [.none] => .ok (lstOp (PureNum2Token.transform env.σ env.u (.str numToken)))
  | [t] => do
    let t ← t.asTok
    return lstOp (PureNum2Token.transform env.σ env.u t)
  | _ => .error .typeError

/-- `pure_num_to_token.py:10`. -/
def pureNum (env : Env) : OpClass :=
  { name := "PureNum2Token".toList, inputType := .list, outputType := .list
    params := ["token".toList], defaults := [.none], ownInit := true, init := pureNumInit env }

/-- The concrete operator classes. -/
def concrete (env : Env) : List OpClass :=
  [lowercase env, aroundCJK env, aroundPunctuation env, aroundWord env, stripAccent env,
   punctuationToWhitespace env, intTok env, floatTok env, intTokSpace env, floatTokSpace env,
   mergeWs env, stripWs env, stopwords env, numTokSpace env, replace env, charTok env, engTok env,
   zhTok env, wsTok env, customTok env, sosEos env, pad env, token2index env, spanSubwords env,
   token2indexHash env, pureNum env, endTok env]

/-- All operator classes, including the base classes. -/
def all (env : Env) : List OpClass :=
  [operator, aroundCharacter env, patternRecognizer, tokenizer] ++ concrete env

/-- The registry after importing all modules of `uttut/pipeline/ops`: every class is registered under its
name (`ops/base.py:20`). Importing `uttut.pipeline` imports all of them but `add_end_token.py`
(`ops/__init__.py`); the registry without `AddEndToken` is `registryDefault`. -/
def registry (env : Env) : Factory := (all env).map fun c => (c.name, c)

/-- The registry after `import uttut.pipeline`. -/
def registryDefault (env : Env) : Factory :=
  (all env).dropLast.map fun c => (c.name, c)

end Builtin

/-! ### `uttut/pipeline/bert` -/

namespace Bert

/-- Consecutive `pipe.add(name, kwargs)` at module level; an exception would end the import. -/
def build (f : Factory) : List (String × List (Str × PyVal)) → Pipe → Res Pipe
  | [], p => .ok p
  | (name, kw) :: rest, p => do
    let (p, r) := p.add f name.toList (some kw) none
    r
    build f rest p

/-- `{token: ind for ind, token in enumerate(tokens)}`. -/
def vocabOf (tokens : List String) : PyVal :=
  .dict (tokens.zipIdx.map fun t => (t.1.toList, .int t.2))

/-- `bert/basic.py:4-11` the steps of `basic_pipe`. -/
def basicSteps : List (String × List (Str × PyVal)) :=
  [("Lowercase", []), ("AddWhitespaceAroundCJK", []), ("AddWhitespaceAroundPunctuation", []),
   ("MergeWhiteSpaceCharacters", []), ("StripWhiteSpaceCharacters", []), ("StripAccentToken", []),
   ("WhiteSpaceTokenizer", [])]

/-- `bert/full.py:4-8` `vocab`. -/
def fullVocab : List String :=
  ["[UNK]", "[CLS]", "[SEP]", "want", "##want", "##ed", "wa", "un", "runn", "##ing", ","]

/-- `bert/word_piece.py:4-8` `vocab`. -/
def wordPieceVocab : List String :=
  ["[UNK]", "[CLS]", "[SEP]", "want", "##want", "##ed", "wa", "un", "runn", "##ing"]

/-- `bert/full.py:19-25`, `bert/word_piece.py:13-19` the last step. -/
def subwordStep (vocab : List String) : String × List (Str × PyVal) :=
  ("SpanSubwords", [("vocab".toList, vocabOf vocab), ("unk_token".toList, .str "[UNK]".toList),
    ("maxlen_per_token".toList, .int 200)])

/-- `bert/basic.py` `basic_pipe`. -/
def basicPipe (f : Factory) : Res Pipe := build f basicSteps Pipe.empty

/-- `bert/full.py` `full_pipe`. -/
def fullPipe (f : Factory) : Res Pipe := build f (basicSteps ++ [subwordStep fullVocab]) Pipe.empty

/-- `bert/word_piece.py` `word_piece_pipe`. -/
def wordPiecePipe (f : Factory) : Res Pipe :=
  build f [("WhiteSpaceTokenizer", []), subwordStep wordPieceVocab] Pipe.empty

end Bert

end Uttut
