import Verif.Model.Base
import Verif.Model.Trie
import Verif.Model.Hash

/-
Model of the operators in `uttut/pipeline/ops` (all files, plus `pattern_recognizers/` and
`tokenizers/`). Each `X.transform` models `_transform` of the operator class `X`: it returns the output
sequence and the label aligner.
-/

namespace Uttut

/-- `for i, x in enumerate(xs): if <cond>: group.add(i, i + 1, v)`: the loop shared by
`add_whitespace_around_character.py:35-42`, `punctuation_except_endpoint_to_whitespace.py:49-56`,
`strip_accent_token.py:49-56`, `pure_num_to_token.py:55-64`, `span_subwords.py:69-82`,
`token_to_index.py:69-79`, `token_to_index_with_hash.py:58-68`. `nv x` is the new value, `none` if the
condition fails, or an exception. Without the OverflowError for positions from 2^32 on (`Model/Machine.lean`, C91). -/
def enumAdd {α V : Type} (nv : α → Res (Option V)) :
    List α → (i : Nat) → ReplacementGroup V → Res (ReplacementGroup V)
  | [], _, g => .ok g
  | x :: xs, i, g => do
    match ← nv x with
    | some v => enumAdd nv xs (i + 1) (g.add i (i + 1) v)
    | none => enumAdd nv xs (i + 1) g

/-- Build the group with `enumAdd`, apply it to a string and make the aligner. -/
def charwiseTransform {α : Type} (σ : SetOrder) (nv : α → Res (Option Str)) (xs : List α) (s : Str)
    (mkAligner : ReplacementGroup Str → Nat → Aligner) : Res (Str × Aligner) := do
  let g ← enumAdd nv xs 0 ReplacementGroup.empty
  let g ← g.done σ
  let out ← Str2Str.apply s g
  return (out, mkAligner g out.length)

/-- Build the group with `enumAdd`, apply it to a token list and make the aligner. -/
def tokenwiseTransform (σ : SetOrder) (nv : Tok → Res (Option (List Tok))) (l : List Tok)
    (mkAligner : ReplacementGroup (List Tok) → Nat → Aligner) : Res (List Tok × Aligner) := do
  let g ← enumAdd nv l 0 ReplacementGroup.empty
  let g ← g.done σ
  let out ← Lst2Lst.apply l g
  return (out, mkAligner g out.length)

/-! ### Constants (`ops/tokens.py:1-13`) -/

/-- `tokens.py:2` -/
def intToken : Str := "_int_".toList
/-- `tokens.py:3` -/
def floatToken : Str := "_float_".toList
/-- `tokens.py:4` -/
def numToken : Str := "_num_".toList
/-- `tokens.py:5` -/
def intTokenWithSpace : Str := " _int_ ".toList
/-- `tokens.py:6` -/
def floatTokenWithSpace : Str := " _float_ ".toList
/-- `tokens.py:7` -/
def numTokenWithSpace : Str := " _num_ ".toList
/-- `tokens.py:10` -/
def startToken : Str := "<sos>".toList
/-- `tokens.py:11` -/
def endToken : Str := "<eos>".toList
/-- `tokens.py:12` -/
def unkToken : Str := "<unk>".toList
/-- `tokens.py:13` -/
def padToken : Str := "<pad>".toList

/-! ### String to string operators -/

namespace Lowercase

/-- `lowercase.py:32`: `[A-Z]`. -/
def isUpper (c : Char) : Bool := 'A'.toNat ≤ c.toNat && c.toNat ≤ 'Z'.toNat

/-- `lowercase.py:32` `REGEX_PATTERN`. -/
def regex : Re := .plus isUpper

/-- `str.lower()` on one of the letters `A`-`Z`. -/
def lowerChar (c : Char) : Char := if isUpper c then Char.ofNat (c.toNat + 32) else c

/-- `lowercase.py:54-58`: the new value of a match is `input_str[start:end].lower()`. -/
def newValue (s : Str) (a b : Nat) : Str := (slice s a b).map lowerChar

/-- `lowercase.py:34-63` `Lowercase._transform`. -/
def transform (σ : SetOrder) (s : Str) : Res (Str × Aligner) :=
  match patternGroup σ regex.search newValue (s.length + 1) s with
  | none => .error .nonTermination
  | some rg => do
    let g ← rg
    let out ← Str2Str.apply s g
    if s.length = out.length then return (out, Aligner.null s.length out.length)
    else .error .assertionError

end Lowercase

namespace AddWhitespaceAroundChar

/-- `add_whitespace_around_character.py:60-62` `_forward_transduce_func`. -/
def fwd : Transducer := fun labels _ =>
  match labels with
  | [l] => .ok [notEntity, l, notEntity]
  | _ => .error .assertionError

/-- `add_whitespace_around_character.py:72-73` `_backward_transduce_func`. -/
def bwd : Transducer := Transduce.getMostCommonExceptNotEntity

/-- `add_whitespace_around_character.py:35-42`: new value of a valid character. -/
def newValue (valid : Char → Bool) (c : Char) : Res (Option Str) :=
  .ok (if valid c then some [' ', c, ' '] else none)

/-- `add_whitespace_around_character.py:21-45` `_transform` for the predicate `_is_valid_char`. -/
def transform (σ : SetOrder) (valid : Char → Bool) (s : Str) : Res (Str × Aligner) :=
  charwiseTransform σ (newValue valid) s s fun g n => Aligner.ofStrEdit σ s g n fwd bwd

end AddWhitespaceAroundChar

/-- `add_whitespace_around_cjk.py:38-51` `_is_valid_char` (same table in
`add_whitespace_around_word_n_zhchar.py:118-131` and `zh_char_tokenizer.py:63-72`). -/
def isCJK (c : Char) : Bool :=
  let n := c.toNat
  (n ≥ 0x4E00 && n ≤ 0x9FFF) || (n ≥ 0x3400 && n ≤ 0x4DBF) || (n ≥ 0x20000 && n ≤ 0x2A6DF)
  || (n ≥ 0x2A700 && n ≤ 0x2B73F) || (n ≥ 0x2B740 && n ≤ 0x2B81F) || (n ≥ 0x2B820 && n ≤ 0x2CEAF)
  || (n ≥ 0xF900 && n ≤ 0xFAFF) || (n ≥ 0x2F800 && n ≤ 0x2FA1F)

/-- `add_whitespace_around_punctuation.py:30-56` `is_punctuation` (same as
`eng_tokenizer.py:89-109` `_is_punctuation`). -/
def isPunctuation (u : Unicode) (c : Char) : Bool :=
  let n := c.toNat
  if (n ≥ 33 && n ≤ 47) || (n ≥ 58 && n ≤ 64) || (n ≥ 91 && n ≤ 96) || (n ≥ 123 && n ≤ 126)
  then true
  else if u.isCatP c then true
  else false

/-- `add_whitespace_around_cjk.py:4` `AddWhitespaceAroundCJK`. -/
def AddWhitespaceAroundCJK.transform (σ : SetOrder) (s : Str) : Res (Str × Aligner) :=
  AddWhitespaceAroundChar.transform σ isCJK s

/-- `add_whitespace_around_punctuation.py:6` `AddWhitespaceAroundPunctuation`. -/
def AddWhitespaceAroundPunctuation.transform (σ : SetOrder) (u : Unicode) (s : Str) :
    Res (Str × Aligner) :=
  AddWhitespaceAroundChar.transform σ (isPunctuation u) s

namespace AddWhitespaceAroundWordnZhChar

/-- `add_whitespace_around_word_n_zhchar.py:143-147` `_forward_transduce_func`. -/
def fwd : Transducer := fun labels _ => .ok (notEntity :: labels ++ [notEntity])

/-- `add_whitespace_around_word_n_zhchar.py:157-158` `_backward_transduce_func`: `labels[1:-1]`. -/
def bwd : Transducer := fun labels _ => .ok (pySlice labels 1 (-1))

/-- `add_whitespace_around_word_n_zhchar.py:74-99`: the scanning loop; `none` = fuel exhausted. Without the OverflowError for
positions from 2^32 on (`Model/Machine.lean`, C91). -/
def loop (t : Trie) (shortest : Bool) (s : Str) :
    (fuel start : Nat) → ReplacementGroup Str → Option (ReplacementGroup Str)
  | 0, _, _ => none
  | fuel + 1, start, g =>
    if start < s.length then
      match t.matchPrefix (s.drop start) shortest with
      | some w =>
        loop t shortest s fuel (start + w.length)
          (g.add start (start + w.length) ([' '] ++ w ++ [' ']))
      | none =>
        match slice s start (start + 1) with
        | [c] =>
          if isCJK c then loop t shortest s fuel (start + 1) (g.add start (start + 1) [' ', c, ' '])
          else loop t shortest s fuel (start + 1) g
        | _ => none -- unreachable: `start < len(s)`
    else some g

/-- `add_whitespace_around_word_n_zhchar.py:60-101` `_transform` (after `__init__`, L46-53, built the
trie `t`). -/
def transform (σ : SetOrder) (t : Trie) (shortest : Bool) (s : Str) : Res (Str × Aligner) :=
  match loop t shortest s (s.length + 1) 0 ReplacementGroup.empty with
  | none => .error .nonTermination
  | some g => do
    let g ← g.done σ
    let out ← Str2Str.apply s g
    return (out, Aligner.ofStrEdit σ s g out.length fwd bwd)

end AddWhitespaceAroundWordnZhChar

namespace PunctuationExceptEndpointToWhitespace

/-- `punctuation_except_endpoint_to_whitespace.py:49-56`, `_is_endpoint` L60-63. -/
def newValue (u : Unicode) (c : Char) : Res (Option Str) :=
  .ok (if isPunctuation u c && !(c == '.') then some [' '] else none)

/-- `punctuation_except_endpoint_to_whitespace.py:35-58` `_transform`; both transducers are
`get_not_entity` (L75-87). -/
def transform (σ : SetOrder) (u : Unicode) (s : Str) : Res (Str × Aligner) :=
  charwiseTransform σ (newValue u) s s fun g n =>
    Aligner.ofStrEdit σ s g n Transduce.getNotEntity Transduce.getNotEntity

end PunctuationExceptEndpointToWhitespace

namespace StripAccentToken

/-- `strip_accent_token.py:85-100` `_strip_accents`. -/
def stripAccents (u : Unicode) (s : Str) : Str := (u.nfd s).filter fun c => !u.isMn c

/-- `strip_accent_token.py:49-56`: new value for a pair of characters. -/
def newValue (p : Char × Char) : Res (Option Str) :=
  .ok (if p.1 ≠ p.2 then some [p.2] else none)

/-- `strip_accent_token.py:33-58` `_transform`. -/
def transform (σ : SetOrder) (u : Unicode) (s : Str) : Res (Str × Aligner) :=
  let out := stripAccents u s
  if s.length = out.length then
    charwiseTransform σ newValue (s.zip out) s fun g n =>
      Aligner.ofStrEdit σ s g n Transduce.getMostCommonExceptNotEntity
        Transduce.getMostCommonExceptNotEntity
  else .error .assertionError

end StripAccentToken

/-! ### Pattern recognisers -/

/-- `[\d０-９]` of the number regexes. -/
def isDigit (u : Unicode) (c : Char) : Bool :=
  u.isDecimal c || (0xFF10 ≤ c.toNat && c.toNat ≤ 0xFF19)

/-- `[\.\d０-９]` of the number regexes. -/
def isDigitOrDot (u : Unicode) (c : Char) : Bool := c == '.' || isDigit u c

/-- `int_token.py:40`, `int_token_with_space.py:47`, `num_token_with_space.py:49` `REGEX_PATTERN`. -/
def intRegex (u : Unicode) : Re :=
  .seq (.notBehind (isDigitOrDot u)) (.seq (.plus (isDigit u)) (.notAhead (isDigitOrDot u)))

/-- `float_token.py:30-32`, `float_token_with_space.py:49-51` `REGEX_PATTERN`. -/
def floatRegex (u : Unicode) : Re :=
  .seq (.notBehind (isDigitOrDot u))
    (.seq (.plus (isDigit u))
      (.seq (.cls (· == '.'))
        (.seq (.plus (isDigit u)) (.notAhead (isDigitOrDot u)))))

/-- `int_token_with_space.py:14-21` (same in `float_token_with_space.py:13-20`,
`num_token_with_space.py:14-21`) `_forward_transduce_func`: most common label, 0 on the two spaces. -/
def withSpaceFwd (token : Str) : Transducer := fun labels _ =>
  match Transduce.mostCommonItems labels with
  | [] => .error .indexError
  | (k, _) :: _ => .ok (notEntity :: List.replicate (token.length - 2) k ++ [notEntity])

/-- `int_token.py:11-47` `IntToken` and its aligner. -/
def IntToken.transform (σ : SetOrder) (u : Unicode) (s : Str) : Res (Str × Aligner) :=
  patternTransform σ (intRegex u).search intToken Transduce.getMostCommon
    Transduce.getMostCommonExceptNotEntity s

/-- `float_token.py:8-39` `FloatToken`. -/
def FloatToken.transform (σ : SetOrder) (u : Unicode) (s : Str) : Res (Str × Aligner) :=
  patternTransform σ (floatRegex u).search floatToken Transduce.getMostCommon
    Transduce.getMostCommonExceptNotEntity s

/-- `int_token_with_space.py:12-55` `IntTokenWithSpace` and its aligner. -/
def IntTokenWithSpace.transform (σ : SetOrder) (u : Unicode) (s : Str) : Res (Str × Aligner) :=
  patternTransform σ (intRegex u).search intTokenWithSpace (withSpaceFwd intTokenWithSpace)
    Transduce.getMostCommonExceptNotEntity s

/-- `float_token_with_space.py:11-58` `FloatTokenWithSpace` and its aligner. -/
def FloatTokenWithSpace.transform (σ : SetOrder) (u : Unicode) (s : Str) : Res (Str × Aligner) :=
  patternTransform σ (floatRegex u).search floatTokenWithSpace (withSpaceFwd floatTokenWithSpace)
    Transduce.getMostCommonExceptNotEntity s

/-- `num_token_with_space.py:12-57` `NumTokenWithSpace` and its aligner. -/
def NumTokenWithSpace.transform (σ : SetOrder) (u : Unicode) (s : Str) : Res (Str × Aligner) :=
  patternTransform σ (intRegex u).search numTokenWithSpace (withSpaceFwd numTokenWithSpace)
    Transduce.getMostCommonExceptNotEntity s

/-- `merge_whitespace_characters.py:9-41` `MergeWhiteSpaceCharacters` and its aligner: `\s+` to `" "`. -/
def MergeWhiteSpaceCharacters.transform (σ : SetOrder) (s : Str) : Res (Str × Aligner) :=
  patternTransform σ (Re.plus isSpace).search [' '] Transduce.getMostCommon Transduce.getMostCommon s

/-- `strip_whitespace_characters.py:40` `REGEX_PATTERN`: `\A\s+|\s+\Z`. -/
def stripRegex : Re := .alt (.seq .bos (.plus isSpace)) (.seq (.plus isSpace) .eos)

/-- `strip_whitespace_characters.py:9-47` `StripWhiteSpaceCharacters` and its aligner. -/
def StripWhiteSpaceCharacters.transform (σ : SetOrder) (s : Str) : Res (Str × Aligner) :=
  patternTransform σ stripRegex.search [] Transduce.getNotEntity Transduce.getNotEntity s

namespace StopwordsToWhitespace

/-- `pattern_recognizers/stopwords.txt`, all 57 lines in file order (no trailing newline). -/
def stopwords : List Str := [
  "吧噠", "嗚呼", "呼哧", "哎呀", "哎喲", "哼唷", "啪達", "喔唷", "嗡嗡", "嘎登", "吧", "呀", "啊", "呢", "嗎",
  "哇", "啦", "哪", "喲", "囉", "唷", "哩", "吱", "呀", "呃", "嘔", "唄", "嗚", "呢", "呵", "呸", "咋", "咚",
  "咦", "咳", "哇", "哉", "哎", "嘩", "喲", "哦", "哩", "哼", "唉", "啊", "啐", "啥", "啦", "喂", "喏", "呵",
  "嗯", "噯", "嘎", "噓", "嘻", "嘿"].map String.toList

/-- `"(" + words joined by "|" + ")"` (`stopwords_to_whitespace.py:43-47`). -/
def altOf : List Str → Re
  | [] => Re.lit []
  | [w] => Re.lit w
  | w :: v :: ws => .alt (Re.lit w) (altOf (v :: ws))

/-- `stopwords_to_whitespace.py:47` `REGEX_PATTERN`. -/
def regex : Re := altOf stopwords

/-- `stopwords_to_whitespace.py:12-48` `StopwordsToWhitespace` and its aligner. -/
def transform (σ : SetOrder) (s : Str) : Res (Str × Aligner) :=
  patternTransform σ regex.search [' '] Transduce.getNotEntity Transduce.getNotEntity s

end StopwordsToWhitespace

/-- `replace_a_with_b.py:7-49` `ReplaceAwithB` and its aligner; `m` is `re.compile(a).search`. -/
def ReplaceAwithB.transform (σ : SetOrder) (m : Matcher) (b : Str) (s : Str) : Res (Str × Aligner) :=
  patternTransform σ m b Transduce.getMostCommonExceptNotEntity
    Transduce.getMostCommonExceptNotEntity s

/-! ### Tokenizers -/

/-- `char_tokenizer.py:6-12`: both transducers return `None`; assigning `None` to a slice raises
TypeError. -/
def noneTransducer : Transducer := fun _ _ => .error .typeError

/-- `char_tokenizer.py:15-36` `CharTokenizer`. -/
def CharTokenizer.transform (σ : SetOrder) (s : Str) : Res (List Str × Aligner) :=
  tokenizerTransform σ noneTransducer noneTransducer s (s.map fun c => [c])

/-- `whitespace_tokenizer.py:7-48` `WhiteSpaceTokenizer` and its aligner. -/
def WhiteSpaceTokenizer.transform (σ : SetOrder) (s : Str) : Res (List Str × Aligner) :=
  tokenizerTransform σ Transduce.getMostCommonExceptNotEntity Transduce.getMostCommonExceptNotEntity
    s (pySplit s)

namespace EngTokenizer

/-- `output[-1].append(char)` (`eng_tokenizer.py:71`). -/
def appendLast : List Str → Char → List Str
  | [], _ => [] -- unreachable: a word has been started before
  | [w], c => [w ++ [c]]
  | w :: v :: ws, c => w :: appendLast (v :: ws) c

/-- `eng_tokenizer.py:58-73` `_run_split_on_punc`: loop, state `(start_new_word, output)`. -/
def splitOnPuncLoop (u : Unicode) : Str → (startNew : Bool) → (output : List Str) → List Str
  | [], _, output => output
  | c :: cs, startNew, output =>
    if isPunctuation u c then splitOnPuncLoop u cs true (output ++ [[c]])
    else
      let output := if startNew then output ++ [[]] else output
      splitOnPuncLoop u cs false (appendLast output c)

/-- `eng_tokenizer.py:49-73` `_run_split_on_punc`. -/
def runSplitOnPunc (u : Unicode) (text : Str) : List Str := splitOnPuncLoop u text true []

/-- `eng_tokenizer.py:41-47` `_tokenize`, `eng_tokenizer.py:76-86` `whitespace_tokenize`. -/
def tokenize (u : Unicode) (s : Str) : List Str :=
  pySplit (pyJoin [' '] ((pySplit s).flatMap (runSplitOnPunc u)))

/-- `eng_tokenizer.py:9-47` `EngTokenizer` and its aligner. -/
def transform (σ : SetOrder) (u : Unicode) (s : Str) : Res (List Str × Aligner) :=
  tokenizerTransform σ Transduce.getMostCommonExceptNotEntity Transduce.getMostCommonExceptNotEntity
    s (tokenize u s)

end EngTokenizer

namespace ZhCharTokenizer

/-- `zh_char_tokenizer.py:31-48` `_tokenize_chinese_chars`. -/
def tokenizeChineseChars (s : Str) : Str :=
  s.flatMap fun c => if isCJK c then [' ', c, ' '] else [c]

/-- `zh_char_tokenizer.py:27-29` `_tokenize`. -/
def tokenize (u : Unicode) (s : Str) : List Str := EngTokenizer.tokenize u (tokenizeChineseChars s)

/-- `zh_char_tokenizer.py:6-29` `ZhCharTokenizer`. -/
def transform (σ : SetOrder) (u : Unicode) (s : Str) : Res (List Str × Aligner) :=
  tokenizerTransform σ Transduce.getMostCommonExceptNotEntity Transduce.getMostCommonExceptNotEntity
    s (tokenize u s)

end ZhCharTokenizer

namespace CustomWordTokenizer

/-- `custom_word_tokenizer.py:51-66` `_tokenize`; `none` = fuel exhausted. -/
def loop (t : Trie) (shortest : Bool) (s : Str) :
    (fuel start : Nat) → (tokens : List Str) → Option (List Str)
  | 0, _, _ => none
  | fuel + 1, start, tokens =>
    if start < s.length then
      match t.matchPrefix (s.drop start) shortest with
      | none => loop t shortest s fuel (start + 1) (tokens ++ [slice s start (start + 1)])
      | some w => loop t shortest s fuel (start + w.length) (tokens ++ [w])
    else some tokens

/-- `custom_word_tokenizer.py:51-66` `_tokenize`. -/
def tokenize (t : Trie) (shortest : Bool) (s : Str) : Option (List Str) :=
  loop t shortest s (s.length + 1) 0 []

/-- `custom_word_tokenizer.py:8-66` `CustomWordTokenizer` and its aligner (trie built by `__init__`, L37-44). -/
def transform (σ : SetOrder) (t : Trie) (shortest : Bool) (s : Str) : Res (List Str × Aligner) :=
  match tokenize t shortest s with
  | none => .error .nonTermination
  | some tokens =>
    tokenizerTransform σ Transduce.getMostCommonExceptNotEntity
      Transduce.getMostCommonExceptNotEntity s tokens

end CustomWordTokenizer

/-! ### List to list operators -/

/-- `add_sos_eos.py:42-66` `AddSosEos._transform`. -/
def AddSosEos.transform (σ : SetOrder) (sos eos : Tok) (l : List Tok) : Res (List Tok × Aligner) := do
  let g ← ReplacementGroup.addAll σ [(0, 0, [sos]), ((l.length : Int), (l.length : Int), [eos])]
  let out ← Lst2Lst.apply l g
  return (out, Aligner.ofLstEdit σ l g out.length Transduce.getNotEntity Transduce.getNotEntity)

/-- `add_end_token.py:36-46` `_validate_end_token` on a string. -/
def AddEndToken.init (endTok : Str) : Res Str :=
  if endTok.length = 0 then .error .valueError else .ok endTok

/-- `add_end_token.py:48-64` `AddEndToken._transform`. -/
def AddEndToken.transform (σ : SetOrder) (eos : Tok) (l : List Tok) : Res (List Tok × Aligner) := do
  let g ← ReplacementGroup.addAll σ [((l.length : Int), (l.length : Int), [eos])]
  let out ← Lst2Lst.apply l g
  return (out, Aligner.ofLstEdit σ l g out.length Transduce.getNotEntity Transduce.getNotEntity)

namespace Pad

/-- `pad.py:51-66` `_gen_forward_replacement_group`. -/
def group (σ : SetOrder) (maxlen : Int) (pad : Tok) (l : List Tok) :
    Res (ReplacementGroup (List Tok)) :=
  let seqlen : Int := l.length
  let diff := maxlen - seqlen
  if seqlen = maxlen then ReplacementGroup.addAll σ []
  else if seqlen > maxlen then ReplacementGroup.addAll σ [(maxlen, seqlen, [])]
  else ReplacementGroup.addAll σ [(seqlen, seqlen, List.replicate diff.toNat pad)]

/-- `pad.py:38-49` `Pad._transform`. -/
def transform (σ : SetOrder) (maxlen : Int) (pad : Tok) (l : List Tok) :
    Res (List Tok × Aligner) := do
  let g ← group σ maxlen pad l
  let out ← Lst2Lst.apply l g
  return (out, Aligner.ofLstEdit σ l g out.length Transduce.getNotEntity Transduce.getNotEntity)

end Pad

/-- Smallest element (`min(indices)`); `none` on an empty collection (ValueError). -/
def minInt? : List Int → Option Int
  | [] => none
  | x :: xs => some (xs.foldl min x)

/-- Largest element (`max(indices)`). -/
def maxInt? : List Int → Option Int
  | [] => none
  | x :: xs => some (xs.foldl max x)

/-- `token_to_index.py:10-18` `validate_continuity`. A dict is an association list with distinct keys. -/
def validateContinuity (d : List (Str × Int)) : Res Unit :=
  let indices := pyDedup (d.map Prod.snd)
  if d.length ≠ indices.length then .error .valueError
  else
    match minInt? indices, maxInt? indices with
    | some mn, some mx =>
      if mn = 0 ∧ mx = (d.length : Int) - 1 then .ok () else .error .valueError
    | _, _ => .error .valueError

namespace Token2Index

/-- `token_to_index.py:45-53` `__init__`, `_validate_token2index`. -/
def init (d : List (Str × Int)) (unk : Str) : Res Unit := do
  validateContinuity d
  match dictGet d unk with
  | some _ => return ()
  | none => .error .keyError

/-- `token_to_index.py:69-79`: index of one token. -/
def newValue (d : List (Str × Int)) (unk : Str) (t : Tok) : Res (Option (List Tok)) :=
  let known := match t with
    | .str s => dictGet d s
    | .int _ => none
  match known with
  | some i => .ok (some [.int i])
  | none => match dictGet d unk with
    | some i => .ok (some [.int i])
    | none => .error .keyError

/-- `token_to_index.py:55-81` `_transform`. -/
def transform (σ : SetOrder) (d : List (Str × Int)) (unk : Str) (l : List Tok) :
    Res (List Tok × Aligner) :=
  tokenwiseTransform σ (newValue d unk) l fun _ n => Aligner.null l.length n

end Token2Index

namespace Token2IndexwithHash

/-- `token_to_index_with_hash.py:37-42` `__init__`. -/
def init (d : List (Str × Int)) : Res Unit := validateContinuity d

/-- `token_to_index_with_hash.py:58-68`: index of one token (`consistent_hash` on a non-string raises
TypeError). -/
def newValue (d : List (Str × Int)) (t : Tok) : Res (Option (List Tok)) :=
  match t with
  | .int _ => .error .typeError
  | .str s => match dictGet d s with
    | some i => .ok (some [.int i])
    | none => .ok (some [.int (consistentHash s d.length)])

/-- `token_to_index_with_hash.py:44-70` `_transform`. -/
def transform (σ : SetOrder) (d : List (Str × Int)) (l : List Tok) : Res (List Tok × Aligner) :=
  tokenwiseTransform σ (newValue d) l fun _ n => Aligner.null l.length n

end Token2IndexwithHash

namespace PureNum2Token

/-- `pure_num_to_token.py:15` `REGEX_PATTERN`. -/
def regex (u : Unicode) : Re := .plus (isDigit u)

/-- `REGEX_PATTERN.findall(token)[0]`: the text of the first match, if any. -/
def firstFound (u : Unicode) (s : Str) : Option Str :=
  ((regex u).search s 0).map fun (a, b) => slice s a b

/-- `pure_num_to_token.py:55-64`; `findall` on a non-string raises TypeError. -/
def newValue (u : Unicode) (token : Tok) (t : Tok) : Res (Option (List Tok)) :=
  match t with
  | .int _ => .error .typeError
  | .str s => .ok (if firstFound u s = some s then some [token] else none)

/-- `pure_num_to_token.py:42-67` `_transform`. -/
def transform (σ : SetOrder) (u : Unicode) (token : Tok) (l : List Tok) : Res (List Tok × Aligner) :=
  tokenwiseTransform σ (newValue u token) l fun _ n => Aligner.null l.length n

end PureNum2Token

namespace SpanSubwords

/-- `span_subwords.py:153-161`: inner loop, searching the longest piece `chars[start:end]` in the vocab;
returns the piece and its end. -/
def longestPiece (vocab : Str → Bool) (word : Str) (start : Nat) : (end_ : Nat) → Option (Str × Nat)
  | 0 => none
  | e + 1 =>
    if start < e + 1 then
      let sub := slice word start (e + 1)
      let sub := if start > 0 then ['#', '#'] ++ sub else sub
      if vocab sub then some (sub, e + 1) else longestPiece vocab word start e
    else none

/-- `span_subwords.py:146-171`: outer loop; `none` in the second component = `is_bad`; outer `none` =
fuel exhausted. -/
def loop (vocab : Str → Bool) (word : Str) :
    (fuel start : Nat) → (subs : List Str) → Option (Option (List Str))
  | 0, _, _ => none
  | fuel + 1, start, subs =>
    if start < word.length then
      match longestPiece vocab word start word.length with
      | none => some none
      | some (p, e) => loop vocab word fuel e (subs ++ [p])
    else some (some subs)

/-- `span_subwords.py:112-171` `span_subwords`. -/
def spanSubwords (vocab : Str → Bool) (unk : Str) (maxChars : Int) (word : Str) : Res (List Str) :=
  if (word.length : Int) > maxChars then .ok [unk]
  else match loop vocab word (word.length + 1) 0 [] with
    | none => .error .nonTermination
    | some none => .ok [unk]
    | some (some subs) => .ok subs

/-- `span_subwords.py:69-82`; `len(token)` on an int raises TypeError. -/
def newValue (vocab : Str → Bool) (unk : Str) (maxChars : Int) (t : Tok) :
    Res (Option (List Tok)) :=
  match t with
  | .int _ => .error .typeError
  | .str s => do
    let subs ← spanSubwords vocab unk maxChars s
    return (if subs ≠ [s] then some (subs.map Tok.str) else none)

/-- `span_subwords.py:52-85` `_transform`. -/
def transform (σ : SetOrder) (vocab : Str → Bool) (unk : Str) (maxChars : Int) (l : List Tok) :
    Res (List Tok × Aligner) :=
  tokenwiseTransform σ (newValue vocab unk maxChars) l fun g n =>
    Aligner.ofLstEdit σ l g n Transduce.getMostCommon Transduce.getMostCommonExceptNotEntity

end SpanSubwords

end Uttut
