import Verif.Model.Ops

/-! The BERT tokenizer the project's tests compare the pipes of `uttut/pipeline/bert` with
(`uttut/pipeline/bert/tests/tokenization.py`). Not modelled: `validate_case_matches_checkpoint` and `printable_text`
(unused), bytes as text (`convert_to_unicode` on a `str` returns it). -/

namespace Uttut

/-- The Unicode data the reference tokenizer uses: that of the operators, and two more categories and `str.lower`. -/
structure RefUnicode where
  u : Unicode
  /-- `unicodedata.category(c).startswith("C")` -/
  isCatC : Char → Bool
  /-- `unicodedata.category(c) == "Zs"` -/
  isZs : Char → Bool
  /-- `str.lower` -/
  lower : Str → Str

namespace Reference

/-- `bert/tests/tokenization.py:363-372` `_is_whitespace`. -/
def isWhitespace (r : RefUnicode) (c : Char) : Bool :=
  if c = ' ' ∨ c = '\t' ∨ c = '\n' ∨ c = '\r' then true
  else r.isZs c

/-- `bert/tests/tokenization.py:375-384` `_is_control`. -/
def isControl (r : RefUnicode) (c : Char) : Bool :=
  if c = '\t' ∨ c = '\n' ∨ c = '\r' then false
  else r.isCatC c

/-- `bert/tests/tokenization.py:387-402` `_is_punctuation`. -/
def isPunctuation (r : RefUnicode) (c : Char) : Bool :=
  let cp := c.toNat
  if (cp ≥ 33 && cp ≤ 47) || (cp ≥ 58 && cp ≤ 64) || (cp ≥ 91 && cp ≤ 96) || (cp ≥ 123 && cp ≤ 126) then true
  else r.u.isCatP c

/-- `bert/tests/tokenization.py:153-159` `whitespace_tokenize`. -/
def whitespaceTokenize (text : Str) : List Str :=
  let text := ((text.dropWhile isSpace).reverse.dropWhile isSpace).reverse
  if text.isEmpty then [] else pySplit text

/-- `bert/tests/tokenization.py:287-298` `_clean_text`. -/
def cleanText (r : RefUnicode) : Str → Str
  | [] => []
  | c :: cs =>
    let cp := c.toNat
    if cp = 0 ∨ cp = 0xfffd ∨ isControl r c = true then cleanText r cs
    else if isWhitespace r c then ' ' :: cleanText r cs
    else c :: cleanText r cs

/-- `bert/tests/tokenization.py:265-285` `_is_chinese_char`. -/
def isChineseChar (cp : Nat) : Bool :=
  (cp ≥ 0x4E00 && cp ≤ 0x9FFF) || (cp ≥ 0x3400 && cp ≤ 0x4DBF) || (cp ≥ 0x20000 && cp ≤ 0x2A6DF) ||
  (cp ≥ 0x2A700 && cp ≤ 0x2B73F) || (cp ≥ 0x2B740 && cp ≤ 0x2B81F) || (cp ≥ 0x2B820 && cp ≤ 0x2CEAF) ||
  (cp ≥ 0xF900 && cp ≤ 0xFAFF) || (cp ≥ 0x2F800 && cp ≤ 0x2FA1F)

/-- `bert/tests/tokenization.py:252-263` `_tokenize_chinese_chars`. -/
def tokenizeChineseChars : Str → Str
  | [] => []
  | c :: cs =>
    if isChineseChar c.toNat then ' ' :: c :: ' ' :: tokenizeChineseChars cs
    else c :: tokenizeChineseChars cs

/-- `bert/tests/tokenization.py:221-230` `_run_strip_accents`. -/
def runStripAccents (r : RefUnicode) (text : Str) : Str := (r.u.nfd text).filter fun c => !r.u.isMn c

/-- `output[-1].append(char)` (`bert/tests/tokenization.py:247`). -/
def appendLast : List Str → Char → List Str
  | [], _ => [] -- unreachable: a word has been started before
  | [w], c => [w ++ [c]]
  | w :: v :: ws, c => w :: appendLast (v :: ws) c

/-- `bert/tests/tokenization.py:238-248` the loop of `_run_split_on_punc`, state `(start_new_word, output)`. -/
def splitOnPuncLoop (r : RefUnicode) : Str → (startNew : Bool) → (output : List Str) → List Str
  | [], _, output => output
  | c :: cs, startNew, output =>
    if isPunctuation r c then splitOnPuncLoop r cs true (output ++ [[c]])
    else splitOnPuncLoop r cs false (appendLast (if startNew then output ++ [[]] else output) c)

/-- `bert/tests/tokenization.py:232-250` `_run_split_on_punc`. -/
def runSplitOnPunc (r : RefUnicode) (text : Str) : List Str := splitOnPuncLoop r text true []

/-- `bert/tests/tokenization.py:212-216` the body of the loop of `BasicTokenizer.tokenize`. -/
def splitToken (r : RefUnicode) (doLowerCase : Bool) (token : Str) : List Str :=
  runSplitOnPunc r (if doLowerCase then runStripAccents r (r.lower token) else token)

/-- `bert/tests/tokenization.py:197-219` `BasicTokenizer.tokenize`. -/
def basicTokenize (r : RefUnicode) (doLowerCase : Bool) (text : Str) : List Str :=
  let origTokens := whitespaceTokenize (tokenizeChineseChars (cleanText r text))
  whitespaceTokenize (pyJoin [' '] (origTokens.flatMap (splitToken r doLowerCase)))

/-- `bert/tests/tokenization.py:341-349` the inner loop of `WordpieceTokenizer.tokenize`: the longest entry
of the vocabulary at `start`, and where it ends. -/
def longestEntry (vocab : Str → Bool) (chars : Str) (start : Nat) : (end_ : Nat) → Option (Str × Nat)
  | 0 => none
  | e + 1 =>
    if start < e + 1 then
      let sub := slice chars start (e + 1)
      let sub := if start > 0 then ['#', '#'] ++ sub else sub
      if vocab sub then some (sub, e + 1) else longestEntry vocab chars start e
    else none

/-- `bert/tests/tokenization.py:336-354` the outer loop; `some none` = `is_bad`, `none` = fuel exhausted. -/
def entriesLoop (vocab : Str → Bool) (chars : Str) : (fuel start : Nat) → (subs : List Str) → Option (Option (List Str))
  | 0, _, _ => none
  | fuel + 1, start, subs =>
    if start < chars.length then
      match longestEntry vocab chars start chars.length with
      | none => some none
      | some (p, e) => entriesLoop vocab chars fuel e (subs ++ [p])
    else some (some subs)

/-- `bert/tests/tokenization.py:329-360` `WordpieceTokenizer.tokenize`: the loop over the words. `limit` is
`max_input_chars_per_word`. -/
def wordpieceLoop (vocab : Str → Bool) (unk : Str) (limit : Int) : List Str → (output : List Str) → Res (List Str)
  | [], output => .ok output
  | token :: tokens, output =>
    if (token.length : Int) > limit then wordpieceLoop vocab unk limit tokens (output ++ [unk])
    else match entriesLoop vocab token (token.length + 1) 0 [] with
      | none => .error .nonTermination
      | some none => wordpieceLoop vocab unk limit tokens (output ++ [unk])
      | some (some subs) => wordpieceLoop vocab unk limit tokens (output ++ subs)

/-- `bert/tests/tokenization.py:309-360` `WordpieceTokenizer.tokenize`. -/
def wordpieceTokenize (vocab : Str → Bool) (unk : Str) (limit : Int) (text : Str) : Res (List Str) :=
  wordpieceLoop vocab unk limit (whitespaceTokenize text) []

/-- `reader.readline()` until it returns the empty string (`bert/tests/tokenization.py:127-130`): the lines of the
text, each with its newline. The text is the file's after the translation of line ends done by `open(…, "r")`. -/
def readLines : Str → (cur : Str) → List Str
  | [], cur => if cur.isEmpty then [] else [cur]
  | c :: cs, cur => if c = '\n' then (cur ++ [c]) :: readLines cs [] else readLines cs (cur ++ [c])

/-- `bert/tests/tokenization.py:127-133` the loop of `load_vocab`, state `(vocab, index)`. -/
def loadLoop : List Str → (vocab : List (Str × Nat)) → (index : Nat) → List (Str × Nat)
  | [], vocab, _ => vocab
  | line :: lines, vocab, index =>
    loadLoop lines (dictSet vocab (((line.dropWhile isSpace).reverse.dropWhile isSpace).reverse) index) (index + 1)

/-- `bert/tests/tokenization.py:121-134` `load_vocab` on the text of the file. -/
def loadVocab (text : Str) : List (Str × Nat) := loadLoop (readLines text []) [] 0

/-- `token in vocab`. -/
def inVocab (vocab : List (Str × Nat)) (w : Str) : Bool := (dictGet vocab w).isSome

/-- `bert/tests/tokenization.py:171-177` `FullTokenizer.tokenize`: the loop over the tokens. -/
def fullLoop (vocab : List (Str × Nat)) : List Str → (output : List Str) → Res (List Str)
  | [], output => .ok output
  | token :: tokens, output => do
    let subs ← wordpieceTokenize (inVocab vocab) "[UNK]".toList 200 token
    fullLoop vocab tokens (output ++ subs)

/-- `bert/tests/tokenization.py:162-177` `FullTokenizer(vocab_file, do_lower_case).tokenize(text)`. -/
def fullTokenize (r : RefUnicode) (vocabText : Str) (doLowerCase : Bool) (text : Str) : Res (List Str) :=
  fullLoop (loadVocab vocabText) (basicTokenize r doLowerCase text) []

/-- `bert/tests/tokenization.py:137-142` `convert_by_vocab`. -/
def convertByVocab {κ ν : Type} [DecidableEq κ] (vocab : List (κ × ν)) : List κ → (output : List ν) → Res (List ν)
  | [], output => .ok output
  | item :: items, output =>
    match dictGet vocab item with
    | some v => convertByVocab vocab items (output ++ [v])
    | none => .error .keyError

/-- `bert/tests/tokenization.py:167` `self.inv_vocab = {v: k for k, v in self.vocab.items()}`. -/
def invert : List (Str × Nat) → (inv : List (Nat × Str)) → List (Nat × Str)
  | [], inv => inv
  | (k, v) :: d, inv => invert d (dictSet inv v k)

/-- `bert/tests/tokenization.py:179-180` `FullTokenizer.convert_tokens_to_ids`. -/
def tokensToIds (vocabText : Str) (tokens : List Str) : Res (List Nat) :=
  convertByVocab (loadVocab vocabText) tokens []

/-- `bert/tests/tokenization.py:182-183` `FullTokenizer.convert_ids_to_tokens`. -/
def idsToTokens (vocabText : Str) (ids : List Nat) : Res (List Str) :=
  convertByVocab (invert (loadVocab vocabText) []) ids []

end Reference

end Uttut
