import Verif.Model.Builtins

/-!
The edit code and the operators again, now with C's 32-bit arithmetic: `unsigned int` variables of
`edit/utils.pyx` and `edit/label_propagation.pyx` wrap around silently, bounds given to `add` from Python raise
OverflowError if they do not fit. The other model files use unbounded positions; C91 relates the two.

Not modelled here: groups of 2^32 and more replacements in `done` (`n_replacements` wraps), memory exhaustion.
-/

namespace Uttut.Machine

/-- Storing a number into an `unsigned int`. -/
def u32 (n : Nat) : Nat := n % 2 ^ 32

/-- Difference of two `unsigned int`. -/
def u32sub (a b : Nat) : Nat := (a + (2 ^ 32 - b % 2 ^ 32)) % 2 ^ 32

/-! ### Edits -/

/-- `edit/utils.pyx:16-25`: `start` and the index `i` into `output` are `unsigned int`. -/
def transformSequenceLoop {β : Type} (input : List β) :
    List (Rep (List β)) → (start i : Nat) → (output : List (List β)) → Nat × List (List β)
  | [], start, _, output => (start, output)
  | r :: rs, start, i, output =>
    transformSequenceLoop input rs r.stop (u32 (i + 2))
      ((output.set i (slice input start r.start)).set (u32 (i + 1)) r.val)

/-- `edit/utils.pyx:6-29` with `lst2lst.py:8-17`, `str2str.py:8-17` `apply`. -/
def apply {β : Type} (input : List β) (g : ReplacementGroup (List β)) : Res (List β) := do
  let rs ← g.items
  let (start, out) := transformSequenceLoop input rs 0 0 (List.replicate (2 * g.reps.length + 1) [])
  return (out.set (out.length - 1) (input.drop start)).flatten

/-- `edit/utils.pyx:71-102` `get_dist_bt_replacement_group`: `dist` is `unsigned int`. -/
def distances {V : Type} : List (Rep V) → List Nat
  | [] => []
  | [_] => []
  | r :: q :: rs => u32sub q.start r.stop :: distances (q :: rs)

/-- `edit/utils.pyx:58-66`: `start` is `unsigned int`; `add` is called on the C level (`utils.c:2120`), so that the
second bound is cut to 32 bits, too. -/
def inverseLoop {β : Type} (input : List β) :
    List (Rep (List β)) → (dists : List Nat) → (start : Nat) →
      ReplacementGroup (List β) → ReplacementGroup (List β)
  | [], _, _, inv => inv
  | _ :: _, [], _, inv => inv -- unreachable: `dists` is as long as the group
  | r :: rs, d :: ds, start, inv =>
    inverseLoop input rs ds (u32 (start + (r.val.length + d)))
      (inv.add start (u32 (start + r.val.length)) (slice input r.start r.stop))

/-- `edit/utils.pyx:32-68`, `str2str.py:20-26`, `lst2lst.py:20-26` `inverse`; `n_replacement` is `unsigned int`. -/
def inverse {β : Type} [DecidableEq β] [NewValue (List β)] (σ : SetOrder) (input : List β)
    (g : ReplacementGroup (List β)) : Res (ReplacementGroup (List β)) := do
  let inv ←
    if g.isEmpty then ReplacementGroup.empty.done σ
    else do
      let rs ← g.items
      let first ← g.getItem 0
      let rs := rs.take (u32 rs.length)
      (inverseLoop input rs (distances rs ++ [0]) first.start ReplacementGroup.empty).done σ
  if inv.reps.length = g.reps.length then return inv else .error .assertionError

/-! ### Labels -/

/-- `label_propagation.pyx:41-55`: `i_start`, `o_start`, `fixed_len`, `expand_size` are `unsigned int`. -/
def propagateLoop {β : Type} (labels : List Int) (f : Transducer) :
    List (Rep (List β)) → (iStart oStart : Nat) → (out : List Int) → Res (Nat × Nat × List Int)
  | [], iStart, oStart, out => .ok (iStart, oStart, out)
  | r :: rs, iStart, oStart, out => do
    let fixedLen := u32sub r.start iStart
    let out := sliceAssign out oStart (u32 (oStart + fixedLen)) (slice labels iStart r.start)
    let oStart := u32 (oStart + fixedLen)
    let expandSize := u32 r.val.length
    let new ← f (slice labels r.start r.stop) expandSize
    let out := sliceAssign out oStart (u32 (oStart + expandSize)) new
    propagateLoop labels f rs r.stop (u32 (oStart + expandSize)) out

/-- `label_propagation.pyx:8-59` `propagate_by_replacement_group`. -/
def propagate {β : Type} (labels : List Int) (g : ReplacementGroup (List β)) (f : Transducer) :
    Res (List Int) := do
  let buffer := List.replicate (computeOutputLength labels.length g) notEntity
  let rs ← g.items
  let (iStart, oStart, out) ← propagateLoop labels f rs 0 0 buffer
  return sliceAssign out oStart out.length (labels.drop iStart)

/-- `label_propagation.pyx:142-143`: the counter `i` is `unsigned int`. -/
def reduceLoop (labels : List Int) (f : Transducer) :
    List Span → (i : Nat) → (out : List Int) → Res (List Int)
  | [], _, out => .ok out
  | s :: ss, i, out => do
    let new ← f (slice labels s.start s.stop) 1
    reduceLoop labels f ss (u32 (i + 1)) (sliceAssign out i (u32 (i + 1)) new)

/-- `label_propagation.pyx:118-145` `reduce_by_span_group`. -/
def reduceBySpanGroup (labels : List Int) (g : SpanGroup) (f : Transducer := getMostCommonLabel) :
    Res (List Int) :=
  if g.spans.length = 0 ∧ labels.length = 0 then .ok labels
  else do
    let l ← g.last
    if labels.length ≠ l.stop then .error .valueError
    else
      let spans ← g.items
      reduceLoop labels f spans 0 (List.replicate (u32 g.spans.length) notEntity)

/-- The aligners built on one edit (`Aligner.ofStrEdit`, `Aligner.ofLstEdit`). -/
def ofEdit {β : Type} [DecidableEq β] [NewValue (List β)] (σ : SetOrder) (input : List β)
    (edit : ReplacementGroup (List β)) (outputLength : Nat) (f b : Transducer) : Aligner :=
  { inputLength := input.length
    outputLength := outputLength
    fwd := fun labels => propagate labels edit f
    bwd := fun labels => do
      let inv ← inverse σ input edit
      propagate labels inv b }

/-- `tokenizers/base.py:52-81` `TokenizerAligner` (`expand_by_span_group` only uses positions of the group). -/
def ofTokens (σ : SetOrder) (input : Str) (edit : ReplacementGroup Str) (spans : SpanGroup)
    (outputLength : Nat) (f b : Transducer) : Aligner :=
  { inputLength := input.length
    outputLength := outputLength
    fwd := fun labels => do
      let l ← propagate labels edit f
      reduceBySpanGroup l spans
    bwd := fun labels => do
      let inv ← inverse (β := Char) σ input edit
      let l ← expandBySpanGroup labels spans
      propagate l inv b }

/-! ### Building groups: `add` is called from Python -/

/-- The loop shared by `add_whitespace_around_character.py:35-42`, `punctuation_except_endpoint_to_whitespace.py:49-56`,
`strip_accent_token.py:49-56`, `pure_num_to_token.py:55-64`, `span_subwords.py:69-82`, `token_to_index.py:69-79`,
`token_to_index_with_hash.py:58-68`. -/
def enumAdd {α V : Type} (nv : α → Res (Option V)) :
    List α → (i : Nat) → ReplacementGroup V → Res (ReplacementGroup V)
  | [], _, g => .ok g
  | x :: xs, i, g => do
    match ← nv x with
    | some v => do
      let g ← g.addPy i ((i : Int) + 1) v
      enumAdd nv xs (i + 1) g
    | none => enumAdd nv xs (i + 1) g

/-- A step that may raise, inside a loop. -/
def andThen {α β : Type} (r : Res α) (k : α → Run β) : Run β :=
  match r with
  | .ok x => k x
  | .error e => some (.error e)

/-- `pattern_recognizers/base.py:48-58`, `lowercase.py:50-61`. -/
def searchLoop (m : Matcher) (newValue : Str → Nat → Nat → Str) (s : Str) :
    (fuel shift : Nat) → ReplacementGroup Str → Run (ReplacementGroup Str)
  | 0, _, _ => none
  | fuel + 1, shift, g =>
    if shift < s.length then
      match m s shift with
      | none => some (.ok g)
      | some (a, b) =>
        andThen (g.addPy a b (newValue s a b)) fun g => searchLoop m newValue s fuel b g
    else some (.ok g)

/-- `add_whitespace_around_word_n_zhchar.py:74-99`. -/
def wordLoop (t : Trie) (shortest : Bool) (s : Str) :
    (fuel start : Nat) → ReplacementGroup Str → Run (ReplacementGroup Str)
  | 0, _, _ => none
  | fuel + 1, start, g =>
    if start < s.length then
      match t.matchPrefix (s.drop start) shortest with
      | some w =>
        andThen (g.addPy start ((start : Int) + w.length) ([' '] ++ w ++ [' '])) fun g =>
          wordLoop t shortest s fuel (start + w.length) g
      | none =>
        match slice s start (start + 1) with
        | [c] =>
          if isCJK c then
            andThen (g.addPy start ((start : Int) + 1) [' ', c, ' ']) fun g =>
              wordLoop t shortest s fuel (start + 1) g
          else wordLoop t shortest s fuel (start + 1) g
        | _ => none -- unreachable: `start < len(s)`
    else some (.ok g)

/-- `edit/str2lst.py:31-35`. -/
def genSpanLoop (s : Str) : List Str → (shift : Nat) → SpanGroup → Res SpanGroup
  | [], _, g => .ok g
  | t :: ts, shift, g =>
    match pyFind s t shift with
    | some start => do
      let g ← g.addPy start ((start : Int) + t.length)
      genSpanLoop s ts (start + t.length) g
    | none => .error .overflowError

/-- `edit/str2lst.py:23-38` `gen_span_group`. -/
def genSpanGroup (s : Str) (tokens : List Str) : Res SpanGroup :=
  if s ≠ tokens.flatten then .error .valueError
  else do
    let g ← genSpanLoop s tokens 0 SpanGroup.empty
    let g ← g.done
    if g.spans.length = tokens.length then return g else .error .assertionError

/-- `edit/str2lst.py:46-52`. -/
def genRepLoop (s : Str) : List Str → (shift : Nat) → ReplacementGroup Str →
    Res (Nat × ReplacementGroup Str)
  | [], shift, g => .ok (shift, g)
  | t :: ts, shift, g =>
    match pyFind s t shift with
    | none => .error .valueError
    | some start => do
      let g ← if slice s shift start ≠ [] then g.addPy shift start [] else .ok g
      genRepLoop s ts (start + t.length) g

/-- `edit/str2lst.py:41-58` `gen_replacement_group`. -/
def genReplacementGroup (σ : SetOrder) (s : Str) (tokens : List Str) :
    Res (ReplacementGroup Str) := do
  let (shift, g) ← genRepLoop s tokens 0 ReplacementGroup.empty
  let g ← if shift ≠ s.length then g.addPy shift s.length [] else .ok g
  g.done σ

/-! ### Operators -/

/-- `_transform` of the operators that go through the characters of a text (`charwiseTransform`). -/
def charwiseTransform {α : Type} (σ : SetOrder) (nv : α → Res (Option Str)) (xs : List α) (s : Str)
    (f b : Transducer) : Res (Str × Aligner) := do
  let g ← enumAdd nv xs 0 ReplacementGroup.empty
  let g ← g.done σ
  let out ← apply s g
  return (out, ofEdit (β := Char) σ s g out.length f b)

/-- `_transform` of the operators that go through the tokens of a list (`tokenwiseTransform`). -/
def tokenwiseTransform (σ : SetOrder) (nv : Tok → Res (Option (List Tok))) (l : List Tok)
    (mkAligner : ReplacementGroup (List Tok) → Nat → Aligner) : Res (List Tok × Aligner) := do
  let g ← enumAdd nv l 0 ReplacementGroup.empty
  let g ← g.done σ
  let out ← apply l g
  return (out, mkAligner g out.length)

/-- `pattern_recognizers/base.py:29-38` `PatternRecognizer._transform`. -/
def patternTransform (σ : SetOrder) (m : Matcher) (token : Str) (f b : Transducer) (s : Str) :
    Res (Str × Aligner) :=
  match searchLoop m (fun _ _ _ => token) s (s.length + 1) 0 ReplacementGroup.empty with
  | none => .error .nonTermination
  | some rg => do
    let g ← rg
    let g ← g.done σ
    let out ← apply s g
    return (out, ofEdit (β := Char) σ s g out.length f b)

/-- `lowercase.py:34-63` `Lowercase._transform`. -/
def lowercase (σ : SetOrder) (s : Str) : Res (Str × Aligner) :=
  match searchLoop Lowercase.regex.search Lowercase.newValue s (s.length + 1) 0 ReplacementGroup.empty with
  | none => .error .nonTermination
  | some rg => do
    let g ← rg
    let g ← g.done σ
    let out ← apply s g
    if s.length = out.length then return (out, Aligner.null s.length out.length)
    else .error .assertionError

/-- `add_whitespace_around_word_n_zhchar.py:60-101` `_transform`. -/
def aroundWords (σ : SetOrder) (t : Trie) (shortest : Bool) (s : Str) : Res (Str × Aligner) :=
  match wordLoop t shortest s (s.length + 1) 0 ReplacementGroup.empty with
  | none => .error .nonTermination
  | some rg => do
    let g ← rg
    let g ← g.done σ
    let out ← apply s g
    return (out, ofEdit (β := Char) σ s g out.length AddWhitespaceAroundWordnZhChar.fwd AddWhitespaceAroundWordnZhChar.bwd)

/-- `tokenizers/base.py:29-46` `Tokenizer._transform`. -/
def tokenizerTransform (σ : SetOrder) (f b : Transducer) (s : Str) (tokens : List Str) :
    Res (List Str × Aligner) := do
  let g ← genReplacementGroup σ s tokens
  let temp ← apply s g
  let spans ← genSpanGroup temp tokens
  return (tokens, ofTokens σ s g spans tokens.length f b)

/-- `_transform` of `add_sos_eos.py:42-66`, `add_end_token.py:48-64`, `pad.py:38-49`, after the group is made by
`add_all`. -/
def groupTransform (σ : SetOrder) (group : Res (ReplacementGroup (List Tok))) (l : List Tok) :
    Res (List Tok × Aligner) := do
  let g ← group
  let out ← apply l g
  return (out, ofEdit σ l g out.length Transduce.getNotEntity Transduce.getNotEntity)

/-! ### Classes: as in `Model/Builtins.lean`, over the operators above -/

/-- `add_whitespace_around_character.py:21-45`. -/
def aroundChar (σ : SetOrder) (valid : Char → Bool) (s : Str) : Res (Str × Aligner) :=
  charwiseTransform σ (AddWhitespaceAroundChar.newValue valid) s s AddWhitespaceAroundChar.fwd AddWhitespaceAroundChar.bwd

/-- `strip_accent_token.py:33-58`. -/
def stripAccentToken (σ : SetOrder) (u : Unicode) (s : Str) : Res (Str × Aligner) :=
  let out := StripAccentToken.stripAccents u s
  if s.length = out.length then
    charwiseTransform σ StripAccentToken.newValue (s.zip out) s Transduce.getMostCommonExceptNotEntity
      Transduce.getMostCommonExceptNotEntity
  else .error .assertionError

/-- `replace_a_with_b.py:7-49`. -/
def replaceAwithB (σ : SetOrder) (m : Matcher) (b : Str) (s : Str) : Res (Str × Aligner) :=
  patternTransform σ m b Transduce.getMostCommonExceptNotEntity Transduce.getMostCommonExceptNotEntity s

/-- `pattern_recognizers/int_token.py:11-47` and the other recognisers of numbers: regex, token, forward transducer. -/
def numberToken (σ : SetOrder) (r : Re) (token : Str) (f : Transducer) (s : Str) : Res (Str × Aligner) :=
  patternTransform σ r.search token f Transduce.getMostCommonExceptNotEntity s

/-- `eng_tokenizer.py`, `zh_char_tokenizer.py`, `whitespace_tokenizer.py`, `custom_word_tokenizer.py`: a tokenizer given
by its `_tokenize`. -/
def wordTokenizer (σ : SetOrder) (tokenize : Str → List Str) (s : Str) : Res (List Str × Aligner) :=
  tokenizerTransform σ Transduce.getMostCommonExceptNotEntity Transduce.getMostCommonExceptNotEntity s (tokenize s)

/-- `custom_word_tokenizer.py:8-66`. -/
def customTokenizer (σ : SetOrder) (t : Trie) (shortest : Bool) (s : Str) : Res (List Str × Aligner) :=
  match CustomWordTokenizer.tokenize t shortest s with
  | none => .error .nonTermination
  | some tokens => wordTokenizer σ (fun _ => tokens) s

/-- `add_sos_eos.py:42-66`. -/
def addSosEos (σ : SetOrder) (sos eos : Tok) (l : List Tok) : Res (List Tok × Aligner) :=
  groupTransform σ
    (ReplacementGroup.addAll σ [(0, 0, [sos]), ((l.length : Int), (l.length : Int), [eos])]) l

/-- `add_end_token.py:48-64`. -/
def addEndToken (σ : SetOrder) (eos : Tok) (l : List Tok) : Res (List Tok × Aligner) :=
  groupTransform σ (ReplacementGroup.addAll σ [((l.length : Int), (l.length : Int), [eos])]) l

/-- `pad.py:38-66`. -/
def padTo (σ : SetOrder) (maxlen : Int) (pad : Tok) (l : List Tok) : Res (List Tok × Aligner) :=
  groupTransform σ (Pad.group σ maxlen pad l) l

/-- `token_to_index.py:55-81`, `token_to_index_with_hash.py:44-70`, `pure_num_to_token.py:42-67`: one new token for one
old one. -/
def perToken (σ : SetOrder) (nv : Tok → Res (Option (List Tok))) (l : List Tok) : Res (List Tok × Aligner) :=
  tokenwiseTransform σ nv l fun _ n => Aligner.null l.length n

/-- `span_subwords.py:52-85`. -/
def subwords (σ : SetOrder) (vocab : Str → Bool) (unk : Str) (maxChars : Int) (l : List Tok) :
    Res (List Tok × Aligner) :=
  tokenwiseTransform σ (SpanSubwords.newValue vocab unk maxChars) l fun g n =>
    ofEdit σ l g n Transduce.getMostCommon Transduce.getMostCommonExceptNotEntity

/-- `add_whitespace_around_word_n_zhchar.py:46-53` `__init__`. -/
def aroundWordInit (env : Env) : List PyVal → Res (Seq → Res (Seq × Aligner))
  | [words, shortest] => do
    let t ← Builtin.userWords words
    return strOp (aroundWords env.σ t shortest.truthy)
  | _ => .error .typeError

/-- `pattern_recognizers/base.py:29-60`, `ReplaceAwithB` with a `b` that is no `str`: if something is to be replaced, joining the pieces
(`edit/str2str.py:16`) raises TypeError. The text `' '` below is never used. -/
def replaceNoStr (env : Env) (m : Matcher) (s : Str) : Res (Str × Aligner) :=
  if s.length > 0 ∧ (m s 0).isSome then
    match searchLoop m (fun _ _ _ => [' ']) s (s.length + 1) 0 ReplacementGroup.empty with
    | none => .error .nonTermination
    | some rg => do
      let g ← rg
      let _ ← g.done env.σ
      .error .typeError
  else replaceAwithB env.σ m [' '] s

/-- `pattern_recognizers/replace_a_with_b.py:39-43` `__init__`. -/
def replaceInit (env : Env) : List PyVal → Res (Seq → Res (Seq × Aligner))
  | [a, b] => do
    let p ← a.asStr
    match env.compile p with
    | some m =>
      match b with
      | .str new => return strOp (replaceAwithB env.σ m new)
      | _ => return strOp (replaceNoStr env m)
    | none => .error .reError
  | _ => .error .typeError

/-- `custom_word_tokenizer.py:37-44` `__init__`. -/
def customTokInit (env : Env) : List PyVal → Res (Seq → Res (Seq × Aligner))
  | [words, shortest] => do
    let t ← Builtin.userWords words
    return tokOp (customTokenizer env.σ t shortest.truthy)
  | _ => .error .typeError

/-- `add_sos_eos.py:34-40` `__init__`. -/
def sosEosInit (env : Env) : List PyVal → Res (Seq → Res (Seq × Aligner))
  | [s, e] => do
    let s ← s.asTok
    let e ← e.asTok
    return lstOp (addSosEos env.σ s e)
  | _ => .error .typeError

/-- `add_end_token.py:33-46` `__init__`. -/
def endTokInit (env : Env) : List PyVal → Res (Seq → Res (Seq × Aligner))
  | [.none] => .error .valueError
  | [e] => do
    let e ← e.asStr
    let e ← AddEndToken.init e
    return lstOp (addEndToken env.σ (.str e))
  | _ => .error .typeError

/-- `pad.py:34-36` `__init__`. -/
def padInit (env : Env) : List PyVal → Res (Seq → Res (Seq × Aligner))
  | [n, t] => do
    let t ← t.asTok
    return lstOp fun l => do
      let n ← n.asInt
      padTo env.σ n t l
  | _ => .error .typeError

/-- `token_to_index.py:45-53` `__init__`. -/
def token2indexInit (env : Env) : List PyVal → Res (Seq → Res (Seq × Aligner))
  | [d, unk] => do
    let d ← d.asIndex
    match unk with
    | .str unk => do
      Token2Index.init d unk
      return lstOp (perToken env.σ (Token2Index.newValue d unk))
    | v => do
      validateContinuity d
      if v.hashable then .error .keyError else .error .typeError
  | _ => .error .typeError

/-- `span_subwords.py:68-85, 111-171` with arguments of any type (`Builtin.spanSubwordsRun`). -/
def spanSubwordsRun (env : Env) (vocab : PyVal) (unk : Str) (n : PyVal) (l : List Tok) : Res (List Tok × Aligner) :=
  match n.asInt, vocab.has with
  | .ok n, .ok has => subwords env.σ has unk n l
  | .ok n, .error e =>
    if l.any (Builtin.looksUp n) then .error e
    else subwords env.σ (fun _ => false) unk n l
  | .error e, _ => if l.isEmpty then subwords env.σ (fun _ => false) unk 0 l else .error e

/-- `span_subwords.py:16-50` `__init__`. -/
def spanSubwordsInit (env : Env) : List PyVal → Res (Seq → Res (Seq × Aligner))
  | [vocab, unk, n] => do
    let unk ← unk.asStr
    return lstOp (spanSubwordsRun env vocab unk n)
  | _ => .error .typeError

/-- `token_to_index_with_hash.py:37-42` `__init__`. -/
def token2indexHashInit (env : Env) : List PyVal → Res (Seq → Res (Seq × Aligner))
  | [d] => do
    let d ← d.asIndex
    Token2IndexwithHash.init d
    return lstOp (perToken env.σ (Token2IndexwithHash.newValue d))
  | _ => .error .typeError

/-- `pure_num_to_token.py:17, 38-40` `__init__`. -/
def pureNumInit (env : Env) : List PyVal → Res (Seq → Res (Seq × Aligner))
  | [.none] => .ok (lstOp (perToken env.σ (PureNum2Token.newValue env.u (.str numToken))))
  | [t] => do
    let t ← t.asTok
    return lstOp (perToken env.σ (PureNum2Token.newValue env.u t))
  | _ => .error .typeError

/-- The classes of `Builtin.all`, in the same order, over the operators of this file. -/
def all (env : Env) : List OpClass :=
  let str (name : String) (f : Str → Res (Str × Aligner)) := Builtin.simple name .str .str (strOp f)
  let tok (name : String) (f : Str → Res (List Str × Aligner)) := Builtin.simple name .str .list (tokOp f)
  [Builtin.operator,
   str "AddWhitespaceAroundCharacter" fun s => charwiseTransform env.σ (fun _ => .error .notImplementedError) s s
     AddWhitespaceAroundChar.fwd AddWhitespaceAroundChar.bwd,
   Builtin.patternRecognizer,
   Builtin.tokenizer,
   str "Lowercase" (lowercase env.σ),
   str "AddWhitespaceAroundCJK" (aroundChar env.σ isCJK),
   str "AddWhitespaceAroundPunctuation" (aroundChar env.σ (isPunctuation env.u)),
   { Builtin.aroundWord env with init := aroundWordInit env },
   str "StripAccentToken" (stripAccentToken env.σ env.u),
   str "PunctuationExceptEndpointToWhitespace" fun s =>
     charwiseTransform env.σ (PunctuationExceptEndpointToWhitespace.newValue env.u) s s Transduce.getNotEntity
       Transduce.getNotEntity,
   str "IntToken" (numberToken env.σ (intRegex env.u) intToken Transduce.getMostCommon),
   str "FloatToken" (numberToken env.σ (floatRegex env.u) floatToken Transduce.getMostCommon),
   str "IntTokenWithSpace" (numberToken env.σ (intRegex env.u) intTokenWithSpace (withSpaceFwd intTokenWithSpace)),
   str "FloatTokenWithSpace"
     (numberToken env.σ (floatRegex env.u) floatTokenWithSpace (withSpaceFwd floatTokenWithSpace)),
   str "MergeWhiteSpaceCharacters"
     (patternTransform env.σ (Re.plus isSpace).search [' '] Transduce.getMostCommon Transduce.getMostCommon),
   str "StripWhiteSpaceCharacters"
     (patternTransform env.σ stripRegex.search [] Transduce.getNotEntity Transduce.getNotEntity),
   str "StopwordsToWhitespace"
     (patternTransform env.σ StopwordsToWhitespace.regex.search [' '] Transduce.getNotEntity Transduce.getNotEntity),
   str "NumTokenWithSpace" (numberToken env.σ (intRegex env.u) numTokenWithSpace (withSpaceFwd numTokenWithSpace)),
   { Builtin.replace env with init := replaceInit env },
   tok "CharTokenizer" fun s => tokenizerTransform env.σ noneTransducer noneTransducer s (s.map fun c => [c]),
   tok "EngTokenizer" (wordTokenizer env.σ (EngTokenizer.tokenize env.u)),
   tok "ZhCharTokenizer" (wordTokenizer env.σ (ZhCharTokenizer.tokenize env.u)),
   tok "WhiteSpaceTokenizer" (wordTokenizer env.σ pySplit),
   { Builtin.customTok env with init := customTokInit env },
   { Builtin.sosEos env with init := sosEosInit env },
   { Builtin.pad env with init := padInit env },
   { Builtin.token2index env with init := token2indexInit env },
   { Builtin.spanSubwords env with init := spanSubwordsInit env },
   { Builtin.token2indexHash env with init := token2indexHashInit env },
   { Builtin.pureNum env with init := pureNumInit env },
   { Builtin.endTok env with init := endTokInit env }]

/-- `ops/base.py:20` the registry of these classes (`Builtin.registry`). -/
def registry (env : Env) : Factory := (all env).map fun c => (c.name, c)

/-- The registry after `import uttut.pipeline` (`Builtin.registryDefault`). -/
def registryDefault (env : Env) : Factory := (all env).dropLast.map fun c => (c.name, c)

end Uttut.Machine
