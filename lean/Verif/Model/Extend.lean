import Verif.Model.Builtins

/-!
Operator classes written by users: the `class` statement (what `__init_subclass__` does,
`ops/base.py:16-49, 97-110`), and classes derived from the base classes `Tokenizer`, `PatternRecognizer` and
`AddWhitespaceAroundCharacter`, with the user's parts as parameters.

Simplifications: the user's `_tokenize`, `_is_valid_char` and label functions are functions of their arguments (no
state); tokens are `str`; label functions work on lists of integers. Python runs with assertions enabled.
-/

namespace Uttut

/-! ### the class statement -/

/-- A `class` statement for a subclass of `Operator`. `hasInput`, `hasOutput`: `_input_type` and `_output_type` are
declared or inherited; `hasAligner`: `_label_aligner_class` is declared or inherited, or the class derives from neither
`Tokenizer` nor `PatternRecognizer`. `cls` is what the class does if nothing is missing. -/
structure ClassStmt where
  cls : OpClass
  hasInput : Bool
  hasOutput : Bool
  hasAligner : Bool

/-- `_transform` and the checks around it when attributes are missing. Without `_input_type` every `transform` raises TypeError (`ops/base.py:132`, `isinstance(_, None)`), without `_output_type`
(`ops/base.py:136`) or `_label_aligner_class` (`tokenizers/base.py:37`, `pattern_recognizers/base.py:36`, calling
`None`) TypeError is raised after all that comes before has been done. -/
def ClassStmt.runOf (st : ClassStmt) (run : Seq → Res (Seq × Aligner)) (s : Seq) : Res (Seq × Aligner) :=
  if !st.hasInput then .error .typeError
  else if !st.hasOutput || !st.hasAligner then do
    let _ ← run s
    .error .typeError
  else run s

/-- `ops/base.py:21` the class that is registered, also when attributes are missing: its objects can be created. -/
def ClassStmt.registered (st : ClassStmt) : OpClass :=
  { st.cls with
    init := fun vals => do
      let run ← st.cls.init vals
      return st.runOf run }

/-- `ops/base.py:16-49, 97-110`, `tokenizers/base.py:22-27`, `pattern_recognizers/base.py:22-27`
`__init_subclass__`: the registry afterwards and the outcome of the `class` statement. The name is registered first
(`ops/base.py:21`), then the attributes are checked (`ops/base.py:103`, `tokenizers/base.py:27`). `is_abstract` is
False at that time for every class (`ops/base.py:46-49`: `ABCMeta` sets `__abstractmethods__` only after
`__init_subclass__` has run). -/
def Factory.declare (f : Factory) (st : ClassStmt) : Factory × Res Unit :=
  match f.register st.cls.name st.registered with
  | (f', .error e) => (f', .error e)
  | (f', .ok ()) =>
    if !st.hasInput || !st.hasOutput then (f', .error .assertionError)
    else if !st.hasAligner then (f', .error .assertionError)
    else (f', .ok ())

/-- `class` statements one after the other, exceptions being caught: the last registry and the outcomes. -/
def Factory.declareAll (f : Factory) : List ClassStmt → Factory × List (Res Unit)
  | [] => (f, [])
  | st :: sts =>
    let (f', o) := f.declare st
    let (f'', os) := f'.declareAll sts
    (f'', o :: os)

/-- `class name(c): pass`, a subclass of a concrete class: it inherits everything, among others the wrapped
`__init__`, which is wrapped again (`ops/base.py:23-44`). -/
def OpClass.subclass (c : OpClass) (name : Str) : OpClass := { c with name, ownInit := false }

/-! ### classes derived from the base classes -/

/-- What the author of a class writes, apart from `_transform`: name, `__init__` (if `ownInit`) and what it makes
of its arguments. -/
structure UserClass (α : Type) where
  name : Str
  params : List Str
  defaults : List PyVal
  ownInit : Bool
  init : List PyVal → Res α

/-- The class with a `_transform`. -/
def UserClass.toClass {α : Type} (c : UserClass α) (i o : SeqType) (run : α → Seq → Res (Seq × Aligner)) : OpClass :=
  { name := c.name, inputType := i, outputType := o, params := c.params, defaults := c.defaults
    ownInit := c.ownInit
    init := fun vals => do
      let x ← c.init vals
      return run x }

/-- `tokenizers/base.py:11-48, 51-83`: a subclass of `Tokenizer` with `_tokenize` and an aligner derived from
`TokenizerAligner` with label functions `f` (forward) and `b` (backward). -/
def UserClass.tokenizer (env : Env) (f b : Transducer) (c : UserClass (Str → Res (List Str))) : OpClass :=
  c.toClass .str .list fun tokenize => tokOp fun s => do
    let tokens ← tokenize s
    tokenizerTransform env.σ f b s tokens

/-- `pattern_recognizers/base.py:9-67, 70-90`: a subclass of `PatternRecognizer` with `REGEX_PATTERN`, `TOKEN` and an
aligner derived from `PatternRecognizerAligner` with label functions `f` and `b`. -/
def UserClass.recognizer (env : Env) (f b : Transducer) (c : UserClass (Matcher × Str)) : OpClass :=
  c.toClass .str .str fun mt => strOp (patternTransform env.σ mt.1 mt.2 f b)

/-- `add_whitespace_around_character.py:11-48`: a subclass of `AddWhitespaceAroundCharacter` with
`_is_valid_char`. -/
def UserClass.around (env : Env) (c : UserClass (Char → Res Bool)) : OpClass :=
  c.toClass .str .str fun valid => strOp fun s =>
    charwiseTransform env.σ
      (fun ch => do
        let v ← valid ch
        return if v then some [' ', ch, ' '] else none) s s fun g n =>
      Aligner.ofStrEdit env.σ s g n AddWhitespaceAroundChar.fwd AddWhitespaceAroundChar.bwd

end Uttut
