import Verif.Model.Builtins

/-! Specification vocabulary for C74: making operators by name. -/

namespace Uttut.Spec

/-- A parameter of a constructor: its name and its default value, if any. -/
abbrev Param := String × Option PyVal

/-- The values that a call gives to the parameters, by position, by keyword or by default; `none` if a parameter gets
no value or two, or if there are too many positional arguments. -/
def fill : List Param → (args : List PyVal) → (kwargs : List (Str × PyVal)) → Option (List PyVal)
  | [], [], _ => some []
  | [], _ :: _, _ => none
  | p :: ps, a :: args, kwargs =>
    if p.1.toList ∈ kwargs.map Prod.fst then none else (fill ps args kwargs).map (a :: ·)
  | p :: ps, [], kwargs =>
    match dictGet kwargs p.1.toList, p.2 with
    | some v, _ => (fill ps [] kwargs).map (v :: ·)
    | none, some v => (fill ps [] kwargs).map (v :: ·)
    | none, none => none

/-- The values of the parameters in the call `f(*args, **kwargs)`; `none` if Python refuses the call. -/
def bound (ps : List Param) (args : List PyVal) (kwargs : List (Str × PyVal)) : Option (List PyVal) :=
  if ∀ kv ∈ kwargs, kv.1 ∈ ps.map fun p => p.1.toList then fill ps args kwargs else none

/-- `op_factory[name](*args, **kwargs)` after all modules have been imported. -/
def create (env : Env) (name : String) (args : List PyVal) (kwargs : List (Str × PyVal)) : Res Op := do
  let c ← (Builtin.registry env).get name.toList
  c.call args kwargs

/-- Calling the operator on `s` returns `t`. -/
def Gives (op : Op) (s t : Seq) : Prop := ∃ a, op.transform s = .ok (t, a)

/-- The call is accepted and the operator's output is `f s` on every input `s` allowed by `dom`. -/
def CreatesMap {α β : Type} (r : Res Op) (i : α → Seq) (o : β → Seq) (dom : α → Prop) (f : α → β) : Prop :=
  ∃ op, r = .ok op ∧ ∀ x, dom x → Gives op (i x) (o (f x))

/-! The parameters of the constructors. -/

/-- `AddSosEos(start_token="<sos>", end_token="<eos>")`. -/
def sosEosParams : List Param :=
  [("start_token", some (.str "<sos>".toList)), ("end_token", some (.str "<eos>".toList))]

/-- `AddEndToken(end_token="<eos>")`. -/
def endTokenParams : List Param := [("end_token", some (.str "<eos>".toList))]

/-- `Pad(maxlen, pad_token="<pad>")`. -/
def padParams : List Param := [("maxlen", none), ("pad_token", some (.str "<pad>".toList))]

/-- `Token2Index(token2index, unk_token="<unk>")`. -/
def token2indexParams : List Param := [("token2index", none), ("unk_token", some (.str "<unk>".toList))]

/-- `Token2IndexwithHash(token2index)`. -/
def token2indexHashParams : List Param := [("token2index", none)]

/-- `ReplaceAwithB(a, b)`. -/
def replaceParams : List Param := [("a", none), ("b", none)]

/-- `CustomWordTokenizer(user_words, shortest=False)`, `AddWhitespaceAroundWordnZhChar(user_words, shortest=False)`. -/
def wordParams : List Param := [("user_words", none), ("shortest", some (.bool false))]

/-- `SpanSubwords(vocab, unk_token="<unk>", maxlen_per_token=200)`. -/
def subwordParams : List Param :=
  [("vocab", none), ("unk_token", some (.str "<unk>".toList)), ("maxlen_per_token", some (.int 200))]

/-- `PureNum2Token(token=None)`, `None` standing for "_num_". -/
def pureNumParams : List Param := [("token", some .none)]

end Uttut.Spec
