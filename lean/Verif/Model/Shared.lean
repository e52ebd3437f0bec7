import Verif.Model.Builtins

/-!
Lists shared between a program, the results of `transform` and the label aligners. `ops/base.py:177-182` keeps the
input sequence itself (`self._input_sequence = input_sequence`) next to its length, and the aligners of edits of lists
read it only when `inverse_transform` is called (`add_sos_eos.py:84`, `pad.py:84`, `span_subwords.py:103`). So a
program that changes a list after giving it to `transform` may change what `inverse_transform` does. A pipe gives the
output of one step to the next one and to its `Intermediate` (`pipe.py:215-222`), so the lists an `Intermediate`
hands out are the lists the aligners read. This file gives token lists and label lists an identity. Strings cannot be
changed.
-/

namespace Uttut

/-- `ops/base.py:177-182` a label aligner object: the lengths and the edit are fixed when it is made; `bwd` gets what
the input sequence is when `_inverse_transform` runs. `same`: the methods return the list they get
(`ops/base.py:237-243` `NullLabelAligner`), otherwise a new list (`label_propagation.pyx:35`). -/
structure LiveAligner where
  inputLength : Nat
  outputLength : Nat
  fwd : List Int → Res (List Int)
  bwd : Seq → List Int → Res (List Int)
  same : Bool

namespace LiveAligner

/-- The aligner when its input sequence is `cur`. -/
def now (a : LiveAligner) (cur : Seq) : Aligner :=
  { inputLength := a.inputLength, outputLength := a.outputLength, fwd := a.fwd, bwd := a.bwd cur }

/-- `ops/base.py:237-243` `NullLabelAligner`. -/
def null (inputLength outputLength : Nat) : LiveAligner :=
  { inputLength, outputLength, fwd := fun l => .ok l, bwd := fun _ l => .ok l, same := true }

/-- `add_sos_eos.py:69-90`, `pad.py:69-90`, `span_subwords.py:88-109`: the inverse of the edit is computed from the
input list by `_inverse_transform`. -/
def ofEdit (σ : SetOrder) (inputLength : Nat) (edit : ReplacementGroup (List Tok)) (outputLength : Nat)
    (f b : Transducer) : LiveAligner :=
  { inputLength, outputLength, same := false
    fwd := fun labels => propagate labels edit f
    bwd := fun cur labels => match cur with
      | .list l => do
        let inv ← Lst2Lst.inverse σ l edit
        propagate labels inv b
      | .str _ => .error .typeError }

/-- An aligner whose input sequence is a string. -/
def fixed (a : Aligner) (same : Bool) : LiveAligner :=
  { inputLength := a.inputLength, outputLength := a.outputLength, fwd := a.fwd, bwd := fun _ => a.bwd, same }

end LiveAligner

/-- The operators on lists, with what their constructors keep (`add_sos_eos.py:38-40`, `add_end_token.py:34`,
`pad.py:34-36`, `token_to_index.py:45-48`, `token_to_index_with_hash.py:37-39`, `pure_num_to_token.py:38-40`,
`span_subwords.py:48-50`). -/
inductive ListOperator
  | addSosEos (sos eos : Tok)
  | addEndToken (eos : Tok)
  | pad (maxlen : Int) (token : Tok)
  | token2Index (d : List (Str × Int)) (unk : Str)
  | token2IndexWithHash (d : List (Str × Int))
  | pureNum2Token (token : Tok)
  | spanSubwords (vocab : Str → Bool) (unk : Str) (maxChars : Int)

namespace ListOperator

/-- The loop over the tokens of `token_to_index.py:68-81`, `token_to_index_with_hash.py:57-70`,
`pure_num_to_token.py:53-67` and `span_subwords.py:66-85`, the edit and the aligner. -/
def tokenwise (σ : SetOrder) (nv : Tok → Res (Option (List Tok))) (l : List Tok)
    (mkAligner : ReplacementGroup (List Tok) → Nat → LiveAligner) : Res (List Tok × LiveAligner) := do
  let g ← enumAdd nv l 0 ReplacementGroup.empty
  let g ← g.done σ
  let out ← Lst2Lst.apply l g
  return (out, mkAligner g out.length)

/-- `_transform`: `add_sos_eos.py:42-66`, `add_end_token.py:48-64`, `pad.py:38-66`, `token_to_index.py:55-81`,
`token_to_index_with_hash.py:44-70`, `pure_num_to_token.py:42-67`, `span_subwords.py:52-85`. -/
def live (σ : SetOrder) (u : Unicode) : ListOperator → List Tok → Res (List Tok × LiveAligner)
  | addSosEos sos eos, l => do
    let g ← ReplacementGroup.addAll σ [(0, 0, [sos]), ((l.length : Int), (l.length : Int), [eos])]
    let out ← Lst2Lst.apply l g
    return (out, .ofEdit σ l.length g out.length Transduce.getNotEntity Transduce.getNotEntity)
  | addEndToken eos, l => do
    let g ← ReplacementGroup.addAll σ [((l.length : Int), (l.length : Int), [eos])]
    let out ← Lst2Lst.apply l g
    return (out, .ofEdit σ l.length g out.length Transduce.getNotEntity Transduce.getNotEntity)
  | pad maxlen token, l => do
    let g ← Pad.group σ maxlen token l
    let out ← Lst2Lst.apply l g
    return (out, .ofEdit σ l.length g out.length Transduce.getNotEntity Transduce.getNotEntity)
  | token2Index d unk, l =>
    tokenwise σ (Token2Index.newValue d unk) l fun _ n => .null l.length n
  | token2IndexWithHash d, l =>
    tokenwise σ (Token2IndexwithHash.newValue d) l fun _ n => .null l.length n
  | pureNum2Token token, l =>
    tokenwise σ (PureNum2Token.newValue u token) l fun _ n => .null l.length n
  | spanSubwords vocab unk maxChars, l =>
    tokenwise σ (SpanSubwords.newValue vocab unk maxChars) l fun g n =>
      .ofEdit σ l.length g n Transduce.getMostCommon Transduce.getMostCommonExceptNotEntity

end ListOperator

/-- A step of a pipe: an operator on strings (`same`: it is `Lowercase`, whose aligner is a `NullLabelAligner`,
`lowercase.py:66`), or one on lists. -/
inductive LiveOp
  | onStr (run : Str → Res (Seq × Aligner)) (same : Bool)
  | onList (k : ListOperator)

/-- `ops/base.py:114-137` `transform`: the input must have the input type of the class. -/
def LiveOp.run (σ : SetOrder) (u : Unicode) : LiveOp → Seq → Res (Seq × LiveAligner)
  | .onStr f same, .str s => do
    let (out, a) ← f s
    return (out, .fixed a same)
  | .onStr _ _, .list _ => .error .typeError
  | .onList k, .list l => do
    let (out, a) ← k.live σ u l
    return (.list out, a)
  | .onList _, .str _ => .error .typeError

/-- A sequence a program holds: a string, or a list object. -/
inductive SeqRef
  | str (s : Str)
  | list (r : Nat)
  deriving DecidableEq, Repr

/-- The objects of a program: token lists, label lists, and label aligners with the sequence each of them keeps. -/
structure Shared where
  lists : List (List Tok)
  labels : List (List Int)
  aligners : List (SeqRef × LiveAligner)

/-- One step of a program. -/
inductive SharedCmd
  /-- a new token list -/
  | newList (l : List Tok)
  /-- the token list `r` is changed in place and now has the elements `l` -/
  | changeList (r : Nat) (l : List Tok)
  /-- a new label list -/
  | newLabels (l : List Int)
  /-- the label list `r` is changed in place -/
  | changeLabels (r : Nat) (l : List Int)
  /-- `op.transform(x)`; the output and the aligner are kept -/
  | transform (op : LiveOp) (x : SeqRef)
  /-- `pipe.transform_sequence(x)` of a pipe with these steps -/
  | transformSequence (ops : List LiveOp) (x : SeqRef)
  /-- `aligner.transform(labels)` -/
  | align (i r : Nat)
  /-- `aligner.inverse_transform(labels)` -/
  | realign (i r : Nat)

namespace Shared

/-- What a sequence is now. -/
def read (s : Shared) : SeqRef → Seq
  | .str t => .str t
  | .list r => .list (s.lists[r]?.getD [])

/-- The program has this sequence. -/
def known (s : Shared) : SeqRef → Bool
  | .str _ => true
  | .list r => decide (r < s.lists.length)

/-- The aligner object `i`, reading its sequence as it is now. -/
def aligner? (s : Shared) (i : Nat) : Option Aligner :=
  (s.aligners[i]?).map fun p => p.2.now (s.read p.1)

/-- A returned sequence: `lst2lst.py:17` makes a new list, so do the `_tokenize` functions of the tokenizers. -/
def give (s : Shared) : Seq → Shared × SeqRef
  | .str t => (s, .str t)
  | .list l => ({ s with lists := s.lists ++ [l] }, .list s.lists.length)

/-- `ops/base.py:114-137` `transform`: the aligner keeps the sequence it was made for (`ops/base.py:181`). -/
def call (σ : SetOrder) (u : Unicode) (s : Shared) (op : LiveOp) (x : SeqRef) : Shared × Res (SeqRef × Nat) :=
  if s.known x then
    match op.run σ u (s.read x) with
    | .error e => (s, .error e)
    | .ok (out, a) =>
      let (s', y) := s.give out
      ({ s' with aligners := s'.aligners ++ [(x, a)] }, .ok (y, s'.aligners.length))
  else (s, .error .nameError)

/-- `pipe.py:200-224` `transform_sequence`: every step gets the object the step before returned; the objects are the
intermediates. What a failing run leaves behind cannot be reached by the program, except for what it had. -/
def pipeLoop (σ : SetOrder) (u : Unicode) : (ops : List LiveOp) → Shared → (x : SeqRef) → (aligners : List Nat) →
    (collection : List SeqRef) → Shared × Res (SeqRef × List Nat × List SeqRef)
  | [], s, x, as, coll => (s, .ok (x, as, coll))
  | op :: ops, s, x, as, coll =>
    match s.call σ u op x with
    | (s, .error e) => (s, .error e)
    | (s, .ok (y, i)) => pipeLoop σ u ops s y (as ++ [i]) (coll ++ [y])

/-- `pipe.py:200-224` `transform_sequence`. -/
def pipeCall (σ : SetOrder) (u : Unicode) (s : Shared) (ops : List LiveOp) (x : SeqRef) :
    Shared × Res (SeqRef × List Nat × List SeqRef) :=
  pipeLoop σ u ops s x [] [x]

/-- The label list a method of an aligner returns: the one it got, or a new one. -/
def giveLabels (s : Shared) (same : Bool) (r : Nat) (out : List Int) : Shared × Nat :=
  if same then (s, r) else ({ s with labels := s.labels ++ [out] }, s.labels.length)

/-- `ops/base.py:184-200` `transform` of the aligner `i` on the label list `r`. -/
def align (s : Shared) (i r : Nat) : Shared × Res Nat :=
  match s.aligners[i]?, s.labels[r]? with
  | some (x, a), some labels =>
    match (a.now (s.read x)).transform labels with
    | .error e => (s, .error e)
    | .ok out => let (s, r) := s.giveLabels a.same r out; (s, .ok r)
  | _, _ => (s, .error .nameError)

/-- `ops/base.py:202-218` `inverse_transform` of the aligner `i` on the label list `r`. -/
def realign (s : Shared) (i r : Nat) : Shared × Res Nat :=
  match s.aligners[i]?, s.labels[r]? with
  | some (x, a), some labels =>
    match (a.now (s.read x)).inverseTransform labels with
    | .error e => (s, .error e)
    | .ok out => let (s, r) := s.giveLabels a.same r out; (s, .ok r)
  | _, _ => (s, .error .nameError)

/-- One step. -/
def step (σ : SetOrder) (u : Unicode) (s : Shared) : SharedCmd → Shared
  | .newList l => { s with lists := s.lists ++ [l] }
  | .changeList r l => { s with lists := s.lists.set r l }
  | .newLabels l => { s with labels := s.labels ++ [l] }
  | .changeLabels r l => { s with labels := s.labels.set r l }
  | .transform op x => (s.call σ u op x).1
  | .transformSequence ops x => (s.pipeCall σ u ops x).1
  | .align i r => (s.align i r).1
  | .realign i r => (s.realign i r).1

/-- A program. -/
def exec (σ : SetOrder) (u : Unicode) (s : Shared) (cmds : List SharedCmd) : Shared := cmds.foldl (step σ u) s

end Shared

end Uttut
