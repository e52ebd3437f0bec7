import Verif.Conform.Setup
import Verif.Conform.Elements
import Verif.Model.Summary

/-!
The unit tests of pipes, `/repo/uttut/pipeline/tests/test_pipe.py`, `test_intermediate.py`,
`/repo/uttut/pipeline/ops/tests/test_factory.py` and `/repo/uttut/pipeline/bert/tests`, as checks on the model. Tests of
the model, not proofs about it. The expected tokens of the BERT tests are those of the reference tokenizer
the tests compare with.
-/

namespace Uttut
namespace Conform
open Spec

/-! `test_pipe.py`, with the operators of `pipeline/tests/mock_factory.py`. Their `__init__(self, **kwargs)`
is given the parameter names the tests use. -/

/-- One class of `mock_factory.py`. -/
def mock (name : String) (i o : SeqType) (params : List String) (f : Seq → Seq) : Str × OpClass :=
  (name.toList, {
    name := name.toList, inputType := i, outputType := o
    params := tk params, defaults := [], ownInit := true
    init := fun _ => .ok fun s =>
      .ok (f s, { inputLength := s.length, outputLength := (f s).length
                  fwd := fun l => .ok l, bwd := fun l => .ok l }) })

/-- `list(s)` -/
def toLst : Seq → Seq
  | .str s => .list (s.map fun c => .str [c])
  | .list l => .list l

/-- `''.join(l)` -/
def toStr' : Seq → Seq
  | .str s => .str s
  | .list l => .str (l.flatMap fun | .str s => s | .int _ => [])

/-- The mock registry; `first` are the parameters of `Str2Str`. -/
def mocks (first : List String) : Factory :=
  [mock "Str2Str" .str .str first id, mock "Lst2Lst" .list .list [] id,
   mock "Str2Lst" .str .list [] toLst, mock "Lst2Str" .list .str [] toStr']

/-- `p.add(name, kwargs, checkpoint)`, raising. -/
def addTo (f : Factory) (name : String) (kw : List (Str × PyVal) := []) (ck : Option String := none)
    (p : Pipe) : Res Pipe :=
  match p.add f name.toList (some kw) (ck.map String.toList) with
  | (p, .ok _) => .ok p
  | (_, .error e) => .error e

def fakePipe : Res Pipe := do
  let f := mocks ["1"]
  let p ← addTo f "Str2Str" [("1".toList, .int 1)] (some "1") Pipe.empty
  let p ← addTo f "Str2Lst" [] none p
  addTo f "Lst2Lst" [] (some "2") p

def m0 : Factory := mocks []

-- test_pipe_raise_invalid_io_type
#guard fails (do addTo m0 "Str2Str" [] none (← addTo m0 "Lst2Lst" [] none Pipe.empty)) .typeError
-- test_pipe_raise_duplicated_checkpoints
#guard fails (do
  addTo m0 "Str2Lst" [] (some "1") (← addTo m0 "Str2Str" [] (some "1") Pipe.empty)) .keyError
-- test_pipe_can_have_duplicated_ops
#guard holds (do
  addTo m0 "Str2Str" [] (some "2") (← addTo m0 "Str2Str" [] (some "1") Pipe.empty)) fun _ => true
-- test_transform
#guard holds (do
    let p ← fakePipe
    return (p, ← p.transform (← dat "123" [1] [ent 1 "1" 0 1, ent 2 "2" 1 2, ent 3 "3" 2 3])))
  fun (p, t) =>
    let out := toLst (.str "123".toList)
    decide (t.output = out) && decide (t.intentLabels = [1]) && decide (t.entityLabels = [1, 2, 3]) &&
    gives (getFromCheckpoint p.checkpoints t.collection "1".toList) (.str "123".toList) &&
    gives (getFromCheckpoint p.checkpoints t.collection "2".toList) out &&
    decide (t.collection = [.str "123".toList, .str "123".toList, out, out]) &&
    fails (getFromCheckpoint p.checkpoints t.collection "薄餡亂入".toList) .keyError &&
    gives (realignAll t.aligners t.entityLabels) [1, 2, 3]
-- test_serialize
#guard holds (do
  let p ← fakePipe
  return p.eq (← Pipe.deserialize (mocks ["1"]) p.serialize)) id
-- test_deserialize_from_old_format: `/repo/test_file/zh_char_pipe_100_old_format.json`
def oldFormat : String :=
  "{\"steps\": [{\"op_name\": \"CharTokenizer\", \"op_kwargs\": {}}, {\"op_name\": \"AddSosEos\", \"op_kwargs\": {\"start_token\": \"<sos>\", \"end_token\": \"</s>\"}}, {\"op_name\": \"Pad\", \"op_kwargs\": {\"maxlen\": 5, \"pad_token\": \"<pad>\"}}, {\"op_name\": \"Token2Index\", \"op_kwargs\": {\"token2index\": {\"<sos>\": 0, \"</s>\": 1, \"<pad>\": 2, \"<unk>\": 3, \"\\uff0c\": 4, \"\\u7684\": 5, \"\\u3002\": 6, \"\\u3001\": 7, \"\\u662f\": 8, \"\\u4e00\": 9, \"\\u5728\": 10, \"\\uff1a\": 11, \"\\u4e86\": 12, \"\\uff08\": 13, \"\\uff09\": 14, \"'\": 15, \"\\u548c\": 16, \"\\u4e0d\": 17, \"\\u6709\": 18, \"\\u6211\": 19, \",\": 20, \")\": 21, \"(\": 22, \"\\u201c\": 23, \"\\u201d\": 24, \"\\u4e5f\": 25, \"\\u4eba\": 26, \"\\u4e2a\": 27, \":\": 28, \"\\u4e2d\": 29, \".\": 30, \"\\u5c31\": 31, \"\\u4ed6\": 32, \"\\u300b\": 33, \"\\u300a\": 34, \"-\": 35, \"\\u4f60\": 36, \"\\u90fd\": 37, \"\\u4e0a\": 38, \"\\u5927\": 39, \"\\uff01\": 40, \"\\u8fd9\": 41, \"\\u4e3a\": 42, \"\\u591a\": 43, \"\\u4e0e\": 44, \"\\u7ae0\": 45, \"\\u300c\": 46, \"\\u5230\": 47, \"\\u300d\": 48, \"\\u8981\": 49, \"\\uff1f\": 50, \"\\u88ab\": 51, \"\\u800c\": 52, \"\\u80fd\": 53, \"\\u7b49\": 54, \"\\u5e74\": 55, \"\\uff1b\": 56, \"|\": 57, \"\\u4ee5\": 58, \"\\u53ca\": 59, \"\\u4e4b\": 60, \"\\u5bf9\": 61, \"\\u5f88\": 62, \"\\u4f1a\": 63, \"\\u5c0f\": 64, \"\\u4f46\": 65, \"\\u6700\": 66, \"\\u66f4\": 67, \"/\": 68, \"1\": 69, \"\\u4e09\": 70, \"\\u65b0\": 71, \"\\u53ef\": 72, \"2\": 73, \"\\u6216\": 74, \"\\u6b21\": 75, \"\\u597d\": 76, \"\\u5c06\": 77, \"\\u7b2c\": 78, \"\\u79cd\": 79, \"\\u5979\": 80, \"\\u2026\": 81, \"3\": 82, \"\\u5730\": 83, \"\\u5c0d\": 84, \"\\u7528\": 85, \"\\u4e0b\": 86, \"\\u540e\": 87, \"\\u7531\": 88, \"\\u4e24\": 89, \"\\u8fd8\": 90, \"\\u53c8\": 91, \"\\u60a8\": 92, \"?\": 93, \"\\u5176\": 94, \"\\u5df2\": 95, \"\\u5404\": 96, \"\\u8bf4\": 97, \"\\u770b\": 98, \"\\u53bb\": 99}, \"unk_token\": \"<unk>\"}}], \"checkpoints\": {\"result_of_add_sos_eos\": 2, \"result_of_pad\": 3}}"
#guard holds (Pipe.deserialize (Builtin.registryDefault env) oldFormat.toList) fun p =>
  p.steps.length == 4
-- test_add
#guard holds (do
    let p ← fakePipe
    let q ← addTo m0 "Lst2Str" [] (some "3") Pipe.empty
    return (p, q, ← p.concat q))
  fun (p, q, r) =>
    Pipe.eq ⟨r.steps, []⟩ ⟨p.steps ++ q.steps, []⟩ &&
    r.checkpoints.length == p.checkpoints.length + q.checkpoints.length &&
    both r.inputType p.inputType (fun a b => decide (a = b)) &&
    both r.outputType q.outputType (fun a b => decide (a = b))
-- test_raise_invalid_add
#guard fails (do (← fakePipe).concat (← addTo m0 "Str2Str" [] none Pipe.empty)) .typeError
#guard fails (do (← fakePipe).concat (← addTo m0 "Lst2Str" [] (some "1") Pipe.empty)) .keyError
-- test_len
#guard holds fakePipe fun p => p.steps.length == 3
-- test_getitem
#guard holds (do return (← fakePipe, ← (← fakePipe).getSlice (some 1) (some (-1)) none))
  fun (p, q) => Pipe.eq ⟨q.steps, []⟩ ⟨(p.steps.take 2).drop 1, []⟩ &&
    decide (q.checkpoints = [("2".toList, 2)])

/-! `test_intermediate.py` -/

/-- The sequences `[0, 0]`, `[0, 0, 1]`, ... of the test. -/
def records : List Seq :=
  (List.range 10).map fun i => .list (.int 0 :: (List.range (i + 1)).map fun k : Nat => .int k)

#guard gives (getFromCheckpoint [("1".toList, 1), ("3".toList, 3)] records "1".toList)
  (.list [.int 0, .int 0, .int 1])
#guard gives (getFromCheckpoint [("1".toList, 1), ("3".toList, 3)] records "3".toList)
  (.list [.int 0, .int 0, .int 1, .int 2, .int 3])

/-! `ops/tests/test_factory.py` -/

def one : OpClass := (mock "1" .str .str [] id).2
def two : OpClass := (mock "2" .str .str [] id).2

#guard holds ((Factory.register [] "1".toList one).1.get "1".toList) fun c => c.name == "1".toList
#guard fails ((Factory.register [] "1".toList one).1.register "1".toList two).2 .keyError
#guard fails ((Factory.register [] "1".toList one).1.get "2".toList) .keyError

/-! `bert/tests/test_basic.py`, `test_full.py`, `test_word_piece.py` -/

/-- `pipe.transform(Datum(s))[0]` is the given list of tokens. -/
def tokensAre (p : Res Pipe) (s : String) (tokens : List String) : Bool :=
  holds (do (← p).transform (← Datum.new s.toList none none)) fun t =>
    decide (t.output = .list (tokens.map fun t => .str t.toList))

#guard tokensAre (Bert.basicPipe (Builtin.registryDefault env)) "我想要喝珍奶" ["我", "想", "要", "喝", "珍", "奶"]
#guard tokensAre (Bert.basicPipe (Builtin.registryDefault env)) " \tHeLLo!how  \n Are yoU?  "
  ["hello", "!", "how", "are", "you", "?"]
#guard tokensAre (Bert.basicPipe (Builtin.registryDefault env)) "Héllo" ["hello"]
#guard tokensAre (Bert.basicPipe (Builtin.registryDefault env)) "ah博推zz" ["ah", "博", "推", "zz"]
#guard tokensAre (Bert.fullPipe (Builtin.registryDefault env)) "UNwantéd,running"
  ["un", "##want", "##ed", ",", "runn", "##ing"]
#guard tokensAre (Bert.wordPiecePipe (Builtin.registryDefault env)) "unwanted running"
  ["un", "##want", "##ed", "runn", "##ing"]
#guard tokensAre (Bert.wordPiecePipe (Builtin.registryDefault env)) "unwantedX running" ["[UNK]", "runn", "##ing"]

end Conform
end Uttut
