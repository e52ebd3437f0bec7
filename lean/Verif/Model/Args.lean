import Verif.Model.Builtins

/-!
Operators keep the objects they are made with: `ops/base.py:27-43` stores the arguments themselves in `_configs`, and
the constructors keep them as attributes (`token_to_index.py:47`, `token_to_index_with_hash.py:39`,
`span_subwords.py:48`, `custom_word_tokenizer.py:39`, `add_whitespace_around_word_n_zhchar.py:48`). A program can change
such an object (a list or a dict) in place afterwards. This file gives the lists and dicts used as arguments an
identity. Objects inside of such an object, and the attributes and the dict `configs` of an operator itself, are not
changed by programs here.
-/

namespace Uttut

/-- An argument: a value that cannot be changed, or an object of the program. -/
inductive Arg
  | val (v : PyVal)
  | obj (r : Nat)
  deriving Inhabited

/-- What an argument is when the objects have the given contents. -/
def Arg.read (objs : List PyVal) : Arg → PyVal
  | .val v => v
  | .obj r => objs[r]?.getD .none

/-- The argument is a value or an existing object. -/
def Arg.known (objs : List PyVal) : Arg → Bool
  | .val _ => true
  | .obj r => decide (r < objs.length)

/-- Keyword arguments as they are when the objects have the given contents. -/
def readAll (objs : List PyVal) (kwargs : List (Str × Arg)) : List (Str × PyVal) :=
  kwargs.map fun kv => (kv.1, kv.2.read objs)

/-- Binding of one parameter that got no positional argument. -/
def OpClass.bindRef (c : OpClass) (kwargs : List (Str × Arg)) (p : Str) : Res Arg :=
  match dictGet kwargs p with
  | some a => .ok a
  | none =>
    match c.default? p with
    | some v => .ok (.val v)
    | none => .error .typeError

/-- Python's binding of a call `f(*args, **kwargs)` to the parameters: the objects in parameter order. -/
def OpClass.bindRefs (c : OpClass) (args : List Arg) (kwargs : List (Str × Arg)) : Res (List Arg) :=
  if args.length > c.params.length then .error .typeError
  else if kwargs.any (fun kv => !(c.params.drop args.length).contains kv.1) then .error .typeError
  else do
    let rest ← (c.params.drop args.length).mapM (c.bindRef kwargs)
    return args ++ rest

/-- `ops/base.py:27-43` the captured `_configs`: the argument objects themselves. -/
def OpClass.captureRefs (c : OpClass) (args : List Arg) (kwargs : List (Str × Arg)) : List (Str × Arg) :=
  let (params, defaults) := c.argspec
  let configs := dictUpdate [] (params.zip args)
  let configs := dictUpdate configs kwargs
  if defaults.isEmpty then configs
  else
    dictUpdate configs
      (((params.reverse ++ ["self".toList]).zip (defaults.reverse.map Arg.val)).filter fun kv =>
        (dictGet configs kv.1).isNone)

namespace Builtin

/-- The `_transform`s that look into the argument objects when they are called: `token_to_index.py:68-81`,
`token_to_index_with_hash.py:57-70` and `span_subwords.py:66-85` use the dict given to the constructor. The other
classes have no list or dict among their documented arguments, or, for the classes with user words, use the trie
built by the constructor (`custom_word_tokenizer.py:40-42`, `add_whitespace_around_word_n_zhchar.py:49-51`).
Values of the dict that are no numbers would be given out as tokens; they are exceptions here. -/
def atCall (env : Env) (name : Str) : Option (List PyVal → Seq → Res (Seq × Aligner)) :=
  if name = "Token2Index".toList then
    some fun vals s => match vals with
      | [d, unk] => do
        let d ← d.asIndex
        let unk ← unk.asStr
        lstOp (Token2Index.transform env.σ d unk) s
      | _ => .error .typeError
  else if name = "Token2IndexwithHash".toList then
    some fun vals s => match vals with
      | [d] => do
        let d ← d.asIndex
        lstOp (Token2IndexwithHash.transform env.σ d) s
      | _ => .error .typeError
  else if name = "SpanSubwords".toList then
    some fun vals s => match vals with
      | [vocab, unk, n] => do
        let unk ← unk.asStr
        lstOp (spanSubwordsRun env vocab unk n) s
      | _ => .error .typeError
  else none

end Builtin

/-- An operator object: its class, the objects bound to the parameters, `_configs`, and the `_transform` with what the
constructor computed. -/
structure OpObject where
  cls : OpClass
  attrs : List Arg
  configs : List (Str × Arg)
  made : Seq → Res (Seq × Aligner)

/-- The objects of a program: the contents of its lists and dicts, and its operators. -/
structure ArgStore where
  objs : List PyVal
  ops : List OpObject

/-- One step of a program. -/
inductive ArgCmd
  /-- a new list or dict -/
  | new (v : PyVal)
  /-- the list or dict `r` is changed in place and now has the contents `v` -/
  | change (r : Nat) (v : PyVal)
  /-- `op_factory[name](*args, **kwargs)`, as in `Pipe.add` -/
  | make (name : Str) (args : List Arg) (kwargs : List (Str × Arg))
  /-- `Operator.deserialize(text)` -/
  | load (text : Str)

namespace ArgStore

/-- `ops/base.py:24-43` calling the class with objects; the state afterwards. A name bound to no object is a
NameError. -/
def make (env : Env) (s : ArgStore) (name : Str) (args : List Arg) (kwargs : List (Str × Arg)) : ArgStore × Res Unit :=
  if args.all (Arg.known s.objs) && kwargs.all (fun kv => kv.2.known s.objs) then
    match (do
      let c ← (Builtin.registry env).get name
      let op ← c.call (args.map (Arg.read s.objs)) (readAll s.objs kwargs)
      let attrs ← c.bindRefs args kwargs
      return (⟨c, attrs, c.captureRefs args kwargs, op.run⟩ : OpObject)) with
    | .ok o => ({ s with ops := s.ops ++ [o] }, .ok ())
    | .error e => (s, .error e)
  else (s, .error .nameError)

/-- `ops/base.py:50-59` `Operator.deserialize`: the arguments are new objects that nothing else refers to. -/
def load (env : Env) (s : ArgStore) (text : Str) : ArgStore × Res Unit :=
  match (do
    let op ← Op.deserialize (Builtin.registry env) text
    let attrs ← op.cls.bindArgs [] op.configs
    return (⟨op.cls, attrs.map Arg.val, op.configs.map (fun kv : Str × PyVal => (kv.1, Arg.val kv.2)), op.run⟩ : OpObject)) with
  | .ok o => ({ s with ops := s.ops ++ [o] }, .ok ())
  | .error e => (s, .error e)

/-- The objects after one step; a call that raises changes nothing. -/
def step (env : Env) (s : ArgStore) : ArgCmd → ArgStore
  | .new v => { s with objs := s.objs ++ [v] }
  | .change r v => { s with objs := s.objs.set r v }
  | .make name args kwargs => (s.make env name args kwargs).1
  | .load text => (s.load env text).1

/-- The objects after a program. -/
def run (env : Env) (s : ArgStore) (cmds : List ArgCmd) : ArgStore := cmds.foldl (step env) s

/-- An operator as it is now: `configs` shows the objects as they are, and `transform` uses them or what the
constructor made of them. -/
def opNow (env : Env) (s : ArgStore) (i : Nat) : Option Op :=
  s.ops[i]?.map fun o =>
    { cls := o.cls, configs := readAll s.objs o.configs
      run := match Builtin.atCall env o.cls.name with
        | some f => f (o.attrs.map (Arg.read s.objs))
        | none => o.made }

end ArgStore

end Uttut
