import Verif.Spec.Pipe
import Verif.Model.Summary

/-! What a user expects `Pipe.summary` to print, in terms of the calls that built the pipe. -/

namespace Uttut

/-- How an argument is shown: of a dict the first two entries, followed by dots (even if there are no more); anything else
is shortened. -/
def shownValue (r : Reprs) : PyVal → Str
  | .dict [] => "{, ...}".toList
  | .dict [a] => '{' :: r.repr (.str a.1) ++ ": ".toList ++ r.repr a.2 ++ ", ...}".toList
  | .dict (a :: b :: _) => '{' :: r.repr (.str a.1) ++ ": ".toList ++ r.repr a.2 ++ ", ".toList ++ r.repr (.str b.1) ++
      ": ".toList ++ r.repr b.2 ++ ", ...}".toList
  | v => r.short v

/-- The name of a type. -/
def SeqType.word (t : SeqType) : Str := if t = .list then ['l', 'i', 's', 't'] else ['s', 't', 'r']

/-- A number in decimal digits. -/
inductive Decimal : Nat → Str → Prop
  | digit (n : Nat) (h : n < 10) : Decimal n [Char.ofNat (48 + n)]
  | more (n d : Nat) (t : Str) (hn : 0 < n) (hd : d < 10) (h : Decimal n t) : Decimal (10 * n + d) (t ++ [Char.ofNat (48 + d)])

/-- Texts with commas between them. -/
inductive Listed : List Str → Str → Prop
  | none : Listed [] []
  | one (s : Str) : Listed [s] s
  | more (s : Str) {t : Str} {ts : List Str} {text : Str} (h : Listed (t :: ts) text) :
      Listed (s :: t :: ts) (s ++ ", ".toList ++ text)

/-- `entries` are the operators that successive calls of `add_op` on a new pipe put into it, each with the checkpoint
that the call gave it. A call that raises TypeError adds nothing; one that raises KeyError adds the operator without
checkpoint. -/
inductive BuiltBy : Pipe → List (Op × Option Str) → Prop
  | new : BuiltBy Pipe.empty []
  | added {p p' : Pipe} {es : List (Op × Option Str)} {op : Op} {ck : Option Str} (h : BuiltBy p es)
      (hc : p.addOp op ck = (p', .ok ())) : BuiltBy p' (es ++ [(op, ck)])
  | wrongType {p p' : Pipe} {es : List (Op × Option Str)} {op : Op} {ck : Option Str} (h : BuiltBy p es)
      (hc : p.addOp op ck = (p', .error .typeError)) : BuiltBy p' es
  | nameTaken {p p' : Pipe} {es : List (Op × Option Str)} {op : Op} {ck : Option Str} (h : BuiltBy p es)
      (hc : p.addOp op ck = (p', .error .keyError)) : BuiltBy p' (es ++ [(op, none)])

/-- The lines for one operator that follows an operator (or input) of type `prev`. -/
def entryLines (r : Reprs) (prev : SeqType) (e : Op × Option Str) : List Str :=
  [" |    ".toList ++ e.1.toStr r] ++
  (if e.1.cls.outputType = prev then [] else [" v".toList, e.1.cls.outputType.word, " v".toList]) ++
  (match e.2 with
    | none => []
    | some name => [" |".toList, " @--> checkpoint: ".toList ++ r.repr (.str name), " |".toList])

/-- The lines for all operators. -/
def entriesLines (r : Reprs) : SeqType → List (Op × Option Str) → List Str
  | _, [] => []
  | prev, e :: es => entryLines r prev e ++ entriesLines r e.1.cls.outputType es

/-- The whole summary of a pipe with these entries, stating `ops` operators and `cks` checkpoints. -/
def summaryOf (r : Reprs) (es : List (Op × Option Str)) (ops cks : Str) : List Str :=
  [List.replicate 80 '_', "Type  Operator".toList, List.replicate 80 '='] ++
  (match es.head?, es.getLast? with
    | some a, some b => [a.1.cls.inputType.word, " v".toList] ++ entriesLines r a.1.cls.inputType es ++
      [" v".toList, List.replicate 80 '=', a.1.cls.inputType.word ++ " -> ".toList ++ b.1.cls.outputType.word]
    | _, _ => []) ++
  ["Total operators: ".toList ++ ops, "Total checkpoints: ".toList ++ cks,
    List.replicate 80 '_']

/-- The number of operators that have a checkpoint. -/
def namedEntries (es : List (Op × Option Str)) : Nat := (es.filter fun e => e.2.isSome).length

end Uttut
