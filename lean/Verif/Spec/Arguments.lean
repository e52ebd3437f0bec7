import Verif.Spec.Construct
import Verif.Spec.Ops

/-! Specification vocabulary for C84: arguments of types other than the documented ones. -/

namespace Uttut.Spec

/-- Iterating over the value gives these texts: the elements of a list or tuple, the characters of a text, the keys of
a dict. -/
inductive WordsIn : PyVal → List Str → Prop
  | list (ws : List Str) : WordsIn (.list (ws.map PyVal.str)) ws
  | tuple (ws : List Str) : WordsIn (.tuple (ws.map PyVal.str)) ws
  | str (s : Str) : WordsIn (.str s) (s.map fun c => [c])
  | dict (d : List (Str × PyVal)) : WordsIn (.dict d) (d.map Prod.fst)

/-- The values that count as false. -/
inductive Falsy : PyVal → Prop
  | none : Falsy .none
  | false : Falsy (.bool false)
  | zero : Falsy (.int 0)
  | str : Falsy (.str [])
  | list : Falsy (.list [])
  | tuple : Falsy (.tuple [])
  | dict : Falsy (.dict [])

/-- A number: `True` is 1 and `False` is 0. -/
inductive IsNumber : PyVal → Int → Prop
  | int (i : Int) : IsNumber (.int i) i
  | true : IsNumber (.bool true) 1
  | false : IsNumber (.bool false) 0

/-- A text or a number used as a token. -/
inductive IsToken : PyVal → Tok → Prop
  | str (s : Str) : IsToken (.str s) (.str s)
  | num (v : PyVal) (i : Int) : IsNumber v i → IsToken v (.int i)

/-- The values `hash` refuses. -/
inductive Unhashable : PyVal → Prop
  | list (l : List PyVal) : Unhashable (.list l)
  | dict (d : List (Str × PyVal)) : Unhashable (.dict d)
  | tuple (l : List PyVal) (v : PyVal) : v ∈ l → Unhashable v → Unhashable (.tuple l)

/-- The values `x in value` can be asked about for a text `x`. -/
def Askable : PyVal → Prop
  | .dict _ => True
  | .list _ => True
  | .tuple _ => True
  | .str _ => True
  | _ => False

/-- `w in value`. -/
def InValue : PyVal → Str → Prop
  | .dict d, w => w ∈ d.map Prod.fst
  | .list l, w => PyVal.str w ∈ l
  | .tuple l, w => PyVal.str w ∈ l
  | .str s, w => ∃ a b, s = a ++ w ++ b
  | _, _ => False

open Classical in
/-- The pieces of one word, the vocabulary being any value that can be asked. -/
def PiecesIn (vocab : PyVal) (unk : Str) (n : Int) (w : Str) (ps : List Str) : Prop :=
  let known := fun w => decide (InValue vocab w)
  ((w.length : Int) ≤ n ∧ ∃ rs, Greedy known true w rs ∧ ps = wordPieces rs) ∨
  ((n < w.length ∨ ¬ ∃ rs, Greedy known true w rs) ∧ ps = [unk])

end Uttut.Spec
