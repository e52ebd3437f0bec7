import Verif.Spec.Ops

/-! Words read back from their pieces. -/

namespace Uttut.Spec

/-- The piece continues a word. -/
def continues : Str → Bool
  | '#' :: '#' :: _ => true
  | _ => false

/-- What continues the word before the list, and the words that begin in it. -/
def glue : List Str → Str × List Str
  | [] => ([], [])
  | p :: ps => if continues p then (p.drop 2 ++ (glue ps).1, (glue ps).2) else ([], (p ++ (glue ps).1) :: (glue ps).2)

/-- The words: every piece that starts with `##` belongs, without the `##`, to the word before it. -/
def readBack (ps : List Str) : List Str := (glue ps).2

/-- The word is short enough and longest-match segmentation into vocabulary entries reaches its end. -/
def Covered (vocab : List Str) (n : Int) (w : Str) : Prop :=
  (w.length : Int) ≤ n ∧ ∃ rs, Greedy (fun w => vocab.contains w) true w rs

/-- A word as tokenizers produce it: not empty and without the mark of a continuation. -/
def PlainWord (w : Str) : Prop := w ≠ [] ∧ continues w = false

/-- A word that is not covered, or is itself the unknown token and an entry of the vocabulary. -/
def MadeUnknown (vocab : List Str) (unk : Str) (n : Int) (w : Str) : Prop :=
  ¬ Covered vocab n w ∨ w = unk ∧ w ∈ vocab

example : readBack ["play".toList, "##ing".toList, "a".toList, "##b".toList, "##c".toList] =
    ["playing".toList, "abc".toList] := by decide

end Uttut.Spec
