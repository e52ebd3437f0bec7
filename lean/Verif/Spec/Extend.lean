import Verif.Spec.Ops
import Verif.Spec.Edit

/-! Specifications for operators written by users (C85). -/

namespace Uttut.Spec

/-- `ps` and `tail` cut a text into tokens and dropped text such that every token lies at the first place at
which it occurs behind the token before it. -/
def Leftmost : List (Str × Str) → (tail : Str) → Prop
  | [], _ => True
  | p :: ps, tail =>
    (∀ gap post, layout (p :: ps) tail = gap ++ p.2 ++ post → p.1.length ≤ gap.length) ∧ Leftmost ps tail

/-- The labels of the characters, from labels of the tokens: `fill n` are the labels of `n` dropped characters. -/
def charLabelsBy (fill : Nat → List Int) : List (Str × Str) → (tail : Str) → List Int → List Int
  | p :: ps, tail, y :: ys =>
    fill p.1.length ++ List.replicate p.2.length y ++ charLabelsBy fill ps tail ys
  | _, tail, _ => fill tail.length

/-- Labels after each match has been replaced by a text of length `n`: `F` makes the labels of the new text from
those of the match. -/
def replaceLabelsBy (F : List Int → Nat → List Int) (ls : List Int) (n : Nat) : Nat → List (Nat × Nat) → List Int
  | pos, [] => ls.drop pos
  | pos, (a, b) :: ms => slice ls pos a ++ F (slice ls a b) n ++ replaceLabelsBy F ls n b ms

/-- Labels of the original text from those of the new one: `B` makes the labels of a match from those of the text of
length `n` that stands for it. -/
def restoreLabelsBy (B : List Int → Nat → List Int) (n : Nat) :
    (pos : Nat) → List (Nat × Nat) → (ys : List Int) → List Int
  | _, [], ys => ys
  | pos, (a, b) :: ms, ys =>
    ys.take (a - pos) ++ B ((ys.drop (a - pos)).take n) (b - a) ++
      restoreLabelsBy B n b ms ((ys.drop (a - pos)).drop n)

/-- A label function that returns as many labels as it is asked for. -/
def Sized (F : List Int → Nat → List Int) : Prop := ∀ x n, (F x n).length = n

/-- A label function that invents no labels. -/
def Modest (F : List Int → Nat → List Int) : Prop := ∀ x n, ∀ y ∈ F x n, y = 0 ∨ y ∈ x

end Uttut.Spec
