import Verif.Spec.Survive
import Verif.Spec.Interchange

/-! Labels carried through a pipe and back. -/

namespace Uttut.Spec

/-- Carrying labels through all steps to and fro a second time changes nothing any more. -/
structure SettlesAll (as : List Aligner) : Prop where
  fromInput : ∀ ls ys xs, alignAll as ls = .ok ys → realignAll as ys = .ok xs → alignAll as xs = .ok ys
  fromOutput : ∀ ys xs zs, realignAll as ys = .ok xs → alignAll as xs = .ok zs → realignAll as zs = .ok xs

/-- On whatever input, the labels of the input come back from the output. -/
def OpKeeps (op : Op) : Prop := ∀ s t a, op.transform s = .ok (t, a) →
  ∀ ls ys, a.transform ls = .ok ys → a.inverseTransform ys = .ok ls

/-- On whatever input, the labels of the output come back from the input. -/
def OpReturns (op : Op) : Prop := ∀ s t a, op.transform s = .ok (t, a) →
  ∀ ys xs, a.inverseTransform ys = .ok xs → a.transform xs = .ok ys

/-- `m` labels: the one at `j` is that at `src j` in `ls`, or `rest j` where there is no source. -/
def moved (m : Nat) (src : Nat → Option Nat) (rest : Nat → Int) (ls : List Int) : List Int :=
  (List.range m).map fun j => match src j with
    | some i => ls.getD i 0
    | none => rest j

/-- Two maps of labels that move some labels to other positions, each to at most one, and fill the other positions with
fixed labels; `n` and `m` are the lengths. -/
structure Carries (fwd bwd : List Int → Res (List Int)) (n m : Nat) (src dst : Nat → Option Nat) (c d : Nat → Int) : Prop where
  fwd : ∀ ls, ls.length = n → fwd ls = .ok (moved m src c ls)
  bwd : ∀ ys, ys.length = m → bwd ys = .ok (moved n dst d ys)
  inverse : ∀ i j, src j = some i ↔ dst i = some j
  range : ∀ i j, src j = some i → i < n ∧ j < m

/-- On whatever input, the aligner moves labels; on the way back, labels of the input that have no source are 0. -/
def OpMoves (op : Op) : Prop := ∀ s t a, op.transform s = .ok (t, a) →
  ∃ src dst c, Carries a.transform a.inverseTransform s.length t.length src dst c fun _ => 0

/-- Two maps of labels. Forth, a label may go to several positions, and the other positions are filled with fixed labels:
`own j` is where the label at `j` comes from. Back, an entry gets the label of the positions it went to if these agree apart
from zeros, and 0 if there are none. -/
structure Spreads (fwd bwd : List Int → Res (List Int)) (n m : Nat) (own : Nat → Option Nat) (c : Nat → Int) : Prop where
  range : ∀ i j, own j = some i → i < n ∧ j < m
  fwd : ∀ ls, ls.length = n → fwd ls = .ok (moved m own c ls)
  bwd : ∀ ys, ys.length = m → ∃ xs, bwd ys = .ok xs ∧ xs.length = n ∧ ∀ i < n, ∀ v,
    (∀ j, own j = some i → ys.getD j 0 = v ∨ ys.getD j 0 = 0) →
      xs.getD i 0 = v ∨ xs.getD i 0 = 0 ∧ ∀ j, own j = some i → ys.getD j 0 = 0

/-- On whatever input, the aligner spreads labels, or no labels can be carried back at all. -/
def OpSpreads (op : Op) : Prop := ∀ s t a, op.transform s = .ok (t, a) →
  (∃ own c, Spreads a.transform a.inverseTransform s.length t.length own c) ∨ ∀ ys xs, a.inverseTransform ys = .ok xs → False

end Uttut.Spec
