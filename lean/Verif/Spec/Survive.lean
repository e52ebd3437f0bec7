import Verif.Spec.Ops

/-! Specification vocabulary for C73: labels carried through an operator and back. -/

namespace Uttut.Spec

/-- The labels `ls` of the input survive: carried to the output and back they are `ls` again. -/
def Survives (a : Aligner) (ls : List Int) : Prop :=
  ∃ ys, a.transform ls = .ok ys ∧ a.inverseTransform ys = .ok ls

/-- Carrying labels to and fro a second time changes nothing any more. -/
structure Settles (a : Aligner) : Prop where
  fromInput : ∀ ls ys xs, a.transform ls = .ok ys → a.inverseTransform ys = .ok xs → a.transform xs = .ok ys
  fromOutput : ∀ ys xs zs, a.inverseTransform ys = .ok xs → a.transform xs = .ok zs → a.inverseTransform zs = .ok xs

/-- Every part of the text that `changed` picks out carries a single label. -/
def OneLabelEach (changed : Str → Bool) (segs : List Str) (ls : List Int) : Prop :=
  ∀ x ∈ segs.zip (splitLike segs ls), changed x.1 = true → ∃ v, ∀ l ∈ x.2, l = v

/-- Every part of the text that `changed` picks out carries the label 0 only. -/
def ZeroEach (changed : Str → Bool) (segs : List Str) (ls : List Int) : Prop :=
  ∀ x ∈ segs.zip (splitLike segs ls), changed x.1 = true → ∀ l ∈ x.2, l = 0

end Uttut.Spec
