import Verif.Spec.Interchange
import Verif.Spec.Ops

/-! Word lists, vocabularies and data that grow. -/

namespace Uttut.Spec

/-- A word of the longer list that is not in the shorter one. -/
def NewWord (old longer : List Str) (w : Str) : Prop := w ∈ longer ∧ w ∉ old

/-- The entry can be a piece of the word: it starts it, or is `##` and some of its characters. -/
def FitsInto (p w : Str) : Prop := p <+: w ∨ ∃ r, r ≠ [] ∧ p = '#' :: '#' :: r ∧ r <:+: w

/-- A dict with all the entries of another and perhaps more. -/
def Extends {α : Type} (small large : List (Str × α)) : Prop := ∀ kv ∈ small, kv ∈ large

end Uttut.Spec
