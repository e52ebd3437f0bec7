import Verif.Model.Reference
import Verif.Spec.Bert

/-! Specification vocabulary for the comparison with the reference BERT tokenizer. -/

namespace Uttut.Spec

/-- The characters the reference tokenizer leaves out: U+0000, U+FFFD and the control characters (category C) other
than tab, newline and carriage return. -/
def discarded (r : RefUnicode) (c : Char) : Bool :=
  c.toNat == 0 || c.toNat == 0xfffd || (r.isCatC c && !("\t\n\r".toList.contains c))

/-- Lowering and stripping accents in the words of `s` replaces their characters one by one, according to `g`, and
makes no whitespace; the space separators (category Zs) of `s` are whitespace. -/
structure RefCharwise (r : RefUnicode) (g : Char → Char) (s : Str) : Prop where
  chars : ∀ t, (∀ c ∈ t, c ∈ s ∧ isSpace c = false) → unaccented r.u (r.lower t) = t.map g
  solid : ∀ c ∈ s, isSpace c = false → isSpace (g c) = false
  zs : ∀ c ∈ s, r.isZs c = true → isSpace c = true

/-- `i` is the position of the last line equal to `w`. -/
def LastLine (lines : List Str) (w : Str) (i : Nat) : Prop :=
  lines[i]? = some w ∧ ∀ j, i < j → lines[j]? ≠ some w

end Uttut.Spec
