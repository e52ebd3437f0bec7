import Verif.Model.Ordinal

/-! Specification vocabulary for label transformers. -/

namespace Uttut.Spec

/-- The values are exactly `0, ..., n - 1`, each once. -/
def IsNumbering (vs : List Int) : Prop := vs.Nodup ∧ ∀ v, v ∈ vs ↔ 0 ≤ v ∧ v < vs.length

/-- The keys of a dict are distinct. -/
def IsDict {κ ν : Type} (m : List (κ × ν)) : Prop := (m.map Prod.fst).Nodup

/-- `l` lists the distinct elements of `names` in the order of their first occurrence. -/
def FirstOccurrences (names l : List Str) : Prop :=
  l.Nodup ∧ (∀ x, x ∈ l ↔ x ∈ names) ∧ l.Pairwise (fun a b => names.idxOf a < names.idxOf b)

/-- The dict giving the number `f k` to the `k`-th name. -/
def numbered (f : Nat → Int) (l : List Str) : List (Str × Int) := l.zipIdx.map fun p => (p.1, f p.2)

/-- The `k`-th natural number different from `skip`. -/
def skipping (skip : Int) (k : Nat) : Int := if (k : Int) < skip then k else k + 1

/-- Raw entities with the same name and position and the same set of replacements. -/
def SameRaw (a b : RawEntity) : Prop :=
  a.name = b.name ∧ a.start = b.start ∧ a.stop = b.stop ∧
    ∀ r, r ∈ a.replacements.getD [] ↔ r ∈ b.replacements.getD []

end Uttut.Spec
