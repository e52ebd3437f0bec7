import Verif.Model.Pipe
import Verif.Spec.Data
import Verif.Spec.Ordinal
import Mathlib.Data.List.Forall2

/-! Specification vocabulary for C81: data described by names and by labels. -/

namespace Uttut.Spec

/-- The raw entity `x` says by name what the entity `e` says by label. -/
structure Named (t : OrdinalLabel) (e : Entity) (x : RawEntity) : Prop where
  name : (x.name, e.label) ∈ t.entity2index
  start : x.start = e.start
  stop : x.stop = e.stop
  replacements : ∀ s, s ∈ x.replacements.getD [] ↔ s ∈ e.replacements

/-- The raw dictionary `r` says by name what the datum `d` says by label. -/
structure Described (t : OrdinalLabel) (d : Datum) (r : RawDatum) : Prop where
  utterance : r.utterance = d.utterance
  names : List.Forall₂ (fun (i : Intent) (n : Str) => (n, i.label) ∈ t.intent2index) d.intents r.names
  entities : List.Forall₂ (fun e x => Named t e x ∧ (x.replacements = none ↔ e.replacements = [])) d.entities
    (r.entities.getD [])
  key : r.entities = none ↔ d.entities = []

/-- Every name of the raw dictionary is known. -/
structure KnownNames (t : OrdinalLabel) (r : RawDatum) : Prop where
  intents : ∀ n ∈ r.names, ∃ l, (n, l) ∈ t.intent2index
  entities : ∀ x ∈ r.entities.getD [], ∃ l, (x.name, l) ∈ t.entity2index

/-- Every label is 0 or the label of a known entity. -/
def KnownLabels (t : OrdinalLabel) (ls : List Int) : Prop := ∀ l ∈ ls, l = 0 ∨ ∃ n, (n, l) ∈ t.entity2index

/-- Every label is the label of a known intent. -/
def KnownIntents (t : OrdinalLabel) (is : List Int) : Prop := ∀ l ∈ is, ∃ n, (n, l) ∈ t.intent2index

/-- The text has at least one and less than 2^31 characters and every entity lies within it. -/
structure RawProper (r : RawDatum) : Prop where
  text : r.utterance ≠ []
  short : r.utterance.length < 2 ^ 31
  within : ∀ x ∈ r.entities.getD [], 0 ≤ x.start ∧ x.start ≤ x.stop ∧ x.stop ≤ r.utterance.length

/-- No entity is empty or has replacements, and two that touch have different names. -/
structure RawTraceable (xs : List RawEntity) : Prop where
  nonempty : ∀ x ∈ xs, x.start < x.stop
  plain : ∀ x ∈ xs, x.replacements.getD [] = []
  distinct : ∀ x ∈ xs, ∀ y ∈ xs, x.stop = y.start → x.name ≠ y.name

/-- `r'` says the same as `r`: same text, same set of intents, and the entities of `r` sorted by start. -/
def SaysSame (r r' : RawDatum) : Prop :=
  r'.utterance = r.utterance ∧ (∀ n, n ∈ r'.names ↔ n ∈ r.names) ∧
    ∃ xs, IsStableSort (fun x : RawEntity => x.start) (r.entities.getD []) xs ∧
      List.Forall₂ SameRaw (r'.entities.getD []) xs

/-- The raw entities name exactly the maximal runs of equal labels other than 0, from left to right. -/
def NamesRuns (t : OrdinalLabel) (labels : List Int) (xs : List RawEntity) : Prop :=
  (∀ x, x ∈ xs ↔ ∃ (a b : Nat) (l : Int), IsMaximalRun labels a b l ∧ l ≠ 0 ∧ (x.name, l) ∈ t.entity2index ∧
    x = ⟨x.name, a, b, none⟩) ∧ xs.Pairwise fun x y => x.stop ≤ y.start

end Uttut.Spec
