import Verif.Spec.Data

/-! Specification vocabulary for C75: data that can be told from their labels. -/

namespace Uttut.Spec

/-- The entities leave traces in the labels of the characters: none is empty or labelled 0, none has replacements,
and two that touch have different labels. -/
structure Traceable (es : List Entity) : Prop where
  nonempty : ∀ e ∈ es, e.start < e.stop
  labelled : ∀ e ∈ es, e.label ≠ 0
  plain : ∀ e ∈ es, e.replacements = []
  distinct : ∀ e ∈ es, ∀ f ∈ es, e.stop = f.start → e.label ≠ f.label

/-- A datum as users build them: constructed, with a text of at least one and less than 2^31 characters, entities
within the text, and labels that are C `int`s. -/
structure Proper (d : Datum) : Prop where
  built : ∃ is es, Datum.new d.utterance (some is) (some es) = .ok d
  text : d.utterance ≠ []
  short : d.utterance.length < 2 ^ 31
  within : ∀ e ∈ d.entities, WithinUtterance d.utterance e
  entities : ∀ e ∈ d.entities, IsInt32 e.label
  intents : ∀ i ∈ d.intents, IsInt32 i.label

end Uttut.Spec
