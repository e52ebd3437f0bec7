import Verif.Model.Builtins
import Verif.Model.Ordinal

/-! Specification vocabulary for C93: a labelling service made of a pipe and a transformer of names. -/

namespace Uttut.Spec

/-- Preparing one example for training: names to labels, then through the pipe. What the model is trained with: the output
sequence, the intents and one label per element. -/
def prepare (p : Pipe) (t : OrdinalLabel) (r : RawDatum) : Res (Seq × List Int × List Int) := do
  let d ← t.machanize r
  let out ← p.transform d
  return (out.output, out.intentLabels, out.entityLabels)

/-- What the model sees of a text at the time of prediction. -/
def encode (p : Pipe) (u : Str) : Res Seq := do
  let (out, _, _) ← p.transformSequence (.str u)
  return out

/-- Naming what the model predicts for a text: the predicted labels back to the characters, packed, labels to names. -/
def decode (σ : SetOrder) (p : Pipe) (t : OrdinalLabel) (u : Str) (intents labels : List Int) : Res RawDatum := do
  let (_, aligners, _) ← p.transformSequence (.str u)
  let labels ← realignAll aligners labels
  let d ← packToDatum u intents labels
  t.humanize σ d

end Uttut.Spec
