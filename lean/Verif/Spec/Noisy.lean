import Verif.Model.Noisy

/-!
What it means for a call to issue no warning, whatever the program has chosen to do with warnings.
-/

namespace Uttut
namespace Spec

/-- Under every choice of the warnings turned into exceptions, the call issues no warning and ends with `r`. -/
def Silent {α : Type} (m : Warned α) (r : Res α) : Prop :=
  ∀ policy : Category → Bool, m.run policy = ([], match r with | .ok a => .ok a | .error e => .error (.exc e))

/-- The aligner answers like the one of the model without warnings and never warns. -/
structure SilentAligner (a : Noisy.Aligner) (b : Aligner) : Prop where
  inputLength : a.inputLength = b.inputLength
  outputLength : a.outputLength = b.outputLength
  transform : ∀ labels, Silent (a.transform labels) (b.transform labels)
  inverse : ∀ labels, Silent (a.inverseTransform labels) (b.inverseTransform labels)

/-- A call of `transform` of an operator: no warning, the same outcome, and a silent aligner. -/
def SilentStep (m : Warned (Seq × Noisy.Aligner)) (r : Res (Seq × Aligner)) : Prop :=
  (∃ e, r = .error e ∧ ∀ policy, m.run policy = ([], .error (.exc e))) ∨
  ∃ out a b, r = .ok (out, b) ∧ (∀ policy, m.run policy = ([], .ok (out, a))) ∧ SilentAligner a b

/-- A call of `Pipe.transform`: no warning, the same outcome, and silent aligners. -/
def SilentRun (m : Warned Noisy.Transformed) (r : Res Transformed) : Prop :=
  (∃ e, r = .error e ∧ ∀ policy, m.run policy = ([], .error (.exc e))) ∨
  ∃ t u, r = .ok u ∧ (∀ policy, m.run policy = ([], .ok t)) ∧
    t.output = u.output ∧ t.intentLabels = u.intentLabels ∧ t.entityLabels = u.entityLabels ∧
    t.collection = u.collection ∧
    ∀ labels, Silent (Noisy.alignAll t.aligners labels) (alignAll u.aligners labels) ∧
      Silent (Noisy.realignAll t.aligners labels) (realignAll u.aligners labels)

/-- Operators made one after the other by calling classes by name. -/
def Makes (f : Factory) : List (Str × List PyVal × List (Str × PyVal)) → Res (List Op) → Prop
  | [], r => r = .ok []
  | (name, args, kwargs) :: rest, r =>
    (∃ e, (f.get name).bind (fun c => c.call args kwargs) = .error e ∧ r = .error e) ∨
    ∃ op tail, (f.get name).bind (fun c => c.call args kwargs) = .ok op ∧ Makes f rest tail ∧
      ((∃ e, tail = .error e ∧ r = .error e) ∨ ∃ ops, tail = .ok ops ∧ r = .ok (op :: ops))

end Spec
end Uttut
