import Verif.Spec.Construct
import Verif.Model.Pipe

/-! Specification vocabulary for C76: steps of a pipe that can stand for each other. -/

namespace Uttut.Spec

/-- An operator made by calling the class of that name with any arguments. -/
def Made (env : Env) (name : String) (op : Op) : Prop := ∃ args kwargs, create env name args kwargs = .ok op

/-- Two results of `transform_sequence` that differ in the intermediates only: the same exception, or the same output
and the same answer (labels or exception) to every list of labels, in both directions. -/
inductive SameOutcome : Res (Seq × List Aligner × List Seq) → Res (Seq × List Aligner × List Seq) → Prop
  | error (e : Exc) : SameOutcome (.error e) (.error e)
  | ok (out : Seq) (as bs : List Aligner) (coll coll' : List Seq) (forward : ∀ ls, alignAll as ls = alignAll bs ls)
      (backward : ∀ ls, realignAll as ls = realignAll bs ls) : SameOutcome (.ok (out, as, coll)) (.ok (out, bs, coll'))

/-- Two lists of steps with the same outcome on every sequence. -/
def Interchangeable (xs ys : List Op) : Prop :=
  ∀ s, SameOutcome (Pipe.transformSequence ⟨xs, []⟩ s) (Pipe.transformSequence ⟨ys, []⟩ s)

end Uttut.Spec
