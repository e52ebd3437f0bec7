import Verif.Spec.Seeds

/-!
Specification: the code with 32-bit positions and the code with unbounded positions cannot be told apart as long as
no sequence passes the limits.
-/

namespace Uttut.Spec

/-- A use of an operator within the limits: at most 2^31 elements go in, fewer than 2^32 come out. -/
structure Small (op : Op) (s : Seq) : Prop where
  input : s.length ≤ 2 ^ 31
  output : ∀ out a, op.transform s = .ok (out, a) → out.length < 2 ^ 32

/-- Operators with the same class name, types and configuration; `m` answers like `op` to all uses within the limits. -/
structure SameWithin (m op : Op) : Prop where
  name : m.cls.name = op.cls.name
  inputType : m.cls.inputType = op.cls.inputType
  outputType : m.cls.outputType = op.cls.outputType
  configs : m.configs = op.configs
  transform : ∀ s, Small op s → SameRes (m.transform s) (op.transform s)

/-- Two outcomes of an action that makes something: the same exception, or things related by `R`. -/
inductive SameMade {α : Type} (R : α → α → Prop) : Res α → Res α → Prop
  | error (e : Exc) : SameMade R (.error e) (.error e)
  | ok (x y : α) (h : R x y) : SameMade R (.ok x) (.ok y)

/-- Pipes with the same checkpoints and with steps that answer alike within the limits. -/
structure SamePipeWithin (p q : Pipe) : Prop where
  steps : Pairwise₂ SameWithin p.steps q.steps
  checkpoints : p.checkpoints = q.checkpoints

/-- All sequences between the steps are within the limits. -/
def SmallRun : List Op → Seq → Prop
  | [], _ => True
  | op :: ops, s => Small op s ∧ ∀ t a, op.transform s = .ok (t, a) → SmallRun ops t

end Uttut.Spec
