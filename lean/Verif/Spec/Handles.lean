import Verif.Model.Handles
import Verif.Spec.Slice

/-! What a program with changed `pipe.steps` and `pipe.checkpoints` may expect. -/

namespace Uttut

/-- The pipe a command may change. -/
def HandleCmd.target : HandleCmd → Option Nat
  | .call (.addOp i _ _) => some i
  | .call (.add i _ _ _ _) => some i
  | .call (.iadd i _) => some i
  | .call _ => none
  | .editSteps i _ => some i
  | .editCheckpoints i _ => some i

end Uttut
