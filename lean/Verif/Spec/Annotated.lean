import Verif.Spec.History
import Verif.Model.Annotated

/-!
Which annotation a replacement has, from the calls alone.
-/

namespace Uttut
namespace Spec

variable {V A : Type}

/-- The same call without annotations. -/
def bare : NotedCall V A → GroupCall V
  | .add start stop v _ => .add start stop v
  | .done σ skip => .done σ skip

/-- The first call that adds `r` gives it the annotation `a`. -/
def FirstNote (calls : List (NotedCall V A)) (r : Rep V) (a : A) : Prop :=
  ∃ pre start stop post, calls = pre ++ .add start stop r.val a :: post ∧ GoodBounds start stop ∧
    start = r.start ∧ stop = r.stop ∧ r ∉ added (pre.map bare)

/-- A tuple without its annotation. -/
def bareTuple : RepTuple V A → Option (Int × Int × V)
  | .three start stop v => some (start, stop, v)
  | .four start stop v _ => some (start, stop, v)
  | .other _ => none

/-- The call a tuple stands for. -/
def tupleCall (default : A) : RepTuple V A → Option (NotedCall V A)
  | .three start stop v => some (.add start stop v default)
  | .four start stop v a => some (.add start stop v a)
  | .other _ => none

/-- `add` refuses the tuple for one of its bounds. -/
def badTuple : RepTuple V A → Prop
  | .three start stop _ => BadBound start ∨ BadBound stop
  | .four start stop _ _ => BadBound start ∨ BadBound stop
  | .other _ => False

end Spec
end Uttut
