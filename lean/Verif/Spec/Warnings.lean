import Verif.Model.Warnings

/-!
What it means for a call to issue a number of warnings.
-/

namespace Uttut
namespace Spec

/-- The call issues `n` warnings of the category and then ends with `r`; if warnings of the category are turned
into exceptions and there is one, that is the outcome and nothing else happens. -/
def Issues {α : Type} (m : Warned α) (c : Category) (n : Nat) (r : Res α) : Prop :=
  (∀ p : Category → Bool, p c = false →
    m.run p = (List.replicate n c, match r with | .ok a => .ok a | .error e => .error (.exc e))) ∧
  (∀ p : Category → Bool, p c = true → 0 < n → m.run p = ([], .error (.warning c))) ∧
  (∀ p : Category → Bool, p c = true → n = 0 →
    m.run p = ([], match r with | .ok a => .ok a | .error e => .error (.exc e)))

/-- 1 for a group on which `done` has not succeeded. -/
def unfinished (isDone : Bool) : Nat := match isDone with | true => 0 | false => 1

end Spec
end Uttut
