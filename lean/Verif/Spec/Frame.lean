import Verif.Spec.Construct
import Verif.Spec.Pipe

/-! Token lists of a fixed length with a token before and after the text, as models want them. -/

namespace Uttut.Spec

/-- `b`, the tokens, `e`; then cut to `n` tokens, or filled up with `p`. -/
def framed {α : Type} (b e p : α) (n : Nat) (toks : List α) : List α :=
  (b :: toks ++ [e]).take n ++ List.replicate (n - (toks.length + 2)) p

/-- What `n` labels say of `len` tokens behind the first: tokens that were cut off get 0. -/
def unframed (n len : Nat) (ys : List Int) : List Int :=
  (ys.drop 1).take len ++ List.replicate (len - (n - 1)) 0

end Uttut.Spec
