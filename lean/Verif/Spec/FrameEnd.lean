import Verif.Spec.Frame

/-! Token lists of a fixed length with a token behind the text. -/

namespace Uttut.Spec

/-- The tokens, `e`; then cut to `n` tokens, or filled up with `p`. -/
def ended {α : Type} (e p : α) (n : Nat) (toks : List α) : List α :=
  (toks ++ [e]).take n ++ List.replicate (n - (toks.length + 1)) p

/-- What `n` labels say of `len` tokens at the front: tokens that were cut off get 0. -/
def unended (n len : Nat) (ys : List Int) : List Int := ys.take len ++ List.replicate (len - n) 0

end Uttut.Spec
