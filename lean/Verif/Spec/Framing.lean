import Verif.Spec.Interchange
import Verif.Spec.Raise

/-! Specification vocabulary for C111: steps that put tokens around or behind the others, before or after the step that
translates the tokens. -/

namespace Uttut.Spec

/-- The steps that translate every token by itself. -/
def translatorNames : List String := ["Token2Index", "Token2IndexwithHash", "PureNum2Token"]

/-- What a framing step does to a list of tokens. -/
inductive Frame
  /-- `Pad(m, p)` -/
  | pad (m : Nat) (p : Tok)
  /-- `AddSosEos(b, e)` -/
  | ends (b e : Tok)
  /-- `AddEndToken(e)` -/
  | last (e : Str)

/-- The step is made with the arguments of the frame. -/
def Frame.Is (env : Env) : Frame → Op → Prop
  | .pad m p, op => ∃ args kwargs v w, bound padParams args kwargs = some [v, w] ∧ IsNumber v m ∧ IsToken w p ∧
      create env "Pad" args kwargs = .ok op
  | .ends b e, op => ∃ args kwargs v w, bound sosEosParams args kwargs = some [v, w] ∧ IsToken v b ∧ IsToken w e ∧
      create env "AddSosEos" args kwargs = .ok op
  | .last e, op => ∃ args kwargs, bound endTokenParams args kwargs = some [.str e] ∧
      create env "AddEndToken" args kwargs = .ok op

/-- The number of tokens that `n` tokens become. -/
def Frame.size : Frame → Nat → Nat
  | .pad m _, _ => m
  | .ends _ _, n => n + 2
  | .last _, n => n + 1

/-- `n` tokens can be framed: indices fit `unsigned int`, and `AddSosEos` has a token to stand around. -/
def Frame.Fits : Frame → Nat → Prop
  | .ends _ _, n => 0 < n ∧ n < 2 ^ 32
  | _, n => n < 2 ^ 32

/-- The frame keeps `n` tokens, it does not cut them off. -/
def Frame.Keeps : Frame → Nat → Prop
  | .pad m _, n => n ≤ m
  | _, _ => True

/-- The second frame has the tokens that `T` gives for those of the first. -/
inductive Translated (T : Op) : Frame → Frame → Prop
  | pad (m : Nat) (p p' : Tok) : Gives T (.list [p]) (.list [p']) → Translated T (.pad m p) (.pad m p')
  | ends (b e b' e' : Tok) : Gives T (.list [b]) (.list [b']) → Gives T (.list [e]) (.list [e']) →
      Translated T (.ends b e) (.ends b' e')
  | last (e e' : Str) : Gives T (.list [.str e]) (.list [.str e']) → Translated T (.last e) (.last e')

/-- Two lists of framing steps for lists of `n` tokens, the second with the tokens translated by `T`; with `keep = true`
no step cuts tokens off. -/
inductive Framings (env : Env) (T : Op) (keep : Bool) : Nat → List Op → List Op → Prop
  | nil (n : Nat) : Framings env T keep n [] []
  | cons (n : Nat) (f f' : Frame) (F F' : Op) (Fs Fs' : List Op) : f.Is env F → f'.Is env F' → Translated T f f' →
      f.Fits n → (keep = true → f.Keeps n) → Framings env T keep (f.size n) Fs Fs' →
      Framings env T keep n (F :: Fs) (F' :: Fs')

end Uttut.Spec
