import Verif.Spec.Interchange
import Verif.Spec.Ops

/-! Specification vocabulary for C79: operators and pipes applied to a sequence part by part. -/

namespace Uttut.Spec

/-- `z` is `x` followed by `y`. -/
inductive Joined : (x y z : Seq) → Prop
  | str (x y : Str) : Joined (.str x) (.str y) (.str (x ++ y))
  | list (x y : List Tok) : Joined (.list x) (.list y) (.list (x ++ y))

/-- What a call on a sequence gives: the new sequence, and the answers to labels of the input (forward) and of the
output (backward). -/
abbrev Outcome := Res (Seq × (List Int → Res (List Int)) × (List Int → Res (List Int)))

/-- `op.transform(s)`. -/
def opOutcome (op : Op) (s : Seq) : Outcome :=
  (op.transform s).map fun r => (r.1, r.2.transform, r.2.inverseTransform)

/-- `pipe.transform_sequence(s)` of a pipe with these steps. -/
def stepsOutcome (ops : List Op) (s : Seq) : Outcome :=
  (Pipe.transformSequence ⟨ops, []⟩ s).map fun r => (r.1, alignAll r.2.1, realignAll r.2.1)

/-- Two answers, one after the other; if both are exceptions, the first one. -/
def bothAnswers (r s : Res (List Int)) : Res (List Int) := do
  let x ← r
  let y ← s
  return x ++ y

/-- The call on `x` followed by `y` gives what the calls on `x` and on `y` give, put together: the outputs, the labels
forward and the labels backward; an exception of the first part, or else of the second, is the exception of the
whole. -/
structure InParts (f : Seq → Outcome) (x y : Seq) : Prop where
  fails : ∀ z e, Joined x y z → f x = .error e → f z = .error e
  failsThen : ∀ z r e, Joined x y z → f x = .ok r → f y = .error e → f z = .error e
  gives : ∀ z o₁ o₂ f₁ f₂ b₁ b₂, Joined x y z → f x = .ok (o₁, f₁, b₁) → f y = .ok (o₂, f₂, b₂) →
    ∃ o f' b', f z = .ok (o, f', b') ∧ Joined o₁ o₂ o ∧
      (∀ l₁ l₂, l₁.length = x.length → l₂.length = y.length → f' (l₁ ++ l₂) = bothAnswers (f₁ l₁) (f₂ l₂)) ∧
      (∀ l₁ l₂, l₁.length = o₁.length → l₂.length = o₂.length → b' (l₁ ++ l₂) = bothAnswers (b₁ l₁) (b₂ l₂))

/-- The answer `t` for the whole goes with the answers `r` and `s` for the parts: both results put together, or an
exception of one of the parts. -/
def Together {α : Type} (join : α → α → α → Prop) (r s t : Res α) : Prop :=
  (∀ x y, r = .ok x → s = .ok y → ∃ z, t = .ok z ∧ join x y z) ∧
  (∀ e, r = .error e ∨ s = .error e → ∃ e', t = .error e' ∧ (r = .error e' ∨ s = .error e'))

/-- As `InParts`, without saying which of two exceptions it is when both parts raise one. -/
structure InPartsSomehow (f : Seq → Outcome) (x y : Seq) : Prop where
  either : ∀ z, Joined x y z → Together (fun r₁ r₂ r => Joined r₁.1 r₂.1 r.1) (f x) (f y) (f z)
  forward : ∀ z r₁ r₂ r l₁ l₂, Joined x y z → f x = .ok r₁ → f y = .ok r₂ → f z = .ok r →
    l₁.length = x.length → l₂.length = y.length →
    Together (fun k₁ k₂ k => k = k₁ ++ k₂) (r₁.2.1 l₁) (r₂.2.1 l₂) (r.2.1 (l₁ ++ l₂))
  backward : ∀ z r₁ r₂ r l₁ l₂, Joined x y z → f x = .ok r₁ → f y = .ok r₂ → f z = .ok r →
    l₁.length = r₁.1.length → l₂.length = r₂.1.length →
    Together (fun k₁ k₂ k => k = k₁ ++ k₂) (r₁.2.2 l₁) (r₂.2.2 l₂) (r.2.2 (l₁ ++ l₂))

/-- Each step works part by part on what the steps before it make of the parts. -/
def EachInParts : List Op → (x y : Seq) → Prop
  | [], _, _ => True
  | op :: ops, x, y => InPartsSomehow (opOutcome op) x y ∧
    ∀ x' y', Gives op x x' → Gives op y y' → EachInParts ops x' y'

/-- Not both of the characters that meet where `y` follows `x` are in `p`. -/
def PartedAt (p : Char → Bool) (x y : Str) : Prop := ∀ c ∈ x.getLast?, ∀ d ∈ y.head?, p c = false ∨ p d = false

/-- The `p`-characters at the end of a text. -/
def endRun (p : Char → Bool) (x : Str) : Str := (x.reverse.takeWhile p).reverse

/-- The `p`-characters at the beginning of a text. -/
def startRun (p : Char → Bool) (y : Str) : Str := y.takeWhile p

/-- Where `y` follows `x`, no `p`-characters meet, or those that meet are no number (`q`), neither those of `x` nor those of
`y` nor all together. -/
def NoNumberAt (p : Char → Bool) (q : Str → Bool) (x y : Str) : Prop :=
  endRun p x = [] ∨ startRun p y = [] ∨
    q (endRun p x) = false ∧ q (startRun p y) = false ∧ q (endRun p x ++ startRun p y) = false

/-- One of the characters that meet where `y` follows `x` is in `p`. -/
def CutAt (p : Char → Bool) (x y : Str) : Prop := ∀ c ∈ x.getLast?, ∀ d ∈ y.head?, p c = true ∨ p d = true

/-- No word of `ws` begins in `x` and ends in the following `y`. -/
def NoneAcross (ws : List Str) (x y : Str) : Prop :=
  ∀ w ∈ ws, ∀ v t, w = v ++ t → v ≠ [] → t ≠ [] → v <:+ x → ¬ t <+: y

/-- A text decomposed, without the non-spacing marks. -/
def withoutAccents (u : Unicode) (s : Str) : Str := (u.nfd s).filter fun c => !u.isMn c

/-- Matches found in a text, at their places after `n` more characters. -/
def matchesAfter (n : Nat) (ms : List (Nat × Nat)) : List (Nat × Nat) := ms.map fun p => (n + p.1, n + p.2)

/-- Searching `x` followed by `y` finds the matches of `x` and then those of `y`. -/
structure MatchesApart (m : Matcher) (x y : Str) (ms ns : List (Nat × Nat)) : Prop where
  sound : SoundMatcher m x ∧ SoundMatcher m y ∧ SoundMatcher m (x ++ y)
  first : Scan m x 0 ms
  second : Scan m y 0 ns
  whole : Scan m (x ++ y) 0 (ms ++ matchesAfter x.length ns)

end Uttut.Spec
