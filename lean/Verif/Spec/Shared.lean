import Verif.Model.Shared

/-!
What the inverse direction of the operators on lists needs from the list the aligner keeps.
-/

namespace Uttut.Spec

/-- A list of `n` elements still has every element the operator replaced or removed: `Pad` removed the elements from
`maxlen` on, `SpanSubwords` replaced the words that are not their own pieces, the other operators with an edit only
inserted, and those with a null aligner do not ask. -/
def StillThere (k : ListOperator) (l : List Tok) (n : Nat) : Prop :=
  match k with
  | .pad maxlen _ => maxlen < l.length → l.length ≤ n
  | .spanSubwords vocab unk maxChars =>
    ∀ (i : Nat) (w : Str), l[i]? = some (.str w) → SpanSubwords.spanSubwords vocab unk maxChars w ≠ .ok [w] → i < n
  | _ => True

/-- The operators whose aligner hands the label list through. -/
def HandsThrough : ListOperator → Prop
  | .token2Index _ _ => True
  | .token2IndexWithHash _ => True
  | .pureNum2Token _ => True
  | _ => False

/-- The class an operator on lists is of. -/
def classOf : ListOperator → String
  | .addSosEos _ _ => "AddSosEos"
  | .addEndToken _ => "AddEndToken"
  | .pad _ _ => "Pad"
  | .token2Index _ _ => "Token2Index"
  | .token2IndexWithHash _ => "Token2IndexwithHash"
  | .pureNum2Token _ => "PureNum2Token"
  | .spanSubwords _ _ _ => "SpanSubwords"

/-- What `transform` of the operator gives is what the live operator gives; its aligner is the live one reading the
sequence it was made for. -/
def Stands (σ : SetOrder) (u : Unicode) (op : Op) (lop : LiveOp) : Prop :=
  ∀ s t a, op.transform s = .ok (t, a) → ∃ b, lop.run σ u s = .ok (t, b) ∧ a = b.now s

/-- Step by step. -/
inductive StandsAll (σ : SetOrder) (u : Unicode) : List Op → List LiveOp → Prop
  | nil : StandsAll σ u [] []
  | cons (op : Op) (lop : LiveOp) (ops : List Op) (lops : List LiveOp) (h : Stands σ u op lop)
      (t : StandsAll σ u ops lops) : StandsAll σ u (op :: ops) (lop :: lops)

/-- The aligners of a pipe run, as they are in the state `s`. -/
def alignersAt (s : Shared) (is : List Nat) : List Aligner := is.filterMap s.aligner?

end Uttut.Spec
