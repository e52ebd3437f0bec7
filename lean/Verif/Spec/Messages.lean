import Verif.Model.Messages
import Verif.Spec.Data
import Verif.Spec.Edit
import Verif.Spec.Summary

/-!
What the texts of exceptions say.
-/

namespace Uttut.Spec

/-- The outcome of a call without the text of its exception. -/
def plain {α : Type} : ResM α → Res α
  | .ok a => .ok a
  | .error (x, _) => .error x

/-- An integer in decimal digits, with a minus sign if it is negative. -/
inductive Numeral : Int → Str → Prop
  | nat (n : Nat) (t : Str) (h : Decimal n t) : Numeral n t
  | neg (n : Nat) (t : Str) (hn : 0 < n) (h : Decimal n t) : Numeral (-n) ('-' :: t)

/-- In the order of their starts, `e` is the first entity with a value that is not the text at its position. -/
def FirstWrong (u : Str) (es : List Entity) (e : Entity) : Prop :=
  ∃ xs ys, IsStableSort Entity.start es (xs ++ e :: ys) ∧ (∀ x ∈ xs, ValueAt u x) ∧ ¬ ValueAt u e

/-- All values are right; in the order of their starts, `e` and `f` are the first neighbours of which the former does
not end before the latter starts. -/
def FirstOverlap (u : Str) (es : List Entity) (e f : Entity) : Prop :=
  (∀ x ∈ es, ValueAt u x) ∧
    ∃ xs ys, IsStableSort Entity.start es (xs ++ e :: f :: ys) ∧ Neighbours Before (xs ++ [e]) ∧ ¬ Before e f

/-- The text says where the entity is, what it expects there and what is there. -/
def PositionText (u : Str) (e : Entity) (text : Str) : Prop :=
  ∃ s t, Numeral e.start s ∧ Numeral e.stop t ∧
    text = "\n        Utterance position ".toList ++ s ++ " - ".toList ++ t ++ " expected to be ".toList ++ e.value ++
      ",\n        but got ".toList ++ pySlice u e.start e.stop ++ ".\n    ".toList

/-- The text names both entities, the end of the one and the start of the other. -/
def OverlapText (u : Str) (e f : Entity) (text : Str) : Prop :=
  ∃ s t rest, Numeral e.stop s ∧ Numeral f.start t ∧
    rest = ",\n        which are overlapping. Currently, uttut doesn't support overlapping or hierachy entities.\n    ".toList ∧
    text = "\n        For utterance ".toList ++ u ++ ", entity ".toList ++ e.value ++ " ends at ".toList ++ s ++
      ", and entity ".toList ++ f.value ++ " starts at ".toList ++ t ++ rest

/-- `x` is the first element of the list without the property. -/
def FirstNot {α : Type} (P : α → Prop) (l : List α) (x : α) : Prop :=
  ∃ xs ys, l = xs ++ x :: ys ∧ (∀ y ∈ xs, P y) ∧ ¬ P x

/-- The text says which number has no name. -/
def UnknownText (what : String) (n : Int) (text : Str) : Prop :=
  ∃ s, Numeral n s ∧ text = what.toList ++ " index ".toList ++ s ++ " not found".toList

/-- The number of the intent has a name. -/
def IntentNamed (t : OrdinalLabel) (i : Intent) : Prop := ∃ name, (name, i.label) ∈ t.intent2index

/-- The label of the entity has a name. -/
def EntityNamed (t : OrdinalLabel) (e : Entity) : Prop := ∃ name, (name, e.label) ∈ t.entity2index

/-- The token has the length of the span. -/
def FitsSpan (token : Str) (span : Span) : Prop := span.start + token.length = span.stop

/-- The text gives a position in the list. -/
def PositionIs (i : Nat) (rest text : Str) : Prop := ∃ s, Decimal i s ∧ text = s ++ rest

/-- The span at each of the positions before `i` has the length of the token there; the one at `i` has not. -/
def FirstUnfit (tokens : List Str) (spans : List Span) (i : Nat) : Prop :=
  (∀ j t s, j < i → tokens[j]? = some t → spans[j]? = some s → FitsSpan t s) ∧
    ∃ t s, tokens[i]? = some t ∧ spans[i]? = some s ∧ ¬ FitsSpan t s

/-- Up to position `i` all values have the type of the first one, at `i` the type is another one. -/
def FirstOtherKind {V : Type} [NewValue V] (reps : List (Rep V)) (i : Nat) (k : PyKind) : Prop :=
  (∃ r, reps[0]? = some r ∧ NewValue.kind r.val = k) ∧
    (∀ j r, j < i → reps[j]? = some r → NewValue.kind r.val = k) ∧ ∃ r, reps[i]? = some r ∧ NewValue.kind r.val ≠ k

end Uttut.Spec
