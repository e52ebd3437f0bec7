import Verif.Model.Reprs
import Verif.Spec.Messages
import Mathlib.Data.List.Forall2

/-!
What `repr` and `str` show.
-/

namespace Uttut.Spec

/-- The items one after the other, with the separator in between. -/
inductive Enumerated (sep : String) : List Str → Str → Prop
  | nil : Enumerated sep [] []
  | one (x : Str) : Enumerated sep [x] x
  | more (x y : Str) (ys : List Str) (t : Str) (h : Enumerated sep (y :: ys) t) : Enumerated sep (x :: y :: ys) (x ++ sep.toList ++ t)

/-- A list in brackets: on one line if this has at most 80 characters, otherwise each item on a line of its own. -/
def Layout (items : List Str) (text : Str) : Prop :=
  ∃ one many, Enumerated ", " items one ∧ Enumerated ",\n " items many ∧
    ((one.length ≤ 78 ∧ text = '[' :: one ++ [']']) ∨ (78 < one.length ∧ text = '[' :: many ++ [']']))

/-- An intent shown by its label. -/
def IntentText (i : Intent) (text : Str) : Prop := ∃ s, Numeral i.label s ∧ text = "<Intent ".toList ++ s ++ ">".toList

/-- An entity shown by label, value, place and replacements, these in some order. -/
def EntityText (e : Entity) (text : Str) : Prop :=
  ∃ l s t rs r, Numeral e.label l ∧ Numeral e.start s ∧ Numeral e.stop t ∧ rs.Nodup ∧ (∀ x, x ∈ rs ↔ x ∈ e.replacements) ∧
    Enumerated ", " rs r ∧
    text = "<Entity ".toList ++ l ++ ": ".toList ++ e.value ++ " at ".toList ++ s ++ " - ".toList ++ t ++
      ", with replacements: ".toList ++ r ++ ">".toList

/-- A datum shown by its utterance, its intents and its entities, each in order. -/
def DatumText (d : Datum) (text : Str) : Prop :=
  ∃ is es a b, List.Forall₂ IntentText d.intents is ∧ List.Forall₂ EntityText d.entities es ∧ Layout is a ∧ Layout es b ∧
    text = "<Datum ".toList ++ d.utterance ++ "\n with intents: ".toList ++ a ++ "\n with entities:\n".toList ++ b ++
      ">".toList

/-- Neither value nor replacements contain `<`. -/
def NoBracket (e : Entity) : Prop := '<' ∉ e.value ∧ ∀ r ∈ e.replacements, '<' ∉ r

end Uttut.Spec
