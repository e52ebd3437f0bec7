import Verif.Model.Messages

/-!
The remaining `__repr__`s and `__str__`s: those of data (`uttut/elements.pyx`), spans, replacements and their groups
(`uttut/pipeline/edit/span.pyx`, `replacement.pyx`).
-/

namespace Uttut

/-- `pipeline/edit/span.pyx:29-30` `Span.__str__`. -/
def Span.str (s : Span) : Str := "(".toList ++ fmtInt s.start ++ ", ".toList ++ fmtInt s.stop ++ ")".toList

/-- `pipeline/edit/span.pyx:32-33` `Span.__repr__`. -/
def Span.repr (s : Span) : Str := "Span(".toList ++ fmtInt s.start ++ ", ".toList ++ fmtInt s.stop ++ ")".toList

/-- `pipeline/edit/span.pyx:118-119` `SpanGroup.__repr__`: the name of the class (a subclass would have its own). -/
def SpanGroup.repr (_ : SpanGroup) : Str := "SpanGroup".toList

/-- `pipeline/edit/replacement.pyx:63-67` `Replacement.__repr__`, for a new value that is a text; the annotation, which
is not part of `Rep`, is given as its text (`None` for a replacement without one). -/
def Rep.repr (r : Rep Str) (annotation : Str) : Str :=
  "Replacement(".toList ++ fmtInt r.start ++ ", ".toList ++ fmtInt r.stop ++ ", ".toList ++ r.val ++
    ", annotation=".toList ++ annotation ++ ")".toList

/-- `pipeline/edit/replacement.pyx:166-169` `ReplacementGroup.__repr__`. -/
def ReplacementGroup.repr {V : Type} (g : ReplacementGroup V) : Str :=
  "ReplacementGroup has ".toList ++ fmtInt g.reps.length ++ " elements".toList

/-- `pprint.pformat` (standard library, default width 80 and indentation 1) of a list of objects of which the `repr`s are
given and that `pprint` has no layout for: on one line if this fits, otherwise one line for each of them (an element that
is too long, or has several lines, is written as it is). -/
def pformat (reprs : List Str) : Str :=
  let rep := "[".toList ++ joinWith ", ".toList reprs ++ "]".toList
  if rep.length > 80 then "[".toList ++ joinWith ",\n ".toList reprs ++ "]".toList else rep

/-- `elements.pyx:151-155` `Datum.__repr__` (replacements of entities that are texts). -/
def Datum.repr (σ : SetOrder) (d : Datum) : Str :=
  "<Datum ".toList ++ d.utterance ++ "\n with intents: ".toList ++ pformat (d.intents.map fun i => i.repr) ++
    "\n with entities:\n".toList ++ pformat (d.entities.map fun e => e.repr σ) ++ ">".toList

end Uttut
