import Verif.Model.Edit

/-!
Group objects as mutable state: what a call of `add` or `done` leaves behind, also when it raises. `Model/Edit.lean`
has the same methods as functions from group to group, which is enough for groups that are finalised once.
-/

namespace Uttut

/-- A call of a method of a `ReplacementGroup` that changes it. Each `done` makes its own set, so each may see its own
iteration order. -/
inductive GroupCall (V : Type)
  | add (start stop : Int) (v : V)
  | done (σ : SetOrder) (skipSort : Bool)

namespace ReplacementGroup

variable {V : Type}

/-- `pipeline/edit/replacement.pyx:81-111` `add` and `done` as statements: the group afterwards and the exception, if
any. `done` assigns `_replacements` before it validates, `_is_done` only at the end. -/
def call [DecidableEq V] [NewValue V] (g : ReplacementGroup V) : GroupCall V → ReplacementGroup V × Option Exc
  | .add start stop v =>
    match g.addPy start stop v with
    | .ok g' => (g', none)
    | .error e => (g, some e)
  | .done σ skipSort =>
    let reps := σ.listSet g.reps
    if reps.length ≠ 0 ∧ skipSort = false then
      match validateNewValues reps with
      | .error e => (⟨reps, g.isDone⟩, some e)
      | .ok () =>
        let sorted := sortReps reps
        match validateDisjoint (sorted.map fun r => (r.start, r.stop)) with
        | .error e => (⟨sorted, g.isDone⟩, some e)
        | .ok () => (⟨sorted, true⟩, none)
    else (⟨reps, true⟩, none)

/-- The group after the calls, exceptions being caught by the caller. -/
def after [DecidableEq V] [NewValue V] (g : ReplacementGroup V) (calls : List (GroupCall V)) : ReplacementGroup V :=
  calls.foldl (fun g c => (g.call c).1) g

end ReplacementGroup

/-- A call of a method of a `SpanGroup` that changes it. -/
inductive SpanCall
  | add (start stop : Int)
  | done

namespace SpanGroup

/-- `pipeline/edit/span.pyx:45-58` `add` and `done` as statements: the group afterwards and the exception, if any. -/
def call (g : SpanGroup) : SpanCall → SpanGroup × Option Exc
  | .add start stop =>
    match g.addPy start stop with
    | .ok g' => (g', none)
    | .error e => (g, some e)
  | .done =>
    if g.spans.length ≠ 0 then
      let sorted := sortSpans g.spans
      match ReplacementGroup.validateDisjoint (sorted.map fun s => (s.start, s.stop)) with
      | .error e => (⟨sorted, g.isDone⟩, some e)
      | .ok () =>
        match validateContiguousness sorted with
        | .error e => (⟨sorted, g.isDone⟩, some e)
        | .ok () => (⟨sorted, true⟩, none)
    else (⟨g.spans, true⟩, none)

/-- The group after the calls, exceptions being caught by the caller. -/
def after (g : SpanGroup) (calls : List SpanCall) : SpanGroup := calls.foldl (fun g c => (g.call c).1) g

/-- `pipeline/edit/span.pyx:94-95` `is_empty`. -/
def isEmpty (g : SpanGroup) : Bool := g.spans.length == 0

end SpanGroup

end Uttut
