import Verif.Spec.Edit
import Verif.Model.History

/-! Specification vocabulary for C77: group objects over a sequence of calls. It only looks at the calls. -/

namespace Uttut.Spec

variable {V : Type}

/-- The bounds are well-ordered and fit. -/
def GoodBounds (start stop : Int) : Prop := 0 ≤ start ∧ start ≤ stop ∧ stop < 2 ^ 32

instance (start stop : Int) : Decidable (GoodBounds start stop) := by unfold GoodBounds; infer_instance

/-- A bound that is not an unsigned 32-bit integer. -/
def BadBound (i : Int) : Prop := i < 0 ∨ 2 ^ 32 ≤ i

/-- The replacement a call adds, if any. -/
def addedBy : GroupCall V → List (Rep V)
  | .add start stop v => if GoodBounds start stop then [⟨start.toNat, stop.toNat, v⟩] else []
  | .done _ _ => []

/-- All replacements added by the calls, in order. -/
def added (calls : List (GroupCall V)) : List (Rep V) := calls.flatMap addedBy

/-- What `done()` checks. -/
def Valid [NewValue V] (rs : List (Rep V)) : Prop := SameKind rs ∧ PairwiseDisjoint rs

/-- The exception raised by a call when `rs` have been added before. -/
inductive Raises [NewValue V] (rs : List (Rep V)) : GroupCall V → Option Exc → Prop
  | overflow (start stop : Int) (v : V) (h : BadBound start ∨ BadBound stop) :
      Raises rs (.add start stop v) (some .overflowError)
  | add (start stop : Int) (v : V) (h : ¬ BadBound start) (h' : ¬ BadBound stop) : Raises rs (.add start stop v) none
  | skip (σ : SetOrder) : Raises rs (.done σ true) none
  | done (σ : SetOrder) (h : Valid rs) : Raises rs (.done σ false) none
  | kinds (σ : SetOrder) (h : ¬ SameKind rs) : Raises rs (.done σ false) (some .typeError)
  | overlap (σ : SetOrder) (h : SameKind rs) (h' : ¬ PairwiseDisjoint rs) : Raises rs (.done σ false) (some .valueError)

/-- Some call of `done` returned normally. -/
def Finalised [NewValue V] (calls : List (GroupCall V)) : Prop :=
  ∃ pre σ skip post, calls = pre ++ .done σ skip :: post ∧ (skip = true ∨ Valid (added pre))

/-- The span a call adds, if any. -/
def spanAddedBy : SpanCall → List Span
  | .add start stop => if GoodBounds start stop then [⟨start.toNat, stop.toNat⟩] else []
  | .done => []

/-- All spans added by the calls, in order. -/
def spansAdded (calls : List SpanCall) : List Span := calls.flatMap spanAddedBy

/-- What `done()` checks of spans: sorted by their ends, they are contiguous from 0. -/
def ValidSpans (ss : List Span) : Prop := ∃ sorted, IsStableSort Span.stop ss sorted ∧ Tiles 0 sorted

/-- The exception raised by a call when `ss` have been added before. -/
inductive SpanRaises (ss : List Span) : SpanCall → Option Exc → Prop
  | overflow (start stop : Int) (h : BadBound start ∨ BadBound stop) :
      SpanRaises ss (.add start stop) (some .overflowError)
  | add (start stop : Int) (h : ¬ BadBound start) (h' : ¬ BadBound stop) : SpanRaises ss (.add start stop) none
  | done (h : ValidSpans ss) : SpanRaises ss .done none
  | invalid (h : ¬ ValidSpans ss) : SpanRaises ss .done (some .valueError)

/-- Some call of `done` returned normally. -/
def SpansFinalised (calls : List SpanCall) : Prop :=
  ∃ pre post, calls = pre ++ .done :: post ∧ ValidSpans (spansAdded pre)

end Uttut.Spec
