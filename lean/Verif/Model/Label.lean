import Verif.Model.Edit

/-
Model of `uttut/pipeline/edit/label_propagation.pyx` and `uttut/pipeline/ops/label_transducer.py`.
-/

namespace Uttut

/-- `uttut/__init__.py:12-14` `ENTITY_LABEL['NOT_ENTITY']`. -/
def notEntity : Int := 0

/-- Type of `transduce_func(labels, output_size)`. -/
abbrev Transducer := List Int → Nat → Res (List Int)

/-- `label_propagation.pyx:84-91`: counting loop over a dict in insertion order. -/
def countInto (counter : List (Int × Nat)) (i : Int) : List (Int × Nat) :=
  match dictGet counter i with
  | some n => dictSet counter i (n + 1)
  | none => dictSet counter i 1

/-- `label_propagation.pyx:84-91` counter after the loop; also `collections.Counter(labels)`. -/
def counterOf (labels : List Int) : List (Int × Nat) := labels.foldl countInto []

/-- `label_propagation.pyx:95-98`: scan for the first strictly largest count. -/
def scanMax : List (Int × Nat) → (maxKey : Int) → (maxValue : Nat) → Int
  | [], k, _ => k
  | (key, n) :: rest, k, m => if n > m then scanMax rest key n else scanMax rest k m

/-- `label_propagation.pyx:78-100` `_count_and_get_most_common`. `i` is a C `unsigned int`: a label that
does not fit raises OverflowError, which is swallowed (no `except` clause, `__Pyx_WriteUnraisable`)
and 0 is returned. -/
def countAndGetMostCommon (ints : List Int) : Int :=
  match ints.mapM toUInt with
  | .ok _ => scanMax (counterOf ints) 0 0
  | .error _ => 0

/-- `label_propagation.pyx:62-75` `_get_most_common_label`, the default transducer. -/
def getMostCommonLabel : Transducer := fun labels outputSize =>
  let l := if labels.length = 0 then notEntity else countAndGetMostCommon labels
  .ok (List.replicate outputSize l)

/-- `label_propagation.pyx:103-115` `_compute_output_length`: C unsigned arithmetic, wraps modulo 2^32.
(A group that is not done raises inside and yields 0.) -/
def computeOutputLength {β : Type} (n : Nat) (g : ReplacementGroup (List β)) : Nat :=
  match g.items with
  | .error _ => 0
  | .ok rs =>
    ((n : Int) + (rs.map fun r => (r.val.length : Int) - ((r.stop : Int) - r.start)).sum).emod
      uintBound |>.toNat

/-- `label_propagation.pyx:41-55`: main loop, state `(i_start, o_start, output_labels)`. -/
def propagateLoop {β : Type} (labels : List Int) (f : Transducer) :
    List (Rep (List β)) → (iStart oStart : Nat) → (out : List Int) → Res (Nat × Nat × List Int)
  | [], iStart, oStart, out => .ok (iStart, oStart, out)
  | r :: rs, iStart, oStart, out => do
    let fixedLen := r.start - iStart
    let out := sliceAssign out oStart (oStart + fixedLen) (slice labels iStart r.start)
    let oStart := oStart + fixedLen
    let expandSize := r.val.length
    let new ← f (slice labels r.start r.stop) expandSize
    let out := sliceAssign out oStart (oStart + expandSize) new
    propagateLoop labels f rs r.stop (oStart + expandSize) out

/-- `label_propagation.pyx:8-59` `propagate_by_replacement_group` (with an explicit transducer; `None`
means `getMostCommonLabel`, L32-33). -/
def propagate {β : Type} (labels : List Int) (g : ReplacementGroup (List β)) (f : Transducer) :
    Res (List Int) := do
  let buffer := List.replicate (computeOutputLength labels.length g) notEntity
  let rs ← g.items
  let (iStart, oStart, out) ← propagateLoop labels f rs 0 0 buffer
  return sliceAssign out oStart out.length (labels.drop iStart)

/-- `label_propagation.pyx:142-143`: loop of `reduce_by_span_group`. -/
def reduceLoop (labels : List Int) (f : Transducer) :
    List Span → (i : Nat) → (out : List Int) → Res (List Int)
  | [], _, out => .ok out
  | s :: ss, i, out => do
    let new ← f (slice labels s.start s.stop) 1
    reduceLoop labels f ss (i + 1) (sliceAssign out i (i + 1) new)

/-- `label_propagation.pyx:118-145` `reduce_by_span_group`. -/
def reduceBySpanGroup (labels : List Int) (g : SpanGroup) (f : Transducer := getMostCommonLabel) :
    Res (List Int) :=
  if g.spans.length = 0 ∧ labels.length = 0 then .ok labels
  else do
    let l ← g.last
    if labels.length ≠ l.stop then .error .valueError
    else
      let spans ← g.items
      reduceLoop labels f spans 0 (List.replicate g.spans.length notEntity)

/-- `label_propagation.pyx:166-167`: `for i in range(span.start, span.end): output[i] = label`;
writing outside the list raises IndexError. -/
def fillRange (label : Int) : (n i : Nat) → (out : List Int) → Res (List Int)
  | 0, _, out => .ok out
  | n + 1, i, out =>
    if i < out.length then fillRange label n (i + 1) (out.set i label) else .error .indexError

/-- `label_propagation.pyx:165-167`: `for span, label in zip(span_group, labels)`; `label` is a C
`unsigned int`, so its conversion may raise OverflowError (this is a `def` function: it propagates). -/
def expandLoop : List Span → List Int → (out : List Int) → Res (List Int)
  | s :: ss, l :: ls, out => do
    let l' ← toUInt l
    let out ← fillRange (l' : Int) (s.stop - s.start) s.start out
    expandLoop ss ls out
  | _, _, out => .ok out

/-- `label_propagation.pyx:148-169` `expand_by_span_group`. -/
def expandBySpanGroup (labels : List Int) (g : SpanGroup) : Res (List Int) :=
  if g.spans.length ≠ labels.length then .error .valueError
  else if g.spans.length = 0 then .ok labels
  else do
    let l ← g.last
    let spans ← g.items
    expandLoop spans labels (List.replicate l.stop notEntity)

namespace Transduce

/-- `Counter.most_common()`: items sorted by decreasing count, stable
(`sorted(self.items(), key=itemgetter(1), reverse=True)`; reverse sorting keeps stability). -/
def mostCommonItems (labels : List Int) : List (Int × Nat) :=
  pySorted (fun kv => -(kv.2 : Int)) (counterOf labels)

/-- `ops/label_transducer.py:8-11` `get_most_common`; `[0][0]` raises IndexError on an empty list. -/
def getMostCommon : Transducer := fun labels outputSize =>
  match mostCommonItems labels with
  | [] => .error .indexError
  | (k, _) :: _ => .ok (List.replicate outputSize k)

/-- `ops/label_transducer.py:21-22` `get_not_entity`. -/
def getNotEntity : Transducer := fun _ outputSize => .ok (List.replicate outputSize notEntity)

/-- `ops/label_transducer.py:14-18` `get_most_common_except_not_entity`. -/
def getMostCommonExceptNotEntity : Transducer := fun labels outputSize =>
  let meaningful := labels.filter (fun l => l ≠ notEntity)
  if meaningful.length = 0 then getNotEntity labels outputSize
  else getMostCommon meaningful outputSize

end Transduce

end Uttut
