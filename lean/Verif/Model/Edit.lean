import Verif.Model.Py

/-
Model of `uttut/pipeline/edit/`: replacements, spans, and their application to sequences.
-/

namespace Uttut

/-- The iteration order of Python hash sets. `iter α l` is the order in which `list(set(...))`
enumerates a set whose distinct elements were inserted in the order `l`; nothing is assumed about it
except that it is a permutation. Theorems quantify over all `SetOrder`s. -/
structure SetOrder where
  iter : (α : Type) → List α → List α
  perm : ∀ (α : Type) (l : List α), (iter α l).Perm l

/-- `list(set(l))` (used in `replacement.pyx:102`, `get_unique_entities.py:14`, ...). -/
def SetOrder.listSet (σ : SetOrder) {α : Type} [DecidableEq α] (l : List α) : List α :=
  σ.iter α (pyDedup l)

/-- Run-time type of a `new_value` (`replacement.pyx:114`, `type(...)`); `other` stands for any
further Python type. Subclass relations between types are not modelled. -/
inductive PyKind
  | str | list | other (n : Nat)
  deriving DecidableEq, Repr

/-- Python's `type(v)` for the values stored in a replacement. -/
class NewValue (V : Type) where
  kind : V → PyKind

/-- All values of the Lean type have the same Python type. -/
class UniformKind (V : Type) [NewValue V] : Prop where
  const : ∀ v w : V, NewValue.kind v = NewValue.kind w

/-- `new_value : str`. -/
instance instNewValueStr : NewValue Str := ⟨fun _ => .str⟩

/-- `new_value : list`. The instance for `List Char` above has priority for strings. -/
instance (priority := low) instNewValueList {β : Type} : NewValue (List β) := ⟨fun _ => .list⟩

instance : @UniformKind Str instNewValueStr := ⟨fun _ _ => rfl⟩
instance {β : Type} : @UniformKind (List β) instNewValueList := ⟨fun _ _ => rfl⟩

/-- `pipeline/edit/replacement.pyx:10-48` `Replacement`. The `annotation` field is dropped: no code
reads it and `__eq__` (L52-56) ignores it. -/
structure Rep (V : Type) where
  start : Nat
  stop : Nat
  val : V
  deriving DecidableEq, Repr

/-- `pipeline/edit/validation.pyx:9-11` `_validate_start_end_in_c`. -/
def validateStartEnd (start stop : Nat) : Res Unit :=
  if start > stop then .error .valueError else .ok ()

/-- `pipeline/edit/replacement.pyx:39-50` `Replacement.__cinit__` (bounds already converted to C). -/
def Rep.new {V : Type} (start stop : Nat) (v : V) : Res (Rep V) := do
  validateStartEnd start stop
  return { start := start, stop := stop, val := v }

/-- `pipeline/edit/replacement.pyx:39-50` `Replacement(start, end, new_value)` called from Python:
the bounds are first converted to `unsigned int`. -/
def Rep.newPy {V : Type} (start stop : Int) (v : V) : Res (Rep V) := do
  let s ← toUInt start
  let e ← toUInt stop
  Rep.new s e v

/-- `pipeline/edit/replacement.pyx:75-79` state of a `ReplacementGroup`. -/
structure ReplacementGroup (V : Type) where
  reps : List (Rep V)
  isDone : Bool
  deriving DecidableEq, Repr

namespace ReplacementGroup

variable {V : Type}

/-- `pipeline/edit/replacement.pyx:77-79` `__cinit__`. -/
def empty : ReplacementGroup V := ⟨[], false⟩

/-- `pipeline/edit/replacement.pyx:81-96` `add`, C level. The function is `cpdef void` without an
`except` clause, so the ValueError of the `Replacement` constructor is swallowed
(`replacement.c`, `__Pyx_WriteUnraisable("...ReplacementGroup.add")`): nothing is appended. -/
def add (g : ReplacementGroup V) (start stop : Nat) (v : V) : ReplacementGroup V :=
  match Rep.new start stop v with
  | .ok r => { g with reps := g.reps ++ [r] }
  | .error _ => g

/-- `pipeline/edit/replacement.pyx:81-96` `add` called from Python: the argument conversions happen in
the Python wrapper and do raise. -/
def addPy (g : ReplacementGroup V) (start stop : Int) (v : V) : Res (ReplacementGroup V) := do
  let s ← toUInt start
  let e ← toUInt stop
  return g.add s e v

/-- `pipeline/edit/replacement.pyx:113-118` `_validate_new_values`. -/
def validateNewValues [NewValue V] (reps : List (Rep V)) : Res Unit :=
  match reps with
  | [] => .error .indexError
  | r :: _ =>
    if reps.all (fun q => NewValue.kind q.val = NewValue.kind r.val) then .ok ()
    else .error .typeError

/-- `pipeline/edit/replacement.pyx:172-178` `_sort_replacements`: by `end`, then (stably) by `start`. -/
def sortReps (reps : List (Rep V)) : List (Rep V) :=
  pySorted (fun r => (r.start : Int)) (pySorted (fun r => (r.stop : Int)) reps)

/-- `pipeline/edit/validation.pyx:14-24` `_validate_disjoint_in_c`, on the list of `(start, end)`. -/
def validateDisjoint (spans : List (Nat × Nat)) : Res Unit :=
  match spans with
  | [] => .error .indexError
  | (_, e) :: rest => go e rest
where
  go (current : Nat) : List (Nat × Nat) → Res Unit
    | [] => .ok ()
    | (s, e) :: rest => if s < current then .error .valueError else go e rest

/-- `pipeline/edit/replacement.pyx:98-111` `done`. -/
def done [DecidableEq V] [NewValue V] (σ : SetOrder) (g : ReplacementGroup V)
    (skipSort : Bool := false) : Res (ReplacementGroup V) := do
  let reps := σ.listSet g.reps
  if reps.length ≠ 0 ∧ skipSort = false then
    validateNewValues reps
    let sorted := sortReps reps
    validateDisjoint (sorted.map fun r => (r.start, r.stop))
    return ⟨sorted, true⟩
  else
    return ⟨reps, true⟩

/-- `pipeline/edit/replacement.pyx:120-140` `add_all`. -/
def addAll [DecidableEq V] [NewValue V] (σ : SetOrder) (rs : List (Int × Int × V)) :
    Res (ReplacementGroup V) := do
  let g ← rs.foldlM (fun g (r : Int × Int × V) => g.addPy r.1 r.2.1 r.2.2) empty
  g.done σ

/-- `pipeline/edit/replacement.pyx:142-143` `is_empty`. -/
def isEmpty (g : ReplacementGroup V) : Bool := g.reps.length == 0

/-- `pipeline/edit/replacement.pyx:153-156` `__getitem__`; `for r in group` also goes through it, so
iterating a group that is not done raises RuntimeError. -/
def items (g : ReplacementGroup V) : Res (List (Rep V)) :=
  if g.isDone then .ok g.reps else .error .runtimeError

/-- `pipeline/edit/replacement.pyx:153-156` `__getitem__` with an integer index. -/
def getItem (g : ReplacementGroup V) (i : Int) : Res (Rep V) :=
  if g.isDone then
    match pyIndex? g.reps.length i with
    | some k => match g.reps[k]? with
      | some r => .ok r
      | none => .error .indexError
    | none => .error .indexError
  else .error .runtimeError

/-- `pipeline/edit/replacement.pyx:145-151` `__eq__`: same length and same set of elements
(`set(other)` iterates `other`, which must be done). -/
def eq [DecidableEq V] (g other : ReplacementGroup V) : Res Bool := do
  let o ← other.items
  return o.length == g.reps.length && o.all (· ∈ g.reps) && g.reps.all (· ∈ o)

end ReplacementGroup

/-- `pipeline/edit/utils.pyx:6-29` `_transform_sequence`: loop body, state `(start, i, output)`. -/
def transformSequenceLoop {β : Type} (input : List β) :
    List (Rep (List β)) → (start i : Nat) → (output : List (List β)) → Nat × List (List β)
  | [], start, _, output => (start, output)
  | r :: rs, start, i, output =>
    transformSequenceLoop input rs r.stop (i + 2)
      ((output.set i (slice input start r.start)).set (i + 1) r.val)

/-- `pipeline/edit/utils.pyx:6-29` `_transform_sequence`. The writes `output[i] = ...` are within the
buffer allocated by the callers (length `2 n + 1`), so they never raise IndexError. -/
def transformSequence {β : Type} (input : List β) (g : ReplacementGroup (List β))
    (output : List (List β)) : Res (List (List β)) := do
  let rs ← g.items
  let (start, out) := transformSequenceLoop input rs 0 0 output
  return out.set (out.length - 1) (input.drop start)

namespace Str2Str

/-- `pipeline/edit/str2str.py:8-17` `apply`. -/
def apply (s : Str) (g : ReplacementGroup Str) : Res Str := do
  let out ← transformSequence s g (List.replicate (2 * g.reps.length + 1) [])
  return out.flatten

end Str2Str

namespace Lst2Lst

/-- `pipeline/edit/lst2lst.py:8-17` `apply`; `sum(output_lst, [])` is list concatenation. -/
def apply {β : Type} (l : List β) (g : ReplacementGroup (List β)) : Res (List β) := do
  let out ← transformSequence l g (List.replicate (2 * g.reps.length + 1) [])
  return out.flatten

end Lst2Lst

/-- `pipeline/edit/utils.pyx:71-102` `get_dist_bt_replacement_group` on the items of a finalised,
non-empty group (`start` of the next minus `end` of the current one; C unsigned arithmetic, exact for
sorted disjoint groups). -/
def distances {V : Type} : List (Rep V) → List Nat
  | [] => []
  | [_] => []
  | r :: q :: rs => (q.start - r.stop) :: distances (q :: rs)

/-- `pipeline/edit/utils.pyx:58-66`: the loop adding the inverse replacements. -/
def inverseLoop {β : Type} (input : List β) :
    List (Rep (List β)) → (dists : List Nat) → (start : Nat) →
      ReplacementGroup (List β) → ReplacementGroup (List β)
  | [], _, _, inv => inv
  | _ :: _, [], _, inv => inv -- unreachable: `dists` is as long as the group
  | r :: rs, d :: ds, start, inv =>
    inverseLoop input rs ds (start + (r.val.length + d))
      (inv.add start (start + r.val.length) (slice input r.start r.stop))

/-- `pipeline/edit/utils.pyx:32-68` `_gen_inverse_replacement_group`. -/
def genInverse {β : Type} [DecidableEq β] [NewValue (List β)] (σ : SetOrder) (input : List β)
    (g : ReplacementGroup (List β)) : Res (ReplacementGroup (List β)) :=
  if g.isEmpty then ReplacementGroup.empty.done σ
  else do
    let rs ← g.items
    let first ← g.getItem 0
    let inv := inverseLoop input rs (distances rs ++ [0]) first.start ReplacementGroup.empty
    inv.done σ

/-- `pipeline/edit/str2str.py:20-26` and `lst2lst.py:20-26` `inverse` (the two bodies are equal). -/
def editInverse {β : Type} [DecidableEq β] [NewValue (List β)] (σ : SetOrder) (input : List β)
    (g : ReplacementGroup (List β)) : Res (ReplacementGroup (List β)) := do
  let inv ← genInverse σ input g
  if inv.reps.length = g.reps.length then return inv else .error .assertionError

/-- `pipeline/edit/str2str.py:20-26` `inverse`. -/
def Str2Str.inverse (σ : SetOrder) (s : Str) (g : ReplacementGroup Str) :
    Res (ReplacementGroup Str) := editInverse σ s g

/-- `pipeline/edit/lst2lst.py:20-26` `inverse`. -/
def Lst2Lst.inverse {β : Type} [DecidableEq β] (σ : SetOrder) (l : List β)
    (g : ReplacementGroup (List β)) : Res (ReplacementGroup (List β)) :=
  editInverse (β := β) σ l g

/-- `pipeline/edit/span.pyx:10-36` `Span`. -/
structure Span where
  start : Nat
  stop : Nat
  deriving DecidableEq, Repr

/-- `pipeline/edit/span.pyx:18-20` `Span.__cinit__` (bounds already converted to C). -/
def Span.new (start stop : Nat) : Res Span := do
  validateStartEnd start stop
  return ⟨start, stop⟩

/-- `pipeline/edit/span.pyx:18-20` `Span(start, end)` called from Python. -/
def Span.newPy (start stop : Int) : Res Span := do
  let s ← toUInt start
  let e ← toUInt stop
  Span.new s e

/-- `pipeline/edit/span.pyx:39-43` state of a `SpanGroup`. -/
structure SpanGroup where
  spans : List Span
  isDone : Bool
  deriving DecidableEq, Repr

namespace SpanGroup

/-- `pipeline/edit/span.pyx:41-43` `__init__`. -/
def empty : SpanGroup := ⟨[], false⟩

/-- `pipeline/edit/span.pyx:45-48` `add`, C level; `cpdef void` without `except`, the ValueError of an
ill-ordered span is swallowed (`span.c`, `__Pyx_WriteUnraisable("...SpanGroup.add")`). -/
def add (g : SpanGroup) (start stop : Nat) : SpanGroup :=
  match Span.new start stop with
  | .ok s => { g with spans := g.spans ++ [s] }
  | .error _ => g

/-- `pipeline/edit/span.pyx:45-48` `add` called from Python (argument conversions raise). -/
def addPy (g : SpanGroup) (start stop : Int) : Res SpanGroup := do
  let s ← toUInt start
  let e ← toUInt stop
  return g.add s e

/-- `pipeline/edit/span.pyx:122-123` `_sorted_spans`: by `end` only. -/
def sortSpans (spans : List Span) : List Span := pySorted (fun s => (s.stop : Int)) spans

/-- `pipeline/edit/span.pyx:70-74`: consecutive spans must touch. -/
def contiguousLoop : List Span → Res Unit
  | [] => .ok ()
  | [_] => .ok ()
  | s :: t :: rest => if s.stop ≠ t.start then .error .valueError else contiguousLoop (t :: rest)

/-- `pipeline/edit/span.pyx:60-74` `_validate_contiguousness`. -/
def validateContiguousness (spans : List Span) : Res Unit :=
  match spans with
  | [] => .error .indexError
  | s :: _ => if s.start ≠ 0 then .error .valueError else contiguousLoop spans

/-- `pipeline/edit/span.pyx:50-58` `done`. -/
def done (g : SpanGroup) : Res SpanGroup :=
  if g.spans.length ≠ 0 then do
    let sorted := sortSpans g.spans
    ReplacementGroup.validateDisjoint (sorted.map fun s => (s.start, s.stop))
    validateContiguousness sorted
    return ⟨sorted, true⟩
  else return ⟨g.spans, true⟩

/-- `pipeline/edit/span.pyx:76-92` `add_all` on tuples of length 2 (other lengths: `addAllTuples`). -/
def addAll (spans : List (Int × Int)) : Res SpanGroup := do
  let g ← spans.foldlM (fun g (s : Int × Int) => g.addPy s.1 s.2) empty
  g.done

/-- `pipeline/edit/span.pyx:76-92` `add_all` on tuples of arbitrary length. -/
def addAllTuples (spans : List (List Int)) : Res SpanGroup := do
  let g ← spans.foldlM (fun g (s : List Int) =>
    match s with
    | [a, b] => g.addPy a b
    | _ => .error .valueError) empty
  g.done

/-- `pipeline/edit/span.pyx:105-108` `__getitem__` / iteration. -/
def items (g : SpanGroup) : Res (List Span) :=
  if g.isDone then .ok g.spans else .error .runtimeError

/-- `pipeline/edit/span.pyx:97-103` `__eq__` with another SpanGroup: iterating `other` raises RuntimeError if it is
not done, `self` is read directly. -/
def eq (g other : SpanGroup) : Res Bool := do
  let o ← other.items
  return o.length == g.spans.length && (o.all (· ∈ g.spans) && g.spans.all (· ∈ o))

/-- `span_group[-1]` (`pipeline/edit/span.pyx:105-108`): RuntimeError if not done, IndexError if empty. -/
def last (g : SpanGroup) : Res Span :=
  if g.isDone then
    match g.spans.getLast? with
    | some s => .ok s
    | none => .error .indexError
  else .error .runtimeError

end SpanGroup

namespace Str2Lst

/-- `pipeline/edit/str2lst.py:18-20` `_validate_compatibility`. -/
def validateCompatibility (s : Str) (g : SpanGroup) : Res Unit := do
  let l ← g.last
  if s.length ≠ l.stop then .error .valueError else return ()

/-- `pipeline/edit/str2lst.py:7-15` `apply`. -/
def apply (s : Str) (g : SpanGroup) : Res (List Str) := do
  validateCompatibility s g
  let spans ← g.items
  return spans.map fun sp => slice s sp.start sp.stop

/-- `pipeline/edit/str2lst.py:31-35`: loop of `gen_span_group`. `str.find` returning `-1` makes
`start = -1`, whose conversion to `unsigned int` raises OverflowError. So do positions from 2^32 on, which is not in this
function (`Model/Machine.lean`, C91). -/
def genSpanLoop (s : Str) : List Str → (shift : Nat) → SpanGroup → Res SpanGroup
  | [], _, g => .ok g
  | t :: ts, shift, g =>
    match pyFind s t shift with
    | some start => genSpanLoop s ts (start + t.length) (g.add start (start + t.length))
    | none => .error .overflowError

/-- `pipeline/edit/str2lst.py:23-38` `gen_span_group`. -/
def genSpanGroup (s : Str) (tokens : List Str) : Res SpanGroup :=
  if s ≠ tokens.flatten then .error .valueError
  else do
    let g ← genSpanLoop s tokens 0 SpanGroup.empty
    let g ← g.done
    if g.spans.length = tokens.length then return g else .error .assertionError

/-- `pipeline/edit/str2lst.py:46-52`: loop of `gen_replacement_group`, state `(shift, group)`. Without the OverflowError for
positions from 2^32 on (`Model/Machine.lean`, C91). -/
def genRepLoop (s : Str) : List Str → (shift : Nat) → ReplacementGroup Str →
    Res (Nat × ReplacementGroup Str)
  | [], shift, g => .ok (shift, g)
  | t :: ts, shift, g =>
    match pyFind s t shift with
    | none => .error .valueError
    | some start =>
      let g' := if slice s shift start ≠ [] then g.add shift start [] else g
      genRepLoop s ts (start + t.length) g'

/-- `pipeline/edit/str2lst.py:41-58` `gen_replacement_group`. -/
def genReplacementGroup (σ : SetOrder) (s : Str) (tokens : List Str) :
    Res (ReplacementGroup Str) := do
  let (shift, g) ← genRepLoop s tokens 0 ReplacementGroup.empty
  let g' := if shift ≠ s.length then g.add shift s.length [] else g
  g'.done σ

end Str2Lst

namespace Lst2Str

/-- `pipeline/edit/lst2str.py:19-21`: element-wise length check (`zip`). -/
def compatLoop : List Str → List Span → Res Unit
  | t :: ts, s :: ss =>
    if (t.length : Int) ≠ (s.stop : Int) - s.start then .error .valueError else compatLoop ts ss
  | _, _ => .ok ()

/-- `pipeline/edit/lst2str.py:16-21` `_validate_compatibility`. -/
def validateCompatibility (l : List Str) (g : SpanGroup) : Res Unit :=
  if l.length ≠ g.spans.length then .error .valueError
  else do
    let spans ← (if l.isEmpty then .ok [] else g.items)
    compatLoop l spans

/-- `pipeline/edit/lst2str.py:6-13` `apply`. -/
def apply (l : List Str) (g : SpanGroup) : Res Str := do
  validateCompatibility l g
  return l.flatten

end Lst2Str

end Uttut
