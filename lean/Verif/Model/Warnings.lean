import Verif.Model.Label
import Verif.Model.Builtins

/-!
The edit functions, label propagation and `Pipe.add` once more, with the warnings they issue.

A program chooses, per category, whether a warning is turned into an exception (`warnings.simplefilter('error')`,
`python -W error`) or not; whether a warning that is not turned into an exception is printed makes no difference to
the calls. Code that catches warnings does not exist in the library.
-/

namespace Uttut

/-- The categories used: `UserWarning` (`replacement.pyx:164`, `span.pyx:116`) and `DeprecationWarning`
(`pipe.py:45`). -/
inductive Category
  | user | deprecation
  deriving DecidableEq, Repr

/-- What ends a call: an exception of the library or a warning turned into an exception. -/
inductive Raised
  | exc (e : Exc)
  | warning (c : Category)
  deriving DecidableEq, Repr

/-- A call under a choice of the categories that raise: the warnings issued that did not raise, in order, and the outcome. -/
structure Warned (α : Type) where
  run : (Category → Bool) → List Category × Except Raised α

namespace Warned

/-- An outcome without warnings. -/
def ofRes {α : Type} (r : Res α) : Except Raised α :=
  match r with
  | .ok a => .ok a
  | .error e => .error (.exc e)

instance : Monad Warned where
  pure a := ⟨fun _ => ([], .ok a)⟩
  bind m f := ⟨fun p =>
    match m.run p with
    | (w, .error e) => (w, .error e)
    | (w, .ok a) => (w ++ ((f a).run p).1, ((f a).run p).2)⟩

/-- Code that issues no warning. -/
def lift {α : Type} (r : Res α) : Warned α := ⟨fun _ => ([], ofRes r)⟩

/-- `warnings.warn(text, category)`. -/
def warn (c : Category) : Warned Unit := ⟨fun p =>
  if p c then ([], .error (.warning c)) else ([c], .ok ())⟩

end Warned

open Warned

namespace ReplacementGroup
variable {V : Type}

/-- `replacement.pyx:162-164` `_warn_not_done`. -/
def warnNotDone (g : ReplacementGroup V) : Warned Unit := if g.isDone then pure () else warn .user

/-- `replacement.pyx:158-160` `__len__`; also the truth value of a group. -/
def lenW (g : ReplacementGroup V) : Warned Nat := do
  g.warnNotDone
  return g.reps.length

/-- `replacement.pyx:145-151` `__eq__`; `none` is an object that is no `ReplacementGroup`. -/
def eqW [DecidableEq V] (g : ReplacementGroup V) (other : Option (ReplacementGroup V)) : Warned Bool := do
  g.warnNotDone
  match other with
  | none => return false
  | some o =>
    let n ← o.lenW
    let l ← lift o.items
    return n == g.reps.length && (l.all (· ∈ g.reps) && g.reps.all (· ∈ l))

end ReplacementGroup

/-- `str2str.py:8-17`, `lst2lst.py:8-17` `apply`. -/
def editApplyW {β : Type} (s : List β) (g : ReplacementGroup (List β)) : Warned (List β) := do
  let n ← g.lenW
  let out ← lift (transformSequence s g (List.replicate (2 * n + 1) []))
  return out.flatten

/-- `utils.pyx:71-102` `get_dist_bt_replacement_group`: items are read only if there are two. For an empty
group the code asks for a list of 2^32 - 1 elements; the only caller leaves empty groups out. -/
def distancesW {V : Type} (g : ReplacementGroup V) : Warned (List Nat) := do
  let n ← g.lenW
  if n ≤ 1 then return []
  else do
    let rs ← lift g.items
    return distances rs

/-- `utils.pyx:32-68` `_gen_inverse_replacement_group`. -/
def genInverseW {β : Type} [DecidableEq β] [NewValue (List β)] (σ : SetOrder) (s : List β)
    (g : ReplacementGroup (List β)) : Warned (ReplacementGroup (List β)) :=
  if g.isEmpty then lift (ReplacementGroup.empty.done σ)
  else do
    let _n ← g.lenW
    let dists ← distancesW g
    let first ← lift (g.getItem 0)
    let rs ← lift g.items
    lift ((inverseLoop s rs (dists ++ [0]) first.start ReplacementGroup.empty).done σ)

/-- `str2str.py:20-26`, `lst2lst.py:20-26` `inverse`. -/
def editInverseW {β : Type} [DecidableEq β] [NewValue (List β)] (σ : SetOrder) (s : List β)
    (g : ReplacementGroup (List β)) : Warned (ReplacementGroup (List β)) := do
  let inv ← genInverseW σ s g
  let n ← inv.lenW
  let m ← g.lenW
  if n = m then return inv else lift (.error .assertionError)

namespace SpanGroup

/-- `span.pyx:114-116` `_warn_not_done`. -/
def warnNotDone (g : SpanGroup) : Warned Unit := if g.isDone then pure () else warn .user

/-- `span.pyx:110-112` `__len__`; also the truth value of a group. -/
def lenW (g : SpanGroup) : Warned Nat := do
  g.warnNotDone
  return g.spans.length

/-- `span.pyx:97-103` `__eq__`; `none` is an object that is no `SpanGroup`. -/
def eqW (g : SpanGroup) (other : Option SpanGroup) : Warned Bool := do
  g.warnNotDone
  match other with
  | none => return false
  | some o =>
    let n ← o.lenW
    let l ← lift o.items
    return n == g.spans.length && (l.all (· ∈ g.spans) && g.spans.all (· ∈ l))

end SpanGroup

/-- `label_propagation.pyx:118-145` `reduce_by_span_group`. -/
def reduceW (labels : List Int) (g : SpanGroup) (f : Transducer) : Warned (List Int) := do
  let n ← g.lenW
  if n = 0 ∧ labels.length = 0 then return labels
  else do
    let l ← lift g.last
    if labels.length ≠ l.stop then lift (.error .valueError)
    else do
      let n ← g.lenW
      let spans ← lift g.items
      lift (reduceLoop labels f spans 0 (List.replicate n notEntity))

/-- `label_propagation.pyx:148-169` `expand_by_span_group`. -/
def expandW (labels : List Int) (g : SpanGroup) : Warned (List Int) := do
  let n ← g.lenW
  if n ≠ labels.length then lift (.error .valueError)
  else do
    let n ← g.lenW
    if n = 0 then return labels
    else do
      let l ← lift g.last
      let spans ← lift g.items
      lift (expandLoop spans labels (List.replicate l.stop notEntity))

/-- `str2lst.py:7-20` `apply`; the result has as many elements as the group. -/
def splitW (s : Str) (g : SpanGroup) : Warned (List Str) := do
  lift (Str2Lst.validateCompatibility s g)
  let _n ← g.lenW
  let spans ← lift g.items
  return spans.map fun sp => slice s sp.start sp.stop

/-- `lst2str.py:6-21` `apply`. -/
def joinW (l : List Str) (g : SpanGroup) : Warned Str := do
  let n ← g.lenW
  if l.length ≠ n then lift (.error .valueError)
  else do
    let spans ← lift (if l.isEmpty then .ok [] else g.items)
    lift (Lst2Str.compatLoop l spans)
    return l.flatten

/-- `str2lst.py:23-38` `gen_span_group`. -/
def genSpanGroupW (s : Str) (tokens : List Str) : Warned SpanGroup :=
  if s ≠ tokens.flatten then lift (.error .valueError)
  else do
    let g ← lift (Str2Lst.genSpanLoop s tokens 0 SpanGroup.empty)
    let g ← lift g.done
    let n ← g.lenW
    if n = tokens.length then return g else lift (.error .assertionError)

/-- `pipe.py:27-50` `add`: the pipe afterwards, the warnings and the outcome. -/
def Pipe.addW (p : Pipe) (f : Factory) (name : Str) (kwargs : Option (List (Str × PyVal)))
    (checkpoint : Option Str) (policy : Category → Bool) : Pipe × List Category × Except Raised Unit :=
  match (warn .deprecation).run policy with
  | (w, .error e) => (p, w, .error e)
  | (w, .ok _) =>
    let r := p.add f name kwargs checkpoint
    (r.1, w, ofRes r.2)

/-- `bert/basic.py:4-11`, `bert/full.py`, `bert/word_piece.py`: consecutive `pipe.add` at module level. -/
def Bert.buildW (f : Factory) : List (String × List (Str × PyVal)) → Pipe → Warned Pipe
  | [], p => pure p
  | (name, kw) :: rest, p => do
    let p ← (⟨fun policy => ((p.addW f name.toList (some kw) none policy).2.1,
      (p.addW f name.toList (some kw) none policy).2.2.map
        fun _ => (p.addW f name.toList (some kw) none policy).1)⟩ : Warned Pipe)
    Bert.buildW f rest p

end Uttut
