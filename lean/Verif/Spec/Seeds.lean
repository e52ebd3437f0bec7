import Verif.Model.Builtins

/-!
Specification: two runs of the code that differ only in the iteration order of hash sets (which Python's hash
seed decides) cannot be told apart.
-/

namespace Uttut.Spec

/-- Two lists of the same length whose elements are related position by position. -/
inductive Pairwise₂ {α : Type} (R : α → α → Prop) : List α → List α → Prop
  | nil : Pairwise₂ R [] []
  | cons (x y : α) (xs ys : List α) (h : R x y) (t : Pairwise₂ R xs ys) : Pairwise₂ R (x :: xs) (y :: ys)

/-- Two aligners with the same lengths and the same answer, result or exception, to every list of labels, in both
directions. -/
structure SameAligner (a b : Aligner) : Prop where
  input : a.inputLength = b.inputLength
  output : a.outputLength = b.outputLength
  forward : ∀ ls, a.transform ls = b.transform ls
  backward : ∀ ls, a.inverseTransform ls = b.inverseTransform ls

/-- Two results of an operator: the same exception, or the same output and aligners that answer alike. -/
inductive SameRes {α : Type} : Res (α × Aligner) → Res (α × Aligner) → Prop
  | error (e : Exc) : SameRes (.error e) (.error e)
  | ok (out : α) (a b : Aligner) (h : SameAligner a b) : SameRes (.ok (out, a)) (.ok (out, b))

/-- The one use that hash seeds do influence (C29): `AddSosEos` on the empty list. -/
def SeedFree (op : Op) (s : Seq) : Prop := op.cls.name = "AddSosEos".toList → s ≠ .list []

/-- Two operator objects with the same class name, types and configuration that answer every sequence alike, up to
the excluded use. -/
structure SameOp (op op' : Op) : Prop where
  name : op.cls.name = op'.cls.name
  inputType : op.cls.inputType = op'.cls.inputType
  outputType : op.cls.outputType = op'.cls.outputType
  configs : op.configs = op'.configs
  transform : ∀ s, SeedFree op s → SameRes (op.transform s) (op'.transform s)

/-- Two results of creating an operator: the same exception, or operators that answer alike. -/
inductive SameCreated : Res Op → Res Op → Prop
  | error (e : Exc) : SameCreated (.error e) (.error e)
  | ok (op op' : Op) (h : SameOp op op') : SameCreated (.ok op) (.ok op')

/-- Two pipes with the same checkpoints and steps that answer alike. -/
structure SamePipe (p p' : Pipe) : Prop where
  steps : Pairwise₂ SameOp p.steps p'.steps
  checkpoints : p.checkpoints = p'.checkpoints

/-- No step `AddSosEos` is reached by an empty list. -/
def SeedFreeRun : List Op → Seq → Prop
  | [], _ => True
  | op :: ops, s => SeedFree op s ∧ ∀ t a, op.transform s = .ok (t, a) → SeedFreeRun ops t

/-- Two results of `transform_sequence`: the same exception, or the same output, the same intermediates, and aligner
sequences of the same answers. -/
inductive SameRun : Res (Seq × List Aligner × List Seq) → Res (Seq × List Aligner × List Seq) → Prop
  | error (e : Exc) : SameRun (.error e) (.error e)
  | ok (out : Seq) (as bs : List Aligner) (coll : List Seq) (h : Pairwise₂ SameAligner as bs)
      (hf : ∀ ls, alignAll as ls = alignAll bs ls) (hb : ∀ ls, realignAll as ls = realignAll bs ls) :
      SameRun (.ok (out, as, coll)) (.ok (out, bs, coll))

/-- Two results of `Pipe.transform`. -/
inductive SameTransformed : Res Transformed → Res Transformed → Prop
  | error (e : Exc) : SameTransformed (.error e) (.error e)
  | ok (t t' : Transformed) (output : t.output = t'.output) (intents : t.intentLabels = t'.intentLabels)
      (entities : t.entityLabels = t'.entityLabels) (collection : t.collection = t'.collection)
      (aligners : Pairwise₂ SameAligner t.aligners t'.aligners)
      (forward : ∀ ls, alignAll t.aligners ls = alignAll t'.aligners ls)
      (backward : ∀ ls, realignAll t.aligners ls = realignAll t'.aligners ls) : SameTransformed (.ok t) (.ok t')

end Uttut.Spec
