import Verif.Spec.World

/-! Specification vocabulary for pipes. -/

namespace Uttut

/-- Consecutive steps have matching types. -/
def WellTyped (ops : List Op) : Prop :=
  ∀ (i : Nat) (a b : Op), ops[i]? = some a → ops[i + 1]? = some b → a.cls.outputType = b.cls.inputType

/-- Applying the operators one after the other to `s`: `rs` lists output and aligner of each. -/
inductive Runs : List Op → Seq → List (Seq × Aligner) → Prop
  | nil (s : Seq) : Runs [] s []
  | cons {op : Op} {ops : List Op} {s t : Seq} {a : Aligner} {rs : List (Seq × Aligner)}
      (h : op.transform s = .ok (t, a)) (hs : Runs ops t rs) : Runs (op :: ops) s ((t, a) :: rs)

/-- The value after all the steps. -/
def finalOf (s : Seq) (rs : List (Seq × Aligner)) : Seq :=
  match rs.getLast? with
  | some r => r.1
  | none => s

/-- One call that changes a pipe. -/
inductive PipeCall
  | addOp (op : Op) (checkpoint : Option Str)
  | add (f : Factory) (name : Str) (kwargs : Option (List (Str × PyVal))) (checkpoint : Option Str)
  | iadd (other : Pipe)

/-- The pipe after the call, whether it raised or not. -/
def PipeCall.after (p : Pipe) : PipeCall → Pipe
  | .addOp op ck => (p.addOp op ck).1
  | .add f name kw ck => (p.add f name kw ck).1
  | .iadd q => (p.iadd q).1

/-- The pipe after a sequence of calls. -/
def afterCalls (p : Pipe) (calls : List PipeCall) : Pipe := calls.foldl PipeCall.after p

/-- Every label was there before, or is 0 ("no entity"). -/
def LabelsFrom (ls ys : List Int) : Prop := ∀ y ∈ ys, y = 0 ∨ y ∈ ls

/-- Labels that fit a C `unsigned int`. -/
def IsUInt (i : Int) : Prop := 0 ≤ i ∧ i < 2 ^ 32

/-- An aligner between sequences of lengths `n` and `m`: it maps all labels of length `n` to labels of length `m`
and back, inventing no labels, and refuses labels of other lengths. -/
structure Faithful (a : Aligner) (n m : Nat) : Prop where
  forward : ∀ ls : List Int, ls.length = n →
    ∃ ys, a.transform ls = .ok ys ∧ ys.length = m ∧ LabelsFrom ls ys
  backward : ∀ ls : List Int, ls.length = m → (∀ l ∈ ls, IsUInt l) →
    ∃ ys, a.inverseTransform ls = .ok ys ∧ ys.length = n ∧ LabelsFrom ls ys
  refuse : ∀ ls : List Int, ls.length ≠ n → a.transform ls = .error .valueError
  refuseBack : ∀ ls : List Int, ls.length ≠ m → a.inverseTransform ls = .error .valueError

/-- The same for the aligners of a pipe (an empty pipe has no aligner to refuse labels). -/
structure FaithfulAll (as : List Aligner) (n m : Nat) : Prop where
  forward : ∀ ls : List Int, ls.length = n →
    ∃ ys, alignAll as ls = .ok ys ∧ ys.length = m ∧ LabelsFrom ls ys
  backward : ∀ ls : List Int, ls.length = m → (∀ l ∈ ls, IsUInt l) →
    ∃ ys, realignAll as ls = .ok ys ∧ ys.length = n ∧ LabelsFrom ls ys
  refuse : as ≠ [] → ∀ ls : List Int, ls.length ≠ n → alignAll as ls = .error .valueError
  refuseBack : as ≠ [] → ∀ ls : List Int, ls.length ≠ m → realignAll as ls = .error .valueError

/-- Labels sent forward and back return unchanged. -/
def RoundTrips (a : Aligner) (n : Nat) : Prop :=
  ∀ ls : List Int, ls.length = n → ∃ ys, a.transform ls = .ok ys ∧ a.inverseTransform ys = .ok ls

/-- Every checkpoint points to a step of the pipe (indices count from 1). -/
def InBounds (p : Pipe) : Prop := ∀ kv ∈ p.checkpoints, 1 ≤ kv.2 ∧ kv.2 ≤ (p.steps.length : Int)

end Uttut
