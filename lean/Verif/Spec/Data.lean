import Verif.Model.Ordinal
import Verif.Spec.Edit

/-!
Specifications for data and entities. They only use the data types of the model and Python's slicing
(`pySlice`), not its functions.
-/

namespace Uttut.Spec

/-- `R` holds between every two neighbours of the list. -/
def Neighbours {α : Type} (R : α → α → Prop) : List α → Prop
  | a :: b :: l => R a b ∧ Neighbours R (b :: l)
  | _ => True

instance decNeighbours {α : Type} (R : α → α → Prop) [DecidableRel R] :
    (l : List α) → Decidable (Neighbours R l)
  | [] => isTrue trivial
  | [_] => isTrue trivial
  | a :: b :: l =>
    have := decNeighbours R (b :: l)
    inferInstanceAs (Decidable (R a b ∧ Neighbours R (b :: l)))

/-- The value of the entity is the text at its position. -/
def ValueAt (u : Str) (e : Entity) : Prop := e.value = pySlice u e.start e.stop

/-- The entity ends at or before the start of the other one. -/
def Before (e f : Entity) : Prop := e.stop ≤ f.start

/-- The position of the entity lies within the utterance. -/
def WithinUtterance (u : Str) (e : Entity) : Prop := 0 ≤ e.start ∧ e.start ≤ e.stop ∧ e.stop ≤ u.length

/-- Values of the C type `int`. -/
def IsInt32 (i : Int) : Prop := -2 ^ 31 ≤ i ∧ i < 2 ^ 31

/-- Index `i` of a sequence of length `n` is one of `start, ..., stop - 1`, read as Python indices
(negative ones count from the end). -/
def Covers (n : Nat) (e : Entity) (i : Nat) : Prop :=
  (e.start ≤ i ∧ (i : Int) < e.stop) ∨ (e.start ≤ (i : Int) - n ∧ (i : Int) - n < e.stop)

instance (n : Nat) (e : Entity) (i : Nat) : Decidable (Covers n e i) :=
  inferInstanceAs (Decidable (_ ∨ _))

/-- `[a, b)` is a maximal block of the label `v`. -/
def IsMaximalRun (labels : List Int) (a b : Nat) (v : Int) : Prop :=
  a < b ∧ b ≤ labels.length ∧ (∀ i, a ≤ i → i < b → labels[i]? = some v) ∧
    (0 < a → labels[a - 1]? ≠ some v) ∧ labels[b]? ≠ some v

/-! ### combinations -/

/-- `xs` takes from each list the element with the given index. -/
def Picks {α : Type} : List (List α) → List Nat → List α → Prop
  | [], [], [] => True
  | l :: ls, i :: is, x :: xs => l[i]? = some x ∧ Picks ls is xs
  | _, _, _ => False

/-- Number of ways to take one element of each list. -/
def nChoices {α : Type} : List (List α) → Nat
  | [] => 1
  | l :: ls => l.length * nChoices ls

/-- Position of a tuple of indices when the first index runs fastest. -/
def rank {α : Type} : List (List α) → List Nat → Nat
  | l :: ls, i :: is => i + l.length * rank ls is
  | _, _ => 0

/-! ### partition and expansion of a datum -/

/-- A part of an utterance: some text, and the entity it belongs to, if any. -/
abbrev Part := Str × Option Entity

/-- From offset `off` on, every part with an entity lies exactly where that entity does and is its value;
parts without entity are not empty. -/
def LaidOut : (off : Nat) → List Part → Prop
  | _, [] => True
  | off, (t, o) :: ps =>
    (match o with
      | none => t ≠ []
      | some e => (off : Int) = e.start ∧ ((off + t.length : Nat) : Int) = e.stop ∧ t = e.value) ∧
    LaidOut (off + t.length) ps

/-- The texts that may stand for an entity: its replacements in increasing order of code points, followed
by its value if asked for; its value if it has no replacements. -/
def Candidates (includeOrig : Bool) (e : Entity) (c : List Str) : Prop :=
  (e.replacements = [] → c = [e.value]) ∧
  (e.replacements ≠ [] → ∃ l, c = l ++ (if includeOrig then [e.value] else []) ∧
    l.Pairwise (List.Lex (fun a b : Char => a.toNat < b.toNat)) ∧ ∀ r, r ∈ l ↔ r ∈ e.replacements)

/-- The alternatives for each part. -/
def Alternatives (includeOrig : Bool) : List Part → List (List Str) → Prop
  | [], [] => True
  | (t, none) :: ps, c :: cs => c = [t] ∧ Alternatives includeOrig ps cs
  | (_, some e) :: ps, c :: cs => Candidates includeOrig e c ∧ Alternatives includeOrig ps cs
  | _, _ => False

/-- The entities after writing the texts `xs` one after the other in place of the parts. -/
def placed : (off : Nat) → List Part → List Str → List Entity
  | off, (_, none) :: ps, x :: xs => placed (off + x.length) ps xs
  | off, (_, some e) :: ps, x :: xs =>
    ⟨e.label, x, off, ((off + x.length : Nat) : Int), []⟩ :: placed (off + x.length) ps xs
  | _, _, _ => []

/-- The label of index `i`: that of the entity with `start ≤ i < end`, 0 if there is none. -/
def labelAt (es : List Entity) (i : Nat) : Int :=
  ((es.find? fun e => decide (e.start ≤ (i : Int) ∧ (i : Int) < e.stop)).map fun e => e.label).getD 0

/-- Number of characters with different labels one of which is 0. -/
def oneSided (n : Nat) (a b : Nat → Int) : Nat :=
  ((List.range n).filter fun i => decide (a i ≠ b i ∧ (a i = 0 ∨ b i = 0))).length

/-- Number of characters with different labels none of which is 0. -/
def twoSided (n : Nat) (a b : Nat → Int) : Nat :=
  ((List.range n).filter fun i => decide (a i ≠ b i ∧ a i ≠ 0 ∧ b i ≠ 0)).length

end Uttut.Spec
