import Verif.Model.Label

/-!
Specifications for the edit layer. They only use the data types of the model (`Rep`, `Span`), not its
functions.
-/

namespace Uttut.Spec

variable {β : Type}

/-- `seq[i:j] = new` for `i ≤ j`. -/
def assign (seq : List β) (i j : Nat) (new : List β) : List β := seq.take i ++ new ++ seq.drop j

/-- Execute `seq[r.start:r.end] = r.new_value` for the replacements from the last to the first. -/
def editFromRight (seq : List β) (rs : List (Rep (List β))) : List β :=
  rs.foldr (fun r acc => assign acc r.start r.stop r.val) seq

/-- Execute `labels[r.start:r.end] = f(labels[r.start:r.end], len(r.new_value))` from the last
replacement to the first. -/
def relabelFromRight (f : List Int → Nat → List Int) (labels : List Int) (rs : List (Rep (List β))) :
    List Int :=
  rs.foldr (fun r acc =>
    assign acc r.start r.stop (f ((acc.drop r.start).take (r.stop - r.start)) r.val.length)) labels

/-- Two neighbouring replacements that touch never both have an empty new value. -/
def NoTouchingDeletions : List (Rep (List β)) → Prop
  | a :: b :: rs => ¬(a.stop = b.start ∧ a.val = [] ∧ b.val = []) ∧ NoTouchingDeletions (b :: rs)
  | _ => True

instance decNoTouchingDeletions [DecidableEq β] :
    (rs : List (Rep (List β))) → Decidable (NoTouchingDeletions rs)
  | [] => isTrue trivial
  | [_] => isTrue trivial
  | a :: b :: rs =>
    have := decNoTouchingDeletions (b :: rs)
    inferInstanceAs (Decidable (¬(a.stop = b.start ∧ a.val = [] ∧ b.val = []) ∧
      NoTouchingDeletions (b :: rs)))

/-- The texts deleted from `xs` by the longest run of touching deletions that starts at `e`. -/
def touchingDeleted (xs : List β) : (e : Nat) → List (Rep (List β)) → List (List β)
  | _, [] => []
  | e, r :: rs =>
    if r.start = e ∧ r.val.length = 0 then ((xs.take r.stop).drop r.start) :: touchingDeleted xs r.stop rs else []

/-- Deletions in a run of touching deletions delete pairwise different texts. -/
def DistinctDeletions (xs : List β) : List (Rep (List β)) → Prop
  | [] => True
  | r :: rs => (r.val.length = 0 → ((xs.take r.stop).drop r.start) ∉ touchingDeleted xs r.stop rs) ∧
      DistinctDeletions xs rs

instance decDistinctDeletions [DecidableEq β] (xs : List β) :
    (rs : List (Rep (List β))) → Decidable (DistinctDeletions xs rs)
  | [] => isTrue trivial
  | r :: rs =>
    have := decDistinctDeletions xs rs
    inferInstanceAs (Decidable ((r.val.length = 0 →
      ((xs.take r.stop).drop r.start) ∉ touchingDeleted xs r.stop rs) ∧ DistinctDeletions xs rs))

/-- All replacements lie within a sequence of length `n`. -/
def InBounds {V : Type} (n : Nat) (rs : List (Rep V)) : Prop := ∀ r ∈ rs, r.stop ≤ n

/-- All new values have the same Python type. -/
def SameKind {V : Type} [NewValue V] (rs : List (Rep V)) : Prop :=
  ∀ a ∈ rs, ∀ b ∈ rs, NewValue.kind a.val = NewValue.kind b.val

/-- Of any two different replacements, one ends at or before the start of the other. -/
def PairwiseDisjoint {V : Type} (rs : List (Rep V)) : Prop :=
  ∀ a ∈ rs, ∀ b ∈ rs, a ≠ b → a.stop ≤ b.start ∨ b.stop ≤ a.start

/-- `x` is the most frequent element of `l`, the earliest one among the most frequent. -/
def IsFirstMode (l : List Int) (x : Int) : Prop :=
  x ∈ l ∧ (∀ y ∈ l, l.count y ≤ l.count x) ∧
    ∀ y ∈ l, l.count y = l.count x → l.idxOf x ≤ l.idxOf y

/-- The most frequent element of `l` (the earliest one among the most frequent), 0 if there is none. -/
def firstMode (l : List Int) : Int :=
  (l.find? fun x => l.all fun y => decide (l.count y ≤ l.count x)).getD 0

/-- The most frequent non-zero element of `l`, 0 if there is none. -/
def firstNonzeroMode (l : List Int) : Int := firstMode (l.filter fun y => decide (y ≠ 0))

/-- Consecutive intervals from `cur` on: each starts where the previous one ended. -/
def Tiles : (cur : Nat) → List Span → Prop
  | _, [] => True
  | cur, s :: ss => s.start = cur ∧ s.start ≤ s.stop ∧ Tiles s.stop ss

instance decTiles : (cur : Nat) → (ss : List Span) → Decidable (Tiles cur ss)
  | _, [] => isTrue trivial
  | cur, s :: ss =>
    have := decTiles s.stop ss
    inferInstanceAs (Decidable (s.start = cur ∧ s.start ≤ s.stop ∧ Tiles s.stop ss))

/-- `l'` is `l` sorted by `key`, elements with equal keys in their original order. -/
def IsStableSort {α κ : Type} [LE κ] [DecidableEq κ] (key : α → κ) (l l' : List α) : Prop :=
  l'.Pairwise (fun a b => key a ≤ key b) ∧
    ∀ k, l'.filter (fun a => key a = k) = l.filter (fun a => key a = k)

/-- `[n₁, n₂, ...]` laid out from `off` on: the intervals `[off, off+n₁), [off+n₁, off+n₁+n₂), ...`. -/
def consecutive : (off : Nat) → List Nat → List Span
  | _, [] => []
  | off, n :: ns => ⟨off, off + n⟩ :: consecutive (off + n) ns

/-- The tokens occur in `s` one after the other, without overlap. -/
def OccursInOrder : (s : Str) → List Str → Prop
  | _, [] => True
  | s, t :: ts => ∃ pre post, s = pre ++ t ++ post ∧ OccursInOrder post ts

end Uttut.Spec
