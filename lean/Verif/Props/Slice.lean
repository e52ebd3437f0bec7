import Verif.Spec.Slice
import Verif.Props.Pipe

/-! C63 for slices with any bounds and step. -/

namespace Uttut
open Spec

/-- The number of positions from `a` on in steps of `s` before `b`. -/
theorem lt_count (a b s : Int) (hs : 0 < s) (k : Nat) :
    k < (if a < b then ((b - a - 1) / s + 1).toNat else 0) ↔ a + k * s < b := by
  by_cases h : a < b
  · rw [if_pos h]
    have h0 : 0 ≤ (b - a - 1) / s := Int.ediv_nonneg (by omega) (by omega)
    have h1 := Int.le_ediv_iff_mul_le (a := (k : Int)) (b := b - a - 1) hs
    constructor
    · intro hk
      have := h1.mp (by omega)
      omega
    · intro hk
      have := h1.mpr (by omega)
      omega
  · rw [if_neg h]
    have : 0 ≤ (k : Int) * s := Int.mul_nonneg (by omega) (by omega)
    constructor
    · intro hk; omega
    · intro hk; omega

theorem lt_countDown (a b s : Int) (hs : s < 0) (k : Nat) :
    k < (if b < a then ((a - b - 1) / (-s) + 1).toNat else 0) ↔ b < a + k * s := by
  have := lt_count (-a) (-b) (-s) (by omega) k
  rw [show -b - -a - 1 = a - b - 1 by omega, Int.mul_neg] at this
  by_cases hba : b < a
  · rw [if_pos (by omega)] at this
    rw [if_pos hba, this]
    omega
  · rw [if_neg (by omega)] at this
    rw [if_neg hba, this]
    omega

theorem mem_sliceIndices_up (n : Nat) (start stop : Option Int) (step : Int) (h : 0 < step) (j : Nat) :
    j ∈ sliceIndices n start stop step ↔ SelectedUp n start stop step j := by
  unfold sliceIndices SelectedUp
  rw [if_pos h]
  dsimp only
  have ha : sliceBound (clampUp n) 0 start = min (n : Int) (max 0 ((start.map (place n)).getD 0)) := by
    cases start with
    | none => simp only [sliceBound, Option.map_none, Option.getD_none]; omega
    | some i =>
      simp only [sliceBound, clampUp, Option.map_some, Option.getD_some, place]
      split <;> omega
  have hb : ∀ x : Int, 0 ≤ x → (x < sliceBound (clampUp n) n stop ↔ x < n ∧ ∀ b, stop = some b → x < place n b) := by
    intro x hx
    cases stop with
    | none => simp [sliceBound]
    | some i =>
      simp only [sliceBound, clampUp, Option.some.injEq, forall_eq', place]
      split <;> omega
  have hlo : 0 ≤ max 0 ((start.map (place n)).getD 0) := by omega
  generalize (max 0 ((start.map (place n)).getD 0)) = lo at ha hlo ⊢
  generalize sliceBound (clampUp n) 0 start = a at ha ⊢
  generalize sliceBound (clampUp n) (n : Int) stop = b at hb ⊢
  simp only [List.mem_map, List.mem_range, lt_count a b step h]
  constructor
  · rintro ⟨k, hk, rfl⟩
    have hks : 0 ≤ (k : Int) * step := Int.mul_nonneg (by omega) (by omega)
    obtain ⟨h1, h2⟩ := (hb _ (by omega)).mp hk
    have e : ((a + k * step).toNat : Int) = a + k * step := by omega
    refine ⟨by omega, ⟨k, by omega⟩, fun b' hb' => ?_⟩
    rw [e]
    exact h2 b' hb'
  · rintro ⟨h1, ⟨k, hk⟩, h2⟩
    have hks : 0 ≤ (k : Int) * step := Int.mul_nonneg (by omega) (by omega)
    have e : a + k * step = (j : Int) := by omega
    refine ⟨k, ?_, by rw [e]; rfl⟩
    rw [e]
    exact (hb _ (by omega)).mpr ⟨by omega, h2⟩

theorem mem_sliceIndices_down (n : Nat) (start stop : Option Int) (step : Int) (h : step < 0) (j : Nat) :
    j ∈ sliceIndices n start stop step ↔ SelectedDown n start stop step j := by
  unfold sliceIndices SelectedDown
  rw [if_neg (by omega)]
  dsimp only
  have ha : sliceBound (clampDown n) ((n : Int) - 1) start =
      max (-1) (min ((n : Int) - 1) ((start.map (place n)).getD ((n : Int) - 1))) := by
    cases start with
    | none => simp only [sliceBound, Option.map_none, Option.getD_none]; omega
    | some i =>
      simp only [sliceBound, clampDown, Option.map_some, Option.getD_some, place]
      split <;> omega
  have hb : ∀ x : Int, x < n → (sliceBound (clampDown n) (-1) stop < x ↔ -1 < x ∧ ∀ b, stop = some b → place n b < x) := by
    intro x hx
    cases stop with
    | none => simp [sliceBound]
    | some i =>
      simp only [sliceBound, clampDown, Option.some.injEq, forall_eq', place]
      split <;> omega
  have hlo : min ((n : Int) - 1) ((start.map (place n)).getD ((n : Int) - 1)) < n := by omega
  generalize min ((n : Int) - 1) ((start.map (place n)).getD ((n : Int) - 1)) = lo at ha hlo ⊢
  generalize sliceBound (clampDown n) ((n : Int) - 1) start = a at ha ⊢
  generalize sliceBound (clampDown n) (-1) stop = b at hb ⊢
  simp only [List.mem_map, List.mem_range, lt_countDown a b step h]
  constructor
  · rintro ⟨k, hk, rfl⟩
    have hks : (k : Int) * step ≤ 0 := Int.mul_nonpos_of_nonneg_of_nonpos (by omega) (by omega)
    obtain ⟨h1, h2⟩ := (hb _ (by omega)).mp hk
    have e : ((a + k * step).toNat : Int) = a + k * step := by omega
    refine ⟨by omega, ⟨k, by omega⟩, fun b' hb' => ?_⟩
    rw [e]
    exact h2 b' hb'
  · rintro ⟨h1, ⟨k, hk⟩, h2⟩
    have hks : (k : Int) * step ≤ 0 := Int.mul_nonpos_of_nonneg_of_nonpos (by omega) (by omega)
    have e : a + k * step = (j : Int) := by omega
    refine ⟨k, ?_, by rw [e]; rfl⟩
    rw [e]
    exact (hb _ (by omega)).mpr ⟨by omega, h2⟩

/-- The positions of a slice are in order. -/
theorem sliceIndices_sorted (n : Nat) (start stop : Option Int) (step : Int) :
    (0 < step → (sliceIndices n start stop step).Pairwise (· < ·)) ∧
    (step < 0 → (sliceIndices n start stop step).Pairwise (· > ·)) := by
  constructor
  · intro h
    unfold sliceIndices
    rw [if_pos h]
    dsimp only
    have ha : 0 ≤ sliceBound (clampUp n) 0 start := by
      cases start with
      | none => simp [sliceBound]
      | some i => simp only [sliceBound, clampUp]; split <;> omega
    rw [List.pairwise_map]
    refine List.pairwise_lt_range.imp ?_
    intro x y hxy
    have h1 : 0 ≤ (x : Int) * step := Int.mul_nonneg (by omega) (by omega)
    have h2 : ((x : Int) + 1) * step ≤ y * step := Int.mul_le_mul_of_nonneg_right (by omega) (by omega)
    rw [Int.add_mul] at h2
    omega
  · intro h
    unfold sliceIndices
    rw [if_neg (by omega)]
    dsimp only
    have hb : -1 ≤ sliceBound (clampDown n) (-1) stop := by
      cases stop with
      | none => simp [sliceBound]
      | some i => simp only [sliceBound, clampDown]; split <;> omega
    generalize sliceBound (clampDown n) (-1) stop = b at hb ⊢
    generalize sliceBound (clampDown n) ((n : Int) - 1) start = a
    rw [List.pairwise_map]
    refine List.pairwise_lt_range.imp_of_mem ?_
    intro x y _ hy hxy
    have h1 := (lt_countDown a b step h y).mp (List.mem_range.mp hy)
    have h2 : ((x : Int) + 1) * (-step) ≤ y * (-step) := Int.mul_le_mul_of_nonneg_right (by omega) (by omega)
    rw [Int.add_mul, Int.mul_neg, Int.mul_neg, Int.mul_neg] at h2
    omega

theorem filterMap_getElem? {α : Type} (l : List α) (is : List Nat) (h : ∀ i ∈ is, i < l.length) :
    (is.filterMap fun i => l[i]?).map some = is.map fun i => l[i]? := by
  induction is with
  | nil => rfl
  | cons i is ih =>
    have hi : l[i]? = some (l[i]'(h i (by simp))) := List.getElem?_eq_getElem _
    rw [List.filterMap_cons, hi, List.map_cons, List.map_cons, hi, ih fun j hj => h j (List.mem_cons_of_mem _ hj)]

/-- C63: the steps of `p[start:stop:step]`, for any bounds: those at the selected positions, in order of the positions for a
positive step and in reverse order for a negative one. A step of 0 raises ValueError. Whether consecutive steps fit
together is not checked. -/
theorem C63_steps (p : Pipe) (start stop step : Option Int) :
    (step = some 0 → p.getSlice start stop step = .error .valueError) ∧
    ∀ r, p.getSlice start stop step = .ok r → ∃ positions : List Nat,
      r.steps.map some = (positions.map fun j => p.steps[j]?) ∧
      (0 < step.getD 1 → positions.Pairwise (· < ·) ∧ ∀ j, j ∈ positions ↔ SelectedUp p.steps.length start stop (step.getD 1) j) ∧
      (step.getD 1 < 0 → positions.Pairwise (· > ·) ∧ ∀ j, j ∈ positions ↔ SelectedDown p.steps.length start stop (step.getD 1) j) := by
  refine ⟨fun h => by subst h; rfl, fun r hr => ?_⟩
  obtain ⟨h1, _⟩ := getSlice_ok hr
  unfold sliceStep at h1
  split at h1
  · cases h1
  next hne =>
    injection h1 with h1
    have hnz : step.getD 1 ≠ 0 := by
      cases step with
      | none => simp
      | some s => intro h; exact hne (by rw [show s = 0 from h])
    have up := mem_sliceIndices_up p.steps.length start stop (step.getD 1)
    have down := mem_sliceIndices_down p.steps.length start stop (step.getD 1)
    have so := sliceIndices_sorted p.steps.length start stop (step.getD 1)
    refine ⟨sliceIndices p.steps.length start stop (step.getD 1), ?_, fun h => ⟨so.1 h, up h⟩, fun h => ⟨so.2 h, down h⟩⟩
    rw [← h1]
    refine filterMap_getElem? _ _ fun i hi => ?_
    rcases Int.lt_trichotomy (step.getD 1) 0 with h | h | h
    · exact ((down h i).mp hi).1
    · exact absurd h hnz
    · exact ((up h i).mp hi).1

/-- C63: every other slice of a pipe without checkpoints exists. -/
theorem C63_slices (p : Pipe) (start stop step : Option Int) (hs : step ≠ some 0) (hc : start = none → p.checkpoints = []) :
    ∃ r, p.getSlice start stop step = .ok r := by
  cases start with
  | none => exact ((C63_no_start p stop step hs).2 (hc rfl)).elim fun s h => ⟨_, h⟩
  | some a =>
    unfold Pipe.getSlice sliceStep
    split
    · exact absurd rfl hs
    · rw [sliceCheckpoints_some]
      exact ⟨_, rfl⟩

/-- C63 (what goes wrong): a slice with a step need not be a pipe whose steps fit together; running it can fail. -/
theorem C63_unchecked : ∃ (p r : Pipe), WellTyped p.steps ∧ p.getSlice none none (some (-1)) = .ok r ∧ ¬ WellTyped r.steps := by
  refine ⟨⟨[exRev, exChars], []⟩, ⟨[exChars, exRev], []⟩, ?_, rfl, fun h => ?_⟩
  · intro i a b h1 h2
    match i, h1, h2 with
    | 0, h1, h2 =>
      injection h1 with h1
      injection h2 with h2
      subst h1 h2
      rfl
    | i + 1, _, h2 => simp at h2
  · exact absurd (h 0 exChars exRev rfl rfl) (by decide)

/-- All steps in reverse order; every second step; from the last but one down to the first. -/
example : sliceIndices 4 none none (-1) = [3, 2, 1, 0] ∧
    sliceIndices 4 (some 1) none 2 = [1, 3] ∧ sliceIndices 4 (some (-2)) (some (-5)) (-2) = [2, 0] :=
  by decide

example : SelectedDown 4 (some (-2)) (some (-5)) (-2) 0 := by
  refine ⟨by decide, ⟨1, by decide⟩, fun b hb => ?_⟩
  injection hb with hb
  subst hb
  decide

end Uttut
