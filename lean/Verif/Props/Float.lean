import Verif.Lemmas.Float
import Verif.Props.Toolkits
import Mathlib.Tactic.GCongr
import Mathlib.Algebra.Order.BigOperators.Group.List

/-!
C88: `entity_overlapping_ratio` as it is computed, with floats.
-/

namespace Uttut

open Spec Float64

/-- C88: what rounding means: the result is a float, no float is nearer to the exact value, and of two nearest ones the
one with last bit 0 is taken. -/
theorem C88_rounding (x : Rat) : Nearest x (toFloat x) := nearest_toFloat x

example : toFloat (1 / 10) = 3602879701896397 / 36028797018963968 := by decide +kernel
example : toFloat (2 ^ 53 + 1) = 2 ^ 53 ∧ toFloat (2 ^ 53 + 3) = 2 ^ 53 + 4 := by decide +kernel

/-! ### sums -/

/-- The sum of floats, from left to right. -/
def fsum (acc : Rat) (ps : List Rat) : Rat := ps.foldl (fun acc p => toFloat (acc + p)) acc

theorem fsum_cons (acc p : Rat) (ps : List Rat) : fsum acc (p :: ps) = fsum (toFloat (acc + p)) ps := rfl

theorem fsum_ge {ps : List Rat} (hp : ∀ p ∈ ps, 0 ≤ p) {acc : Rat} (hf : IsFloat acc) : acc ≤ fsum acc ps := by
  induction ps generalizing acc with
  | nil => exact le_refl _
  | cons p ps ih =>
    rw [fsum_cons]
    have h0 := hp p (List.mem_cons_self ..)
    have h1 : acc ≤ toFloat (acc + p) := by
      have := toFloat_mono (show acc ≤ acc + p by linarith)
      rwa [toFloat_exact hf] at this
    exact le_trans h1 (ih (fun q hq => hp q (List.mem_cons_of_mem _ hq)) (isFloat_toFloat _))

theorem fsum_ge_mem {ps : List Rat} (hp : ∀ p ∈ ps, 0 ≤ p) {acc : Rat} (ha : 0 ≤ acc) {p : Rat} (hm : p ∈ ps)
    (hf : IsFloat p) : p ≤ fsum acc ps := by
  induction ps generalizing acc with
  | nil => cases hm
  | cons q ps ih =>
    rw [fsum_cons]
    have h0 := hp q (List.mem_cons_self ..)
    have hp' := fun q hq => hp q (List.mem_cons_of_mem _ hq)
    rcases List.mem_cons.mp hm with rfl | hm
    · refine le_trans ?_ (fsum_ge hp' (isFloat_toFloat _))
      have := toFloat_mono (show p ≤ acc + p by linarith)
      rwa [toFloat_exact hf] at this
    · exact ih hp' (toFloat_nonneg (by linarith)) hm

theorem fsum_mono {ps qs : List Rat} (h : List.Forall₂ (· ≤ ·) ps qs) {a b : Rat} (hab : a ≤ b) :
    fsum a ps ≤ fsum b qs := by
  induction h generalizing a b with
  | nil => exact hab
  | cons hpq _ ih => exact ih (toFloat_mono (by linarith))

theorem fsum_zero {ps : List Rat} (h : ∀ p ∈ ps, p = 0) {acc : Rat} (hf : IsFloat acc) : fsum acc ps = acc := by
  induction ps with
  | nil => rfl
  | cons p ps ih =>
    rw [fsum_cons, h p (List.mem_cons_self ..), add_zero, toFloat_exact hf]
    exact ih fun q hq => h q (List.mem_cons_of_mem _ hq)

/-- Sums of whole numbers are exact as long as they are not too large. -/
theorem fsum_nat (ns : List Nat) (a : Nat) (h : a + ns.sum ≤ 2 ^ 53) :
    fsum (a : Rat) (ns.map fun n : Nat => (n : Rat)) = ((a + ns.sum : Nat) : Rat) := by
  induction ns generalizing a with
  | nil => simp [fsum]
  | cons n ns ih =>
    rw [List.sum_cons] at h
    rw [List.map_cons, fsum_cons, ← Nat.cast_add, toFloat_exact (isFloat_nat (by omega)), ih (a + n) (by omega),
      List.sum_cons, Nat.add_assoc]

theorem fsum_error (ps : List Rat) (hp : ∀ p ∈ ps, 0 ≤ p) (acc s : Rat) (k : Nat) (hs : 0 ≤ s)
    (hk : k + ps.length ≤ 2 ^ 52) (h : |acc - s| ≤ 2 * k / 2 ^ 53 * s) :
    |fsum acc ps - (s + ps.sum)| ≤ 2 * (k + ps.length : Nat) / 2 ^ 53 * (s + ps.sum) := by
  induction ps generalizing acc s k with
  | nil => simpa [fsum] using h
  | cons p ps ih =>
    rw [fsum_cons]
    have h0 := hp p (List.mem_cons_self ..)
    rw [List.length_cons] at hk
    have hk' : (k : Rat) ≤ 2 ^ 52 := by
      have : k ≤ 2 ^ 52 := by omega
      exact_mod_cast this
    have hk0 : (0 : Rat) ≤ k := by exact_mod_cast Nat.zero_le k
    have key : |toFloat (acc + p) - (s + p)| ≤ 2 * (k + 1 : Nat) / 2 ^ 53 * (s + p) := by
      have e1 := toFloat_error (acc + p)
      have e2 : |acc + p| ≤ (s + p) + 2 * k / 2 ^ 53 * s := by
        have : acc + p = (s + p) + (acc - s) := by ring
        rw [this]
        refine le_trans (abs_add_le _ _) ?_
        rw [abs_of_nonneg (show (0 : Rat) ≤ s + p by linarith)]
        linarith
      have e3 : |toFloat (acc + p) - (s + p)| ≤ |toFloat (acc + p) - (acc + p)| + |acc - s| := by
        have : toFloat (acc + p) - (s + p) = (toFloat (acc + p) - (acc + p)) + (acc - s) := by ring
        rw [this]
        exact abs_add_le _ _
      have e4 : 2 * (k : Rat) / 2 ^ 53 * s ≤ s := by
        have : 2 * (k : Rat) / 2 ^ 53 ≤ 1 := by
          rw [div_le_one (by norm_num)]
          linarith
        have := mul_le_mul_of_nonneg_right this hs
        linarith
      have e5 : 2 * (k : Rat) / 2 ^ 53 * s ≤ 2 * (k : Rat) / 2 ^ 53 * (s + p) := by
        refine mul_le_mul_of_nonneg_left (by linarith) (by positivity)
      have e6 : 2 * ((k + 1 : Nat) : Rat) / 2 ^ 53 * (s + p) = 2 * (k : Rat) / 2 ^ 53 * (s + p) + 2 * (s + p) / 2 ^ 53 := by
        push_cast
        ring
      rw [e6]
      have e7 : |acc + p| / 2 ^ 53 ≤ 2 * (s + p) / 2 ^ 53 := by
        refine div_le_div_of_nonneg_right ?_ (by norm_num)
        linarith
      linarith
    have := ih (fun q hq => hp q (List.mem_cons_of_mem _ hq)) (toFloat (acc + p)) (s + p) (k + 1) (by linarith)
      (by omega) key
    rw [List.sum_cons, List.length_cons, ← add_assoc, show k + (ps.length + 1) = k + 1 + ps.length by omega]
    exact this

/-! ### the ratio -/

/-- The penalties of all characters. -/
def penalties (n : Nat) (a b : Nat → Int) (rate : Rat) : List Rat := (List.range n).map fun i => penalty (a i) (b i) rate

theorem floatRatio_eq {d1 d2 : Datum} (h1 : IsDatum d1) (h2 : IsDatum d2) (rate : Rat)
    (hu : d1.utterance = d2.utterance) (hne : d1.utterance ≠ []) :
    floatOverlappingRatio d1 d2 rate = .ok (toFloat (1 - toFloat
      (fsum 0 (penalties d1.utterance.length (labelAt d1.entities) (labelAt d2.entities) (toFloat rate)) /
        toFloat (d1.utterance.length : Rat)))) := by
  unfold floatOverlappingRatio Datum.hasSameUtteranceAs
  rw [if_neg (by simp [hu]), expandEntityToList_spec h1, expandEntityToList_spec h2, ← hu]
  dsimp only
  rw [if_neg (by simpa using hne)]
  congr 5
  unfold floatPenalty fsum penalties
  rw [List.zip_map', List.foldl_map, List.foldl_map]

theorem ratio_eq {d1 d2 : Datum} (h1 : IsDatum d1) (h2 : IsDatum d2) (rate : Rat)
    (hu : d1.utterance = d2.utterance) (hne : d1.utterance ≠ []) :
    entityOverlappingRatio d1 d2 rate = .ok (1 -
      (penalties d1.utterance.length (labelAt d1.entities) (labelAt d2.entities) rate).sum / (d1.utterance.length : Rat)) := by
  unfold entityOverlappingRatio Datum.hasSameUtteranceAs
  rw [if_neg (by simp [hu]), expandEntityToList_spec h1, expandEntityToList_spec h2, ← hu]
  dsimp only
  rw [if_neg (by simpa using hne)]
  congr 3
  unfold penalties
  rw [List.zip_map', List.foldl_map, List.sum_eq_foldl, List.foldl_map]

theorem penalty_comm (x y : Int) (rate : Rat) : penalty x y rate = penalty y x rate := by
  unfold penalty
  by_cases h : x = y
  · rw [if_pos h, if_pos h.symm]
  · rw [if_neg h, if_neg (Ne.symm h)]
    by_cases h' : x = 0 ∨ y = 0
    · rw [if_pos h', if_pos h'.symm]
    · rw [if_neg h', if_neg fun h'' => h' h''.symm]

theorem penalty_nonneg (x y : Int) {rate : Rat} (h : 0 ≤ rate) : 0 ≤ penalty x y rate := by
  unfold penalty
  split_ifs <;> linarith

theorem penalty_le (x y : Int) {rate M : Rat} (h : rate ≤ M) (hM : 1 ≤ M) : penalty x y rate ≤ M := by
  unfold penalty
  split_ifs <;> linarith

theorem penalty_mono (x y : Int) {rate rate' : Rat} (h : rate ≤ rate') : penalty x y rate ≤ penalty x y rate' := by
  unfold penalty
  split_ifs <;> linarith

theorem toFloat_len {n : Nat} (h : n ≤ 2 ^ 53) : toFloat (n : Rat) = n := toFloat_exact (isFloat_nat h)

theorem toFloat_one : toFloat 1 = 1 := by
  have := toFloat_len (n := 1) (by norm_num)
  exact_mod_cast this

/-- C88: the outcomes are those of the exact computation: the same exceptions, otherwise a float. -/
theorem C88_outcome (u1 u2 : Str) (is1 is2 : Option (List Intent)) (es1 es2 : Option (List Entity))
    (d1 d2 : Datum) (h1 : Datum.new u1 is1 es1 = .ok d1) (h2 : Datum.new u2 is2 es2 = .ok d2) (rate : Rat) :
    (u1 ≠ u2 → floatOverlappingRatio d1 d2 rate = .error .differentUtterance) ∧
    (u1 = u2 → u1 = [] → floatOverlappingRatio d1 d2 rate = .error .zeroDivisionError) ∧
    (u1 = u2 → u1 ≠ [] → ∃ r, floatOverlappingRatio d1 d2 rate = .ok r ∧ IsFloat r) := by
  have e1 := datum_new_utterance h1
  have e2 := datum_new_utterance h2
  refine ⟨fun hu => ?_, fun hu hne => ?_, fun hu hne => ?_⟩
  · unfold floatOverlappingRatio Datum.hasSameUtteranceAs
    rw [if_pos (by simp [e1, e2, hu])]
  · unfold floatOverlappingRatio Datum.hasSameUtteranceAs
    rw [if_neg (by simp [e1, e2, hu]), expandEntityToList_spec (isDatum_of_new_opt h1),
      expandEntityToList_spec (isDatum_of_new_opt h2)]
    dsimp only
    rw [if_pos (by simp [e1, hne])]
  · rw [floatRatio_eq (isDatum_of_new_opt h1) (isDatum_of_new_opt h2) rate (by rw [e1, e2, hu]) (by rw [e1]; exact hne)]
    exact ⟨_, rfl, isFloat_toFloat _⟩

/-- C88: the order of the data makes no difference, not even in the last bit. -/
theorem C88_symmetric (u1 u2 : Str) (is1 is2 : Option (List Intent)) (es1 es2 : Option (List Entity))
    (d1 d2 : Datum) (h1 : Datum.new u1 is1 es1 = .ok d1) (h2 : Datum.new u2 is2 es2 = .ok d2) (rate : Rat) :
    floatOverlappingRatio d1 d2 rate = floatOverlappingRatio d2 d1 rate := by
  have i1 := isDatum_of_new_opt h1
  have i2 := isDatum_of_new_opt h2
  have e1 := datum_new_utterance h1
  have e2 := datum_new_utterance h2
  by_cases hu : u1 = u2
  · by_cases hne : u1 = []
    · rw [(C88_outcome u1 u2 is1 is2 es1 es2 d1 d2 h1 h2 rate).2.1 hu hne,
        (C88_outcome u2 u1 is2 is1 es2 es1 d2 d1 h2 h1 rate).2.1 hu.symm (hu ▸ hne)]
    · rw [floatRatio_eq i1 i2 rate (by rw [e1, e2, hu]) (by rw [e1]; exact hne),
        floatRatio_eq i2 i1 rate (by rw [e1, e2, hu]) (by rw [e2, ← hu]; exact hne), e1, e2, hu]
      have : penalties u2.length (labelAt d1.entities) (labelAt d2.entities) (toFloat rate) =
          penalties u2.length (labelAt d2.entities) (labelAt d1.entities) (toFloat rate) := by
        unfold penalties
        exact List.map_congr_left fun i _ => penalty_comm _ _ _
      rw [this]
  · rw [(C88_outcome u1 u2 is1 is2 es1 es2 d1 d2 h1 h2 rate).1 hu,
      (C88_outcome u2 u1 is2 is1 es2 es1 d2 d1 h2 h1 rate).1 (Ne.symm hu)]

theorem mem_penalties {n : Nat} {a b : Nat → Int} {rate p : Rat} (h : p ∈ penalties n a b rate) :
    ∃ i, i < n ∧ p = penalty (a i) (b i) rate := by
  unfold penalties at h
  obtain ⟨i, hi, rfl⟩ := List.mem_map.mp h
  exact ⟨i, List.mem_range.mp hi, rfl⟩

theorem penalties_length (n : Nat) (a b : Nat → Int) (rate : Rat) : (penalties n a b rate).length = n := by
  simp [penalties]

/-- With rates up to 1 the sum is at most the length. -/
theorem fsum_le_length (n : Nat) (hn : n ≤ 2 ^ 53) (a b : Nat → Int) {rate : Rat} (h : rate ≤ 1) :
    fsum 0 (penalties n a b rate) ≤ n := by
  have hm : List.Forall₂ (· ≤ ·) (penalties n a b rate) ((List.replicate n 1).map fun k : Nat => (k : Rat)) := by
    unfold penalties
    have : ∀ l : List Nat, List.Forall₂ (· ≤ ·) (l.map fun i => penalty (a i) (b i) rate)
        ((List.replicate l.length 1).map fun k : Nat => (k : Rat)) := by
      intro l
      induction l with
      | nil => exact .nil
      | cons i l ih => exact .cons (by simpa using penalty_le (a i) (b i) h (le_refl 1)) ih
    simpa using this (List.range n)
  have h1 := fsum_mono hm (le_refl 0)
  have h2 := fsum_nat (List.replicate n 1) 0 (by simpa using hn)
  rw [Nat.cast_zero] at h2
  rw [h2] at h1
  simpa using h1

theorem div_len_nonneg {x : Rat} (n : Nat) (h : 0 ≤ x) : 0 ≤ x / (n : Rat) := div_nonneg h (Nat.cast_nonneg n)

/-- C88: for rates between 0 and 1 the ratio lies between 0 and 1, rounding included. -/
theorem C88_bounds (u : Str) (hne : u ≠ []) (hlen : u.length ≤ 2 ^ 53) (is1 is2 : Option (List Intent))
    (es1 es2 : Option (List Entity)) (d1 d2 : Datum) (h1 : Datum.new u is1 es1 = .ok d1)
    (h2 : Datum.new u is2 es2 = .ok d2) (rate : Rat) (hr0 : 0 ≤ rate) (hr1 : rate ≤ 1) :
    ∃ r, floatOverlappingRatio d1 d2 rate = .ok r ∧ 0 ≤ r ∧ r ≤ 1 := by
  have e1 := datum_new_utterance h1
  have e2 := datum_new_utterance h2
  rw [floatRatio_eq (isDatum_of_new_opt h1) (isDatum_of_new_opt h2) rate (by rw [e1, e2]) (by rw [e1]; exact hne), e1]
  have hn : (0 : Rat) < (u.length : Rat) := by exact_mod_cast List.length_pos_iff.mpr hne
  have hf1 : toFloat rate ≤ 1 := by have := toFloat_mono hr1; rwa [toFloat_one] at this
  have hf0 := toFloat_nonneg hr0
  have hs0 : 0 ≤ fsum 0 (penalties u.length (labelAt d1.entities) (labelAt d2.entities) (toFloat rate)) :=
    fsum_ge (fun p hp => by obtain ⟨i, _, rfl⟩ := mem_penalties hp; exact penalty_nonneg _ _ hf0) isFloat_zero
  have hs1 := fsum_le_length u.length hlen (labelAt d1.entities) (labelAt d2.entities) hf1
  rw [toFloat_len hlen]
  generalize fsum 0 (penalties u.length (labelAt d1.entities) (labelAt d2.entities) (toFloat rate)) = S at *
  have q0 : 0 ≤ toFloat (S / u.length) := toFloat_nonneg (div_len_nonneg _ hs0)
  have q1 : toFloat (S / u.length) ≤ 1 := by
    have := toFloat_mono ((div_le_one hn).mpr hs1)
    rwa [toFloat_one] at this
  refine ⟨_, rfl, toFloat_nonneg (by linarith), ?_⟩
  have := toFloat_mono (show 1 - toFloat (S / u.length) ≤ 1 by linarith)
  rwa [toFloat_one] at this

theorem isFloat_small (k : Nat) (hk : k ≤ 53) : IsFloat (1 - 1 / 2 ^ k) := by
  refine ⟨2 ^ k - 1, -k, ?_, ?_⟩
  · have h1 : (2 : Int) ^ k ≤ 2 ^ 53 := pow_le_pow_right₀ (by norm_num) hk
    have h2 : (1 : Int) ≤ 2 ^ k := by exact_mod_cast Nat.one_le_two_pow
    rw [abs_of_nonneg (by omega)]
    omega
  · push_cast
    rw [zpow_neg, zpow_natCast]
    have : (2 : Rat) ^ k ≠ 0 := by positivity
    field_simp

/-- C88: equal labels give exactly 1; conversely 1 means equal labels only if the rate is not too small: at least the
length divided by `2^53`. -/
theorem C88_one (u : Str) (hne : u ≠ []) (hlen : u.length ≤ 2 ^ 53) (is1 is2 : Option (List Intent))
    (es1 es2 : Option (List Entity)) (d1 d2 : Datum) (h1 : Datum.new u is1 es1 = .ok d1)
    (h2 : Datum.new u is2 es2 = .ok d2) (rate : Rat) :
    ((∀ i, i < u.length → labelAt d1.entities i = labelAt d2.entities i) →
        floatOverlappingRatio d1 d2 rate = .ok 1) ∧
      (u.length / 2 ^ 53 ≤ rate → IsFloat rate → floatOverlappingRatio d1 d2 rate = .ok 1 →
        ∀ i, i < u.length → labelAt d1.entities i = labelAt d2.entities i) := by
  have e1 := datum_new_utterance h1
  have e2 := datum_new_utterance h2
  have hn : (0 : Rat) < (u.length : Rat) := by exact_mod_cast List.length_pos_iff.mpr hne
  rw [floatRatio_eq (isDatum_of_new_opt h1) (isDatum_of_new_opt h2) rate (by rw [e1, e2]) (by rw [e1]; exact hne), e1]
  constructor
  · intro h
    rw [fsum_zero (fun p hp => ?_) isFloat_zero]
    · rw [zero_div, toFloat_zero, sub_zero, toFloat_one]
    · obtain ⟨i, hi, rfl⟩ := mem_penalties hp
      rw [h i hi]
      simp [penalty]
  · intro hr hf hone i hi
    rw [toFloat_exact hf, toFloat_len hlen] at hone
    injection hone with hone
    by_contra hd
    have hr0 : 0 ≤ rate := le_trans (by positivity) hr
    have hs : (u.length : Rat) / 2 ^ 53 ≤ fsum 0 (penalties u.length (labelAt d1.entities) (labelAt d2.entities) rate) := by
      have hm : penalty (labelAt d1.entities i) (labelAt d2.entities i) rate ∈
          penalties u.length (labelAt d1.entities) (labelAt d2.entities) rate :=
        List.mem_map.mpr ⟨i, List.mem_range.mpr hi, rfl⟩
      have hp : ∀ p ∈ penalties u.length (labelAt d1.entities) (labelAt d2.entities) rate, 0 ≤ p := fun p hp => by
        obtain ⟨i, _, rfl⟩ := mem_penalties hp
        exact penalty_nonneg _ _ hr0
      have hl1 : (u.length : Rat) / 2 ^ 53 ≤ 1 := by
        rw [div_le_one (by norm_num)]
        exact_mod_cast hlen
      have hfl : IsFloat 1 := by have := isFloat_nat (n := 1) (by norm_num); exact_mod_cast this
      by_cases hz : labelAt d1.entities i = 0 ∨ labelAt d2.entities i = 0
      · have e : penalty (labelAt d1.entities i) (labelAt d2.entities i) rate = 1 := by
          unfold penalty
          rw [if_neg hd, if_pos hz]
        rw [e] at hm
        exact le_trans hl1 (fsum_ge_mem hp (le_refl 0) hm hfl)
      · have e : penalty (labelAt d1.entities i) (labelAt d2.entities i) rate = rate := by
          unfold penalty
          rw [if_neg hd, if_neg hz]
        rw [e] at hm
        exact le_trans hr (fsum_ge_mem hp (le_refl 0) hm hf)
    generalize fsum 0 (penalties u.length (labelAt d1.entities) (labelAt d2.entities) rate) = S at *
    have hq : (1 : Rat) / 2 ^ 53 ≤ toFloat (S / u.length) := by
      have h3 : (1 : Rat) / 2 ^ 53 ≤ S / u.length := by
        rw [le_div_iff₀ hn]
        calc (1 : Rat) / 2 ^ 53 * u.length = u.length / 2 ^ 53 := by ring
          _ ≤ S := hs
      have h4 := toFloat_mono h3
      have h5 : IsFloat ((1 : Rat) / 2 ^ 53) := by
        have := isFloat_zpow (-53)
        norm_num at this ⊢
        exact this
      rwa [toFloat_exact h5] at h4
    have h6 := toFloat_mono (show 1 - toFloat (S / u.length) ≤ 1 - 1 / 2 ^ 53 by linarith)
    rw [hone, toFloat_exact (isFloat_small 53 (by norm_num))] at h6
    norm_num at h6

/-- C88: with a small rate the ratio can be 1 for different labels, which is impossible for exact numbers
(`C51_one`). -/
theorem C88_one_fails : ∃ (d1 d2 : Datum) (rate : Rat),
    Datum.new "a".toList none (some [⟨1, "a".toList, 0, 1, []⟩]) = .ok d1 ∧
    Datum.new "a".toList none (some [⟨2, "a".toList, 0, 1, []⟩]) = .ok d2 ∧ 0 < rate ∧ IsFloat rate ∧
    labelAt d1.entities 0 ≠ labelAt d2.entities 0 ∧ floatOverlappingRatio d1 d2 rate = .ok 1 :=
  ⟨_, _, 1 / 2 ^ 60, rfl, rfl, by norm_num, by
    have := isFloat_zpow (-60)
    norm_num at this ⊢
    exact this, by decide, by decide +kernel⟩

/-- C88: a higher rate never gives a higher ratio. -/
theorem C88_monotone (u : Str) (hne : u ≠ []) (is1 is2 : Option (List Intent)) (es1 es2 : Option (List Entity))
    (d1 d2 : Datum) (h1 : Datum.new u is1 es1 = .ok d1) (h2 : Datum.new u is2 es2 = .ok d2) (rate rate' : Rat)
    (hr : rate ≤ rate') : ∃ r r', floatOverlappingRatio d1 d2 rate = .ok r ∧
      floatOverlappingRatio d1 d2 rate' = .ok r' ∧ r' ≤ r := by
  have e1 := datum_new_utterance h1
  have e2 := datum_new_utterance h2
  have i1 := isDatum_of_new_opt h1
  have i2 := isDatum_of_new_opt h2
  rw [floatRatio_eq i1 i2 rate (by rw [e1, e2]) (by rw [e1]; exact hne),
    floatRatio_eq i1 i2 rate' (by rw [e1, e2]) (by rw [e1]; exact hne), e1]
  refine ⟨_, _, rfl, rfl, toFloat_mono ?_⟩
  have hm : List.Forall₂ (· ≤ ·) (penalties u.length (labelAt d1.entities) (labelAt d2.entities) (toFloat rate))
      (penalties u.length (labelAt d1.entities) (labelAt d2.entities) (toFloat rate')) := by
    unfold penalties
    induction List.range u.length with
    | nil => exact .nil
    | cons i l ih => exact .cons (penalty_mono _ _ (toFloat_mono hr)) ih
  have hs := fsum_mono hm (le_refl 0)
  have hq := toFloat_mono (div_le_div_of_nonneg_right hs (toFloat_nonneg (Nat.cast_nonneg (α := Rat) u.length)))
  linarith

/-- C88: for a rate that is a whole number the penalties are added without rounding, so that only the division and the
subtraction round. -/
theorem C88_whole (u : Str) (hne : u ≠ []) (is1 is2 : Option (List Intent)) (es1 es2 : Option (List Entity))
    (d1 d2 : Datum) (h1 : Datum.new u is1 es1 = .ok d1) (h2 : Datum.new u is2 es2 = .ok d2) (rate : Nat)
    (hlen : u.length * max 1 rate ≤ 2 ^ 53) : ∃ q r,
      Nearest (((oneSided u.length (labelAt d1.entities) (labelAt d2.entities) : Rat) +
        rate * (twoSided u.length (labelAt d1.entities) (labelAt d2.entities) : Rat)) / (u.length : Rat)) q ∧
      Nearest (1 - q) r ∧ floatOverlappingRatio d1 d2 rate = .ok r := by
  have e1 := datum_new_utterance h1
  have e2 := datum_new_utterance h2
  have hl1 : u.length ≤ 2 ^ 53 := le_trans (Nat.le_mul_of_pos_right _ (by omega)) hlen
  have hpos := List.length_pos_iff.mpr hne
  have hr1 : rate ≤ 2 ^ 53 := by
    have h3 : max 1 rate ≤ u.length * max 1 rate := Nat.le_mul_of_pos_left _ hpos
    omega
  rw [floatRatio_eq (isDatum_of_new_opt h1) (isDatum_of_new_opt h2) rate (by rw [e1, e2]) (by rw [e1]; exact hne), e1,
    toFloat_len hl1, toFloat_len hr1]
  have hsum : fsum 0 (penalties u.length (labelAt d1.entities) (labelAt d2.entities) rate) =
      (oneSided u.length (labelAt d1.entities) (labelAt d2.entities) : Rat) +
        rate * (twoSided u.length (labelAt d1.entities) (labelAt d2.entities) : Rat) := by
    generalize labelAt d1.entities = a
    generalize labelAt d2.entities = b
    let ns := (List.range u.length).map fun i => if a i = b i then 0 else if a i = 0 ∨ b i = 0 then 1 else rate
    have hns : penalties u.length a b rate = ns.map fun n : Nat => (n : Rat) := by
      unfold penalties
      rw [List.map_map]
      refine List.map_congr_left fun i _ => ?_
      simp only [Function.comp, penalty]
      split_ifs <;> simp
    have hb : ns.sum ≤ u.length * max 1 rate := by
      have : ∀ l : List Nat, (l.map fun i => if a i = b i then 0 else if a i = 0 ∨ b i = 0 then 1 else rate).sum ≤
          l.length * max 1 rate := by
        intro l
        induction l with
        | nil => simp
        | cons i l ih =>
          rw [List.map_cons, List.sum_cons, List.length_cons, Nat.add_mul, Nat.one_mul, Nat.add_comm]
          refine Nat.add_le_add ih ?_
          split_ifs <;> omega
      simpa using this (List.range u.length)
    have h3 := fsum_nat ns 0 (by omega)
    have h4 := foldl_penalty rate a b (List.range u.length) 0
    have h5 : ((ns.sum : Nat) : Rat) = (penalties u.length a b rate).sum := by
      rw [hns]
      clear_value ns
      clear h3 h4 hns hb
      induction ns with
      | nil => simp
      | cons n ns ih => rw [List.map_cons, List.sum_cons, List.sum_cons, Nat.cast_add, ih]
    rw [hns, ← Nat.cast_zero, h3, Nat.zero_add, h5]
    unfold penalties
    rw [List.zip_map', List.foldl_map] at h4
    rw [List.sum_eq_foldl, List.foldl_map, h4, zero_add]
    rfl
  rw [hsum]
  exact ⟨_, _, nearest_toFloat _, nearest_toFloat _, rfl⟩

/-- C88: how far the result can be from the exact ratio. -/
theorem C88_error (u : Str) (hne : u ≠ []) (hlen : u.length ≤ 2 ^ 52) (is1 is2 : Option (List Intent))
    (es1 es2 : Option (List Entity)) (d1 d2 : Datum) (h1 : Datum.new u is1 es1 = .ok d1)
    (h2 : Datum.new u is2 es2 = .ok d2) (rate M : Rat) (hf : IsFloat rate) (hr : 0 ≤ rate) (hM : rate ≤ M) (hM1 : 1 ≤ M) :
    ∃ r x, floatOverlappingRatio d1 d2 rate = .ok r ∧ entityOverlappingRatio d1 d2 rate = .ok x ∧
      |r - x| ≤ (2 * u.length + 6) * M / 2 ^ 53 := by
  have e1 := datum_new_utterance h1
  have e2 := datum_new_utterance h2
  have i1 := isDatum_of_new_opt h1
  have i2 := isDatum_of_new_opt h2
  have hn : (0 : Rat) < (u.length : Rat) := by exact_mod_cast List.length_pos_iff.mpr hne
  rw [floatRatio_eq i1 i2 rate (by rw [e1, e2]) (by rw [e1]; exact hne), ratio_eq i1 i2 rate (by rw [e1, e2])
    (by rw [e1]; exact hne), e1, toFloat_len (le_trans hlen (by norm_num)), toFloat_exact hf]
  refine ⟨_, _, rfl, rfl, ?_⟩
  have hp : ∀ p ∈ penalties u.length (labelAt d1.entities) (labelAt d2.entities) rate, 0 ≤ p ∧ p ≤ M := fun p hp => by
    obtain ⟨i, _, rfl⟩ := mem_penalties hp
    exact ⟨penalty_nonneg _ _ hr, penalty_le _ _ hM hM1⟩
  have hA := fsum_error _ (fun p h => (hp p h).1) 0 0 0 (le_refl 0)
    (by rw [penalties_length]; omega) (by norm_num)
  rw [penalties_length, zero_add] at hA
  have hS0 : 0 ≤ (penalties u.length (labelAt d1.entities) (labelAt d2.entities) rate).sum :=
    List.sum_nonneg fun p h => (hp p h).1
  have hSM : (penalties u.length (labelAt d1.entities) (labelAt d2.entities) rate).sum ≤ u.length * M := by
    have := List.sum_le_card_nsmul _ M fun p h => (hp p h).2
    rwa [penalties_length, nsmul_eq_mul] at this
  generalize fsum 0 (penalties u.length (labelAt d1.entities) (labelAt d2.entities) rate) = A at *
  generalize (penalties u.length (labelAt d1.entities) (labelAt d2.entities) rate).sum = S at *
  rw [Nat.zero_add] at hA
  have hlen' : (u.length : Rat) ≤ 2 ^ 52 := by exact_mod_cast hlen
  have hM0 : 0 ≤ M := by linarith
  have a1 : |A / u.length - S / u.length| ≤ 2 * u.length * M / 2 ^ 53 := by
    rw [← sub_div, abs_div, abs_of_pos hn, div_le_iff₀ hn]
    refine le_trans hA ?_
    have : 2 * (u.length : Rat) / 2 ^ 53 * S ≤ 2 * (u.length : Rat) / 2 ^ 53 * (u.length * M) :=
      mul_le_mul_of_nonneg_left hSM (by positivity)
    refine le_trans this (le_of_eq ?_)
    ring
  have a2 : |S / u.length| ≤ M := by
    rw [abs_of_nonneg (div_nonneg hS0 hn.le), div_le_iff₀ hn]
    linarith
  have a3 : 2 * (u.length : Rat) * M / 2 ^ 53 ≤ M := by
    rw [div_le_iff₀ (by norm_num)]
    have := mul_le_mul_of_nonneg_right hlen' hM0
    linarith
  have tri : ∀ x y : Rat, |x| ≤ |x - y| + |y| := fun x y => by
    have := abs_add_le (x - y) y
    rwa [sub_add_cancel] at this
  have a4 : |A / u.length| ≤ 2 * M := by
    have := tri (A / u.length) (S / u.length)
    linarith
  have a5 := toFloat_error (A / u.length)
  have a6 : |A / (u.length : Rat)| / 2 ^ 53 ≤ 2 * M / 2 ^ 53 := div_le_div_of_nonneg_right a4 (by norm_num)
  have a7 : |toFloat (A / u.length)| ≤ 3 * M := by
    have h3 := tri (toFloat (A / u.length)) (A / u.length)
    have h4 : 2 * M / 2 ^ 53 ≤ M := by
      rw [div_le_iff₀ (by norm_num)]
      nlinarith
    linarith
  generalize toFloat (A / u.length) = q at *
  have a8 := toFloat_error (1 - q)
  have a9 : |1 - q| ≤ 4 * M := by
    have h3 := abs_sub 1 q
    rw [abs_one] at h3
    linarith
  have a10 : |1 - q| / 2 ^ 53 ≤ 4 * M / 2 ^ 53 := div_le_div_of_nonneg_right a9 (by norm_num)
  have fin : |toFloat (1 - q) - (1 - S / u.length)| ≤ |toFloat (1 - q) - (1 - q)| + (|q - A / u.length| +
      |A / u.length - S / u.length|) := by
    have e : toFloat (1 - q) - (1 - S / u.length) =
        (toFloat (1 - q) - (1 - q)) + (-(q - A / u.length) + -(A / u.length - S / u.length)) := by ring
    rw [e]
    refine le_trans (abs_add_le _ _) (add_le_add (le_refl _) ?_)
    refine le_trans (abs_add_le _ _) ?_
    rw [abs_neg, abs_neg]
  have tot : (2 * (u.length : Rat) + 6) * M / 2 ^ 53 = 2 * u.length * M / 2 ^ 53 + 2 * M / 2 ^ 53 + 4 * M / 2 ^ 53 := by ring
  rw [tot]
  linarith

example : (do
    let d1 ← Datum.new "abc".toList none (some [⟨1, "ab".toList, 0, 2, []⟩])
    let d2 ← Datum.new "abc".toList none (some [⟨2, "b".toList, 1, 2, []⟩])
    floatOverlappingRatio d1 d2 1) = .ok (6004799503160662 / 2 ^ 54) := by decide +kernel

end Uttut
