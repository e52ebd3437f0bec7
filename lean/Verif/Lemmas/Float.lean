import Verif.Model.Float
import Verif.Spec.Float
import Mathlib.Tactic.Linarith
import Mathlib.Tactic.Ring
import Mathlib.Tactic.Positivity
import Mathlib.Tactic.FieldSimp
import Mathlib.Tactic.NormNum
import Mathlib.Tactic.SplitIfs

/-! Rounding to floats. -/

namespace Uttut.Float64

open Spec

/-! ### whole numbers -/

theorem rhe_error (y : Rat) : |(roundHalfEven y : Rat) - y| ≤ 1 / 2 := by
  have h1 := Int.floor_le y
  have h2 := Int.lt_floor_add_one y
  unfold roundHalfEven
  rw [abs_le]
  split
  · constructor <;> linarith
  · split
    · push_cast; constructor <;> linarith
    · split
      · constructor <;> linarith
      · push_cast; constructor <;> linarith

theorem rhe_int (n : Int) : roundHalfEven (n : Rat) = n := by
  unfold roundHalfEven
  rw [Int.floor_intCast, if_pos (by norm_num)]

theorem rhe_bounds (y : Rat) : ⌊y⌋ ≤ roundHalfEven y ∧ roundHalfEven y ≤ ⌊y⌋ + 1 := by
  unfold roundHalfEven
  split
  · omega
  · split
    · omega
    · split <;> omega

theorem rhe_mono {x y : Rat} (h : x ≤ y) : roundHalfEven x ≤ roundHalfEven y := by
  have hf := Int.floor_le_floor h
  rcases Int.lt_or_eq_of_le hf with hlt | heq
  · have h1 := (rhe_bounds x).2
    have h2 := (rhe_bounds y).1
    omega
  · have h3 : (⌊x⌋ : Rat) = ⌊y⌋ := by rw [heq]
    unfold roundHalfEven
    rw [← heq]
    split_ifs <;> first | omega | (exfalso; linarith)

theorem rhe_nearest (y : Rat) (n : Int) : |(roundHalfEven y : Rat) - y| ≤ |(n : Rat) - y| := by
  have h1 := Int.floor_le y
  have h2 := Int.lt_floor_add_one y
  rcases le_or_gt n ⌊y⌋ with hn | hn
  · have hn' : (n : Rat) ≤ ⌊y⌋ := by exact_mod_cast hn
    rw [abs_of_nonpos (show (n : Rat) - y ≤ 0 by linarith)]
    unfold roundHalfEven
    split
    · rw [abs_of_nonpos (by linarith)]; linarith
    · split
      · push_cast; rw [abs_of_nonneg (by linarith)]; linarith
      · split
        · rw [abs_of_nonpos (by linarith)]; linarith
        · push_cast; rw [abs_of_nonneg (by linarith)]; linarith
  · have hn' : (⌊y⌋ : Rat) + 1 ≤ n := by exact_mod_cast hn
    rw [abs_of_nonneg (show 0 ≤ (n : Rat) - y by linarith)]
    unfold roundHalfEven
    split
    · rw [abs_of_nonpos (by linarith)]; linarith
    · split
      · push_cast; rw [abs_of_nonneg (by linarith)]; linarith
      · split
        · rw [abs_of_nonpos (by linarith)]; linarith
        · push_cast; rw [abs_of_nonneg (by linarith)]; linarith

/-- Of two nearest whole numbers the even one is taken. -/
theorem rhe_even (y : Rat) (n : Int) (hn : n ≠ roundHalfEven y) (h : |(roundHalfEven y : Rat) - y| = |(n : Rat) - y|) :
    roundHalfEven y % 2 = 0 := by
  have h1 := Int.floor_le y
  have h2 := Int.lt_floor_add_one y
  by_contra hodd
  have key : |(roundHalfEven y : Rat) - y| < 1 / 2 := by
    by_contra hge
    have he : y - (⌊y⌋ : Rat) = 1 / 2 := by
      unfold roundHalfEven at hge
      split at hge
      · exfalso; apply hge; rw [abs_of_nonpos (by linarith)]; linarith
      · split at hge
        · exfalso; apply hge; push_cast; rw [abs_of_nonneg (by linarith)]; linarith
        · linarith
    unfold roundHalfEven at hodd
    rw [if_neg (by linarith), if_neg (by linarith)] at hodd
    split at hodd <;> omega
  have hd : |(n : Rat) - (roundHalfEven y : Rat)| < 1 := by
    have e : (n : Rat) - (roundHalfEven y : Rat) = ((n : Rat) - y) - ((roundHalfEven y : Rat) - y) := by ring
    rw [e]
    have t := abs_sub ((n : Rat) - y) ((roundHalfEven y : Rat) - y)
    rw [← h] at t
    linarith
  have hi : |n - roundHalfEven y| < 1 := by exact_mod_cast hd
  rw [Int.abs_lt_one_iff] at hi
  omega

/-! ### positive numbers -/

theorem log_bounds {x : Rat} (hx : 0 < x) : (2 : Rat) ^ Int.log 2 x ≤ x ∧ x < (2 : Rat) ^ (Int.log 2 x + 1) := by
  constructor
  · have := Int.zpow_log_le_self (b := 2) (by norm_num) hx
    exact_mod_cast this
  · have := Int.lt_zpow_succ_log_self (b := 2) (by norm_num) x
    exact_mod_cast this

theorem two_zpow_pos (e : Int) : (0 : Rat) < (2 : Rat) ^ e := zpow_pos (by norm_num) e

theorem pow_split (e : Int) (k : Nat) : (2 : Rat) ^ e = 2 ^ k * (2 : Rat) ^ (e - k) := by
  rw [← zpow_natCast, ← zpow_add₀ (by norm_num)]
  congr 1
  omega

/-- The scaled number lies between `2^52` and `2^53`. -/
theorem scaled {x : Rat} (hx : 0 < x) : (2 : Rat) ^ 52 ≤ x / (2 : Rat) ^ (Int.log 2 x - 52) ∧
    x / (2 : Rat) ^ (Int.log 2 x - 52) < 2 ^ 53 := by
  obtain ⟨h1, h2⟩ := log_bounds hx
  have hp := two_zpow_pos (Int.log 2 x - 52)
  constructor
  · rw [le_div_iff₀ hp]
    rw [pow_split (Int.log 2 x) 52] at h1
    exact_mod_cast h1
  · rw [div_lt_iff₀ hp]
    rw [pow_split (Int.log 2 x + 1) 53] at h2
    have e : Int.log 2 x + 1 - (53 : Nat) = Int.log 2 x - 52 := by omega
    rw [e] at h2
    exact h2

theorem mantissa {x : Rat} (hx : 0 < x) : 2 ^ 52 ≤ roundHalfEven (x / (2 : Rat) ^ (Int.log 2 x - 52)) ∧
    roundHalfEven (x / (2 : Rat) ^ (Int.log 2 x - 52)) ≤ 2 ^ 53 := by
  obtain ⟨h1, h2⟩ := scaled hx
  constructor
  · have := rhe_mono (x := ((2 ^ 52 : Int) : Rat)) (by push_cast; exact h1)
    rwa [rhe_int] at this
  · have := rhe_mono (y := ((2 ^ 53 : Int) : Rat)) (by push_cast; exact h2.le)
    rwa [rhe_int] at this

theorem roundPos_between {x : Rat} (hx : 0 < x) :
    (2 : Rat) ^ Int.log 2 x ≤ roundPos x ∧ roundPos x ≤ (2 : Rat) ^ (Int.log 2 x + 1) := by
  obtain ⟨h1, h2⟩ := mantissa hx
  have hp := two_zpow_pos (Int.log 2 x - 52)
  unfold roundPos
  constructor
  · rw [pow_split (Int.log 2 x) 52]
    refine mul_le_mul_of_nonneg_right ?_ hp.le
    exact_mod_cast h1
  · rw [pow_split (Int.log 2 x + 1) 53]
    have e : Int.log 2 x + 1 - (53 : Nat) = Int.log 2 x - 52 := by omega
    rw [e]
    refine mul_le_mul_of_nonneg_right ?_ hp.le
    exact_mod_cast h2

theorem roundPos_pos {x : Rat} (hx : 0 < x) : 0 < roundPos x := lt_of_lt_of_le (two_zpow_pos _) (roundPos_between hx).1

theorem roundPos_mono {x y : Rat} (hx : 0 < x) (h : x ≤ y) : roundPos x ≤ roundPos y := by
  have hy := lt_of_lt_of_le hx h
  have hl := Int.log_mono_right (b := 2) hx h
  rcases Int.lt_or_eq_of_le hl with hlt | heq
  · calc roundPos x ≤ (2 : Rat) ^ (Int.log 2 x + 1) := (roundPos_between hx).2
      _ ≤ (2 : Rat) ^ Int.log 2 y := zpow_le_zpow_right₀ (by norm_num) (by omega)
      _ ≤ roundPos y := (roundPos_between hy).1
  · have hp := two_zpow_pos (Int.log 2 y - 52)
    unfold roundPos
    rw [heq]
    refine mul_le_mul_of_nonneg_right ?_ hp.le
    have := rhe_mono (div_le_div_of_nonneg_right h hp.le)
    exact_mod_cast this

theorem roundPos_error {x : Rat} (hx : 0 < x) : |roundPos x - x| ≤ x / 2 ^ 53 := by
  have hp := two_zpow_pos (Int.log 2 x - 52)
  have h := rhe_error (x / (2 : Rat) ^ (Int.log 2 x - 52))
  have e : roundPos x - x = ((roundHalfEven (x / (2 : Rat) ^ (Int.log 2 x - 52)) : Rat) -
      x / (2 : Rat) ^ (Int.log 2 x - 52)) * (2 : Rat) ^ (Int.log 2 x - 52) := by
    unfold roundPos
    rw [sub_mul, div_mul_cancel₀ _ hp.ne']
  rw [e, abs_mul, abs_of_pos hp, le_div_iff₀ (by norm_num)]
  have h1 := (log_bounds hx).1
  rw [pow_split (Int.log 2 x) 52] at h1
  have h2 := mul_le_mul_of_nonneg_right h hp.le
  calc _ ≤ 1 / 2 * (2 : Rat) ^ (Int.log 2 x - 52) * 2 ^ 53 := mul_le_mul_of_nonneg_right h2 (by norm_num)
    _ = 2 ^ 52 * (2 : Rat) ^ (Int.log 2 x - 52) := by ring
    _ ≤ x := by exact_mod_cast h1

/-- A positive float is at least the next power of two below, so scaled by it a whole number. -/
theorem float_scaled {z : Rat} (hz : IsFloat z) (E : Int) (h : (2 : Rat) ^ E ≤ |z|) :
    ∃ n : Int, z = n * (2 : Rat) ^ (E - 52) := by
  obtain ⟨m, e, hm, rfl⟩ := hz
  have hp := two_zpow_pos e
  rw [abs_mul, abs_of_pos hp] at h
  have hm' : |(m : Rat)| ≤ 2 ^ 53 := by exact_mod_cast hm
  rcases le_or_gt (E - 52) e with he | he
  · refine ⟨m * 2 ^ (e - (E - 52)).toNat, ?_⟩
    push_cast
    rw [mul_assoc, ← zpow_natCast, ← zpow_add₀ (by norm_num)]
    congr 2
    omega
  · have h1 : (2 : Rat) ^ E ≤ 2 ^ 53 * (2 : Rat) ^ e := le_trans h (mul_le_mul_of_nonneg_right hm' hp.le)
    have h2 : (2 : Rat) ^ 53 * (2 : Rat) ^ e = (2 : Rat) ^ (e + 53) := by
      rw [zpow_add₀ (by norm_num)]
      rw [mul_comm]
      norm_num
    have hE : E = e + 53 := by
      rw [h2] at h1
      have := (zpow_le_zpow_iff_right₀ (a := (2 : Rat)) (by norm_num)).mp h1
      omega
    have h3 : (2 : Rat) ^ 53 ≤ |(m : Rat)| := by
      rw [hE, ← h2] at h
      exact le_of_mul_le_mul_right h hp
    have h4 : |m| = 2 ^ 53 := by
      have : (2 : Int) ^ 53 ≤ |m| := by exact_mod_cast h3
      omega
    have h5 : (2 : Rat) ^ e = (2 : Rat) ^ (E - 52) / 2 := by
      rw [hE, show e + 53 - 52 = e + 1 by omega, zpow_add₀ (by norm_num)]
      norm_num
    rcases abs_eq (by norm_num) |>.mp h4 with hm | hm
    · exact ⟨2 ^ 52, by rw [hm, h5]; push_cast; ring⟩
    · exact ⟨-2 ^ 52, by rw [hm, h5]; push_cast; ring⟩

theorem roundPos_float {x : Rat} (hx : 0 < x) : IsFloat (roundPos x) := by
  obtain ⟨h1, h2⟩ := mantissa hx
  exact ⟨_, _, by rw [abs_of_nonneg (by omega)]; exact h2, rfl⟩

theorem roundPos_exact {x : Rat} (hx : 0 < x) (h : IsFloat x) : roundPos x = x := by
  have hp := two_zpow_pos (Int.log 2 x - 52)
  obtain ⟨n, hn⟩ := float_scaled h (Int.log 2 x) (by rw [abs_of_pos hx]; exact (log_bounds hx).1)
  have e : x / (2 : Rat) ^ (Int.log 2 x - 52) = n := by
    rw [div_eq_iff hp.ne']
    exact hn
  unfold roundPos
  rw [e, rhe_int]
  exact hn.symm

theorem isFloat_zpow (e : Int) : IsFloat ((2 : Rat) ^ e) := ⟨1, e, by norm_num, by norm_num⟩

/-- No float is nearer. -/
theorem roundPos_nearest {x z : Rat} (hx : 0 < x) (hz : IsFloat z) : |roundPos x - x| ≤ |z - x| := by
  have hp := two_zpow_pos (Int.log 2 x - 52)
  obtain ⟨l1, l2⟩ := log_bounds hx
  have near : ∀ n : Int, |roundPos x - x| ≤ |(n : Rat) * (2 : Rat) ^ (Int.log 2 x - 52) - x| := fun n => by
    have h := rhe_nearest (x / (2 : Rat) ^ (Int.log 2 x - 52)) n
    have e : ∀ k : Int, (k : Rat) * (2 : Rat) ^ (Int.log 2 x - 52) - x =
        ((k : Rat) - x / (2 : Rat) ^ (Int.log 2 x - 52)) * (2 : Rat) ^ (Int.log 2 x - 52) := fun k => by
      rw [sub_mul, div_mul_cancel₀ _ hp.ne']
    unfold roundPos
    rw [e, e, abs_mul, abs_mul]
    exact mul_le_mul_of_nonneg_right h (abs_nonneg _)
  by_cases hle : (2 : Rat) ^ Int.log 2 x ≤ z
  · obtain ⟨n, hn⟩ := float_scaled hz (Int.log 2 x) (le_trans hle (le_abs_self z))
    rw [hn]
    exact near n
  · have hlt := not_le.mp hle
    have h1 := near (2 ^ 52)
    have e : (((2 ^ 52 : Int) : Rat)) * (2 : Rat) ^ (Int.log 2 x - 52) = (2 : Rat) ^ Int.log 2 x := by
      rw [pow_split (Int.log 2 x) 52]
      push_cast
      rfl
    rw [e] at h1
    refine le_trans h1 ?_
    rw [abs_of_nonpos (by linarith), abs_of_nonpos (by linarith)]
    linarith

theorem roundPos_even_mantissa {x z : Rat} (hx : 0 < x) (hz : IsFloat z) (hne : z ≠ roundPos x)
    (h : |roundPos x - x| = |z - x|) : roundHalfEven (x / (2 : Rat) ^ (Int.log 2 x - 52)) % 2 = 0 := by
  have hp := two_zpow_pos (Int.log 2 x - 52)
  obtain ⟨l1, l2⟩ := log_bounds hx
  have scaledEq : ∀ n : Int, z = n * (2 : Rat) ^ (Int.log 2 x - 52) →
      roundHalfEven (x / (2 : Rat) ^ (Int.log 2 x - 52)) % 2 = 0 := fun n hn => by
    have e : ∀ k : Int, (k : Rat) * (2 : Rat) ^ (Int.log 2 x - 52) - x =
        ((k : Rat) - x / (2 : Rat) ^ (Int.log 2 x - 52)) * (2 : Rat) ^ (Int.log 2 x - 52) := fun k => by
      rw [sub_mul, div_mul_cancel₀ _ hp.ne']
    refine rhe_even _ n ?_ ?_
    · intro hc
      apply hne
      rw [hn, hc]
      rfl
    · rw [hn] at h
      unfold roundPos at h
      rw [e, e, abs_mul, abs_mul] at h
      exact mul_right_cancel₀ (abs_pos.mpr hp.ne').ne' h
  by_cases hle : (2 : Rat) ^ Int.log 2 x ≤ z
  · obtain ⟨n, hn⟩ := float_scaled hz (Int.log 2 x) (le_trans hle (le_abs_self z))
    exact scaledEq n hn
  · exfalso
    have hlt := not_le.mp hle
    have h1 := roundPos_nearest hx (isFloat_zpow (Int.log 2 x))
    rw [h, abs_of_nonpos (by linarith), abs_of_nonpos (by linarith)] at h1
    linarith

theorem roundPos_even {x z : Rat} (hx : 0 < x) (hz : IsFloat z) (hne : z ≠ roundPos x)
    (h : |roundPos x - x| = |z - x|) : IsEvenFloat (roundPos x) := by
  obtain ⟨m1, m2⟩ := mantissa hx
  refine .inr ⟨_, Int.log 2 x - 52, ?_, ?_, roundPos_even_mantissa hx hz hne h, rfl⟩
  · rw [abs_of_nonneg (by omega)]; exact m1
  · rw [abs_of_nonneg (by omega)]; exact m2

/-! ### all numbers -/

theorem toFloat_zero : toFloat 0 = 0 := by unfold toFloat; rw [if_neg (by norm_num), if_pos rfl]

theorem toFloat_pos {x : Rat} (hx : 0 < x) : toFloat x = roundPos x := by
  unfold toFloat
  rw [if_neg (by linarith), if_neg hx.ne']

theorem toFloat_neg (x : Rat) : toFloat (-x) = -toFloat x := by
  rcases lt_trichotomy x 0 with h | h | h
  · unfold toFloat
    rw [if_neg (by linarith), if_neg (by intro hc; linarith), if_pos h, neg_neg]
  · subst h
    simp [toFloat_zero]
  · unfold toFloat
    rw [if_pos (by linarith), if_neg (by linarith), if_neg h.ne', neg_neg]

theorem isFloat_zero : IsFloat 0 := ⟨0, 0, by norm_num, by norm_num⟩

theorem _root_.Uttut.Spec.IsFloat.neg {x : Rat} (h : IsFloat x) : IsFloat (-x) := by
  obtain ⟨m, e, h1, h2⟩ := h
  exact ⟨-m, e, by rw [abs_neg]; exact h1, by rw [h2]; push_cast; ring⟩

theorem _root_.Uttut.Spec.IsEvenFloat.neg {x : Rat} (h : IsEvenFloat x) : IsEvenFloat (-x) := by
  rcases h with h | ⟨m, e, h1, h2, h3, h4⟩
  · exact .inl (by rw [h, neg_zero])
  · exact .inr ⟨-m, e, by rw [abs_neg]; exact h1, by rw [abs_neg]; exact h2, by omega, by rw [h4]; push_cast; ring⟩

theorem nearest_pos {x : Rat} (hx : 0 < x) : Nearest x (toFloat x) := by
  rw [toFloat_pos hx]
  exact ⟨roundPos_float hx, fun z hz => roundPos_nearest hx hz, fun z hz hne h => roundPos_even hx hz hne h⟩

theorem _root_.Uttut.Spec.Nearest.neg {x y : Rat} (h : Nearest x y) : Nearest (-x) (-y) := by
  have e : ∀ a b : Rat, |-a - -b| = |a - b| := fun a b => by
    rw [show -a - -b = -(a - b) by ring, abs_neg]
  have e' : ∀ a b : Rat, |a - -b| = |-a - b| := fun a b => by
    rw [show a - -b = -(-a - b) by ring, abs_neg]
  refine ⟨h.float.neg, fun z hz => ?_, fun z hz hne ht => ?_⟩
  · rw [e, e']
    exact h.nearest _ hz.neg
  · rw [e, e'] at ht
    exact (h.even _ hz.neg (by intro hc; apply hne; rw [← hc, neg_neg]) ht).neg

theorem nearest_toFloat (x : Rat) : Nearest x (toFloat x) := by
  rcases lt_trichotomy x 0 with h | h | h
  · have := (nearest_pos (show 0 < -x by linarith)).neg
    rw [toFloat_neg, neg_neg, neg_neg] at this
    exact this
  · subst h
    rw [toFloat_zero]
    refine ⟨isFloat_zero, fun z _ => by simp, fun z hz hne ht => .inl rfl⟩
  · exact nearest_pos h

theorem toFloat_nonneg {x : Rat} (hx : 0 ≤ x) : 0 ≤ toFloat x := by
  rcases lt_or_eq_of_le hx with h | h
  · rw [toFloat_pos h]
    exact (roundPos_pos h).le
  · rw [← h, toFloat_zero]

theorem toFloat_mono {x y : Rat} (h : x ≤ y) : toFloat x ≤ toFloat y := by
  rcases lt_or_ge 0 x with hx | hx
  · rw [toFloat_pos hx, toFloat_pos (by linarith)]
    exact roundPos_mono hx h
  · have h1 : toFloat x ≤ 0 := by
      have := toFloat_nonneg (show 0 ≤ -x by linarith)
      rw [toFloat_neg] at this
      linarith
    rcases le_or_gt 0 y with hy | hy
    · exact le_trans h1 (toFloat_nonneg hy)
    · have := roundPos_mono (x := -y) (y := -x) (by linarith) (by linarith)
      rw [← toFloat_pos (by linarith), ← toFloat_pos (by linarith), toFloat_neg, toFloat_neg] at this
      linarith

theorem toFloat_exact {x : Rat} (h : IsFloat x) : toFloat x = x := by
  rcases lt_trichotomy x 0 with hx | hx | hx
  · have := roundPos_exact (show 0 < -x by linarith) h.neg
    rw [← toFloat_pos (by linarith), toFloat_neg] at this
    linarith
  · rw [hx, toFloat_zero]
  · rw [toFloat_pos hx, roundPos_exact hx h]

theorem toFloat_error (x : Rat) : |toFloat x - x| ≤ |x| / 2 ^ 53 := by
  rcases lt_trichotomy x 0 with hx | hx | hx
  · have := roundPos_error (show 0 < -x by linarith)
    rw [← toFloat_pos (by linarith), toFloat_neg, show -toFloat x - -x = -(toFloat x - x) by ring, abs_neg] at this
    rw [abs_of_neg hx]
    exact this
  · rw [hx, toFloat_zero]; norm_num
  · rw [toFloat_pos hx, abs_of_pos hx]
    exact roundPos_error hx

theorem isFloat_toFloat (x : Rat) : IsFloat (toFloat x) := (nearest_toFloat x).float

theorem isFloat_nat {n : Nat} (h : n ≤ 2 ^ 53) : IsFloat (n : Rat) := by
  refine ⟨n, 0, ?_, by simp⟩
  rw [abs_of_nonneg (by omega)]
  exact_mod_cast h

end Uttut.Float64
