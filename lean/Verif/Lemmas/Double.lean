import Verif.Model.Double
import Verif.Spec.Double
import Verif.Lemmas.Float

/-! Rounding to floats with bounded exponents. -/

set_option exponentiation.threshold 2000

namespace Uttut.Double

open Spec

theorem p1024 : (2 : Rat) ^ 1024 = 2 ^ 54 * 2 ^ 970 := by rw [← pow_add]
theorem p1023 : (2 : Rat) ^ 1023 = 2 ^ 53 * 2 ^ 970 := by rw [← pow_add]
theorem p971 : (2 : Rat) ^ 971 = 2 * 2 ^ 970 := by rw [← pow_succ']
theorem p970 : (1 : Rat) < 2 ^ 970 := one_lt_pow₀ (by norm_num) (by norm_num)
theorem p1024_pos : (0 : Rat) < 2 ^ 1024 := pow_pos (by norm_num) _

/-- Infinity for what is too large. -/
def wrap (y : Rat) : Double := if (2 : Rat) ^ 1024 ≤ y then inf else if y ≤ -(2 : Rat) ^ 1024 then negInf else fin y

/-- A multiple of the smallest float. -/
def Grid (x : Rat) : Prop := ∃ m : Int, x = m * (2 : Rat) ^ (-1074 : Int)

theorem Grid.zero : Grid 0 := ⟨0, by simp⟩

theorem Grid.add {x y : Rat} (hx : Grid x) (hy : Grid y) : Grid (x + y) := by
  obtain ⟨m, rfl⟩ := hx
  obtain ⟨n, rfl⟩ := hy
  exact ⟨m + n, by push_cast; ring⟩

theorem Grid.neg {x : Rat} (hx : Grid x) : Grid (-x) := by
  obtain ⟨m, rfl⟩ := hx
  exact ⟨-m, by push_cast; ring⟩

theorem Grid.scaled (m : Int) {e : Int} (he : -1074 ≤ e) : Grid (m * (2 : Rat) ^ e) := by
  refine ⟨m * 2 ^ (e + 1074).toNat, ?_⟩
  push_cast
  rw [mul_assoc, ← zpow_natCast, ← zpow_add₀ (by norm_num)]
  congr 2
  omega

theorem Grid.ofInt (n : Int) : Grid n := by
  have := Grid.scaled n (e := 0) (by norm_num)
  simpa using this

theorem grid_of_double {x : Rat} (h : IsDouble x) : Grid x := by
  obtain ⟨m, e, _, he, _, rfl⟩ := h
  exact Grid.scaled m he

theorem double_float {x : Rat} (h : IsDouble x) : IsFloat x := by
  obtain ⟨m, e, h1, _, _, h4⟩ := h
  exact ⟨m, e, h1.le, h4⟩

/-- The largest float. -/
theorem double_le {x : Rat} (h : IsDouble x) : |x| ≤ 2 ^ 1024 - 2 ^ 971 := by
  obtain ⟨m, e, h1, h2, h3, rfl⟩ := h
  rw [abs_mul, abs_of_pos (Float64.two_zpow_pos e)]
  have hm : |(m : Rat)| ≤ 2 ^ 53 - 1 := by
    have : |m| ≤ 2 ^ 53 - 1 := by omega
    exact_mod_cast this
  have he : (2 : Rat) ^ e ≤ (2 : Rat) ^ (971 : Int) := zpow_le_zpow_right₀ (by norm_num) h3
  calc |(m : Rat)| * (2 : Rat) ^ e ≤ (2 ^ 53 - 1) * (2 : Rat) ^ (971 : Int) :=
        mul_le_mul hm he (Float64.two_zpow_pos e).le (by norm_num)
    _ = 2 ^ 1024 - 2 ^ 971 := by rw [show ((971 : Int)) = ((971 : Nat) : Int) from rfl, zpow_natCast, p1024, p971]; generalize (2 : Rat) ^ 970 = B; ring

/-- With a magnitude of a normal number or larger, rounding is the same. -/
theorem roundPos_normal {x : Rat} (h : -1022 ≤ Int.log 2 x) : roundPos x = Float64.roundPos x := by
  unfold roundPos Float64.roundPos
  rw [max_eq_left (by omega)]

theorem log_lt {x : Rat} (hx : 0 < x) {k : Int} (h : x < (2 : Rat) ^ k) : Int.log 2 x < k := by
  by_contra hc
  have h1 := (Float64.log_bounds hx).1
  have h2 : (2 : Rat) ^ k ≤ (2 : Rat) ^ Int.log 2 x := zpow_le_zpow_right₀ (by norm_num) (by omega)
  linarith

theorem log_ge {x : Rat} (hx : 0 < x) {k : Int} (h : (2 : Rat) ^ k ≤ x) : k ≤ Int.log 2 x := by
  by_contra hc
  have h1 := (Float64.log_bounds hx).2
  have h2 : (2 : Rat) ^ (Int.log 2 x + 1) ≤ (2 : Rat) ^ k := zpow_le_zpow_right₀ (by norm_num) (by omega)
  linarith

/-- Small multiples of the smallest float are floats. -/
theorem small_grid_float {x : Rat} (hx : 0 < x) (h : Int.log 2 x < -1022) (hg : Grid x) : IsFloat x := by
  obtain ⟨m, rfl⟩ := hg
  refine ⟨m, _, ?_, rfl⟩
  have hp := Float64.two_zpow_pos (-1074)
  have h1 := (Float64.log_bounds hx).2
  have h2 : (2 : Rat) ^ (Int.log 2 (m * (2 : Rat) ^ (-1074 : Int)) + 1) ≤ (2 : Rat) ^ (-1022 : Int) :=
    zpow_le_zpow_right₀ (by norm_num) (by omega)
  have h3 : (2 : Rat) ^ (-1022 : Int) = 2 ^ 52 * (2 : Rat) ^ (-1074 : Int) := Float64.pow_split (-1022) 52
  rw [h3] at h2
  have h4 : (m : Rat) < 2 ^ 52 := lt_of_mul_lt_mul_right (lt_of_lt_of_le h1 h2) hp.le
  have h5 : (0 : Rat) < m := pos_of_mul_pos_left hx hp.le
  have h6 : m < 2 ^ 52 := by exact_mod_cast h4
  have h7 : 0 < m := by exact_mod_cast h5
  rw [abs_of_pos h7]
  omega

theorem roundPos_subnormal_exact {x : Rat} (h : Int.log 2 x < -1022) (hg : Grid x) : roundPos x = x := by
  obtain ⟨m, hm⟩ := hg
  have hp := Float64.two_zpow_pos (-1074)
  unfold roundPos
  rw [max_eq_right (by omega)]
  have e : x / (2 : Rat) ^ (-1074 : Int) = m := by rw [div_eq_iff hp.ne']; exact hm
  rw [e, Float64.rhe_int]
  exact hm.symm

theorem roundPos_grid {x : Rat} (hx : 0 < x) (hg : Grid x) : roundPos x = Float64.roundPos x := by
  rcases lt_or_ge (Int.log 2 x) (-1022) with h | h
  · rw [roundPos_subnormal_exact h hg, Float64.roundPos_exact hx (small_grid_float hx h hg)]
  · exact roundPos_normal h

theorem ofPos_eq {x : Rat} (hx : 0 < x) (h : roundPos x = Float64.roundPos x) : ofPos x = wrap (Float64.roundPos x) := by
  have hp := Float64.roundPos_pos hx
  unfold ofPos wrap
  rw [h]
  have h2 : ¬ Float64.roundPos x ≤ -(2 : Rat) ^ 1024 := by
    have := p1024_pos
    exact not_le.mpr (lt_trans (neg_lt_zero.mpr this) hp)
  rw [if_neg h2]

theorem wrap_neg (y : Rat) : (wrap y).neg = wrap (-y) := by
  have hp := p1024_pos
  unfold wrap
  generalize (2 : Rat) ^ 1024 = B at *
  by_cases h1 : B ≤ y
  · rw [if_pos h1, if_neg (by linarith), if_pos (by linarith)]; rfl
  · rw [if_neg h1]
    by_cases h2 : y ≤ -B
    · rw [if_pos h2, if_pos (by linarith)]; rfl
    · rw [if_neg h2, if_neg (by linarith), if_neg (by linarith)]; rfl

theorem wrap_fin {y : Rat} (h : |y| < 2 ^ 1024) : wrap y = fin y := by
  obtain ⟨h1, h2⟩ := abs_lt.mp h
  unfold wrap
  rw [if_neg (not_le.mpr h2), if_neg (not_le.mpr h1)]

/-- What rounds like a float without bounds. -/
def Plain (x : Rat) : Prop := Grid x ∨ (2 : Rat) ^ (-1022 : Int) ≤ |x|

theorem ofExact_plain {x : Rat} (h : Plain x) : ofExact x = wrap (Float64.toFloat x) := by
  have key : ∀ x : Rat, 0 < x → Plain x → ofPos x = wrap (Float64.roundPos x) := fun x hx h => by
    refine ofPos_eq hx ?_
    rcases h with h | h
    · exact roundPos_grid hx h
    · rw [abs_of_pos hx] at h
      exact roundPos_normal (log_ge hx h)
  have hn : Plain (-x) := by
    rcases h with h | h
    · exact .inl h.neg
    · exact .inr (by rwa [abs_neg])
  unfold ofExact
  rcases lt_trichotomy x 0 with hx | hx | hx
  · rw [if_pos hx, key (-x) (by linarith) hn, wrap_neg]
    congr 1
    unfold Float64.toFloat
    rw [if_pos hx]
  · subst hx
    rw [if_neg (by norm_num), if_pos rfl, Float64.toFloat_zero]
    exact (wrap_fin (by rw [abs_zero]; exact p1024_pos)).symm
  · rw [if_neg (by linarith), if_neg hx.ne', key x hx h, Float64.toFloat_pos hx]

theorem toFloat_grid {x : Rat} (h : Grid x) : Grid (Float64.toFloat x) := by
  have key : ∀ x : Rat, 0 < x → Grid x → Grid (Float64.toFloat x) := fun x hx h => by
    rcases lt_or_ge (Int.log 2 x) (-1022) with hl | hl
    · rwa [Float64.toFloat_exact (small_grid_float hx hl h)]
    · rw [Float64.toFloat_pos hx]
      exact Grid.scaled _ (by omega)
  rcases lt_trichotomy x 0 with hx | hx | hx
  · have := (key (-x) (by linarith) h.neg).neg
    rwa [Float64.toFloat_neg, neg_neg] at this
  · subst hx
    rw [Float64.toFloat_zero]
    exact Grid.zero
  · exact key x hx h

/-! ### the nearest float -/

theorem rhe_top : Float64.roundHalfEven (2 ^ 53 - 1 / 2) = 2 ^ 53 := by decide +kernel

/-- Too large for the largest float. -/
theorem round_overflow {x : Rat} (h : 2 ^ 1024 - 2 ^ 970 ≤ x) : (2 : Rat) ^ 1024 ≤ Float64.roundPos x := by
  have hx : 0 < x := by
    refine lt_of_lt_of_le ?_ h
    have := p970
    rw [p1024]
    generalize (2 : Rat) ^ 970 = B at *
    linarith
  have hl : 1023 ≤ Int.log 2 x := by
    refine log_ge hx (le_trans ?_ h)
    rw [show ((1023 : Int)) = ((1023 : Nat) : Int) from rfl, zpow_natCast, p1023, p1024]
    have := p970
    generalize (2 : Rat) ^ 970 = B at *
    linarith
  rcases Int.lt_or_eq_of_le hl with hlt | heq
  · refine le_trans ?_ (Float64.roundPos_between hx).1
    rw [← zpow_natCast]
    exact zpow_le_zpow_right₀ (by norm_num) (by omega)
  · unfold Float64.roundPos
    rw [← heq]
    have hp := Float64.two_zpow_pos (1023 - 52)
    have e : (2 : Rat) ^ (1023 - 52 : Int) = 2 ^ 971 := by
      rw [show ((1023 - 52 : Int)) = ((971 : Nat) : Int) from rfl, zpow_natCast]
    have h1 : (2 : Rat) ^ 53 - 1 / 2 ≤ x / (2 : Rat) ^ (1023 - 52 : Int) := by
      rw [le_div_iff₀ hp, e]
      refine le_trans (le_of_eq ?_) h
      rw [p971, p1024]
      generalize (2 : Rat) ^ 970 = B
      ring
    have h2 := Float64.rhe_mono h1
    rw [rhe_top] at h2
    have h3 : ((2 ^ 53 : Int) : Rat) ≤ (Float64.roundHalfEven (x / (2 : Rat) ^ (1023 - 52 : Int)) : Rat) := by exact_mod_cast h2
    have h4 := mul_le_mul_of_nonneg_right h3 hp.le
    refine le_trans (le_of_eq ?_) h4
    rw [e, p971, p1024]
    generalize (2 : Rat) ^ 970 = B
    push_cast
    ring

/-- A positive number below rounds to a float. -/
theorem round_double {x : Rat} (hx : 0 < x) (h : x < 2 ^ 1024 - 2 ^ 970) : IsDouble (roundPos x) := by
  rcases lt_or_ge (Int.log 2 x) (-1022) with hl | hl
  · have hp := Float64.two_zpow_pos (-1074)
    unfold roundPos
    rw [max_eq_right (by omega)]
    have h1 : x < 2 ^ 52 * (2 : Rat) ^ (-1074 : Int) := by
      refine lt_of_lt_of_le (Float64.log_bounds hx).2 ?_
      refine le_trans (zpow_le_zpow_right₀ (by norm_num) (show Int.log 2 x + 1 ≤ -1022 by omega)) ?_
      exact (Float64.pow_split (-1022) 52).le
    have h2 : x / (2 : Rat) ^ (-1074 : Int) ≤ ((2 ^ 52 : Int) : Rat) := by
      rw [div_le_iff₀ hp]
      push_cast
      exact h1.le
    have h3 := Float64.rhe_mono h2
    rw [Float64.rhe_int] at h3
    have h4 := Float64.rhe_mono (show ((0 : Int) : Rat) ≤ x / (2 : Rat) ^ (-1074 : Int) by
      push_cast; exact (div_pos hx hp).le)
    rw [Float64.rhe_int] at h4
    refine ⟨_, -1074, ?_, le_refl _, by norm_num, rfl⟩
    rw [abs_of_nonneg h4]
    omega
  · rw [roundPos_normal hl]
    obtain ⟨m1, m2⟩ := Float64.mantissa hx
    have hl2 : Int.log 2 x < 1024 := by
      refine log_lt hx (lt_of_lt_of_le h ?_)
      rw [show ((1024 : Int)) = ((1024 : Nat) : Int) from rfl, zpow_natCast]
      have := p970
      generalize (2 : Rat) ^ 970 = B at *
      linarith
    rcases Int.lt_or_eq_of_le m2 with hm | hm
    · exact ⟨_, Int.log 2 x - 52, by rw [abs_of_nonneg (by omega)]; exact hm, by omega, by omega, rfl⟩
    · rcases Int.lt_or_eq_of_le (show Int.log 2 x ≤ 1023 by omega) with hlt | heq
      · refine ⟨2 ^ 52, Int.log 2 x - 52 + 1, by norm_num, by omega, by omega, ?_⟩
        unfold Float64.roundPos
        rw [hm, zpow_add₀ (by norm_num)]
        push_cast
        generalize (2 : Rat) ^ (Int.log 2 x - 52) = B
        ring
      · exfalso
        have hp := Float64.two_zpow_pos (1023 - 52)
        have e : (2 : Rat) ^ (1023 - 52 : Int) = 2 ^ 971 := by
          rw [show ((1023 - 52 : Int)) = ((971 : Nat) : Int) from rfl, zpow_natCast]
        rw [heq] at hm
        have h1 : x / (2 : Rat) ^ (1023 - 52 : Int) < 2 ^ 53 - 1 / 2 := by
          rw [div_lt_iff₀ hp, e]
          refine lt_of_lt_of_le h (le_of_eq ?_)
          rw [p971, p1024]
          generalize (2 : Rat) ^ 970 = B
          ring
        have h2 := (abs_le.mp (Float64.rhe_error (x / (2 : Rat) ^ (1023 - 52 : Int)))).2
        rw [hm] at h2
        push_cast at h2
        linarith

theorem nearest_pos {x : Rat} (hx : 0 < x) (h : x < 2 ^ 1024 - 2 ^ 970) : NearestDouble x (roundPos x) := by
  have hd := round_double hx h
  rcases lt_or_ge (Int.log 2 x) (-1022) with hl | hl
  · have hp := Float64.two_zpow_pos (-1074)
    have e : ∀ k : Int, (k : Rat) * (2 : Rat) ^ (-1074 : Int) - x =
        ((k : Rat) - x / (2 : Rat) ^ (-1074 : Int)) * (2 : Rat) ^ (-1074 : Int) := fun k => by
      rw [sub_mul, div_mul_cancel₀ _ hp.ne']
    have er : roundPos x = (Float64.roundHalfEven (x / (2 : Rat) ^ (-1074 : Int)) : Rat) * (2 : Rat) ^ (-1074 : Int) := by
      unfold roundPos
      rw [max_eq_right (by omega)]
    refine ⟨hd, fun z hz => ?_, fun z hz hne ht => ?_⟩
    · obtain ⟨n, rfl⟩ := grid_of_double hz
      rw [er, e, e, abs_mul, abs_mul]
      exact mul_le_mul_of_nonneg_right (Float64.rhe_nearest _ n) (abs_nonneg _)
    · obtain ⟨n, rfl⟩ := grid_of_double hz
      have hev : Float64.roundHalfEven (x / (2 : Rat) ^ (-1074 : Int)) % 2 = 0 := by
        refine Float64.rhe_even _ n ?_ ?_
        · intro hc
          apply hne
          rw [er, hc]
        · rw [er, e, e, abs_mul, abs_mul] at ht
          exact mul_right_cancel₀ (abs_pos.mpr hp.ne').ne' ht
      refine ⟨_, -1074, ?_, le_refl _, .inr rfl, hev, er⟩
      have h1 : x / (2 : Rat) ^ (-1074 : Int) ≤ ((2 ^ 53 : Int) : Rat) := by
        rw [div_le_iff₀ hp]
        push_cast
        refine le_trans (Float64.log_bounds hx).2.le ?_
        refine le_trans (zpow_le_zpow_right₀ (by norm_num) (show Int.log 2 x + 1 ≤ -1022 + 1 by omega)) ?_
        exact (Float64.pow_split (-1021) 53).le
      have h3 := Float64.rhe_mono h1
      rw [Float64.rhe_int] at h3
      have h4 := Float64.rhe_mono (show ((0 : Int) : Rat) ≤ x / (2 : Rat) ^ (-1074 : Int) by
        push_cast; exact (div_pos hx hp).le)
      rw [Float64.rhe_int] at h4
      rw [abs_of_nonneg h4]
      exact h3
  · have er := roundPos_normal hl
    have hb := (Float64.roundPos_between hx).1
    rw [er] at hd ⊢
    refine ⟨hd, fun z hz => Float64.roundPos_nearest hx (double_float hz), fun z hz hne ht => ?_⟩
    have hev : Float64.roundHalfEven (x / (2 : Rat) ^ (Int.log 2 x - 52)) % 2 = 0 :=
      Float64.roundPos_even_mantissa hx (double_float hz) hne ht
    obtain ⟨m1, m2⟩ := Float64.mantissa hx
    refine ⟨_, Int.log 2 x - 52, ?_, by omega, .inl ?_, hev, rfl⟩
    · rw [abs_of_nonneg (by omega)]; exact m2
    · rw [abs_of_nonneg (by omega)]; exact m1

theorem _root_.Uttut.Spec.IsDouble.neg {x : Rat} (h : IsDouble x) : IsDouble (-x) := by
  obtain ⟨m, e, h1, h2, h3, h4⟩ := h
  exact ⟨-m, e, by rwa [abs_neg], h2, h3, by rw [h4]; push_cast; ring⟩

theorem _root_.Uttut.Spec.IsEvenDouble.neg {x : Rat} (h : IsEvenDouble x) : IsEvenDouble (-x) := by
  obtain ⟨m, e, h1, h2, h3, h4, h5⟩ := h
  exact ⟨-m, e, by rwa [abs_neg], h2, by rwa [abs_neg], by omega, by rw [h5]; push_cast; ring⟩

theorem _root_.Uttut.Spec.NearestDouble.neg {x y : Rat} (h : NearestDouble x y) : NearestDouble (-x) (-y) := by
  have e : ∀ a b : Rat, |-a - -b| = |a - b| := fun a b => by
    rw [show -a - -b = -(a - b) by ring, abs_neg]
  have e' : ∀ a b : Rat, |a - -b| = |-a - b| := fun a b => by
    rw [show a - -b = -(-a - b) by ring, abs_neg]
  refine ⟨h.double.neg, fun z hz => ?_, fun z hz hne ht => ?_⟩
  · rw [e, e']
    exact h.nearest _ hz.neg
  · rw [e, e'] at ht
    exact (h.even _ hz.neg (by intro hc; apply hne; rw [← hc, neg_neg]) ht).neg

end Uttut.Double
