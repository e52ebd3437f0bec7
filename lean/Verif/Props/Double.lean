import Verif.Lemmas.Double
import Verif.Props.Float

/-!
C99: `entity_overlapping_ratio` with every number Python can be given as rate: subnormal and huge floats, infinities, NaN,
ints of any size.
-/

set_option exponentiation.threshold 2000

namespace Uttut

open Spec Float64

/-! ### rounding -/

/-- C99: what rounding means: the nearest of the finite floats, the one with last bit 0 of two; infinity from half a
unit above the largest float. -/
theorem C99_rounding (x : Rat) :
    (|x| < 2 ^ 1024 - 2 ^ 970 → ∃ y, Double.ofExact x = .fin y ∧ NearestDouble x y) ∧
    (2 ^ 1024 - 2 ^ 970 ≤ x → Double.ofExact x = .inf) ∧
    (x ≤ -(2 ^ 1024 - 2 ^ 970) → Double.ofExact x = .negInf) := by
  have hB : (0 : Rat) < 2 ^ 1024 - 2 ^ 970 := by
    have := Double.p970
    rw [Double.p1024]
    generalize (2 : Rat) ^ 970 = B at *
    linarith
  have over : ∀ x : Rat, 2 ^ 1024 - 2 ^ 970 ≤ x → Double.ofPos x = .inf := fun x h => by
    have hx := lt_of_lt_of_le hB h
    have h1 := Double.round_overflow h
    have hl : -1022 ≤ Int.log 2 x := by
      refine Double.log_ge hx (le_trans ?_ h)
      have h2 : (2 : Rat) ^ (-1022 : Int) ≤ (2 : Rat) ^ (0 : Int) := zpow_le_zpow_right₀ (by norm_num) (by norm_num)
      rw [zpow_zero] at h2
      refine le_trans h2 ?_
      have := Double.p970
      rw [Double.p1024]
      generalize (2 : Rat) ^ 970 = B at *
      linarith
    unfold Double.ofPos
    rw [Double.roundPos_normal hl, if_pos h1]
  have fine : ∀ x : Rat, 0 < x → x < 2 ^ 1024 - 2 ^ 970 → Double.ofPos x = .fin (Double.roundPos x) := fun x hx h => by
    have h1 := Double.double_le (Double.round_double hx h)
    have h2 := le_trans (le_abs_self _) h1
    unfold Double.ofPos
    rw [if_neg]
    have := Double.p970
    rw [Double.p971] at h2
    generalize (2 : Rat) ^ 970 = B at *
    generalize (2 : Rat) ^ 1024 = C at *
    linarith
  generalize hC : (2 : Rat) ^ 1024 - 2 ^ 970 = C at *
  refine ⟨fun h => ?_, fun h => ?_, fun h => ?_⟩
  · unfold Double.ofExact
    rcases lt_trichotomy x 0 with hx | hx | hx
    · rw [abs_of_neg hx] at h
      rw [if_pos hx, fine (-x) (by linarith) h]
      refine ⟨_, rfl, ?_⟩
      have := (Double.nearest_pos (x := -x) (by linarith) (by rw [hC]; exact h)).neg
      rwa [neg_neg] at this
    · subst hx
      rw [if_neg (by norm_num), if_pos rfl]
      refine ⟨0, rfl, ⟨0, 0, by norm_num, by norm_num, by norm_num, by norm_num⟩, fun z _ => by simp, fun z hz hne ht => ?_⟩
      exact ⟨0, -1074, by norm_num, le_refl _, .inr rfl, rfl, by simp⟩
    · rw [abs_of_pos hx] at h
      rw [if_neg (by linarith), if_neg hx.ne', fine x hx h]
      exact ⟨_, rfl, Double.nearest_pos hx (by rw [hC]; exact h)⟩
  · unfold Double.ofExact
    rw [if_neg (by linarith), if_neg (by intro hc; linarith), over x h]
  · unfold Double.ofExact
    rw [if_pos (by linarith), over (-x) (by linarith)]
    rfl

example : Double.ofExact (1 / 2 ^ 1075) = .fin 0 ∧ Double.ofExact (3 / 2 ^ 1075) = .fin (1 / 2 ^ 1073) ∧
    Double.ofExact (2 ^ 1024 - 2 ^ 970) = .inf ∧ Double.ofExact (2 ^ 1024 - 2 ^ 970 - 1) = .fin (2 ^ 1024 - 2 ^ 971) := by
  decide +kernel

/-! ### one step after the other -/

theorem wrap_inj {x y : Rat} (h : Double.wrap x = .fin y) : x = y := by
  unfold Double.wrap at h
  split at h
  · cases h
  · split at h
    · cases h
    · injection h

theorem isDouble_of {x : Rat} (hf : IsFloat x) (hg : Double.Grid x) (h : |x| < 2 ^ 1024) : IsDouble x := by
  have key : ∀ x : Rat, 0 < x → IsFloat x → Double.Grid x → x < 2 ^ 1024 → IsDouble x := fun x hx hf hg h => by
    have e := roundPos_exact hx hf
    have hlt : x < 2 ^ 1024 - 2 ^ 970 := by
      by_contra hc
      have := Double.round_overflow (not_lt.mp hc)
      rw [e] at this
      exact absurd h (not_lt.mpr this)
    have := Double.round_double hx hlt
    rwa [Double.roundPos_grid hx hg, e] at this
  rcases lt_trichotomy x 0 with hx | hx | hx
  · rw [abs_of_neg hx] at h
    obtain ⟨m, e, h1, h2, h3, h4⟩ := key (-x) (by linarith) hf.neg hg.neg h
    exact ⟨-m, e, by rwa [abs_neg], h2, h3, by push_cast; linarith⟩
  · exact ⟨0, 0, by norm_num, by norm_num, by norm_num, by rw [hx]; norm_num⟩
  · rw [abs_of_pos hx] at h
    exact key x hx hf hg h

theorem double_lt {x : Rat} (h : IsDouble x) : |x| < 2 ^ 1024 := by
  have h1 := Double.double_le h
  have := Double.p970
  rw [Double.p971] at h1
  generalize (2 : Rat) ^ 970 = B at *
  generalize (2 : Rat) ^ 1024 = C at *
  linarith

theorem ofInt_fin {n : Int} {y : Rat} (h : Double.wrap (toFloat n) = .fin y) : Double.ofInt n = .ok (.fin y) := by
  unfold Double.ofInt
  rw [Double.ofExact_plain (.inl (Double.Grid.ofInt n)), h]

theorem ofInt_small {n : Nat} (h : n ≤ 2 ^ 53) : Double.ofInt (n : Int) = .ok (.fin n) := by
  refine ofInt_fin ?_
  rw [Int.cast_natCast, toFloat_len h, Double.wrap_fin]
  rw [abs_of_nonneg (Nat.cast_nonneg n)]
  have : (n : Rat) ≤ 2 ^ 53 := by exact_mod_cast h
  refine lt_of_le_of_lt this ?_
  exact pow_lt_pow_right₀ (by norm_num) (by norm_num)

theorem ofInt_zero : Double.ofInt 0 = .ok (.fin 0) := by
  have := ofInt_small (n := 0) (by norm_num)
  simpa using this

theorem ofInt_one : Double.ofInt 1 = .ok (.fin 1) := by
  have := ofInt_small (n := 1) (by norm_num)
  simpa using this

/-- The last line of the function. -/
def finish (n : Nat) (total : Double) : Res Double := do
  let len ← Double.ofInt n
  let q ← total.div len
  let one ← Double.ofInt 1
  return one.sub q

/-- The labels of all characters in both data. -/
def labelPairs (n : Nat) (a b : Nat → Int) : List (Int × Int) := (List.range n).map fun i => (a i, b i)

theorem doubleRatio_eq {d1 d2 : Datum} (h1 : IsDatum d1) (h2 : IsDatum d2) (rate : Rate)
    (hu : d1.utterance = d2.utterance) :
    doubleOverlappingRatio d1 d2 rate = (doubleLoop rate (.fin 0)
      (labelPairs d1.utterance.length (labelAt d1.entities) (labelAt d2.entities))).bind (finish d1.utterance.length) := by
  unfold doubleOverlappingRatio Datum.hasSameUtteranceAs
  rw [if_neg (by simp [hu]), expandEntityToList_spec h1, expandEntityToList_spec h2, ← hu]
  dsimp only
  rw [List.zip_map']
  rfl

theorem toFloat_near_one {t : Rat} (h : |t| ≤ 1 / 2 ^ 60) : toFloat (1 - t) = 1 := by
  obtain ⟨h1, h2⟩ := abs_le.mp h
  have a := toFloat_mono (show 1 - 1 / 2 ^ 60 ≤ 1 - t by linarith)
  have b := toFloat_mono (show 1 - t ≤ 1 + 1 / 2 ^ 60 by linarith)
  rw [show toFloat (1 - 1 / 2 ^ 60) = 1 by decide +kernel] at a
  rw [show toFloat (1 + 1 / 2 ^ 60) = 1 by decide +kernel] at b
  linarith

theorem finish_fin {n : Nat} (hn : 0 < n) (hlen : n ≤ 2 ^ 53) {s : Rat} (hs : IsDouble s) :
    finish n (.fin s) = .ok (.fin (toFloat (1 - toFloat (s / n)))) := by
  have hn' : (1 : Rat) ≤ n := by exact_mod_cast hn
  have hne : (n : Rat) ≠ 0 := by linarith
  have hdiv : |s / n| ≤ |s| := by
    rw [abs_div, abs_of_nonneg (show (0 : Rat) ≤ n by linarith)]
    exact div_le_self (abs_nonneg s) hn'
  have hsl := Double.double_le hs
  -- the end, from a quotient that is a float
  have last : ∀ q : Rat, IsDouble q → Double.ofExact (1 + -q) = .fin (toFloat (1 - q)) := fun q hq => by
    have e : (1 : Rat) + -q = 1 - q := by ring
    rw [e]
    have hq1 := Double.double_le hq
    have hlt : |1 - q| < 2 ^ 1024 - 2 ^ 970 := by
      have h3 := abs_sub 1 q
      rw [abs_one] at h3
      have := Double.p970
      rw [Double.p971] at hq1
      generalize (2 : Rat) ^ 970 = B at *
      generalize (2 : Rat) ^ 1024 = C at *
      linarith
    obtain ⟨y, hy, _⟩ := (C99_rounding (1 - q)).1 hlt
    have hg : Double.Grid (1 - q) := by
      have := (Double.Grid.ofInt 1).add (Double.grid_of_double hq).neg
      rw [Int.cast_one, e] at this
      exact this
    have hy' := hy
    rw [Double.ofExact_plain (.inl hg)] at hy'
    rw [hy, wrap_inj hy']
  have red : ∀ q : Rat, Double.ofExact (s / n) = .fin q → finish n (.fin s) = .ok (Double.ofExact (1 + -q)) := fun q hq => by
    unfold finish
    rw [ofInt_small hlen, ofInt_one]
    show ((Double.fin s).div (.fin n)).bind (fun q => .ok ((Double.fin 1).sub q)) = _
    unfold Double.div
    rw [if_neg (by intro hc; injection hc with hc; exact hne hc)]
    show Except.ok ((Double.fin 1).sub (Double.ofExact (s / n))) = _
    rw [hq]
    rfl
  have hlt : |s / n| < 2 ^ 1024 - 2 ^ 970 := by
    have := Double.p970
    rw [Double.p971] at hsl
    generalize (2 : Rat) ^ 970 = B at *
    generalize (2 : Rat) ^ 1024 = C at *
    linarith
  obtain ⟨q, hq, hnear⟩ := (C99_rounding (s / n)).1 hlt
  rw [red q hq, last q hnear.double]
  rcases le_or_gt ((2 : Rat) ^ (-1022 : Int)) |s / n| with h | h
  · have hq' := hq
    rw [Double.ofExact_plain (.inr h)] at hq'
    rw [wrap_inj hq']
  · have hsmall : (2 : Rat) ^ (-1022 : Int) * 2 ≤ 1 / 2 ^ 60 := by
      have h3 : (2 : Rat) ^ (-1022 : Int) ≤ (2 : Rat) ^ (-61 : Int) := zpow_le_zpow_right₀ (by norm_num) (by norm_num)
      have h4 : (2 : Rat) ^ (-61 : Int) = 1 / 2 ^ 61 := by
        rw [show (-61 : Int) = -((61 : Nat) : Int) from rfl, zpow_neg, zpow_natCast, one_div]
      rw [h4] at h3
      generalize (2 : Rat) ^ (-1022 : Int) = B at *
      norm_num at h3 ⊢
      linarith
    have b1 : |q| ≤ 1 / 2 ^ 60 := by
      have h3 := hnear.nearest 0 ⟨0, 0, by norm_num, by norm_num, by norm_num, by norm_num⟩
      rw [zero_sub, abs_neg] at h3
      have h4 := abs_add_le (q - s / n) (s / n)
      rw [sub_add_cancel] at h4
      generalize (2 : Rat) ^ (-1022 : Int) = B at *
      linarith
    have b2 : |toFloat (s / n)| ≤ 1 / 2 ^ 60 := by
      have h3 := (nearest_toFloat (s / n)).nearest 0 isFloat_zero
      rw [zero_sub, abs_neg] at h3
      have h4 := abs_add_le (toFloat (s / n) - s / n) (s / n)
      rw [sub_add_cancel] at h4
      generalize (2 : Rat) ^ (-1022 : Int) = B at *
      linarith
    rw [toFloat_near_one b1, toFloat_near_one b2]

theorem finish_special {n : Nat} (hn : 0 < n) (hlen : n ≤ 2 ^ 53) :
    finish n .inf = .ok .negInf ∧ finish n .negInf = .ok .inf ∧ finish n .nan = .ok .nan := by
  have hn' : (1 : Rat) ≤ n := by exact_mod_cast hn
  have hne : ¬ Double.fin (n : Rat) = .fin 0 := by
    intro hc
    injection hc with hc
    linarith
  have hneg : ¬ (n : Rat) < 0 := by linarith
  refine ⟨?_, ?_, ?_⟩ <;>
  · unfold finish
    rw [ofInt_small hlen, ofInt_one]
    simp [Double.div, Double.divSpecial, hne, hneg, Double.sub, Double.neg, Double.add, bind, Except.bind, pure, Except.pure]

/-! ### the loop -/

/-- The penalties as numbers. -/
def pairPenalties (r : Rat) (ps : List (Int × Int)) : List Rat := ps.map fun p => penalty p.1 p.2 r

theorem pairPenalties_eq (n : Nat) (a b : Nat → Int) (r : Rat) :
    pairPenalties r (labelPairs n a b) = penalties n a b r := by
  unfold pairPenalties labelPairs penalties
  rw [List.map_map]
  rfl

theorem doublePenalty_fin {rate : Rate} {r : Rat} (h : rate.toDouble = .ok (.fin r)) (x y : Int) :
    doublePenalty rate x y = .ok (.fin (penalty x y r)) := by
  unfold doublePenalty penalty
  split
  · exact ofInt_zero
  · split
    · exact ofInt_one
    · exact h

theorem penalty_grid {r : Rat} (h : Double.Grid r) (x y : Int) : Double.Grid (penalty x y r) := by
  unfold penalty
  split
  · exact Double.Grid.zero
  · split
    · have := Double.Grid.ofInt 1
      rwa [Int.cast_one] at this
    · exact h

theorem add_fin {s p : Rat} (hs : Double.Grid s) (hp : Double.Grid p) :
    (Double.fin s).add (.fin p) = Double.wrap (toFloat (s + p)) := by
  show Double.ofExact (s + p) = _
  exact Double.ofExact_plain (.inl (hs.add hp))

theorem loop_cons {rate : Rate} {r : Rat} (h : rate.toDouble = .ok (.fin r)) (acc : Double) (p : Int × Int)
    (ps : List (Int × Int)) : doubleLoop rate acc (p :: ps) = doubleLoop rate (acc.add (.fin (penalty p.1 p.2 r))) ps := by
  rw [doubleLoop, doublePenalty_fin h]
  rfl

theorem loop_fin {rate : Rate} {r : Rat} (h : rate.toDouble = .ok (.fin r)) (hr : Double.Grid r) (ps : List (Int × Int))
    (s : Rat) (hs : Double.Grid s) (hb : ∀ k, |fsum s ((pairPenalties r ps).take k)| < 2 ^ 1024) :
    doubleLoop rate (.fin s) ps = .ok (.fin (fsum s (pairPenalties r ps))) ∧ Double.Grid (fsum s (pairPenalties r ps)) := by
  induction ps generalizing s with
  | nil => exact ⟨rfl, hs⟩
  | cons p ps ih =>
    have h1 : |toFloat (s + penalty p.1 p.2 r)| < 2 ^ 1024 := hb 1
    rw [loop_cons h, add_fin hs (penalty_grid hr _ _), Double.wrap_fin h1]
    exact ih _ (Double.toFloat_grid (hs.add (penalty_grid hr _ _))) fun k => hb (k + 1)

theorem loop_inf {rate : Rate} {r : Rat} (h : rate.toDouble = .ok (.fin r)) (ps : List (Int × Int)) :
    doubleLoop rate .inf ps = .ok .inf ∧ doubleLoop rate .negInf ps = .ok .negInf := by
  induction ps with
  | nil => exact ⟨rfl, rfl⟩
  | cons p ps ih => rw [loop_cons h, loop_cons h]; exact ih

theorem loop_over {rate : Rate} {r : Rat} (h : rate.toDouble = .ok (.fin r)) (hr : Double.Grid r) (k : Nat)
    (ps : List (Int × Int)) (s : Rat) (hs : Double.Grid s)
    (hb : ∀ j, j < k → |fsum s ((pairPenalties r ps).take j)| < 2 ^ 1024) (hs1 : |s| < 2 ^ 1024) :
    (2 ^ 1024 ≤ fsum s ((pairPenalties r ps).take k) → doubleLoop rate (.fin s) ps = .ok .inf) ∧
    (fsum s ((pairPenalties r ps).take k) ≤ -2 ^ 1024 → doubleLoop rate (.fin s) ps = .ok .negInf) := by
  have none : ¬ (2 : Rat) ^ 1024 ≤ s ∧ ¬ s ≤ -2 ^ 1024 := ⟨not_le.mpr (abs_lt.mp hs1).2, not_le.mpr (abs_lt.mp hs1).1⟩
  induction k generalizing ps s with
  | zero => exact ⟨fun h => absurd h none.1, fun h => absurd h none.2⟩
  | succ k ih =>
    cases ps with
    | nil => exact ⟨fun h => absurd h none.1, fun h => absurd h none.2⟩
    | cons p ps =>
      rw [loop_cons h, add_fin hs (penalty_grid hr _ _)]
      have et : ∀ j, fsum s ((pairPenalties r (p :: ps)).take (j + 1)) =
          fsum (toFloat (s + penalty p.1 p.2 r)) ((pairPenalties r ps).take j) := fun j => rfl
      rw [et]
      have hg := Double.toFloat_grid (hs.add (penalty_grid hr p.1 p.2))
      by_cases hk : |toFloat (s + penalty p.1 p.2 r)| < 2 ^ 1024
      · rw [Double.wrap_fin hk]
        exact ih ps _ hg (fun j hj => by rw [← et]; exact hb (j + 1) (by omega)) hk
          ⟨not_le.mpr (abs_lt.mp hk).2, not_le.mpr (abs_lt.mp hk).1⟩
      · have hk0 : k = 0 := by
          by_contra hc
          apply hk
          have := hb 1 (by omega)
          rwa [et] at this
        subst hk0
        show (_ ≤ toFloat (s + penalty p.1 p.2 r) → _) ∧ (toFloat (s + penalty p.1 p.2 r) ≤ _ → _)
        have hpos := Double.p1024_pos
        constructor
        · intro hge
          unfold Double.wrap
          rw [if_pos hge]
          exact (loop_inf h ps).1
        · intro hle
          unfold Double.wrap
          rw [if_neg, if_pos hle]
          · exact (loop_inf h ps).2
          · intro hc
            generalize (2 : Rat) ^ 1024 = B at *
            linarith

/-- Without two different entities for one character the rate is not looked at. -/
theorem loop_unused (rate : Rate) (ps : List (Int × Int)) (h : ∀ p ∈ ps, p.1 = p.2 ∨ p.1 = 0 ∨ p.2 = 0) (acc : Double) :
    doubleLoop rate acc ps = doubleLoop (.float (.fin 0)) acc ps := by
  induction ps generalizing acc with
  | nil => rfl
  | cons p ps ih =>
    have e : doublePenalty rate p.1 p.2 = doublePenalty (.float (.fin 0)) p.1 p.2 := by
      unfold doublePenalty
      rcases h p (List.mem_cons_self ..) with h | h
      · rw [if_pos h, if_pos h]
      · by_cases hq : p.1 = p.2
        · rw [if_pos hq, if_pos hq]
        · rw [if_neg hq, if_neg hq, if_pos h, if_pos h]
    rw [doubleLoop, doubleLoop, e]
    cases doublePenalty (.float (.fin 0)) p.1 p.2 with
    | error e => rfl
    | ok d => exact ih (fun q hq => h q (List.mem_cons_of_mem _ hq)) _

/-- A rate that is no number or cannot be converted: the first use of it decides. -/
theorem loop_stuck (rate : Rate) (d : Double) (hr : rate.toDouble = .ok d) (P : Double → Prop)
    (hP : ∀ a, P a → ∀ z : Rat, (z = 0 ∨ z = 1) → P (a.add (.fin z)))
    (Q : Double → Prop) (hPQ : ∀ a, P a → Q (a.add d)) (hQ : ∀ a, Q a → ∀ z : Rat, (z = 0 ∨ z = 1) → Q (a.add (.fin z)))
    (hQd : ∀ a, Q a → Q (a.add d)) (ps : List (Int × Int)) (acc : Double) :
    (Q acc → ∃ t, doubleLoop rate acc ps = .ok t ∧ Q t) ∧
    (P acc → (∃ p ∈ ps, p.1 ≠ p.2 ∧ p.1 ≠ 0 ∧ p.2 ≠ 0) → ∃ t, doubleLoop rate acc ps = .ok t ∧ Q t) := by
  induction ps generalizing acc with
  | nil => exact ⟨fun h => ⟨_, rfl, h⟩, fun _ ⟨p, hp, _⟩ => absurd hp (by simp)⟩
  | cons p ps ih =>
    have step : (∃ z : Rat, (z = 0 ∨ z = 1) ∧ doublePenalty rate p.1 p.2 = .ok (.fin z) ∧ (p.1 = p.2 ∨ p.1 = 0 ∨ p.2 = 0)) ∨
        doublePenalty rate p.1 p.2 = .ok d := by
      unfold doublePenalty
      by_cases h1 : p.1 = p.2
      · rw [if_pos h1]; exact .inl ⟨0, .inl rfl, ofInt_zero, .inl h1⟩
      · rw [if_neg h1]
        by_cases h2 : p.1 = 0 ∨ p.2 = 0
        · rw [if_pos h2]; exact .inl ⟨1, .inr rfl, ofInt_one, .inr h2⟩
        · rw [if_neg h2]; exact .inr hr
    rw [doubleLoop]
    rcases step with ⟨z, hz, e, hno⟩ | e
    · rw [e]
      refine ⟨fun h => (ih _).1 (hQ _ h z hz), fun h ⟨q, hq, hc⟩ => (ih _).2 (hP _ h z hz) ?_⟩
      rcases List.mem_cons.mp hq with rfl | hq
      · exfalso
        rcases hno with h | h | h
        · exact hc.1 h
        · exact hc.2.1 h
        · exact hc.2.2 h
      · exact ⟨q, hq, hc⟩
    · rw [e]
      exact ⟨fun h => (ih _).1 (hQd _ h), fun h _ => (ih _).1 (hPQ _ h)⟩

theorem loop_refused (rate : Rate) (e : Exc) (hr : rate.toDouble = .error e) (ps : List (Int × Int)) (acc : Double)
    (h : ∃ p ∈ ps, p.1 ≠ p.2 ∧ p.1 ≠ 0 ∧ p.2 ≠ 0) : doubleLoop rate acc ps = .error e := by
  induction ps generalizing acc with
  | nil => obtain ⟨p, hp, _⟩ := h; exact absurd hp (by simp)
  | cons p ps ih =>
    rw [doubleLoop]
    by_cases h1 : p.1 = p.2 ∨ p.1 = 0 ∨ p.2 = 0
    · have hrest : ∃ p ∈ ps, p.1 ≠ p.2 ∧ p.1 ≠ 0 ∧ p.2 ≠ 0 := by
        obtain ⟨q, hq, hc⟩ := h
        rcases List.mem_cons.mp hq with rfl | hq
        · exfalso
          rcases h1 with h | h | h
          · exact hc.1 h
          · exact hc.2.1 h
          · exact hc.2.2 h
        · exact ⟨q, hq, hc⟩
      have : ∃ d, doublePenalty rate p.1 p.2 = .ok d := by
        unfold doublePenalty
        by_cases h2 : p.1 = p.2
        · rw [if_pos h2]; exact ⟨_, ofInt_zero⟩
        · rw [if_neg h2, if_pos (h1.resolve_left h2)]; exact ⟨_, ofInt_one⟩
      obtain ⟨d, hd⟩ := this
      rw [hd]
      exact ih _ hrest
    · have : doublePenalty rate p.1 p.2 = .error e := by
        unfold doublePenalty
        rw [if_neg fun h => h1 (.inl h), if_neg fun h => h1 (.inr h)]
        exact hr
      rw [this]
      rfl

theorem clash_pairs {n : Nat} {a b : Nat → Int} :
    Clash n a b ↔ ∃ p ∈ labelPairs n a b, p.1 ≠ p.2 ∧ p.1 ≠ 0 ∧ p.2 ≠ 0 := by
  unfold labelPairs
  constructor
  · rintro ⟨i, hi, h⟩
    exact ⟨_, List.mem_map.mpr ⟨i, List.mem_range.mpr hi, rfl⟩, h⟩
  · rintro ⟨p, hp, h⟩
    obtain ⟨i, hi, rfl⟩ := List.mem_map.mp hp
    exact ⟨i, List.mem_range.mp hi, h⟩

/-! ### the ratio -/

/-- C99: the exceptions for the data are those of the exact computation, whatever the rate. -/
theorem C99_outcome (u1 u2 : Str) (is1 is2 : Option (List Intent)) (es1 es2 : Option (List Entity))
    (d1 d2 : Datum) (h1 : Datum.new u1 is1 es1 = .ok d1) (h2 : Datum.new u2 is2 es2 = .ok d2) (rate : Rate) :
    (u1 ≠ u2 → doubleOverlappingRatio d1 d2 rate = .error .differentUtterance) ∧
    (u1 = u2 → u1 = [] → doubleOverlappingRatio d1 d2 rate = .error .zeroDivisionError) := by
  have e1 := datum_new_utterance h1
  have e2 := datum_new_utterance h2
  refine ⟨fun hu => ?_, fun hu hne => ?_⟩
  · unfold doubleOverlappingRatio Datum.hasSameUtteranceAs
    rw [if_pos (by simp [e1, e2, hu])]
  · rw [doubleRatio_eq (isDatum_of_new_opt h1) (isDatum_of_new_opt h2) rate (by rw [e1, e2, hu]), e1, hne]
    show finish 0 (.fin 0) = _
    unfold finish
    rw [Nat.cast_zero, ofInt_zero]
    have e : (Double.fin 0).div (.fin 0) = .error .zeroDivisionError := by
      unfold Double.div
      rw [if_pos rfl]
    show ((Double.fin 0).div (.fin 0) >>= fun q => Double.ofInt 1 >>= fun one => pure (one.sub q)) = _
    rw [e]
    rfl

theorem doublePenalty_comm (rate : Rate) (x y : Int) : doublePenalty rate x y = doublePenalty rate y x := by
  unfold doublePenalty
  by_cases h : x = y
  · rw [if_pos h, if_pos h.symm]
  · rw [if_neg h, if_neg (Ne.symm h)]
    by_cases h' : x = 0 ∨ y = 0
    · rw [if_pos h', if_pos h'.symm]
    · rw [if_neg h', if_neg fun h'' => h' h''.symm]

/-- C99: the order of the data makes no difference, whatever the rate. -/
theorem C99_symmetric (u1 u2 : Str) (is1 is2 : Option (List Intent)) (es1 es2 : Option (List Entity))
    (d1 d2 : Datum) (h1 : Datum.new u1 is1 es1 = .ok d1) (h2 : Datum.new u2 is2 es2 = .ok d2) (rate : Rate) :
    doubleOverlappingRatio d1 d2 rate = doubleOverlappingRatio d2 d1 rate := by
  have i1 := isDatum_of_new_opt h1
  have i2 := isDatum_of_new_opt h2
  have e1 := datum_new_utterance h1
  have e2 := datum_new_utterance h2
  by_cases hu : u1 = u2
  · rw [doubleRatio_eq i1 i2 rate (by rw [e1, e2, hu]), doubleRatio_eq i2 i1 rate (by rw [e1, e2, hu]), e1, e2, hu]
    have : ∀ (l : List Nat) (a b : Nat → Int) (acc : Double), doubleLoop rate acc (l.map fun i => (a i, b i)) =
        doubleLoop rate acc (l.map fun i => (b i, a i)) := by
      intro l a b
      induction l with
      | nil => intro acc; rfl
      | cons i l ih =>
        intro acc
        rw [List.map_cons, List.map_cons, doubleLoop, doubleLoop, doublePenalty_comm]
        cases doublePenalty rate (b i) (a i) with
        | error e => rfl
        | ok d => exact ih _
    unfold labelPairs
    rw [this]
  · rw [(C99_outcome u1 u2 is1 is2 es1 es2 d1 d2 h1 h2 rate).1 hu,
      (C99_outcome u2 u1 is2 is1 es2 es1 d2 d1 h2 h1 rate).1 (Ne.symm hu)]

theorem fsum_isFloat (ps : List Rat) {acc : Rat} (h : IsFloat acc) : IsFloat (fsum acc ps) := by
  induction ps generalizing acc with
  | nil => exact h
  | cons p ps ih => exact ih (isFloat_toFloat _)

/-- C99: with a rate that is a finite float, the result is the one of C88 unless the sum of the penalties leaves the range
of floats; then it is `-inf`, or `inf` if the sum is negative. -/
theorem C99_finite (u : Str) (hne : u ≠ []) (hlen : u.length ≤ 2 ^ 53) (is1 is2 : Option (List Intent))
    (es1 es2 : Option (List Entity)) (d1 d2 : Datum) (h1 : Datum.new u is1 es1 = .ok d1)
    (h2 : Datum.new u is2 es2 = .ok d2) (r : Rat) (hr : IsDouble r) (S : Nat → Rat)
    (hS : ∀ k, S k = fsum 0 ((penalties u.length (labelAt d1.entities) (labelAt d2.entities) r).take k)) :
    ((∀ k, |S k| < 2 ^ 1024) → ∃ x, floatOverlappingRatio d1 d2 r = .ok x ∧
        doubleOverlappingRatio d1 d2 (.float (.fin r)) = .ok (.fin x)) ∧
    ∀ k, (∀ j, j < k → |S j| < 2 ^ 1024) →
      (2 ^ 1024 ≤ S k → doubleOverlappingRatio d1 d2 (.float (.fin r)) = .ok .negInf) ∧
      (S k ≤ -2 ^ 1024 → doubleOverlappingRatio d1 d2 (.float (.fin r)) = .ok .inf) := by
  have e1 := datum_new_utterance h1
  have e2 := datum_new_utterance h2
  have i1 := isDatum_of_new_opt h1
  have i2 := isDatum_of_new_opt h2
  have hn := List.length_pos_iff.mpr hne
  have hr' : (Rate.float (.fin r)).toDouble = .ok (.fin r) := rfl
  have hg := Double.grid_of_double hr
  rw [doubleRatio_eq i1 i2 _ (by rw [e1, e2]), e1]
  simp only [hS, ← pairPenalties_eq]
  constructor
  · intro hb
    obtain ⟨l1, l2⟩ := loop_fin hr' hg _ 0 Double.Grid.zero hb
    have hd : IsDouble (fsum 0 (pairPenalties r (labelPairs u.length (labelAt d1.entities) (labelAt d2.entities)))) := by
      refine isDouble_of (fsum_isFloat _ isFloat_zero) l2 ?_
      have := hb (pairPenalties r (labelPairs u.length (labelAt d1.entities) (labelAt d2.entities))).length
      rwa [List.take_length] at this
    refine ⟨_, floatRatio_eq i1 i2 r (by rw [e1, e2]) (by rw [e1]; exact hne), ?_⟩
    rw [l1, e1, toFloat_len hlen, toFloat_exact (Double.double_float hr), ← pairPenalties_eq]
    exact finish_fin hn hlen hd
  · intro k hb
    obtain ⟨o1, o2⟩ := loop_over hr' hg k (labelPairs u.length (labelAt d1.entities) (labelAt d2.entities)) 0 Double.Grid.zero hb
      (by rw [abs_zero]; exact Double.p1024_pos)
    refine ⟨fun h => ?_, fun h => ?_⟩
    · rw [o1 h]; exact (finish_special hn hlen).1
    · rw [o2 h]; exact (finish_special hn hlen).2.1

theorem abs_toFloat_le {x y : Rat} (h : |x| ≤ y) (hy : IsFloat y) : |toFloat x| ≤ y := by
  obtain ⟨h1, h2⟩ := abs_le.mp h
  rw [abs_le]
  have a := toFloat_mono h2
  have b := toFloat_mono h1
  rw [toFloat_exact hy] at a
  rw [toFloat_neg, toFloat_exact hy] at b
  exact ⟨b, a⟩

theorem fsum_moderate (ps : List Rat) (hp : ∀ p ∈ ps, |p| ≤ 2 ^ 970) (acc : Rat) (n : Nat) (h : n + ps.length ≤ 2 ^ 53)
    (ha : |acc| ≤ n * 2 ^ 970) : |fsum acc ps| ≤ ((n + ps.length : Nat) : Rat) * 2 ^ 970 := by
  induction ps generalizing acc n with
  | nil => exact ha
  | cons p ps ih =>
    rw [fsum_cons]
    rw [List.length_cons] at h
    have hf : IsFloat (((n + 1 : Nat) : Rat) * 2 ^ 970) := by
      refine ⟨n + 1, 970, ?_, ?_⟩
      · rw [abs_of_nonneg (by omega)]; omega
      · rw [show ((970 : Int)) = ((970 : Nat) : Int) from rfl, zpow_natCast]
        push_cast
        rfl
    have := ih (fun q hq => hp q (List.mem_cons_of_mem _ hq)) (toFloat (acc + p)) (n + 1) (by omega)
      (abs_toFloat_le (by
        have h3 := abs_add_le acc p
        have h4 := hp p (List.mem_cons_self ..)
        push_cast
        generalize (2 : Rat) ^ 970 = B at *
        linarith) hf)
    rw [List.length_cons, show n + (ps.length + 1) = n + 1 + ps.length by omega]
    exact this

/-- C99: for rates up to `2^970` (about 10^292), subnormal ones included, the result is that of C88, so that the
simplification made there, exponents without bounds, makes no difference. -/
theorem C99_moderate (u : Str) (hne : u ≠ []) (hlen : u.length ≤ 2 ^ 53) (is1 is2 : Option (List Intent))
    (es1 es2 : Option (List Entity)) (d1 d2 : Datum) (h1 : Datum.new u is1 es1 = .ok d1)
    (h2 : Datum.new u is2 es2 = .ok d2) (r : Rat) (hr : IsDouble r) (hm : |r| ≤ 2 ^ 970) :
    ∃ x, floatOverlappingRatio d1 d2 r = .ok x ∧ doubleOverlappingRatio d1 d2 (.float (.fin r)) = .ok (.fin x) := by
  refine (C99_finite u hne hlen is1 is2 es1 es2 d1 d2 h1 h2 r hr _ fun _ => rfl).1 fun k => ?_
  have hp : ∀ p ∈ (penalties u.length (labelAt d1.entities) (labelAt d2.entities) r).take k, |p| ≤ 2 ^ 970 := fun p hp => by
    obtain ⟨i, _, rfl⟩ := mem_penalties (List.mem_of_mem_take hp)
    have := Double.p970
    unfold penalty
    split
    · rw [abs_zero]; exact le_trans zero_le_one this.le
    · split
      · rw [abs_one]; exact this.le
      · exact hm
  have hl : ((penalties u.length (labelAt d1.entities) (labelAt d2.entities) r).take k).length ≤ 2 ^ 53 := by
    rw [List.length_take, penalties_length]
    omega
  have := fsum_moderate _ hp 0 0 (by omega) (by simp)
  refine lt_of_le_of_lt this ?_
  rw [Nat.zero_add, Double.p1024]
  have hl' : ((((penalties u.length (labelAt d1.entities) (labelAt d2.entities) r).take k).length : Nat) : Rat) ≤ 2 ^ 53 := by
    exact_mod_cast hl
  have h970 : (0 : Rat) < 2 ^ 970 := lt_trans zero_lt_one Double.p970
  refine lt_of_le_of_lt (mul_le_mul_of_nonneg_right hl' h970.le) ?_
  exact mul_lt_mul_of_pos_right (by norm_num) h970

/-- C99: the result is a number between 0 and 1 for rates between 0 and 1. -/
theorem C99_between (u : Str) (hne : u ≠ []) (hlen : u.length ≤ 2 ^ 53) (is1 is2 : Option (List Intent))
    (es1 es2 : Option (List Entity)) (d1 d2 : Datum) (h1 : Datum.new u is1 es1 = .ok d1)
    (h2 : Datum.new u is2 es2 = .ok d2) (r : Rat) (hr : IsDouble r) (hr0 : 0 ≤ r) (hr1 : r ≤ 1) :
    ∃ x, doubleOverlappingRatio d1 d2 (.float (.fin r)) = .ok (.fin x) ∧ 0 ≤ x ∧ x ≤ 1 := by
  obtain ⟨x, hx, hd⟩ := C99_moderate u hne hlen is1 is2 es1 es2 d1 d2 h1 h2 r hr
    (by rw [abs_of_nonneg hr0]; exact le_trans hr1 Double.p970.le)
  obtain ⟨y, hy, b⟩ := C88_bounds u hne hlen is1 is2 es1 es2 d1 d2 h1 h2 r hr0 hr1
  rw [hx] at hy
  cases hy
  exact ⟨x, hd, b⟩

theorem isDouble_zero : IsDouble 0 := ⟨0, 0, by norm_num, by norm_num, by norm_num, by norm_num⟩

/-- C99: without two different entities for one character the rate does not matter: not even NaN, infinities and ints
that are too large. -/
theorem C99_unused (u : Str) (hne : u ≠ []) (hlen : u.length ≤ 2 ^ 53) (is1 is2 : Option (List Intent))
    (es1 es2 : Option (List Entity)) (d1 d2 : Datum) (h1 : Datum.new u is1 es1 = .ok d1)
    (h2 : Datum.new u is2 es2 = .ok d2) (hc : ¬ Clash u.length (labelAt d1.entities) (labelAt d2.entities)) (rate : Rate) :
    ∃ x, floatOverlappingRatio d1 d2 0 = .ok x ∧ doubleOverlappingRatio d1 d2 rate = .ok (.fin x) := by
  obtain ⟨x, hx, hd⟩ := C99_moderate u hne hlen is1 is2 es1 es2 d1 d2 h1 h2 0 isDouble_zero
    (by rw [abs_zero]; exact le_trans zero_le_one Double.p970.le)
  refine ⟨x, hx, ?_⟩
  have e1 := datum_new_utterance h1
  have e2 := datum_new_utterance h2
  rw [doubleRatio_eq (isDatum_of_new_opt h1) (isDatum_of_new_opt h2) _ (by rw [e1, e2]), e1] at hd ⊢
  rw [loop_unused rate _ fun p hp => ?_]
  · exact hd
  · by_contra hno
    exact hc (clash_pairs.mpr ⟨p, hp, fun h => hno (.inl h), fun h => hno (.inr (.inl h)), fun h => hno (.inr (.inr h))⟩)

/-- The int cannot be converted to a float. -/
theorem ofInt_large (n : Int) (h : (2 : Rat) ^ 1024 - 2 ^ 970 ≤ |(n : Rat)|) : Double.ofInt n = .error .overflowError := by
  obtain ⟨_, a, b⟩ := C99_rounding (n : Rat)
  unfold Double.ofInt
  rcases le_or_gt 0 (n : Rat) with hn | hn
  · rw [abs_of_nonneg hn] at h
    rw [a h]
  · rw [abs_of_neg hn] at h
    rw [b (by generalize (2 : Rat) ^ 1024 - 2 ^ 970 = C at *; linarith)]

/-- C99: with two different entities for one character, NaN gives NaN, infinity gives minus infinity and conversely, and
an int too large to be a float raises OverflowError. -/
theorem C99_special (u : Str) (hlen : u.length ≤ 2 ^ 53) (is1 is2 : Option (List Intent))
    (es1 es2 : Option (List Entity)) (d1 d2 : Datum) (h1 : Datum.new u is1 es1 = .ok d1)
    (h2 : Datum.new u is2 es2 = .ok d2) (hc : Clash u.length (labelAt d1.entities) (labelAt d2.entities)) :
    doubleOverlappingRatio d1 d2 (.float .nan) = .ok .nan ∧
    doubleOverlappingRatio d1 d2 (.float .inf) = .ok .negInf ∧
    doubleOverlappingRatio d1 d2 (.float .negInf) = .ok .inf ∧
    ∀ n : Int, (2 : Rat) ^ 1024 - 2 ^ 970 ≤ |(n : Rat)| → doubleOverlappingRatio d1 d2 (.int n) = .error .overflowError := by
  have e1 := datum_new_utterance h1
  have e2 := datum_new_utterance h2
  have hn : 0 < u.length := by obtain ⟨i, hi, _⟩ := hc; omega
  have hc' := clash_pairs.mp hc
  simp only [fun rate => doubleRatio_eq (isDatum_of_new_opt h1) (isDatum_of_new_opt h2) rate (by rw [e1, e2]), e1]
  obtain ⟨f1, f2, f3⟩ := finish_special hn hlen
  -- before its first use the sum is a finite number or, for very long texts, infinite
  have special : ∀ (d : Double), (d = .nan ∨ d = .inf ∨ d = .negInf) →
      ∃ t, doubleLoop (.float d) (.fin 0) (labelPairs u.length (labelAt d1.entities) (labelAt d2.entities)) = .ok t ∧ t = d := by
    intro d hd
    refine (loop_stuck (.float d) d rfl (fun a => ∃ k : Nat, a = .fin (k : Rat) ∧ k ≤ 2 ^ 53) ?_ (fun a => a = d) ?_ ?_ ?_ _ _).2
      ⟨0, by simp, by norm_num⟩ hc'
    · rintro a ⟨k, rfl, hk⟩ z hz
      have : ∃ j : Nat, (Double.fin k).add (.fin z) = .fin (j : Rat) ∧ j ≤ 2 ^ 53 := by
        rcases hz with rfl | rfl
        · refine ⟨k, ?_, hk⟩
          have := add_fin (Double.Grid.ofInt k) Double.Grid.zero
          rw [Int.cast_natCast, add_zero, toFloat_len hk] at this
          rw [this]
          refine Double.wrap_fin ?_
          rw [abs_of_nonneg (Nat.cast_nonneg k)]
          have : (k : Rat) ≤ 2 ^ 53 := by exact_mod_cast hk
          exact lt_of_le_of_lt this (pow_lt_pow_right₀ (by norm_num) (by norm_num))
        · have hadd := add_fin (Double.Grid.ofInt k) (Double.Grid.ofInt 1)
          rw [Int.cast_natCast, Int.cast_one] at hadd
          rw [hadd]
          rcases Nat.lt_or_ge k (2 ^ 53) with hlt | hge
          · refine ⟨k + 1, ?_, hlt⟩
            rw [← Nat.cast_one, ← Nat.cast_add, toFloat_len (by omega)]
            refine Double.wrap_fin ?_
            rw [abs_of_nonneg (Nat.cast_nonneg _)]
            have : ((k + 1 : Nat) : Rat) ≤ 2 ^ 53 := by exact_mod_cast hlt
            exact lt_of_le_of_lt this (pow_lt_pow_right₀ (by norm_num) (by norm_num))
          · have : k = 2 ^ 53 := by omega
            subst this
            refine ⟨2 ^ 53, ?_, le_refl _⟩
            rw [show toFloat (((2 ^ 53 : Nat) : Rat) + 1) = ((2 ^ 53 : Nat) : Rat) by decide +kernel]
            refine Double.wrap_fin ?_
            rw [abs_of_nonneg (Nat.cast_nonneg _), Nat.cast_pow]
            exact pow_lt_pow_right₀ (by norm_num) (by norm_num)
      exact this
    · rintro a ⟨k, rfl, _⟩
      rcases hd with rfl | rfl | rfl <;> rfl
    · rintro a rfl z _
      rcases hd with rfl | rfl | rfl <;> rfl
    · rintro a rfl
      rcases hd with rfl | rfl | rfl <;> rfl
  refine ⟨?_, ?_, ?_, fun n hn => ?_⟩
  · obtain ⟨t, ht, rfl⟩ := special .nan (.inl rfl)
    rw [ht]; exact f3
  · obtain ⟨t, ht, rfl⟩ := special .inf (.inr (.inl rfl))
    rw [ht]; exact f1
  · obtain ⟨t, ht, rfl⟩ := special .negInf (.inr (.inr rfl))
    rw [ht]; exact f2
  · rw [loop_refused (.int n) .overflowError (ofInt_large n hn) _ _ hc']
    rfl

/-- C99: an int is used as the float nearest to it. -/
theorem C99_int (d1 d2 : Datum) (n : Int) (h : |(n : Rat)| < 2 ^ 1024 - 2 ^ 970) :
    ∃ r, NearestDouble n r ∧ doubleOverlappingRatio d1 d2 (.int n) = doubleOverlappingRatio d1 d2 (.float (.fin r)) := by
  obtain ⟨r, hr, hnear⟩ := (C99_rounding (n : Rat)).1 h
  refine ⟨r, hnear, ?_⟩
  have e : (Rate.int n).toDouble = (Rate.float (.fin r)).toDouble := by
    show Double.ofInt n = .ok (.fin r)
    unfold Double.ofInt
    rw [hr]
  have loop : ∀ acc ps, doubleLoop (.int n) acc ps = doubleLoop (.float (.fin r)) acc ps := by
    intro acc ps
    induction ps generalizing acc with
    | nil => rfl
    | cons p ps ih =>
      rw [doubleLoop, doubleLoop]
      unfold doublePenalty
      rw [e]
      congr 1
      funext d
      exact ih _
  unfold doubleOverlappingRatio
  simp only [loop]

/-- C99: the result is NaN only for NaN. -/
theorem C99_nan (u : Str) (hlen : u.length ≤ 2 ^ 53) (is1 is2 : Option (List Intent))
    (es1 es2 : Option (List Entity)) (d1 d2 : Datum) (h1 : Datum.new u is1 es1 = .ok d1)
    (h2 : Datum.new u is2 es2 = .ok d2) (rate : Rate) (hr : ∀ x, rate = .float (.fin x) → IsDouble x) :
    doubleOverlappingRatio d1 d2 rate = .ok .nan ↔
      rate = .float .nan ∧ Clash u.length (labelAt d1.entities) (labelAt d2.entities) := by
  constructor
  · intro h
    have hne : u ≠ [] := by
      rintro rfl
      rw [(C99_outcome [] [] is1 is2 es1 es2 d1 d2 h1 h2 rate).2 rfl rfl] at h
      cases h
    by_cases hc : Clash u.length (labelAt d1.entities) (labelAt d2.entities)
    · refine ⟨?_, hc⟩
      obtain ⟨s1, s2, s3, s4⟩ := C99_special u hlen is1 is2 es1 es2 d1 d2 h1 h2 hc
      have fin : ∀ r, IsDouble r → doubleOverlappingRatio d1 d2 (.float (.fin r)) ≠ .ok .nan := fun r hr hbad => by
        obtain ⟨f1, f2⟩ := C99_finite u hne hlen is1 is2 es1 es2 d1 d2 h1 h2 r hr _ fun _ => rfl
        by_cases hall : ∀ k, |fsum 0 ((penalties u.length (labelAt d1.entities) (labelAt d2.entities) r).take k)| < 2 ^ 1024
        · obtain ⟨x, _, hx⟩ := f1 hall
          rw [hbad] at hx
          cases hx
        · have hex : ∃ k, ¬ |fsum 0 ((penalties u.length (labelAt d1.entities) (labelAt d2.entities) r).take k)| < 2 ^ 1024 :=
            not_forall.mp hall
          obtain ⟨g1, g2⟩ := f2 (Nat.find hex) fun j hj => not_not.mp (Nat.find_min hex hj)
          have hk := not_lt.mp (Nat.find_spec hex)
          rcases le_abs'.mp hk with hk | hk
          · rw [g2 hk] at hbad
            cases hbad
          · rw [g1 hk] at hbad
            cases hbad
      cases rate with
      | int n =>
        exfalso
        by_cases hn : |(n : Rat)| < 2 ^ 1024 - 2 ^ 970
        · obtain ⟨r, hr, he⟩ := C99_int d1 d2 n hn
          exact fin r hr.double (he ▸ h)
        · rw [s4 n (not_lt.mp hn)] at h
          cases h
      | float x =>
        cases x with
        | nan => rfl
        | fin x => exact absurd h (fin x (hr x rfl))
        | inf => rw [s2] at h; cases h
        | negInf => rw [s3] at h; cases h
    · obtain ⟨x, _, hx⟩ := C99_unused u hne hlen is1 is2 es1 es2 d1 d2 h1 h2 hc rate
      rw [h] at hx
      cases hx
  · rintro ⟨rfl, hc⟩
    exact (C99_special u hlen is1 is2 es1 es2 d1 d2 h1 h2 hc).1

example : (do
    let d1 ← Datum.new "ab".toList none (some [⟨1, "ab".toList, 0, 2, []⟩])
    let d2 ← Datum.new "ab".toList none (some [⟨2, "ab".toList, 0, 2, []⟩])
    let big ← doubleOverlappingRatio d1 d2 (.float (.fin (2 ^ 1023)))
    let half ← doubleOverlappingRatio d1 d2 (.float (.fin (2 ^ 1022)))
    let tiny ← doubleOverlappingRatio d1 d2 (.float (.fin (1 / 2 ^ 1074)))
    let undefined ← doubleOverlappingRatio d1 d2 (.float .nan)
    return (big, half, tiny, undefined)) = .ok (.negInf, .fin (-2 ^ 1022), .fin 1, .nan) := by decide +kernel

end Uttut
