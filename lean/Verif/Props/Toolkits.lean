import Verif.Props.Data
import Verif.Props.Edit

/-! Properties C51-C52: overlapping ratio and unique entities. -/

namespace Uttut

open Spec

/-! ### C51 entity_overlapping_ratio -/

theorem labelAt_cons_in {e : Entity} {es : List Entity} {i : Nat} (h : e.start ≤ (i : Int) ∧ (i : Int) < e.stop) :
    labelAt (e :: es) i = e.label := by
  unfold labelAt
  rw [List.find?_cons_of_pos (by simpa using h)]
  rfl

theorem labelAt_cons_out {e : Entity} {es : List Entity} {i : Nat}
    (h : ¬ (e.start ≤ (i : Int) ∧ (i : Int) < e.stop)) : labelAt (e :: es) i = labelAt es i := by
  unfold labelAt
  rw [List.find?_cons_of_neg (by simpa using h)]

theorem labelAt_eq_zero {es : List Entity} {i : Nat}
    (h : ∀ e ∈ es, ¬ (e.start ≤ (i : Int) ∧ (i : Int) < e.stop)) : labelAt es i = 0 := by
  induction es with
  | nil => rfl
  | cons e es ih => rw [labelAt_cons_out (h e (by simp)), ih (fun f hf => h f (by simp [hf]))]

theorem entityListLoop_spec (fuel len ind : Nat) (es : List Entity)
    (hs : es.Pairwise (fun a b => a.start ≤ b.start)) (hf : len - ind + es.length + 1 ≤ fuel) :
    entityListLoop fuel len ind es = some ((List.range' ind (len - ind)).map (labelAt es)) := by
  induction fuel generalizing ind es with
  | zero => omega
  | succ fuel ih =>
    unfold entityListLoop
    by_cases h : ind ≥ len
    · rw [if_pos h, Nat.sub_eq_zero_of_le h]; rfl
    · rw [if_neg h]
      have hr : List.range' ind (len - ind) = ind :: List.range' (ind + 1) (len - (ind + 1)) := by
        rw [show len - ind = (len - (ind + 1)) + 1 by omega, List.range'_succ]
      cases es with
      | nil =>
        dsimp only
        rw [ih (ind + 1) [] hs (by simp at hf ⊢; omega), hr]
        rfl
      | cons e rest =>
        dsimp only
        by_cases hin : (ind : Int) ≥ e.start ∧ (ind : Int) < e.stop
        · rw [if_pos hin, ih (ind + 1) (e :: rest) hs (by simp at hf ⊢; omega), hr, Option.map_some,
            List.map_cons, labelAt_cons_in hin]
        · rw [if_neg hin]
          rw [List.pairwise_cons] at hs
          by_cases hst : (ind : Int) ≥ e.stop
          · rw [if_pos hst, ih ind rest hs.2 (by simp at hf ⊢; omega)]
            congr 1
            apply List.map_congr_left
            intro i hi
            rw [labelAt_cons_out]
            rw [List.mem_range'_1] at hi
            omega
          · rw [if_neg hst, ih (ind + 1) (e :: rest) (List.pairwise_cons.mpr hs) (by simp at hf ⊢; omega), hr,
              Option.map_some, List.map_cons]
            rw [labelAt_eq_zero (i := ind)]
            intro f hf'
            rcases List.mem_cons.mp hf' with rfl | hf'
            · omega
            · have := hs.1 f hf'
              omega

theorem expandEntityToList_spec {d : Datum} (hd : IsDatum d) :
    expandEntityToList d = some ((List.range d.utterance.length).map (labelAt d.entities)) := by
  unfold expandEntityToList
  rw [entityListLoop_spec _ _ 0 _ hd.sorted (by omega), Nat.sub_zero, List.range_eq_range']

theorem datum_new_none (u : Str) (is : Option (List Intent)) (es : Option (List Entity)) :
    Datum.new u is es = Datum.new u (some (is.getD [])) (some (es.getD [])) := by
  cases is <;> cases es <;> rfl

theorem isDatum_of_new_opt {u : Str} {is : Option (List Intent)} {es : Option (List Entity)} {d : Datum}
    (h : Datum.new u is es = .ok d) : IsDatum d := by
  rw [datum_new_none] at h
  exact isDatum_of_new h

theorem datum_new_utterance {u : Str} {is : Option (List Intent)} {es : Option (List Entity)} {d : Datum}
    (h : Datum.new u is es = .ok d) : d.utterance = u := by
  rw [datum_new_none] at h
  obtain ⟨rfl, _, _⟩ := datum_new_cases _ _ _ _ h
  rfl

/-- C51: the labelling used for the ratio: every constructed datum gets one label per character, the label
of the entity whose index range contains it and 0 elsewhere (the loop terminates). -/
theorem C51_labelling (u : Str) (is : Option (List Intent)) (es : Option (List Entity)) (d : Datum)
    (h : Datum.new u is es = .ok d) :
    expandEntityToList d = some ((List.range u.length).map (labelAt d.entities)) := by
  have hd := isDatum_of_new_opt h
  have hu := datum_new_utterance h
  rw [expandEntityToList_spec hd, hu]

theorem foldl_penalty (rate : Rat) (a b : Nat → Int) (l : List Nat) (acc : Rat) :
    ((l.map a).zip (l.map b)).foldl (fun acc p => acc + penalty p.1 p.2 rate) acc =
      acc + (((l.filter fun i => decide (a i ≠ b i ∧ (a i = 0 ∨ b i = 0))).length : Nat) : Rat) +
        rate * (((l.filter fun i => decide (a i ≠ b i ∧ a i ≠ 0 ∧ b i ≠ 0)).length : Nat) : Rat) := by
  induction l generalizing acc with
  | nil => simp; grind
  | cons i l ih =>
    rw [List.map_cons, List.map_cons, List.zip_cons_cons, List.foldl_cons, ih, List.filter_cons, List.filter_cons]
    by_cases h1 : a i = b i
    · have e1 : decide (a i ≠ b i ∧ (a i = 0 ∨ b i = 0)) = false := by simp [h1]
      have e2 : decide (a i ≠ b i ∧ a i ≠ 0 ∧ b i ≠ 0) = false := by simp [h1]
      have e3 : penalty (a i) (b i) rate = 0 := by simp [penalty, h1]
      rw [e1, e2, if_neg (by decide), if_neg (by decide)]
      dsimp only
      rw [e3]
      grind
    · by_cases h2 : a i = 0 ∨ b i = 0
      · have e1 : decide (a i ≠ b i ∧ (a i = 0 ∨ b i = 0)) = true := by simp [h1, h2]
        have e2 : decide (a i ≠ b i ∧ a i ≠ 0 ∧ b i ≠ 0) = false := by
          rw [decide_eq_false_iff_not]; omega
        have e3 : penalty (a i) (b i) rate = 1 := by rw [penalty, if_neg h1, if_pos h2]
        rw [e1, e2, if_pos rfl, if_neg (by decide), List.length_cons, Rat.natCast_add]
        dsimp only
        rw [e3]
        grind
      · have e1 : decide (a i ≠ b i ∧ (a i = 0 ∨ b i = 0)) = false := by simp [h2]
        have e2 : decide (a i ≠ b i ∧ a i ≠ 0 ∧ b i ≠ 0) = true := by
          rw [decide_eq_true_eq]; omega
        have e3 : penalty (a i) (b i) rate = rate := by rw [penalty, if_neg h1, if_neg h2]
        rw [e1, e2, if_neg (by decide), if_pos rfl, List.length_cons, Rat.natCast_add]
        dsimp only
        rw [e3]
        grind

/-- The value of the ratio. -/
theorem ratio_value {d1 d2 : Datum} (h1 : IsDatum d1) (h2 : IsDatum d2) (rate : Rat)
    (hu : d1.utterance = d2.utterance) (hne : d1.utterance ≠ []) :
    entityOverlappingRatio d1 d2 rate = .ok (1 -
      ((oneSided d1.utterance.length (labelAt d1.entities) (labelAt d2.entities) : Rat) +
        rate * (twoSided d1.utterance.length (labelAt d1.entities) (labelAt d2.entities) : Rat)) /
      (d1.utterance.length : Rat)) := by
  unfold entityOverlappingRatio Datum.hasSameUtteranceAs
  rw [if_neg (by simp [hu]), expandEntityToList_spec h1, expandEntityToList_spec h2, ← hu]
  dsimp only
  rw [if_neg (by simpa using hne), foldl_penalty]
  congr 3
  unfold oneSided twoSided
  grind

/-- C51: the exact value. For two constructed data over the same non-empty utterance the ratio is one minus
the average penalty: 1 for each character labelled in only one of them, `rate` for each character with two
different labels. -/
theorem C51_value (u : Str) (hne : u ≠ []) (is1 is2 : Option (List Intent)) (es1 es2 : Option (List Entity))
    (d1 d2 : Datum) (h1 : Datum.new u is1 es1 = .ok d1) (h2 : Datum.new u is2 es2 = .ok d2) (rate : Rat) :
    entityOverlappingRatio d1 d2 rate = .ok (1 -
      ((oneSided u.length (labelAt d1.entities) (labelAt d2.entities) : Rat) +
        rate * (twoSided u.length (labelAt d1.entities) (labelAt d2.entities) : Rat)) / (u.length : Rat)) := by
  have e1 := datum_new_utterance h1
  have e2 := datum_new_utterance h2
  have := ratio_value (isDatum_of_new_opt h1) (isDatum_of_new_opt h2) rate (e1.trans e2.symm) (by rw [e1]; exact hne)
  rw [e1] at this
  exact this

theorem oneSided_comm (n : Nat) (a b : Nat → Int) : oneSided n a b = oneSided n b a := by
  unfold oneSided
  congr 1
  apply List.filter_congr
  intro i _
  simp only [decide_eq_decide]
  omega

theorem twoSided_comm (n : Nat) (a b : Nat → Int) : twoSided n a b = twoSided n b a := by
  unfold twoSided
  congr 1
  apply List.filter_congr
  intro i _
  simp only [decide_eq_decide]
  omega

/-- C51: the ratio is symmetric (errors included). -/
theorem C51_symmetric (u1 u2 : Str) (is1 is2 : Option (List Intent)) (es1 es2 : Option (List Entity))
    (d1 d2 : Datum) (h1 : Datum.new u1 is1 es1 = .ok d1) (h2 : Datum.new u2 is2 es2 = .ok d2) (rate : Rat) :
    entityOverlappingRatio d1 d2 rate = entityOverlappingRatio d2 d1 rate := by
  have i1 := isDatum_of_new_opt h1
  have i2 := isDatum_of_new_opt h2
  by_cases hu : d1.utterance = d2.utterance
  · by_cases hne : d1.utterance = []
    · unfold entityOverlappingRatio Datum.hasSameUtteranceAs
      rw [if_neg (by simp [hu]), if_neg (by simp [hu]), expandEntityToList_spec i1, expandEntityToList_spec i2]
      dsimp only
      rw [if_pos (by simp [hne]), if_pos (by simp [← hu, hne])]
    · rw [ratio_value i1 i2 rate hu hne, ratio_value i2 i1 rate hu.symm (by rw [← hu]; exact hne),
        oneSided_comm, twoSided_comm, hu]
  · unfold entityOverlappingRatio Datum.hasSameUtteranceAs
    rw [if_pos (by simp [hu]), if_pos (by simp [Ne.symm hu])]

/-- C51: the rejected calls. -/
theorem C51_errors (u1 u2 : Str) (is1 is2 : Option (List Intent)) (es1 es2 : Option (List Entity))
    (d1 d2 : Datum) (h1 : Datum.new u1 is1 es1 = .ok d1) (h2 : Datum.new u2 is2 es2 = .ok d2) (rate : Rat) :
    (u1 ≠ u2 → entityOverlappingRatio d1 d2 rate = .error .differentUtterance) ∧
      (u1 = u2 → u1 = [] → entityOverlappingRatio d1 d2 rate = .error .zeroDivisionError) := by
  have e1 := datum_new_utterance h1
  have e2 := datum_new_utterance h2
  constructor
  · intro hu
    unfold entityOverlappingRatio Datum.hasSameUtteranceAs
    rw [if_pos (by simp [e1, e2, hu])]
  · intro hu hne
    unfold entityOverlappingRatio Datum.hasSameUtteranceAs
    rw [if_neg (by simp [e1, e2, hu]), expandEntityToList_spec (isDatum_of_new_opt h1),
      expandEntityToList_spec (isDatum_of_new_opt h2)]
    dsimp only
    rw [if_pos (by simp [e1, hne])]

theorem sided_le (n : Nat) (a b : Nat → Int) : oneSided n a b + twoSided n a b ≤ n := by
  unfold oneSided twoSided
  have : ∀ l : List Nat, (l.filter fun i => decide (a i ≠ b i ∧ (a i = 0 ∨ b i = 0))).length +
      (l.filter fun i => decide (a i ≠ b i ∧ a i ≠ 0 ∧ b i ≠ 0)).length ≤ l.length := by
    intro l
    induction l with
    | nil => simp
    | cons i l ih =>
      simp only [List.filter_cons, List.length_cons]
      split <;> rename_i h1 <;> split <;> rename_i h2 <;> rw [decide_eq_true_eq] at h1 h2 <;>
        (try rw [List.length_cons]) <;> omega
  simpa using this (List.range n)

theorem sided_zero (n : Nat) (a b : Nat → Int) :
    (oneSided n a b = 0 ∧ twoSided n a b = 0) ↔ ∀ i, i < n → a i = b i := by
  unfold oneSided twoSided
  simp only [List.length_eq_zero_iff, List.filter_eq_nil_iff, List.mem_range, decide_eq_true_eq]
  constructor
  · rintro ⟨h1, h2⟩ i hi
    have := h1 i hi
    have := h2 i hi
    omega
  · intro h
    exact ⟨fun i hi hc => hc.1 (h i hi), fun i hi hc => hc.1 (h i hi)⟩

/-- C51: equal labellings have ratio 1; with a positive rate only equal labellings have. -/
theorem C51_one (u : Str) (hne : u ≠ []) (is1 is2 : Option (List Intent)) (es1 es2 : Option (List Entity))
    (d1 d2 : Datum) (h1 : Datum.new u is1 es1 = .ok d1) (h2 : Datum.new u is2 es2 = .ok d2) (rate : Rat) :
    ((∀ i, i < u.length → labelAt d1.entities i = labelAt d2.entities i) →
        entityOverlappingRatio d1 d2 rate = .ok 1) ∧
      (0 < rate → entityOverlappingRatio d1 d2 rate = .ok 1 →
        ∀ i, i < u.length → labelAt d1.entities i = labelAt d2.entities i) := by
  rw [C51_value u hne is1 is2 es1 es2 d1 d2 h1 h2 rate]
  have hn : (0 : Rat) < (u.length : Rat) := by
    have := List.length_pos_iff.mpr hne
    exact_mod_cast this
  constructor
  · intro h
    obtain ⟨e1, e2⟩ := (sided_zero u.length _ _).mpr h
    rw [e1, e2]
    congr 1
    grind
  · intro hr h
    rw [← sided_zero]
    generalize oneSided u.length (labelAt d1.entities) (labelAt d2.entities) = A at *
    generalize twoSided u.length (labelAt d1.entities) (labelAt d2.entities) = B at *
    injection h with h
    have h' : ((A : Rat) + rate * (B : Rat)) / (u.length : Rat) = 0 := by grind
    have h'' : (A : Rat) + rate * (B : Rat) = 0 := by
      have := congrArg (· * (u.length : Rat)) h'
      simpa [Rat.div_mul_cancel (Rat.ne_of_gt hn)] using this
    have hA : (0 : Rat) ≤ A := by exact_mod_cast Nat.zero_le A
    have hB : (0 : Rat) ≤ B := by exact_mod_cast Nat.zero_le B
    have hrB : 0 ≤ rate * (B : Rat) := Rat.mul_nonneg (Rat.le_of_lt hr) hB
    have a0 : (A : Rat) = 0 := by grind
    have b0 : rate * (B : Rat) = 0 := by grind
    refine ⟨by exact_mod_cast a0, ?_⟩
    rcases Rat.mul_eq_zero.mp b0 with h0 | h0
    · grind
    · exact_mod_cast h0

/-- C51: bounds of the ratio for a non-negative rate. -/
theorem C51_bounds (u : Str) (hne : u ≠ []) (is1 is2 : Option (List Intent)) (es1 es2 : Option (List Entity))
    (d1 d2 : Datum) (h1 : Datum.new u is1 es1 = .ok d1) (h2 : Datum.new u is2 es2 = .ok d2) (rate M : Rat)
    (hr : 0 ≤ rate) (hM : rate ≤ M) (hM1 : 1 ≤ M) :
    ∃ r, entityOverlappingRatio d1 d2 rate = .ok r ∧ 1 - M ≤ r ∧ r ≤ 1 := by
  rw [C51_value u hne is1 is2 es1 es2 d1 d2 h1 h2 rate]
  have hs := sided_le u.length (labelAt d1.entities) (labelAt d2.entities)
  generalize oneSided u.length (labelAt d1.entities) (labelAt d2.entities) = A at *
  generalize twoSided u.length (labelAt d1.entities) (labelAt d2.entities) = B at *
  have hn : (0 : Rat) < (u.length : Rat) := by
    have := List.length_pos_iff.mpr hne
    exact_mod_cast this
  have hA : (0 : Rat) ≤ A := by exact_mod_cast Nat.zero_le A
  have hB : (0 : Rat) ≤ B := by exact_mod_cast Nat.zero_le B
  have hAB : (A : Rat) + (B : Rat) ≤ (u.length : Rat) := by exact_mod_cast hs
  have hrB : 0 ≤ rate * (B : Rat) := Rat.mul_nonneg hr hB
  have h1 : (A : Rat) ≤ M * A := by
    have := Rat.mul_le_mul_of_nonneg_right hM1 hA
    grind
  have h2 : rate * (B : Rat) ≤ M * B := Rat.mul_le_mul_of_nonneg_right hM hB
  have h3 : M * ((A : Rat) + B) ≤ M * (u.length : Rat) := Rat.mul_le_mul_of_nonneg_left hAB (by grind)
  have hle : ((A : Rat) + rate * (B : Rat)) / (u.length : Rat) ≤ M := by
    rw [← Rat.not_lt, Rat.lt_div_iff hn]
    grind
  have hge : 0 ≤ ((A : Rat) + rate * (B : Rat)) / (u.length : Rat) := by
    rw [← Rat.not_lt, Rat.div_lt_iff hn]
    grind
  exact ⟨_, rfl, by grind, by grind⟩

/-- C51: for well-placed entities the labelling used is that of `unpack_datum`. -/
theorem C51_unpack (u : Str) (is : List Intent) (es : List Entity) (d : Datum)
    (h : Datum.new u (some is) (some es) = .ok d) (hw : ∀ e ∈ es, WithinUtterance u e) :
    ∃ ls, unpackDatum d = .ok (u, d.intents.map (fun i => i.label), ls) ∧ expandEntityToList d = some ls := by
  have hd := isDatum_of_new h
  obtain ⟨rfl, _, _⟩ := datum_new_cases u is es d h
  obtain ⟨ls, h1, h2, h3⟩ := unpack_within hd (fun e he => hw e (mem_pySorted.mp he))
  refine ⟨ls, h1, ?_⟩
  rw [expandEntityToList_spec hd]
  congr 1
  refine List.ext_getElem? fun i => ?_
  rcases Nat.lt_or_ge i u.length with hi | hi
  · rw [List.getElem?_map, List.getElem?_range hi, Option.map_some]
    unfold labelAt
    cases hf : List.find? (fun e : Entity => decide (e.start ≤ (i : Int) ∧ (i : Int) < e.stop))
        (pySorted Entity.start es) with
    | none =>
      rw [(h3 i hi).2 (fun e he => by simpa using List.find?_eq_none.mp hf e he)]
      rfl
    | some e =>
      have hp := List.find?_some hf
      simp only [decide_eq_true_eq] at hp
      rw [(h3 i hi).1 e (List.mem_of_find?_eq_some hf) hp.1 hp.2]
      rfl
  · rw [List.getElem?_eq_none (by simpa using hi), List.getElem?_eq_none (by rw [h2]; exact hi)]

example : (do
    let d1 ← Datum.new "abcd".toList none (some [⟨1, "ab".toList, 0, 2, []⟩])
    let d2 ← Datum.new "abcd".toList none (some [⟨2, "bcd".toList, 1, 4, []⟩])
    entityOverlappingRatio d1 d2 2) = .ok (-1 / 4) := by decide +kernel

example : labelAt [⟨1, "ab".toList, 0, 2, []⟩] 1 = 1 ∧ labelAt [⟨1, "ab".toList, 0, 2, []⟩] 2 = 0 := by decide

/-! ### C52 get_unique_entities -/

/-- C52: no label is repeated and the labels are exactly those of the entities of the data. -/
theorem C52_unique (σ : SetOrder) (data : List Datum) :
    (getUniqueEntities σ data).Nodup ∧
      ∀ l, l ∈ getUniqueEntities σ data ↔ ∃ d ∈ data, ∃ e ∈ d.entities, e.label = l := by
  refine ⟨nodup_listSet σ _, fun l => ?_⟩
  unfold getUniqueEntities
  rw [mem_listSet]
  simp [List.mem_flatMap, List.mem_map]

example : getUniqueEntities SetOrder.id [⟨"ab".toList, [], [⟨1, "a".toList, 0, 1, []⟩, ⟨2, "b".toList, 1, 2, []⟩]⟩,
    ⟨"a".toList, [], [⟨1, "a".toList, 0, 1, []⟩]⟩] = [1, 2] := by decide

end Uttut
