import Verif.Lemmas.Ops

/-!
C15: what every label aligner guarantees, whatever its two label maps do.
-/

namespace Uttut

/-- C15: forward labels of the wrong length are rejected with ValueError before the label map is
called. -/
theorem C15_transform_wrong_length (a : Aligner) (ls : List Int) (h : ls.length ≠ a.inputLength) :
    a.transform ls = .error .valueError := by
  unfold Aligner.transform Aligner.validateInput
  rw [if_pos h]; rfl

example : (Aligner.null 2 2).transform [7] = .error .valueError :=
  C15_transform_wrong_length _ _ (by decide)

/-- C15: backward labels of the wrong length are rejected with ValueError. -/
theorem C15_inverse_wrong_length (a : Aligner) (ls : List Int) (h : ls.length ≠ a.outputLength) :
    a.inverseTransform ls = .error .valueError := by
  unfold Aligner.inverseTransform Aligner.validateOutput
  rw [if_pos h]; rfl

example : (Aligner.null 2 2).inverseTransform [7, 8, 9] = .error .valueError :=
  C15_inverse_wrong_length _ _ (by decide)

/-- C15: an error of the label map itself is passed on. -/
theorem C15_transform_error (a : Aligner) (ls : List Int) (e : Exc) (h : ls.length = a.inputLength)
    (he : a.fwd ls = .error e) : a.transform ls = .error e := by
  unfold Aligner.transform Aligner.validateInput
  rw [if_neg (by simp [h]), he]; rfl

example : ({ inputLength := 1, outputLength := 1, fwd := fun _ => .error .typeError,
             bwd := fun l => .ok l } : Aligner).transform [1] = .error .typeError :=
  C15_transform_error _ _ _ (by decide) rfl

/-- C15: a successful `transform` took labels of the input length and returns labels of the output
length. -/
theorem C15_transform_length (a : Aligner) (ls y : List Int) (h : a.transform ls = .ok y) :
    ls.length = a.inputLength ∧ y.length = a.outputLength := by
  unfold Aligner.transform Aligner.validateInput Aligner.validateOutput at h
  by_cases h1 : ls.length = a.inputLength
  · rw [if_neg (by simp [h1])] at h
    simp only [Except.bind_ok] at h
    cases hf : a.fwd ls with
    | error e => rw [hf] at h; cases h
    | ok z =>
      rw [hf] at h
      simp only [Except.bind_ok] at h
      by_cases h2 : z.length = a.outputLength
      · rw [if_neg (by simp [h2])] at h
        simp only [Except.bind_ok] at h
        injection h with h
        exact ⟨h1, h ▸ h2⟩
      · rw [if_pos h2] at h; cases h
  · rw [if_pos h1] at h; cases h

example : (Aligner.null 2 2).transform [7, 8] = .ok [7, 8] ∧ [7, 8].length = 2 :=
  ⟨rfl, (C15_transform_length (Aligner.null 2 2) [7, 8] [7, 8] rfl).2⟩

/-- C15: a successful `inverse_transform` took labels of the output length and returns labels of the
input length. -/
theorem C15_inverse_length (a : Aligner) (ls y : List Int) (h : a.inverseTransform ls = .ok y) :
    ls.length = a.outputLength ∧ y.length = a.inputLength := by
  unfold Aligner.inverseTransform Aligner.validateInput Aligner.validateOutput at h
  by_cases h1 : ls.length = a.outputLength
  · rw [if_neg (by simp [h1])] at h
    simp only [Except.bind_ok] at h
    cases hf : a.bwd ls with
    | error e => rw [hf] at h; cases h
    | ok z =>
      rw [hf] at h
      simp only [Except.bind_ok] at h
      by_cases h2 : z.length = a.inputLength
      · rw [if_neg (by simp [h2])] at h
        simp only [Except.bind_ok] at h
        injection h with h
        exact ⟨h1, h ▸ h2⟩
      · rw [if_pos h2] at h; cases h
  · rw [if_pos h1] at h; cases h

example : ∀ y, (Aligner.null 2 2).inverseTransform [7, 8] = .ok y → y.length = 2 :=
  fun y h => (C15_inverse_length _ _ y h).2

/-- C15: a label map returning labels of the wrong length never gets through. -/
theorem C15_transform_bad_output (a : Aligner) (ls y : List Int) (h : ls.length = a.inputLength)
    (hf : a.fwd ls = .ok y) (hy : y.length ≠ a.outputLength) : a.transform ls = .error .valueError := by
  unfold Aligner.transform Aligner.validateInput Aligner.validateOutput
  rw [if_neg (by simp [h]), hf]
  simp only [Except.bind_ok]
  rw [if_pos hy]
  rfl

example : (Aligner.null 1 2).transform [7] = .error .valueError :=
  C15_transform_bad_output _ _ [7] rfl rfl (by decide)

/-- C15: the same for the way back: exceptions of the label map are passed on, labels of a wrong number are refused, all
others are returned as they are. -/
theorem C15_inverse (a : Aligner) (ls : List Int) (h : ls.length = a.outputLength) :
    (∀ e, a.bwd ls = .error e → a.inverseTransform ls = .error e) ∧
    (∀ y, a.bwd ls = .ok y → y.length ≠ a.inputLength → a.inverseTransform ls = .error .valueError) ∧
    (∀ y, a.bwd ls = .ok y → y.length = a.inputLength → a.inverseTransform ls = .ok y) := by
  unfold Aligner.inverseTransform Aligner.validateInput Aligner.validateOutput
  rw [if_neg (by simp [h])]
  refine ⟨fun e he => by rw [he]; rfl, fun y hf hy => ?_, fun y hf hy => ?_⟩
  · rw [hf]
    simp only [Except.bind_ok]
    rw [if_pos hy]
    rfl
  · rw [hf]
    simp only [Except.bind_ok]
    rw [if_neg (by simp [hy])]
    rfl

example : (Aligner.null 1 2).inverseTransform [7, 8] = .error .valueError :=
  (C15_inverse (Aligner.null 1 2) [7, 8] rfl).2.1 [7, 8] rfl (by decide)

/-- C15: labels of the right number are returned as the label map gives them. -/
theorem C15_transform_ok (a : Aligner) (ls y : List Int) (h : ls.length = a.inputLength)
    (hf : a.fwd ls = .ok y) (hy : y.length = a.outputLength) : a.transform ls = .ok y := by
  unfold Aligner.transform Aligner.validateInput Aligner.validateOutput
  rw [if_neg (by simp [h]), hf]
  simp only [Except.bind_ok]
  rw [if_neg (by simp [hy])]
  rfl

example : (Aligner.null 1 1).transform [7] = .ok [7] := C15_transform_ok _ _ _ rfl rfl rfl

end Uttut
