import Verif.Lemmas.Survive
import Verif.Props.Builtins

/-!
C73: exactly which labels come back unchanged from an operator, and that a second round trip changes nothing.
-/

namespace Uttut

open Spec

/-- `f s` has one result. -/
theorem det {S O : Type} {f : S → Res (O × Aligner)} {s : S} {o o' : O} {a a' : Aligner} (h : f s = .ok (o, a))
    (h' : f s = .ok (o', a')) : o = o' ∧ a = a' := by
  rw [h] at h'
  injection h' with h'
  injection h' with h1 h2
  exact ⟨h1, h2⟩

theorem replicate_eq_iff (n : Nat) (x : List Int) (v : Int) (hx : x.length = n) :
    List.replicate n v = x ↔ ∀ l ∈ x, l = v := by
  constructor
  · rintro rfl l hl
    exact (List.mem_replicate.mp hl).2
  · intro h
    exact (List.eq_replicate_iff.mpr ⟨hx, h⟩).symm

theorem firstMode_uniform (x : List Int) (v : Int) (hx : x ≠ []) (h : ∀ l ∈ x, l = v) : firstMode x = v := by
  have : x = List.replicate x.length v := List.eq_replicate_iff.mpr ⟨rfl, h⟩
  rw [this]
  exact firstMode_replicate' _ (List.length_pos_iff.mpr hx) v

/-- One label for all, as a statement on the most frequent one. -/
theorem uniform_iff (x : List Int) : (∃ v, ∀ l ∈ x, l = v) ↔ List.replicate x.length (firstMode x) = x := by
  rw [replicate_eq_iff _ _ _ rfl]
  constructor
  · rintro ⟨v, h⟩
    by_cases hx : x = []
    · subst hx; simp
    · rw [firstMode_uniform x v hx h]; exact h
  · exact fun h => ⟨_, h⟩

/-! ### number tokens, white space, stop words -/

theorem number_parts {u : Unicode} {q : Str → Bool} {token : Str} {G : Int → List Int} {op : Str → Res (Str × Aligner)}
    {s : Str} (h : NumberOp u q token (fun x => G (firstMode x)) op s) (hlen : ∀ v, (G v).length = token.length)
    (hG : ∀ v, firstNonzeroMode (G v) = v) (out : Str) (a : Aligner) (hr : op s = .ok (out, a)) :
    (∀ ls, ls.length = s.length →
      (Survives a ls ↔ OneLabelEach (fun r => isRunOf (numeric u) r && q r) (runs (numeric u) s) ls)) ∧ Settles a := by
  obtain ⟨a', h1, h2, h3, h4, _⟩ := h.run
  obtain ⟨e1, e2⟩ := det (f := op) hr h1
  subst e1; subst e2
  have hfl : (runs (numeric u) s).flatten = s := runs_flatten _ _
  have hout : mapRuns (numeric u) (fun r => if q r then token else r) s =
      ((runs (numeric u) s).map fun r => if isRunOf (numeric u) r && q r then token else r).flatten := by
    unfold mapRuns
    rw [← List.flatMap_def]
    refine flatMap_congr_mem fun r _ => ?_
    cases isRunOf (numeric u) r <;> simp
  have hp : PartByPart a (runs (numeric u) s) List.length
      (fun r => (if isRunOf (numeric u) r && q r then token else r).length)
      (fun w x => if isRunOf (numeric u) w && q w then G (firstMode x) else x)
      (fun w x => if isRunOf (numeric u) w && q w then List.replicate w.length (firstNonzeroMode x) else x) := by
    refine partByPart_text (by rw [hfl]; exact h2.input) (by rw [← hout]; exact h2.output) (fun ls hl => ?_)
      (fun ls hl => ?_) ?_ ?_
    · rw [hfl] at hl; exact h3 ls hl
    · rw [← hout] at hl; exact h4 ls hl
    · intro w _ x hx
      split <;> simp_all
    · intro w _ x hx
      split
      · simp
      · rename_i hc
        rw [hx, if_neg hc]
  refine ⟨fun ls hl => ?_, hp.settles ?_ ?_⟩
  · rw [hp.survives ls (by rw [sum_lengths, hfl]; exact hl), ← splitLike_segments]
    refine forall_congr' fun x => forall_congr' fun hx => ?_
    obtain ⟨g1, g2⟩ := splitLike_mem_length _ ls (by rw [hfl]; exact hl) x hx
    dsimp only
    by_cases hc : (isRunOf (numeric u) x.1 && q x.1) = true
    · rw [if_pos hc, if_pos hc, hG, uniform_iff, g1]
      exact ⟨fun h _ => h, fun h => h hc⟩
    · rw [if_neg hc, if_neg hc]
      exact ⟨fun _ h => absurd h hc, fun _ => rfl⟩
  · intro w hw x hx
    split
    · rw [hG, firstMode_replicate' _ (List.length_pos_iff.mpr (mem_runs _ _ _ hw).1)]
    · rfl
  · intro w hw x hx
    split
    · rw [hG, firstMode_replicate' _ (List.length_pos_iff.mpr (mem_runs _ _ _ hw).1)]
    · rfl

theorem firstNonzeroMode_plain (k : Nat) (v : Int) : firstNonzeroMode (List.replicate (k + 1) v) = v :=
  firstNonzeroMode_replicate _ _ (Or.inl (by omega))

theorem firstNonzeroMode_spaced (k : Nat) (v : Int) :
    firstNonzeroMode ([0] ++ List.replicate (k + 1) v ++ [0]) = v := by
  have : firstNonzeroMode ([0] ++ List.replicate (k + 1) v ++ [0]) = firstNonzeroMode (List.replicate (k + 1) v) := by
    unfold firstNonzeroMode
    congr 1
    simp
  rw [this, firstNonzeroMode_plain]

/-- C73, number tokens: the labels come back unchanged exactly if every number that is replaced carries a single
label. -/
theorem C73_int_token (σ : SetOrder) (u : Unicode) (s out : Str) (a : Aligner)
    (h : IntToken.transform σ u s = .ok (out, a)) :
    (∀ ls, ls.length = s.length →
      (Survives a ls ↔ OneLabelEach (fun r => isRunOf (numeric u) r && isInteger u r) (runs (numeric u) s) ls)) ∧
      Settles a :=
  number_parts (G := fun v => List.replicate 5 v) (C18_C19_int_token σ u s) (fun _ => rfl)
    (fun v => firstNonzeroMode_plain 4 v) out a h

theorem C73_int_token_with_space (σ : SetOrder) (u : Unicode) (s out : Str) (a : Aligner)
    (h : IntTokenWithSpace.transform σ u s = .ok (out, a)) :
    (∀ ls, ls.length = s.length →
      (Survives a ls ↔ OneLabelEach (fun r => isRunOf (numeric u) r && isInteger u r) (runs (numeric u) s) ls)) ∧
      Settles a :=
  number_parts (G := fun v => [0] ++ List.replicate 5 v ++ [0]) (C18_C19_int_token_with_space σ u s) (fun _ => rfl)
    (fun v => firstNonzeroMode_spaced 4 v) out a h

theorem C73_num_token_with_space (σ : SetOrder) (u : Unicode) (s out : Str) (a : Aligner)
    (h : NumTokenWithSpace.transform σ u s = .ok (out, a)) :
    (∀ ls, ls.length = s.length →
      (Survives a ls ↔ OneLabelEach (fun r => isRunOf (numeric u) r && isInteger u r) (runs (numeric u) s) ls)) ∧
      Settles a :=
  number_parts (G := fun v => [0] ++ List.replicate 5 v ++ [0]) (C18_C19_num_token_with_space σ u s) (fun _ => rfl)
    (fun v => firstNonzeroMode_spaced 4 v) out a h

theorem C73_float_token (σ : SetOrder) (u : Unicode) (hdot : u.isDecimal '.' = false) (s out : Str) (a : Aligner)
    (h : FloatToken.transform σ u s = .ok (out, a)) :
    (∀ ls, ls.length = s.length →
      (Survives a ls ↔ OneLabelEach (fun r => isRunOf (numeric u) r && isFloat u r) (runs (numeric u) s) ls)) ∧
      Settles a :=
  number_parts (G := fun v => List.replicate 7 v) (C18_C19_float_token σ u hdot s) (fun _ => rfl)
    (fun v => firstNonzeroMode_plain 6 v) out a h

theorem C73_float_token_with_space (σ : SetOrder) (u : Unicode) (hdot : u.isDecimal '.' = false) (s out : Str)
    (a : Aligner) (h : FloatTokenWithSpace.transform σ u s = .ok (out, a)) :
    (∀ ls, ls.length = s.length →
      (Survives a ls ↔ OneLabelEach (fun r => isRunOf (numeric u) r && isFloat u r) (runs (numeric u) s) ls)) ∧
      Settles a :=
  number_parts (G := fun v => [0] ++ List.replicate 7 v ++ [0]) (C18_C19_float_token_with_space σ u hdot s)
    (fun _ => rfl) (fun v => firstNonzeroMode_spaced 6 v) out a h

theorem firstMode_single (v : Int) : firstMode [v] = v := firstMode_replicate 0 v

/-- C73, `MergeWhiteSpaceCharacters`: exactly if every run of white space carries a single label. -/
theorem C73_merge (σ : SetOrder) (s out : Str) (a : Aligner) (h : MergeWhiteSpaceCharacters.transform σ s = .ok (out, a)) :
    (∀ ls, ls.length = s.length → (Survives a ls ↔ OneLabelEach (isRunOf isSpace) (runs isSpace s) ls)) ∧ Settles a := by
  obtain ⟨a', h1, h2, h3, h4, _⟩ := C21_merge σ s
  obtain ⟨e1, e2⟩ := det (f := MergeWhiteSpaceCharacters.transform σ) h h1
  subst e1; subst e2
  have hfl : (runs isSpace s).flatten = s := runs_flatten _ _
  have hout : mapRuns isSpace (fun _ => [' ']) s =
      ((runs isSpace s).map fun r => if isRunOf isSpace r then [' '] else r).flatten := by
    unfold mapRuns
    rw [← List.flatMap_def]
  have hp : PartByPart a (runs isSpace s) List.length (fun r => (if isRunOf isSpace r then [' '] else r).length)
      (fun w x => if isRunOf isSpace w then [firstMode x] else x)
      (fun w x => if isRunOf isSpace w then List.replicate w.length (firstMode x) else x) := by
    refine partByPart_text (by rw [hfl]; exact h2.input) (by rw [← hout]; exact h2.output) (fun ls hl => ?_)
      (fun ls hl => ?_) ?_ ?_
    · rw [hfl] at hl; exact h3 ls hl
    · rw [← hout] at hl; exact h4 ls hl
    · intro w _ x hx
      split <;> simp_all
    · intro w _ x hx
      split
      · simp
      · rename_i hc
        rw [hx, if_neg hc]
  refine ⟨fun ls hl => ?_, hp.settles ?_ ?_⟩
  · rw [hp.survives ls (by rw [sum_lengths, hfl]; exact hl), ← splitLike_segments]
    refine forall_congr' fun x => forall_congr' fun hx => ?_
    obtain ⟨g1, g2⟩ := splitLike_mem_length _ ls (by rw [hfl]; exact hl) x hx
    by_cases hc : isRunOf isSpace x.1 = true
    · rw [if_pos hc, if_pos hc, firstMode_single, uniform_iff, g1]
      exact ⟨fun h _ => h, fun h => h hc⟩
    · rw [if_neg hc, if_neg hc]
      exact ⟨fun _ h => absurd h hc, fun _ => rfl⟩
  · intro w hw x hx
    split
    · rw [firstMode_single, firstMode_replicate' _ (List.length_pos_iff.mpr (mem_runs _ _ _ hw).1)]
    · rfl
  · intro w hw x hx
    split
    · rw [firstMode_single, firstMode_replicate' _ (List.length_pos_iff.mpr (mem_runs _ _ _ hw).1)]
    · rfl

/-- C73, `StopwordsToWhitespace`: exactly if the stop words carry the label 0. -/
theorem C73_stopwords (σ : SetOrder) (s out : Str) (a : Aligner) (segs : List Str)
    (hs : Segmented StopwordsToWhitespace.stopwords s segs) (h : StopwordsToWhitespace.transform σ s = .ok (out, a)) :
    (∀ ls, ls.length = s.length → (Survives a ls ↔ ZeroEach (fun w => decide (w ∈ StopwordsToWhitespace.stopwords)) segs ls)) ∧
      Settles a := by
  obtain ⟨a', h1, h2, h3, h4⟩ := C23_stopwords σ s segs hs
  obtain ⟨e1, e2⟩ := det (f := StopwordsToWhitespace.transform σ) h h1
  subst e1; subst e2
  have hfl : segs.flatten = s := segmented_flatten hs
  have hout : (segs.flatMap fun w => if w ∈ StopwordsToWhitespace.stopwords then [' '] else w) =
      (segs.map fun w => if w ∈ StopwordsToWhitespace.stopwords then [' '] else w).flatten := List.flatMap_def ..
  have hp : PartByPart a segs List.length
      (fun w => (if w ∈ StopwordsToWhitespace.stopwords then [' '] else w).length)
      (fun w x => if decide (w ∈ StopwordsToWhitespace.stopwords) then [0] else x)
      (fun w x => if decide (w ∈ StopwordsToWhitespace.stopwords) then List.replicate w.length 0 else x) := by
    refine partByPart_text (by rw [hfl]; exact h2.input) (by rw [← hout]; exact h2.output) (fun ls hl => ?_)
      (fun ls hl => ?_) ?_ ?_
    · rw [hfl] at hl; exact h3 ls hl
    · rw [← hout] at hl; exact h4 ls hl
    · intro w _ x hx
      by_cases hc : w ∈ StopwordsToWhitespace.stopwords <;> simp [hc, hx]
    · intro w _ x hx
      by_cases hc : w ∈ StopwordsToWhitespace.stopwords
      · simp [hc]
      · rw [if_neg hc] at hx; simp [hc, hx]
  refine ⟨fun ls hl => ?_, hp.settles ?_ ?_⟩
  · rw [hp.survives ls (by rw [sum_lengths, hfl]; exact hl), ← splitLike_segments]
    refine forall_congr' fun x => forall_congr' fun hx => ?_
    obtain ⟨g1, g2⟩ := splitLike_mem_length _ ls (by rw [hfl]; exact hl) x hx
    dsimp only
    by_cases hc : decide (x.1 ∈ StopwordsToWhitespace.stopwords) = true
    · rw [if_pos hc, ← g1, replicate_eq_iff _ _ _ rfl]
      exact ⟨fun h _ => h, fun h => h hc⟩
    · rw [if_neg hc, if_neg hc]
      exact ⟨fun _ h => absurd h hc, fun _ => rfl⟩
  · intro w hw x hx
    split <;> rfl
  · intro w hw x hx
    split <;> rfl

/-- C73, `StripWhiteSpaceCharacters`: exactly if what is stripped off carries the label 0. -/
theorem C73_strip (σ : SetOrder) (s out : Str) (a : Aligner) (h : StripWhiteSpaceCharacters.transform σ s = .ok (out, a)) :
    (∃ lead, (s.drop lead).take (strip s).length = strip s ∧ (∀ c ∈ s.take lead, isSpace c = true) ∧
      (∀ c ∈ s.drop (lead + (strip s).length), isSpace c = true) ∧
      ∀ ls, ls.length = s.length →
        (Survives a ls ↔ ∀ l ∈ ls.take lead ++ ls.drop (lead + (strip s).length), l = 0)) ∧ Settles a := by
  obtain ⟨a', h1, h2, lead, trail, g1, g2, g3, g4, h3, h4⟩ := C22_strip σ s
  obtain ⟨e1, e2⟩ := det (f := StripWhiteSpaceCharacters.transform σ) h h1
  subst e1; subst e2
  refine ⟨⟨lead, g3, g2, g4, fun ls hl => ?_⟩, .of_maps h2.input h2.output h3 h4 (fun ls hl => ?_) fun ls hl => ?_⟩
  · rw [survives_iff h2.output h3 h4 ls hl]
    have e : ls = ls.take lead ++ (ls.drop lead).take (strip s).length ++ ls.drop (lead + (strip s).length) := by
      rw [← List.drop_drop, List.append_assoc, List.take_append_drop, List.take_append_drop]
    have l1 : (ls.take lead).length = lead := by rw [List.length_take]; omega
    have l2 : (ls.drop (lead + (strip s).length)).length = trail := by rw [List.length_drop]; omega
    constructor
    · intro e'
      have e'' := e'.trans e
      rw [List.append_assoc, List.append_assoc] at e''
      obtain ⟨x1, x2⟩ := List.append_inj e'' (by rw [l1, List.length_replicate])
      obtain ⟨_, x3⟩ := List.append_inj x2 rfl
      rw [← x1, ← x3]
      intro l hl
      rcases List.mem_append.mp hl with hl | hl
      · exact List.eq_of_mem_replicate hl
      · exact List.eq_of_mem_replicate hl
    · intro hz
      have x1 : ls.take lead = List.replicate lead 0 :=
        List.eq_replicate_iff.mpr ⟨l1, fun b hb => hz b (List.mem_append_left _ hb)⟩
      have x3 : ls.drop (lead + (strip s).length) = List.replicate trail 0 :=
        List.eq_replicate_iff.mpr ⟨l2, fun b hb => hz b (List.mem_append_right _ hb)⟩
      rw [x1, x3] at e
      exact e.symm
  · have l1 : ((ls.drop lead).take (strip s).length).length = (strip s).length := by
      rw [List.length_take, List.length_drop]; omega
    rw [List.append_assoc, List.drop_left' (List.length_replicate ..), List.take_left' l1]
  · have : ((List.replicate lead 0 ++ ls ++ List.replicate trail 0).drop lead).take (strip s).length = ls := by
      rw [List.append_assoc, List.drop_left' (List.length_replicate ..), List.take_left' hl]
    rw [this]

/-- C73, `PunctuationExceptEndpointToWhitespace`: exactly if the blanked characters carry the label 0. -/
theorem C73_punctuation (σ : SetOrder) (u : Unicode) (s out : Str) (a : Aligner)
    (h : PunctuationExceptEndpointToWhitespace.transform σ u s = .ok (out, a)) :
    (∀ ls, ls.length = s.length → (Survives a ls ↔
      ∀ p ∈ s.zip ls, (p.1 ∈ asciiPunctuation ∨ u.isCatP p.1 = true) ∧ p.1 ≠ '.' → p.2 = 0)) ∧ Settles a := by
  obtain ⟨a', h1, h2, h3⟩ := C26_transform σ u s
  obtain ⟨e1, e2⟩ := det (f := PunctuationExceptEndpointToWhitespace.transform σ u) h h1
  subst e1; subst e2
  let Z : List Int → List Int := fun ls => (s.zip ls).map fun p =>
    if (p.1 ∈ asciiPunctuation ∨ u.isCatP p.1 = true) ∧ p.1 ≠ '.' then 0 else p.2
  have hZ : ∀ ls, ls.length = s.length → (Z ls).length = s.length := by
    intro ls hl; simp only [Z, List.length_map, List.length_zip]; omega
  have hlast : ∀ ls, ls.length = s.length → Z (Z ls) = Z ls := by
    intro ls hl
    have : s.zip (Z ls) = (s.zip ls).map fun p =>
        (p.1, if (p.1 ∈ asciiPunctuation ∨ u.isCatP p.1 = true) ∧ p.1 ≠ '.' then 0 else p.2) := by
      simp only [Z]
      clear h h1 h2 h3 hZ
      induction s generalizing ls with
      | nil => rfl
      | cons c s ih => cases ls with
        | nil => cases hl
        | cons l ls => simp [ih ls (by simpa using hl)]
    show (s.zip (Z ls)).map _ = _
    rw [this, List.map_map]
    refine List.map_congr_left fun p hp => ?_
    simp only [Function.comp]
    split <;> rfl
  refine ⟨fun ls hl => ?_, .of_maps h2.input h2.output (fun ls hl => (h3 ls hl).1) (fun ls hl => (h3 ls hl).2)
    (fun ls hl => ?_) fun ls hl => ?_⟩
  · rw [survives_iff h2.output (fun ls hl => (h3 ls hl).1) (fun ls hl => (h3 ls hl).2) ls hl]
    show Z (Z ls) = ls ↔ _
    rw [hlast ls hl]
    simp only [Z]
    clear h h1 h2 h3 hZ hlast Z
    induction s generalizing ls with
    | nil => simp; exact (List.length_eq_zero_iff.mp hl)
    | cons c s ih => cases ls with
      | nil => cases hl
      | cons l ls =>
        rw [List.zip_cons_cons, List.map_cons, List.cons.injEq, ih ls (by simpa using hl), List.forall_mem_cons]
        dsimp only
        by_cases hc : (c ∈ asciiPunctuation ∨ u.isCatP c = true) ∧ c ≠ '.'
        · rw [if_pos hc]
          exact ⟨fun ⟨h1, h2⟩ => ⟨fun _ => h1.symm, h2⟩, fun ⟨h1, h2⟩ => ⟨(h1 hc).symm, h2⟩⟩
        · rw [if_neg hc]
          exact ⟨fun ⟨_, h2⟩ => ⟨fun h => absurd h hc, h2⟩, fun ⟨_, h2⟩ => ⟨rfl, h2⟩⟩
  · show Z (Z (Z ls)) = Z ls
    rw [hlast ls hl, hlast ls hl]
  · show Z (Z (Z ls)) = Z ls
    rw [hlast ls hl, hlast ls hl]

/-! ### ReplaceAwithB -/

/-- The text cut at the matches: parts that are kept and parts that are replaced, with their lengths. -/
def matchParts (n : Nat) : Nat → List (Nat × Nat) → List (Bool × Nat)
  | pos, [] => [(false, n - pos)]
  | pos, (a, b) :: ms => (false, a - pos) :: (true, b - a) :: matchParts n b ms

/-- The matches follow each other. -/
def InOrder (n : Nat) : Nat → List (Nat × Nat) → Prop
  | pos, [] => pos ≤ n
  | pos, (a, b) :: ms => pos ≤ a ∧ a ≤ b ∧ InOrder n b ms

theorem InOrder.le {n : Nat} {ms : List (Nat × Nat)} : ∀ {pos : Nat}, InOrder n pos ms → pos ≤ n := by
  induction ms with
  | nil => exact fun h => h
  | cons x ms ih =>
    intro pos h
    have := ih h.2.2
    have h1 := h.1
    have h2 := h.2.1
    omega

theorem scan_inOrder {m : Matcher} {s : Str} (hs : SoundMatcher m s) {pos : Nat} {ms : List (Nat × Nat)}
    (h : Scan m s pos ms) (hp : pos ≤ s.length) : InOrder s.length pos ms := by
  induction h with
  | atEnd pos _ => exact hp
  | noMatch pos _ _ => exact hp
  | match_ pos a b ms hlt hm _ ih =>
    obtain ⟨h1, h2, h3⟩ := hs pos a b hp hm
    exact ⟨h1, h2, ih h3⟩

theorem matchParts_sum (n : Nat) (ms : List (Nat × Nat)) (pos : Nat) (h : InOrder n pos ms) :
    ((matchParts n pos ms).map Prod.snd).sum = n - pos := by
  induction ms generalizing pos with
  | nil => simp [matchParts]
  | cons x ms ih =>
    have hle := h.2.2.le
    have h1 := h.1
    have h2 := h.2.1
    simp only [matchParts, List.map_cons, List.sum_cons, ih _ h.2.2]
    omega

theorem take_drop_slice {α : Type} (l : List α) (i j : Nat) : (l.drop i).take (j - i) = slice l i j := by
  unfold slice
  rw [List.drop_take]

theorem replaceLabels_parts (k : Nat) (ls : List Int) (ms : List (Nat × Nat)) (pos : Nat)
    (h : InOrder ls.length pos ms) :
    replaceLabels ls k pos ms =
      ((matchParts ls.length pos ms).zip (segments ((matchParts ls.length pos ms).map Prod.snd) (ls.drop pos))).flatMap
        fun x => if x.1.1 then List.replicate k (firstNonzeroMode x.2) else x.2 := by
  induction ms generalizing pos with
  | nil =>
    have : (ls.drop pos).take (ls.length - pos) = ls.drop pos := List.take_of_length_le (by rw [List.length_drop]; omega)
    simp [replaceLabels, matchParts, segments, this]
  | cons x ms ih =>
    obtain ⟨a, b⟩ := x
    obtain ⟨h1, h2, h3⟩ := h
    have e1 : pos + (a - pos) = a := by omega
    have e2 : a + (b - a) = b := by omega
    simp only [replaceLabels, matchParts, List.map_cons, segments, List.zip_cons_cons, List.flatMap_cons, List.drop_drop,
      e1, e2, take_drop_slice, ih _ h3, if_true, List.append_assoc]
    rfl

theorem restoreLabels_parts (k n : Nat) (ms : List (Nat × Nat)) (pos : Nat) (ys : List Int)
    (hy : ys.length = ((matchParts n pos ms).map fun x => if x.1 then k else x.2).sum) :
    restoreLabels k pos ms ys =
      ((matchParts n pos ms).zip (segments ((matchParts n pos ms).map fun x => if x.1 then k else x.2) ys)).flatMap
        fun x => if x.1.1 then List.replicate x.1.2 (firstNonzeroMode x.2) else x.2 := by
  induction ms generalizing pos ys with
  | nil =>
    have hl : ys.length = n - pos := by simpa [matchParts] using hy
    have : ys.take (n - pos) = ys := List.take_of_length_le (by omega)
    simp [restoreLabels, matchParts, segments, this]
  | cons x ms ih =>
    obtain ⟨a, b⟩ := x
    have hl : ys.length = (a - pos) + (k + ((matchParts n b ms).map fun x => if x.1 then k else x.2).sum) := by
      simpa [matchParts] using hy
    have ih' := ih b ((ys.drop (a - pos)).drop k) (by rw [List.length_drop, List.length_drop]; omega)
    simp only [restoreLabels, matchParts, List.map_cons, segments, List.zip_cons_cons, List.flatMap_cons, ih', if_true,
      List.append_assoc]
    rfl

theorem matchParts_forall (P : List Int → Prop) (ls : List Int) (ms : List (Nat × Nat)) (pos : Nat)
    (h : InOrder ls.length pos ms) :
    (∀ x ∈ (matchParts ls.length pos ms).zip (segments ((matchParts ls.length pos ms).map Prod.snd) (ls.drop pos)),
      x.1.1 = true → P x.2) ↔ ∀ x ∈ ms, P (slice ls x.1 x.2) := by
  induction ms generalizing pos with
  | nil => simp [matchParts, segments]
  | cons x ms ih =>
    obtain ⟨a, b⟩ := x
    obtain ⟨h1, h2, h3⟩ := h
    have e1 : pos + (a - pos) = a := by omega
    have e2 : a + (b - a) = b := by omega
    simp only [matchParts, List.map_cons, segments, List.zip_cons_cons, List.drop_drop, e1, e2, take_drop_slice,
      List.forall_mem_cons, ih _ h3]
    constructor
    · exact fun h => ⟨h.2.1 trivial, h.2.2⟩
    · exact fun h => ⟨fun h0 => (Bool.noConfusion h0), fun _ => h.1, h.2⟩

/-- C73, `ReplaceAwithB`: exactly if every replaced match carries a single label, which is 0 if the matches are
deleted; and labels can be carried back at all. -/
theorem C73_replace (σ : SetOrder) (m : Matcher) (b s out : Str) (hs : SoundMatcher m s) (ms : List (Nat × Nat))
    (hscan : Scan m s 0 ms) (a : Aligner) (h : ReplaceAwithB.transform σ m b s = .ok (out, a)) :
    (∀ ls, ls.length = s.length → (Survives a ls ↔ (b ≠ [] ∨ DistinctMatches s ms) ∧
      ∀ x ∈ ms, ∃ v, (b = [] → v = 0) ∧ ∀ l ∈ slice ls x.1 x.2, l = v)) ∧ Settles a := by
  obtain ⟨a', h1, h2, h3, h4, h5⟩ := C25_replace σ m b s hs ms hscan
  obtain ⟨e1, e2⟩ := det (f := ReplaceAwithB.transform σ m b) h h1
  subst e1; subst e2
  by_cases hok : b ≠ [] ∨ DistinctMatches s ms
  · obtain ⟨h6, h7⟩ := h5 hok
    have hord := scan_inOrder hs hscan (Nat.zero_le _)
    have hsum := matchParts_sum _ _ _ hord
    have hout : (replaceMatches s b 0 ms).length =
        ((matchParts s.length 0 ms).map fun x => if x.1 then b.length else x.2).sum := by
      have hz := (h4 (List.replicate s.length 0) (by simp)).2
      rw [← hz, replaceLabels_parts _ _ _ _ (by rw [List.length_replicate]; exact hord), List.length_replicate,
        List.drop_zero]
      have hm := segments_mem Prod.snd (matchParts s.length 0 ms) (List.replicate s.length 0) (by
        rw [List.length_replicate, hsum]; omega)
      have hL : (segments ((matchParts s.length 0 ms).map Prod.snd) (List.replicate s.length 0)).length =
        (matchParts s.length 0 ms).length := by rw [segments_len, List.length_map]
      generalize segments ((matchParts s.length 0 ms).map Prod.snd) (List.replicate s.length 0) = S at hm hL ⊢
      generalize matchParts s.length 0 ms = M at hm hL ⊢
      induction M generalizing S with
      | nil => rfl
      | cons p M ih => cases S with
        | nil => cases hL
        | cons x S =>
          rw [List.zip_cons_cons, List.flatMap_cons, List.length_append, List.map_cons, List.sum_cons,
            ih S (fun y hy => ⟨(hm y (by simp [hy])).1, (List.of_mem_zip hy).1⟩) (by simpa using hL)]
          have := (hm (p, x) (by simp)).1
          dsimp only at this ⊢
          split <;> simp [this]
    have hp : PartByPart a (matchParts s.length 0 ms) Prod.snd (fun x => if x.1 then b.length else x.2)
        (fun p x => if p.1 then List.replicate b.length (firstNonzeroMode x) else x)
        (fun p x => if p.1 then List.replicate p.2 (firstNonzeroMode x) else x) := by
      refine ⟨by rw [h2, hsum]; omega, by rw [h3, hout], fun ls hl => ?_, fun ls hl => ?_, fun p _ x hx => ?_,
        fun p _ x hx => ?_⟩
      · have hl' : ls.length = s.length := by omega
        rw [(h4 ls hl').1, replaceLabels_parts _ _ _ _ (by rw [hl']; exact hord), hl', List.drop_zero]
      · rw [h7 ls (by omega), restoreLabels_parts _ s.length _ _ _ hl]
      · split <;> simp_all
      · split <;> simp_all
    refine ⟨fun ls hl => ?_, hp.settles (fun p _ x hx => ?_) fun p _ x hx => ?_⟩
    · rw [hp.survives ls (by omega)]
      have key : ∀ x ∈ (matchParts s.length 0 ms).zip (segments ((matchParts s.length 0 ms).map Prod.snd) ls),
          ((if x.1.1 = true then List.replicate x.1.2 (firstNonzeroMode
              (if x.1.1 = true then List.replicate b.length (firstNonzeroMode x.2) else x.2)) else
              (if x.1.1 = true then List.replicate b.length (firstNonzeroMode x.2) else x.2)) = x.2) ↔
            (x.1.1 = true → ∃ v, (b = [] → v = 0) ∧ ∀ l ∈ x.2, l = v) := by
        intro x hx
        obtain ⟨g1, _⟩ := segments_mem Prod.snd _ ls (by omega) x hx
        by_cases hc : x.1.1 = true
        · rw [if_pos hc, if_pos hc, ← g1, replicate_eq_iff _ _ _ rfl]
          by_cases hb : b = []
          · subst hb
            have e0 : firstNonzeroMode (List.replicate ([] : Str).length (firstNonzeroMode x.2)) = 0 := rfl
            rw [e0]
            exact ⟨fun h _ => ⟨0, fun _ => rfl, h⟩, fun h => by
              obtain ⟨v, e, hv⟩ := h hc
              rw [← e rfl]; exact hv⟩
          · rw [firstNonzeroMode_replicate _ _ (Or.inl (List.length_pos_iff.mpr hb))]
            constructor
            · exact fun h _ => ⟨_, fun e => absurd e hb, h⟩
            · intro h
              obtain ⟨v, _, hv⟩ := h hc
              intro l hl
              have : x.2 = List.replicate x.2.length v := List.eq_replicate_iff.mpr ⟨rfl, hv⟩
              rw [this, firstNonzeroMode_replicate _ _ (Or.inl (List.length_pos_of_mem hl))]
              exact hv l hl
        · rw [if_neg hc, if_neg hc]
          exact ⟨fun _ h => absurd h hc, fun _ => rfl⟩
      have := matchParts_forall (fun x => ∃ v, (b = [] → v = 0) ∧ ∀ l ∈ x, l = v) ls ms 0 (by rw [hl]; exact hord)
      rw [hl, List.drop_zero] at this
      rw [← this]
      constructor
      · exact fun h => ⟨hok, fun x hx => (key x hx).mp (h x hx)⟩
      · exact fun h x hx => (key x hx).mpr (h.2 x hx)
    · by_cases hc : p.1 = true
      · simp only [if_pos hc]
        by_cases hb : b.length = 0
        · rw [hb]; rfl
        · rw [firstNonzeroMode_replicate b.length _ (Or.inl (by omega))]
          by_cases hp0 : p.2 = 0
          · rw [hp0] at hx ⊢
            rw [List.length_eq_zero_iff.mp hx]
            rfl
          · rw [firstNonzeroMode_replicate p.2 _ (Or.inl (by omega))]
      · simp only [if_neg hc]
    · by_cases hc : p.1 = true
      · simp only [if_pos hc]
        by_cases hp0 : p.2 = 0
        · rw [hp0]; rfl
        · rw [firstNonzeroMode_replicate p.2 _ (Or.inl (by omega))]
          by_cases hb : b.length = 0
          · rw [if_pos hc, hb] at hx
            rw [hb, List.length_eq_zero_iff.mp hx]
            rfl
          · rw [firstNonzeroMode_replicate b.length _ (Or.inl (by omega))]
      · simp only [if_neg hc]
  · have hd : ¬ DistinctMatches s ms := fun h => hok (Or.inr h)
    have hb : b = [] := Classical.byContradiction fun h => hok (Or.inl h)
    subst hb
    obtain ⟨o, a', g1, g2⟩ := C25_touching_deletions σ m s hs ms hscan hd
    obtain ⟨e1, e2⟩ := det (f := ReplaceAwithB.transform σ m []) h g1
    subst e1; subst e2
    have hno : ∀ ys xs, a.inverseTransform ys = .ok xs → False := by
      intro ys xs hx
      have := (C15_inverse_length a ys xs hx).1
      rw [g2 ys (by rw [this, h3])] at hx
      cases hx
    exact ⟨fun ls _ => ⟨fun ⟨ys, _, h⟩ => (hno _ _ h).elim, fun h => absurd h.1 hok⟩,
      ⟨fun _ _ _ _ h => (hno _ _ h).elim, fun _ _ _ h _ => (hno _ _ h).elim⟩⟩

/-! ### tokenizers -/

theorem tokenLabels_survives {a : Aligner} {ps : List (Str × Str)} {tail : Str} (h : TokenLabels a ps tail) :
    (∀ ls, ls.length = (layout ps tail).length → (Survives a ls ↔
      ∃ ys, ys.length = ps.length ∧ uintLabels ys ∧ ls = charLabels ps tail ys)) ∧ Settles a := by
  have hback : ∀ ys xs, a.inverseTransform ys = .ok xs →
      ys.length = ps.length ∧ uintLabels ys ∧ xs = charLabels ps tail ys ∧ a.transform xs = .ok ys := by
    intro ys xs hx
    have hl := (C15_inverse_length a ys xs hx).1
    rw [h.aligned.output] at hl
    have hu : uintLabels ys := Classical.byContradiction fun hu => by
      rw [h.overflow ys hl hu] at hx; cases hx
    have e : xs = charLabels ps tail ys := Except.ok.inj (hx.symm.trans (h.backward ys hl hu))
    obtain ⟨xs', h1, h2⟩ := h.roundTrip ys hl hu
    have : xs' = xs := Except.ok.inj (h1.symm.trans hx)
    exact ⟨hl, hu, e, this ▸ h2⟩
  refine ⟨fun ls hl => ⟨?_, ?_⟩, ?_, ?_⟩
  · rintro ⟨ys, _, h2⟩
    obtain ⟨g1, g2, g3, _⟩ := hback _ _ h2
    exact ⟨ys, g1, g2, g3⟩
  · rintro ⟨ys, g1, g2, rfl⟩
    have hx := h.backward ys g1 g2
    exact ⟨ys, (hback _ _ hx).2.2.2, hx⟩
  · intro ls ys xs _ h2
    exact (hback _ _ h2).2.2.2
  · intro ys xs zs h1 h2
    have := (hback _ _ h1).2.2.2
    rw [h2] at this
    rw [Except.ok.inj this]
    exact h1

/-- C73, `WhiteSpaceTokenizer`: labels come back unchanged exactly if they give each token one label (an unsigned
32-bit number) and the white space 0. -/
theorem C73_whitespace_tokenizer (σ : SetOrder) (s : Str) (out : List Str) (a : Aligner)
    (h : WhiteSpaceTokenizer.transform σ s = .ok (out, a)) :
    ∃ ps tail, TokenizedBy (fun _ => false) s ps tail ∧ out = ps.map Prod.snd ∧
      (∀ ls, ls.length = s.length → (Survives a ls ↔
        ∃ ys, ys.length = ps.length ∧ uintLabels ys ∧ ls = charLabels ps tail ys)) ∧ Settles a := by
  obtain ⟨a', ps, tail, h1, h2, h3⟩ := C39_C42_whitespace σ s
  obtain ⟨e1, e2⟩ := det (f := WhiteSpaceTokenizer.transform σ) h h1
  subst e1; subst e2
  refine ⟨ps, tail, h2, rfl, ?_⟩
  rw [h2.text]
  exact tokenLabels_survives h3

theorem C73_eng_tokenizer (σ : SetOrder) (u : Unicode) (s : Str) (out : List Str) (a : Aligner)
    (h : EngTokenizer.transform σ u s = .ok (out, a)) :
    ∃ ps tail, TokenizedBy (fun c => isPunctuation u c) s ps tail ∧ out = ps.map Prod.snd ∧
      (∀ ls, ls.length = s.length → (Survives a ls ↔
        ∃ ys, ys.length = ps.length ∧ uintLabels ys ∧ ls = charLabels ps tail ys)) ∧ Settles a := by
  obtain ⟨a', ps, tail, h1, h2, h3⟩ := C40_C42_eng σ u s
  obtain ⟨e1, e2⟩ := det (f := EngTokenizer.transform σ u) h h1
  subst e1; subst e2
  refine ⟨ps, tail, h2, rfl, ?_⟩
  rw [h2.text]
  exact tokenLabels_survives h3

theorem C73_zh_tokenizer (σ : SetOrder) (u : Unicode) (s : Str) (out : List Str) (a : Aligner)
    (h : ZhCharTokenizer.transform σ u s = .ok (out, a)) :
    ∃ ps tail, TokenizedBy (fun c => isPunctuation u c || isCJK c) s ps tail ∧ out = ps.map Prod.snd ∧
      (∀ ls, ls.length = s.length → (Survives a ls ↔
        ∃ ys, ys.length = ps.length ∧ uintLabels ys ∧ ls = charLabels ps tail ys)) ∧ Settles a := by
  obtain ⟨a', ps, tail, h1, h2, h3⟩ := C40_C42_zh σ u s
  obtain ⟨e1, e2⟩ := det (f := ZhCharTokenizer.transform σ u) h h1
  subst e1; subst e2
  refine ⟨ps, tail, h2, rfl, ?_⟩
  rw [h2.text]
  exact tokenLabels_survives h3

theorem C73_custom_tokenizer (σ : SetOrder) (ws : List Str) (t : Trie) (ht : Trie.ofUserWords ws = .ok t) (sh : Bool)
    (s : Str) (out : List Str) (a : Aligner) (h : CustomWordTokenizer.transform σ t sh s = .ok (out, a)) :
    WordSegs ws sh s out ∧
      (∀ ls, ls.length = s.length → (Survives a ls ↔
        ∃ ys, ys.length = out.length ∧ uintLabels ys ∧
          ls = charLabels (out.map fun t => (([] : Str), t)) [] ys)) ∧ Settles a := by
  obtain ⟨a', segs, h1, h2, h3, h4⟩ := C37_C42_custom σ ws t ht sh s
  obtain ⟨e1, e2⟩ := det (f := CustomWordTokenizer.transform σ t sh) h h1
  subst e1; subst e2
  refine ⟨h2, ?_⟩
  have hlay : layout (out.map fun t => (([] : Str), t)) [] = s := by
    rw [← h3]
    unfold layout
    rw [List.flatMap_map, List.append_nil, List.flatten_eq_flatMap]
    rfl
  obtain ⟨g1, g2⟩ := tokenLabels_survives h4
  rw [hlay, List.length_map] at g1
  exact ⟨g1, g2⟩

/-- C73, `CharTokenizer`: exactly if all labels are unsigned 32-bit numbers. -/
theorem C73_char_tokenizer (σ : SetOrder) (s : Str) (out : List Str) (a : Aligner)
    (h : CharTokenizer.transform σ s = .ok (out, a)) :
    (∀ ls, ls.length = s.length → (Survives a ls ↔ uintLabels ls)) ∧ Settles a := by
  obtain ⟨a', h1, h2, h3, h4, h5⟩ := C41_char σ s
  obtain ⟨e1, e2⟩ := det (f := CharTokenizer.transform σ) h h1
  subst e1; subst e2
  have hback : ∀ ys xs, a.inverseTransform ys = .ok xs → ys.length = s.length ∧ uintLabels ys ∧ xs = ys := by
    intro ys xs hx
    have hl := (C15_inverse_length a ys xs hx).1
    rw [h2.output] at hl
    have hu : uintLabels ys := Classical.byContradiction fun hu => by
      rw [h5 ys hl hu] at hx; cases hx
    exact ⟨hl, hu, Except.ok.inj (hx.symm.trans (h3 ys hl hu).2)⟩
  refine ⟨fun ls hl => ⟨?_, fun hu => ⟨ls, h3 ls hl hu⟩⟩, ?_, ?_⟩
  · rintro ⟨ys, _, g2⟩
    obtain ⟨_, g4, rfl⟩ := hback _ _ g2
    exact g4
  · intro ls ys xs _ g2
    obtain ⟨g3, g4, rfl⟩ := hback _ _ g2
    exact (h3 xs g3 g4).1
  · intro ys xs zs g1 g2
    obtain ⟨g3, g4, rfl⟩ := hback _ _ g1
    rw [(h3 xs g3 g4).1] at g2
    rw [← Except.ok.inj g2]
    exact g1

/-! ### operators on lists -/

theorem segments_ones {ι : Type} (l : List ι) (ls : List Int) (hl : ls.length = l.length) :
    segments (l.map fun _ => 1) ls = ls.map fun x => [x] := by
  induction l generalizing ls with
  | nil => rw [List.length_eq_zero_iff.mp hl]; rfl
  | cons x l ih => cases ls with
    | nil => cases hl
    | cons y ls =>
      rw [List.map_cons, segments, List.map_cons, ← ih ls (by simpa using hl)]
      rfl

/-- C73, `SpanSubwords`: exactly if the empty tokens carry the label 0, and labels can be carried back at all. -/
theorem C73_subwords (σ : SetOrder) (vocab : Str → Bool) (unk : Str) (maxChars : Int) (l : List Str) (out : List Tok)
    (a : Aligner) (h : SpanSubwords.transform σ vocab unk maxChars (l.map Tok.str) = .ok (out, a)) :
    (∀ ls, ls.length = l.length → (Survives a ls ↔
      maxChars < 0 ∨ NoTwoEmpty l ∧ ∀ p ∈ l.zip ls, p.1 = [] → p.2 = 0)) ∧ Settles a := by
  classical
  have hex : ∃ subs : Str → List Str, ∀ s, SpanSubwords.spanSubwords vocab unk maxChars s = .ok (subs s) ∧
      (s ≠ [] → subs s ≠ []) :=
    ⟨fun s => (spanSubwords_ok vocab unk maxChars s).choose, fun s => (spanSubwords_ok vocab unk maxChars s).choose_spec⟩
  obtain ⟨subs, hsubs⟩ := hex
  have hnil : subs [] = [] ↔ 0 ≤ maxChars := by
    constructor
    · intro e
      refine Classical.byContradiction fun hn => ?_
      have := C33_unknown vocab unk maxChars [] (Or.inl (by simpa using Int.not_le.mp hn))
      rw [(hsubs []).1, e] at this
      cases this
    · intro hm
      have := C33_segmentation vocab unk maxChars [] [] (by simpa using hm) rfl
      rw [(hsubs []).1] at this
      injection this
  obtain ⟨a', h1, h2, h3, h4, h5⟩ := C34_transform σ vocab unk maxChars l subs fun s _ => (hsubs s).1
  obtain ⟨e1, e2⟩ := det (f := SpanSubwords.transform σ vocab unk maxChars) h h1
  subst e1; subst e2
  by_cases hok : maxChars < 0 ∨ NoTwoEmpty l
  · have ha := h3 hok
    have hout : (l.flatMap fun s => subs s).length = (l.map fun s => (subs s).length).sum := by
      rw [List.length_flatMap]
    have hone : (l.map fun _ => 1).sum = l.length := by simp
    have hp : PartByPart a l (fun _ => 1) (fun s => (subs s).length)
        (fun s x => List.replicate (subs s).length (x.headD 0)) (fun _ x => [firstNonzeroMode x]) := by
      refine ⟨by rw [hone]; exact ha.input, by rw [← hout]; exact ha.output, fun ls hl => ?_, fun ls hl => ?_,
        fun s _ x hx => by simp, fun s _ x hx => rfl⟩
      · rw [hone] at hl
        rw [h2 ls hl, segments_ones l ls hl]
        congr 1
        clear h h1 h2 h3 h4 h5 hok ha hout hone
        induction l generalizing ls with
        | nil => rfl
        | cons s l ih => cases ls with
          | nil => cases hl
          | cons x ls =>
            rw [List.zip_cons_cons, List.flatMap_cons, ih ls (by simpa using hl), List.map_cons, List.zip_cons_cons,
              List.flatMap_cons]
            rfl
      · rw [h4 hok ls (by rw [hout]; exact hl)]
        congr 1
        have hL : (segments (l.map fun s => (subs s).length) ls).length = l.length := by
          rw [segments_len, List.length_map]
        generalize segments (l.map fun s => (subs s).length) ls = S at hL
        clear h h1 h2 h3 h4 h5 hok ha hout hone hl
        induction l generalizing S with
        | nil => rw [List.length_eq_zero_iff.mp hL]; rfl
        | cons s l ih => cases S with
          | nil => cases hL
          | cons x S =>
            rw [List.map_cons, List.zip_cons_cons, List.flatMap_cons, ih S (by simpa using hL)]
            rfl
    have hcase : ∀ s, (subs s).length ≠ 0 ∨ (subs s).length = 0 ∧ s = [] ∧ 0 ≤ maxChars := by
      intro s
      by_cases h0 : (subs s).length = 0
      · have e := List.length_eq_zero_iff.mp h0
        have hs : s = [] := Classical.byContradiction fun hs => (hsubs s).2 hs e
        subst hs
        exact Or.inr ⟨h0, rfl, hnil.mp e⟩
      · exact Or.inl h0
    refine ⟨fun ls hl => ?_, hp.settles (fun s _ x hx => ?_) fun s _ x hx => ?_⟩
    · rw [hp.survives ls (by rw [hone]; exact hl), segments_ones l ls hl]
      have key : (∀ x ∈ l.zip (ls.map fun x => [x]),
          [firstNonzeroMode (List.replicate (subs x.1).length (x.2.headD 0))] = x.2) ↔
          ∀ p ∈ l.zip ls, (subs p.1).length = 0 → p.2 = 0 := by
        rw [List.zip_map_right, List.forall_mem_map]
        refine forall_congr' fun p => forall_congr' fun _ => ?_
        simp only [Prod.map, id, List.headD_cons, List.cons.injEq, and_true]
        by_cases h0 : (subs p.1).length = 0
        · rw [h0]
          exact ⟨fun h _ => h.symm, fun h => (h rfl).symm⟩
        · rw [firstNonzeroMode_replicate _ _ (Or.inl (by omega))]
          exact ⟨fun _ h => absurd h h0, fun _ => rfl⟩
      rw [key]
      constructor
      · intro h
        by_cases hm : maxChars < 0
        · exact Or.inl hm
        · exact Or.inr ⟨hok.resolve_left hm, fun p hp e => h p hp (by rw [e, hnil.mpr (by omega)]; rfl)⟩
      · intro h p hp h0
        rcases hcase p.1 with h1 | ⟨_, h1, h2⟩
        · exact absurd h0 h1
        · rcases h with h | h
          · omega
          · exact h.2 p hp h1
    · rw [List.headD_cons]
      by_cases h0 : (subs s).length = 0
      · rw [h0]; rfl
      · rw [firstNonzeroMode_replicate _ _ (Or.inl (by omega))]
    · rw [List.headD_cons]
      by_cases h0 : (subs s).length = 0
      · rw [h0] at hx ⊢
        rw [List.length_eq_zero_iff.mp hx]
        rfl
      · rw [firstNonzeroMode_replicate _ _ (Or.inl (by omega))]
  · rw [not_or] at hok
    obtain ⟨pre, post, rfl⟩ := exists_twoEmpty hok.2
    have hno : ∀ ys xs, a.inverseTransform ys = .ok xs → False := by
      intro ys xs hx
      have hl := (C15_inverse_length a ys xs hx).1
      have hk := spanSubwords_kept σ vocab unk maxChars (fun _ => False) (fun _ h => h.elim)
        (.list ((pre ++ [] :: [] :: post).map Tok.str)) (.list _) a (by
          show (SpanSubwords.transform σ vocab unk maxChars _ >>= _) = _
          rw [h]; rfl)
      rw [hk.output] at hl
      rw [C34_adjacent_empty σ vocab unk maxChars (by omega) pre post _ a h ys hl] at hx
      cases hx
    refine ⟨fun ls _ => ⟨fun ⟨ys, _, h⟩ => (hno _ _ h).elim, fun h => ?_⟩,
      ⟨fun _ _ _ _ h => (hno _ _ h).elim, fun _ _ _ h _ => (hno _ _ h).elim⟩⟩
    rcases h with h | h
    · exact absurd h hok.1
    · exact absurd h.1 hok.2

/-- C73, `Pad`: exactly if what is cut off carries the label 0. -/
theorem C73_pad (σ : SetOrder) (maxlen : Nat) (pad : Tok) (l out : List Tok) (a : Aligner)
    (h : Pad.transform σ maxlen pad l = .ok (out, a)) :
    (∀ ls, ls.length = l.length → (Survives a ls ↔ ∀ x ∈ ls.drop maxlen, x = 0)) ∧ Settles a := by
  have hlen : l.length = maxlen ∨ l.length < 2 ^ 32 := by
    rcases Nat.lt_or_ge l.length (2 ^ 32) with hlt | hge
    · exact Or.inr hlt
    · refine Or.inl (Classical.byContradiction fun hne => ?_)
      exact C30_too_long σ maxlen pad l (by omega) hge _ h
  obtain ⟨a', h1, h2, h3, h4⟩ := C30_pad σ maxlen pad l hlen
  obtain ⟨e1, e2⟩ := det (f := Pad.transform σ maxlen pad) h h1
  subst e1; subst e2
  have rt : ∀ ls : List Int, ls.length = l.length →
      (ls.take maxlen ++ List.replicate (maxlen - l.length) 0).take l.length ++ List.replicate (l.length - maxlen) 0 =
        ls.take maxlen ++ List.replicate (l.length - maxlen) 0 := by
    intro ls hl
    rcases Nat.le_total l.length maxlen with hle | hle
    · rw [List.take_of_length_le (by omega : ls.length ≤ maxlen), List.take_left' hl]
    · rw [Nat.sub_eq_zero_of_le hle, List.replicate_zero, List.append_nil,
        List.take_of_length_le (by rw [List.length_take]; omega)]
  refine ⟨fun ls hl => ?_, .of_maps h2.input h2.output h3 h4 (fun ls hl => ?_) fun ls hl => ?_⟩
  · rw [survives_iff h2.output h3 h4 ls hl, rt ls hl]
    have hd : (ls.drop maxlen).length = l.length - maxlen := by rw [List.length_drop]; omega
    constructor
    · intro e
      have e' := e.trans (List.take_append_drop maxlen ls).symm
      obtain ⟨_, e'⟩ := List.append_inj e' rfl
      rw [← e']
      intro x hx
      exact List.eq_of_mem_replicate hx
    · intro hz
      rw [← List.eq_replicate_iff.mpr ⟨hd, hz⟩, List.take_append_drop]
  · rw [rt ls hl]
    rcases Nat.le_total l.length maxlen with hle | hle
    · rw [Nat.sub_eq_zero_of_le hle, List.replicate_zero, List.append_nil, List.take_take, Nat.min_self]
    · rw [List.take_left' (by rw [List.length_take]; omega)]
  · have hx : (ls.take l.length ++ List.replicate (l.length - maxlen) 0).length = l.length := by
      rw [List.length_append, List.length_take, List.length_replicate]; omega
    rw [rt _ hx]
    rcases Nat.le_total l.length maxlen with hle | hle
    · rw [Nat.sub_eq_zero_of_le hle, List.replicate_zero, List.append_nil, List.append_nil,
        List.take_of_length_le (by rw [List.length_take]; omega)]
    · rw [List.take_of_length_le (by omega : ls.length ≤ l.length), List.take_left' hl]

/-! ### operators that lose nothing -/

/-- Every list of labels survives. -/
def Lossless (a : Aligner) (n : Nat) : Prop := ∀ ls : List Int, ls.length = n → Survives a ls

theorem lossless_settles {a : Aligner} {n : Nat} (hn : a.inputLength = n) (h : Lossless a n) : Settles a := by
  refine .of_roundTrip fun ls ys hy => ?_
  obtain ⟨ys', h1, h2⟩ := h ls (by rw [← hn]; exact (C15_transform_length a ls ys hy).1)
  rw [Except.ok.inj (hy.symm.trans h1)]
  exact h2

theorem lossless_of {a : Aligner} {n m : Nat} (ha : Aligned a n m anyLabels)
    (h : ∀ ls y, a.transform ls = .ok y → a.inverseTransform y = .ok ls) : Lossless a n := by
  intro ls hl
  obtain ⟨y, hy, _⟩ := ha.forward ls hl
  exact ⟨y, hy, h _ _ hy⟩

/-- C73: labels always come back unchanged from lower-casing, from adding white space around characters or words, and
from accent stripping. -/
theorem C73_lossless_text (σ : SetOrder) (s out : Str) (a : Aligner) (u : Unicode) (valid : Char → Bool) (ws : List Str)
    (t : Trie) (ht : Trie.ofUserWords ws = .ok t) (sh : Bool)
    (h : Lowercase.transform σ s = .ok (out, a) ∨ AddWhitespaceAroundChar.transform σ valid s = .ok (out, a) ∨
      AddWhitespaceAroundWordnZhChar.transform σ t sh s = .ok (out, a) ∨ StripAccentToken.transform σ u s = .ok (out, a)) :
    a.inputLength = s.length ∧ Lossless a s.length := by
  rcases h with h | h | h | h
  · obtain ⟨a', h1, h2, h3⟩ := C16_lowercase σ s
    obtain ⟨e1, e2⟩ := det (f := Lowercase.transform σ) h h1
    subst e2
    exact ⟨h2.input, fun ls hl => ⟨ls, h3 ls hl⟩⟩
  · obtain ⟨a', h1, h2, _, _, h3⟩ := C17_around σ valid s
    obtain ⟨e1, e2⟩ := det (f := AddWhitespaceAroundChar.transform σ valid) h h1
    subst e2
    exact ⟨h2.input, lossless_of h2 h3⟩
  · obtain ⟨a', segs, _, _, h1, h2, _, _, h3⟩ := C38_spaces σ ws t ht sh s
    obtain ⟨e1, e2⟩ := det (f := AddWhitespaceAroundWordnZhChar.transform σ t sh) h h1
    subst e2
    exact ⟨h2.input, lossless_of h2 h3⟩
  · by_cases hl : ((u.nfd s).filter fun c => !u.isMn c).length = s.length
    · obtain ⟨a', h1, h2, h3⟩ := C27_transform σ u s hl
      obtain ⟨e1, e2⟩ := det (f := StripAccentToken.transform σ u) h h1
      subst e2
      exact ⟨h2.input, fun ls hl => ⟨ls, h3 ls hl⟩⟩
    · rw [C27_length_change σ u s hl] at h
      cases h

/-- Results of an operator on lists that keeps its length and passes labels through. -/
theorem single_lossless (σ : SetOrder) (nv : Tok → Res (Option (List Tok)))
    (hnv : ∀ x v, nv x = .ok (some v) → v.length = 1) (l out : List Tok) (a : Aligner)
    (h : tokenwiseTransform σ nv l (fun _ n => Aligner.null l.length n) = .ok (out, a)) :
    a.inputLength = l.length ∧ Lossless a l.length := by
  have hk := single_kept σ nv hnv (fun _ => True) (.list l) (.list out) a (by
    show (tokenwiseTransform σ nv l (fun _ n => Aligner.null l.length n) >>= _) = _
    rw [h]; rfl)
  have hnull : a = Aligner.null l.length out.length := by
    unfold tokenwiseTransform at h
    obtain ⟨g, _, h⟩ := bind_eq_ok h
    obtain ⟨g', _, h⟩ := bind_eq_ok h
    obtain ⟨o, _, h⟩ := bind_eq_ok h
    injection h with h
    injection h with e1 e2
    rw [← e1, ← e2]
  refine ⟨hk.input, fun ls hl => ?_⟩
  obtain ⟨y, hy, hy2⟩ := hk.forward ls hl
  obtain ⟨x, hx, _⟩ := hk.backward trivial (List.replicate y.length 0) (by rw [List.length_replicate, hy2]) (by
    intro z hz; rw [List.eq_of_mem_replicate hz]; decide)
  have hfwd := Aligner.transform_fwd hy
  rw [hnull] at hfwd
  have e : y = ls := (Except.ok.inj hfwd).symm
  subst e
  refine ⟨y, hy, ?_⟩
  have hlo : y.length = a.outputLength := by rw [hk.output, hy2]
  unfold Aligner.inverseTransform Aligner.validateOutput
  rw [if_neg (by simp [hlo])]
  have hb : a.bwd y = .ok y := by rw [hnull]; rfl
  have hli : y.length = a.inputLength := by rw [hk.input]; exact hl
  simp only [Except.bind_ok, hb]
  unfold Aligner.validateInput
  rw [if_neg (by simp [hli])]
  rfl

/-- C73: labels always come back unchanged from adding start and end tokens, from indexing and from replacing
numbers by a token. -/
theorem C73_lossless_list (σ : SetOrder) (l out : List Tok) (a : Aligner) (sos eos unk' : Tok) (d : List (Str × Int))
    (unk : Str) (u : Unicode)
    (h : AddSosEos.transform σ sos eos l = .ok (out, a) ∨ AddEndToken.transform σ eos l = .ok (out, a) ∨
      Token2Index.transform σ d unk l = .ok (out, a) ∨ Token2IndexwithHash.transform σ d l = .ok (out, a) ∨
      PureNum2Token.transform σ u unk' l = .ok (out, a)) :
    a.inputLength = l.length ∧ Lossless a l.length := by
  rcases h with h | h | h | h | h
  · have hk := sosEos_kept σ sos eos (fun _ => True) (.list l) (.list out) a (by
      show (AddSosEos.transform σ sos eos l >>= _) = _
      rw [h]; rfl)
    refine ⟨hk.input, ?_⟩
    have hlen : l.length < 2 ^ 32 := by
      unfold AddSosEos.transform at h
      obtain ⟨g, hg, _⟩ := bind_eq_ok h
      have := addAll_bounds σ _ g hg ((l.length : Int), (l.length : Int), [eos]) (by simp)
      dsimp only at this
      omega
    by_cases hl : l = []
    · subst hl
      intro ls hls
      obtain ⟨y, hy, hy2⟩ := hk.forward ls hls
      have hz : uintLabels y := by
        intro z hz
        rcases hk.honest.fwd _ _ hy z hz with e | e
        · subst e; decide
        · rw [List.length_eq_zero_iff.mp hls] at e; cases e
      obtain ⟨x, hx, hx2⟩ := hk.backward trivial y hy2 hz
      refine ⟨y, hy, ?_⟩
      rw [hx, List.length_eq_zero_iff.mp hls, List.length_eq_zero_iff.mp hx2]
    · obtain ⟨a', h1, h2, h3, h4⟩ := C28_add_sos_eos σ sos eos l hl hlen
      obtain ⟨e1, e2⟩ := det (f := AddSosEos.transform σ sos eos) h h1
      subst e2
      exact fun ls hl => ⟨_, h3 ls hl, h4 ls 0 0 hl⟩
  · have hlen : l.length < 2 ^ 32 := by
      unfold AddEndToken.transform at h
      obtain ⟨g, hg, _⟩ := bind_eq_ok h
      have := addAll_bounds σ _ g hg ((l.length : Int), (l.length : Int), [eos]) (by simp)
      dsimp only at this
      omega
    obtain ⟨a', h1, h2, h3, h4⟩ := C28_add_end_token σ eos l hlen
    obtain ⟨e1, e2⟩ := det (f := AddEndToken.transform σ eos) h h1
    subst e2
    exact ⟨h2.input, fun ls hl => ⟨_, h3 ls hl, h4 ls 0 hl⟩⟩
  · refine single_lossless σ (Token2Index.newValue d unk) (fun x v h => ?_) l out a h
    unfold Token2Index.newValue at h
    dsimp only at h
    split at h
    · injection h with h; injection h with h; rw [← h]; rfl
    · split at h
      · injection h with h; injection h with h; rw [← h]; rfl
      · cases h
  · refine single_lossless σ (Token2IndexwithHash.newValue d) (fun x v h => ?_) l out a h
    unfold Token2IndexwithHash.newValue at h
    split at h
    · cases h
    · split at h
      · injection h with h; injection h with h; rw [← h]; rfl
      · injection h with h; injection h with h; rw [← h]; rfl
  · refine single_lossless σ (PureNum2Token.newValue u unk') (fun x v h => ?_) l out a h
    unfold PureNum2Token.newValue at h
    split at h
    · cases h
    · injection h with h
      split at h
      · injection h with h; rw [← h]; rfl
      · cases h

/-! ### all operators -/

/-- All results of a `_transform` settle. -/
def RunSettles (run : Seq → Res (Seq × Aligner)) : Prop := ∀ s t a, run s = .ok (t, a) → Settles a

theorem strOp_settles {f : Str → Res (Str × Aligner)} (h : ∀ s out a, f s = .ok (out, a) → Settles a) :
    RunSettles (strOp f) := by
  intro s t a hr
  cases s with
  | list l => cases hr
  | str s =>
    obtain ⟨⟨out, a'⟩, h1, h2⟩ := bind_eq_ok hr
    injection h2 with h2
    injection h2 with h2 h3
    subst h3
    exact h s out _ h1

theorem tokOp_settles {f : Str → Res (List Str × Aligner)} (h : ∀ s out a, f s = .ok (out, a) → Settles a) :
    RunSettles (tokOp f) := by
  intro s t a hr
  cases s with
  | list l => cases hr
  | str s =>
    obtain ⟨⟨out, a'⟩, h1, h2⟩ := bind_eq_ok hr
    injection h2 with h2
    injection h2 with h2 h3
    subst h3
    exact h s out _ h1

theorem lstOp_settles {f : List Tok → Res (List Tok × Aligner)} (h : ∀ l out a, f l = .ok (out, a) → Settles a) :
    RunSettles (lstOp f) := by
  intro s t a hr
  cases s with
  | str s => cases hr
  | list l =>
    obtain ⟨⟨out, a'⟩, h1, h2⟩ := bind_eq_ok hr
    injection h2 with h2
    injection h2 with h2 h3
    subst h3
    exact h l out _ h1

theorem settles_around (σ : SetOrder) (valid : Char → Bool) :
    RunSettles (strOp (AddWhitespaceAroundChar.transform σ valid)) := by
  refine strOp_settles fun s out a h => ?_
  obtain ⟨a', h1, h2, _, _, h3⟩ := C17_around σ valid s
  obtain ⟨e1, e2⟩ := det (f := AddWhitespaceAroundChar.transform σ valid) h h1
  subst e2
  exact .of_roundTrip h3

theorem runSettles (env : Env) (he : env.Sane) (c : OpClass) (hc : c ∈ Builtin.all env) (args : List PyVal)
    (kwargs : List (Str × PyVal)) (op : Op) (hop : c.call args kwargs = .ok op) : RunSettles op.run := by
  simp only [Builtin.all, Builtin.concrete, List.cons_append, List.nil_append, List.mem_cons, List.not_mem_nil,
    or_false] at hc
  rcases hc with rfl | rfl | rfl | rfl | rfl | rfl | rfl | rfl | rfl | rfl | rfl | rfl | rfl | rfl | rfl | rfl |
    rfl | rfl | rfl | rfl | rfl | rfl | rfl | rfl | rfl | rfl | rfl | rfl | rfl | rfl | rfl
  · obtain ⟨_, vals, h⟩ := call_run hop
    cases h
  · rw [simple_run hop]
    refine strOp_settles fun s out a h => ?_
    cases s with
    | nil =>
      obtain ⟨a', h1, h2, _, _, h3⟩ := C17_around env.σ (fun _ => false) []
      have h' : AddWhitespaceAroundChar.transform env.σ (fun _ => false) [] = .ok (out, a) := h
      obtain ⟨e1, e2⟩ := det (f := AddWhitespaceAroundChar.transform env.σ fun _ => false) h' h1
      subst e2
      exact .of_roundTrip h3
    | cons x s => cases h
  · rw [simple_run hop]
    refine strOp_settles fun s out a h => ?_
    split at h <;> cases h
  · rw [simple_run hop]
    exact tokOp_settles fun s out a h => by cases h
  · rw [simple_run hop]
    refine strOp_settles fun s out a h => ?_
    obtain ⟨a', h1, h2, h3⟩ := C16_lowercase env.σ s
    obtain ⟨e1, e2⟩ := det (f := Lowercase.transform env.σ) h h1
    subst e2
    exact lossless_settles h2.input fun ls hl => ⟨ls, h3 ls hl⟩
  · rw [simple_run hop]; exact settles_around _ _
  · rw [simple_run hop]; exact settles_around _ _
  · obtain ⟨_, vals, h⟩ := call_run hop
    unfold Builtin.aroundWord at h
    dsimp only at h
    unfold Builtin.aroundWordInit at h
    split at h
    · obtain ⟨t, ht, h⟩ := bind_eq_ok h
      obtain ⟨ws, hw⟩ := userWords_ok ht
      injection h with h
      rw [← h]
      refine strOp_settles fun s out a h => ?_
      obtain ⟨a', segs, _, _, h1, h2, _, _, h3⟩ := C38_spaces env.σ ws t hw _ s
      obtain ⟨e1, e2⟩ := det (f := AddWhitespaceAroundWordnZhChar.transform env.σ t _) h h1
      subst e2
      exact .of_roundTrip h3
    · cases h
  · rw [simple_run hop]
    refine strOp_settles fun s out a h => ?_
    by_cases hl : ((env.u.nfd s).filter fun c => !env.u.isMn c).length = s.length
    · obtain ⟨a', h1, h2, h3⟩ := C27_transform env.σ env.u s hl
      obtain ⟨e1, e2⟩ := det (f := StripAccentToken.transform env.σ env.u) h h1
      subst e2
      exact lossless_settles h2.input fun ls hl => ⟨ls, h3 ls hl⟩
    · rw [C27_length_change env.σ env.u s hl] at h
      cases h
  · rw [simple_run hop]; exact strOp_settles fun s out a h => (C73_punctuation _ _ s out a h).2
  · rw [simple_run hop]; exact strOp_settles fun s out a h => (C73_int_token _ _ s out a h).2
  · rw [simple_run hop]; exact strOp_settles fun s out a h => (C73_float_token _ _ he.dot s out a h).2
  · rw [simple_run hop]; exact strOp_settles fun s out a h => (C73_int_token_with_space _ _ s out a h).2
  · rw [simple_run hop]; exact strOp_settles fun s out a h => (C73_float_token_with_space _ _ he.dot s out a h).2
  · rw [simple_run hop]; exact strOp_settles fun s out a h => (C73_merge _ s out a h).2
  · rw [simple_run hop]; exact strOp_settles fun s out a h => (C73_strip _ s out a h).2
  · rw [simple_run hop]
    refine strOp_settles fun s out a h => ?_
    obtain ⟨segs, hs, _⟩ := C23_segments s
    exact (C73_stopwords _ s out a segs hs h).2
  · rw [simple_run hop]; exact strOp_settles fun s out a h => (C73_num_token_with_space _ _ s out a h).2
  · obtain ⟨_, vals, h⟩ := call_run hop
    unfold Builtin.replace at h
    dsimp only at h
    unfold Builtin.replaceInit at h
    split at h
    · obtain ⟨p, hp, h⟩ := bind_eq_ok h
      split at h
      · rename_i m hm
        split at h
        · injection h with h
          rw [← h]
          refine strOp_settles fun s out a h => ?_
          obtain ⟨ms, hscan⟩ := patternTransform_scan h
          exact (C73_replace _ m _ s out (he.sound p m hm s) ms hscan a h).2
        · injection h with h
          rw [← h]
          refine strOp_settles fun s out a h => ?_
          have h := replaceNoStr_ok h
          obtain ⟨ms, hscan⟩ := patternTransform_scan h
          exact (C73_replace _ m _ s out (he.sound p m hm s) ms hscan a h).2
      · cases h
    · cases h
  · rw [simple_run hop]; exact tokOp_settles fun s out a h => (C73_char_tokenizer _ s out a h).2
  · rw [simple_run hop]
    refine tokOp_settles fun s out a h => ?_
    obtain ⟨_, _, _, _, _, h⟩ := C73_eng_tokenizer _ _ s out a h
    exact h
  · rw [simple_run hop]
    refine tokOp_settles fun s out a h => ?_
    obtain ⟨_, _, _, _, _, h⟩ := C73_zh_tokenizer _ _ s out a h
    exact h
  · rw [simple_run hop]
    refine tokOp_settles fun s out a h => ?_
    obtain ⟨_, _, _, _, _, h⟩ := C73_whitespace_tokenizer _ s out a h
    exact h
  · obtain ⟨_, vals, h⟩ := call_run hop
    unfold Builtin.customTok at h
    dsimp only at h
    unfold Builtin.customTokInit at h
    split at h
    · obtain ⟨t, ht, h⟩ := bind_eq_ok h
      obtain ⟨ws, hw⟩ := userWords_ok ht
      injection h with h
      rw [← h]
      exact tokOp_settles fun s out a h => (C73_custom_tokenizer _ ws t hw _ s out a h).2.2
    · cases h
  · obtain ⟨_, vals, h⟩ := call_run hop
    unfold Builtin.sosEos at h
    dsimp only at h
    unfold Builtin.sosEosInit at h
    split at h
    · obtain ⟨s, _, h⟩ := bind_eq_ok h
      obtain ⟨e, _, h⟩ := bind_eq_ok h
      injection h with h
      rw [← h]
      refine lstOp_settles fun l out a h => ?_
      obtain ⟨h1, h2⟩ := C73_lossless_list _ l out a _ _ (.int 0) [] [] env.u (Or.inl h)
      exact lossless_settles h1 h2
    · cases h
  · obtain ⟨_, vals, h⟩ := call_run hop
    unfold Builtin.pad at h
    dsimp only at h
    unfold Builtin.padInit at h
    split at h
    · obtain ⟨t, _, h⟩ := bind_eq_ok h
      injection h with h
      rw [← h]
      refine lstOp_settles fun l out a h => ?_
      obtain ⟨n, _, h⟩ := bind_eq_ok h
      have hpos : 0 ≤ n := by
        rcases Int.lt_or_le n 0 with hn | hn
        · rw [C30_negative _ n t l hn] at h
          cases h
        · exact hn
      obtain ⟨k, rfl⟩ := Int.eq_ofNat_of_zero_le hpos
      exact (C73_pad _ k t l out a h).2
    · cases h
  · obtain ⟨_, vals, h⟩ := call_run hop
    unfold Builtin.token2index at h
    dsimp only at h
    unfold Builtin.token2indexInit at h
    split at h
    · obtain ⟨d, _, h⟩ := bind_eq_ok h
      split at h
      · obtain ⟨_, _, h⟩ := bind_eq_ok h
        injection h with h
        rw [← h]
        refine lstOp_settles fun l out a h => ?_
        obtain ⟨h1, h2⟩ := C73_lossless_list _ l out a (.int 0) (.int 0) (.int 0) _ _ env.u (Or.inr (Or.inr (Or.inl h)))
        exact lossless_settles h1 h2
      · obtain ⟨_, _, h⟩ := bind_eq_ok h
        split at h <;> cases h
    · cases h
  · obtain ⟨_, vals, h⟩ := call_run hop
    unfold Builtin.spanSubwords at h
    dsimp only at h
    unfold Builtin.spanSubwordsInit at h
    split at h
    · obtain ⟨unk, _, h⟩ := bind_eq_ok h
      injection h with h
      rw [← h]
      refine lstOp_settles fun l out a h => ?_
      obtain ⟨has, n, h, _⟩ := spanSubwordsRun_ok h
      have hstr : ∃ ss : List Str, l = ss.map Tok.str := by
        have hv := tokenwise_values h
        refine ⟨l.map fun t => match t with | .str s => s | .int _ => [], ?_⟩
        rw [List.map_map]
        symm
        refine (List.map_congr_left fun t ht => ?_).trans (List.map_id _)
        obtain ⟨v, e⟩ := hv t ht
        cases t with
        | str s => rfl
        | int i => cases e
      obtain ⟨ss, rfl⟩ := hstr
      exact (C73_subwords _ _ _ _ ss out a h).2
    · cases h
  · obtain ⟨_, vals, h⟩ := call_run hop
    unfold Builtin.token2indexHash at h
    dsimp only at h
    unfold Builtin.token2indexHashInit at h
    split at h
    · obtain ⟨d, _, h⟩ := bind_eq_ok h
      obtain ⟨_, _, h⟩ := bind_eq_ok h
      injection h with h
      rw [← h]
      refine lstOp_settles fun l out a h => ?_
      obtain ⟨h1, h2⟩ := C73_lossless_list _ l out a (.int 0) (.int 0) (.int 0) _ [] env.u
        (Or.inr (Or.inr (Or.inr (Or.inl h))))
      exact lossless_settles h1 h2
    · cases h
  · have hnum : ∀ token, RunSettles (lstOp (PureNum2Token.transform env.σ env.u token)) := by
      intro token
      refine lstOp_settles fun l out a h => ?_
      obtain ⟨h1, h2⟩ := C73_lossless_list _ l out a (.int 0) (.int 0) token [] [] env.u
        (Or.inr (Or.inr (Or.inr (Or.inr h))))
      exact lossless_settles h1 h2
    obtain ⟨_, vals, h⟩ := call_run hop
    unfold Builtin.pureNum at h
    dsimp only at h
    unfold Builtin.pureNumInit at h
    split at h
    · injection h with h
      rw [← h]
      exact hnum _
    · obtain ⟨t, _, h⟩ := bind_eq_ok h
      injection h with h
      rw [← h]
      exact hnum _
    · cases h
  · obtain ⟨_, vals, h⟩ := call_run hop
    unfold Builtin.endTok at h
    dsimp only at h
    unfold Builtin.endTokInit at h
    split at h
    · cases h
    · obtain ⟨e, _, h⟩ := bind_eq_ok h
      obtain ⟨e', _, h⟩ := bind_eq_ok h
      injection h with h
      rw [← h]
      refine lstOp_settles fun l out a h => ?_
      obtain ⟨h1, h2⟩ := C73_lossless_list _ l out a (.int 0) _ (.int 0) [] [] env.u (Or.inr (Or.inl h))
      exact lossless_settles h1 h2
    · cases h

/-- C73: labels that have been through a built-in operator and back stay as they are when they are carried through it
and back again, and so do labels of the output. -/
theorem C73_settles (env : Env) (he : env.Sane) (op : Op) (hop : IsBuiltin env op) (s t : Seq) (a : Aligner)
    (h : op.transform s = .ok (t, a)) : Settles a := by
  obtain ⟨c, hc, args, kwargs, _, hop⟩ := hop
  exact runSettles env he c hc args kwargs op hop s t a (transform_run h)

/-- C73: labels that survive every step of a pipe, as they reach it, survive the pipe. -/
theorem C73_pipe (as : List Aligner) (ls : List Int)
    (h : ∀ i a ms, as[i]? = some a → alignAll (as.take i) ls = .ok ms → Survives a ms) :
    ∃ ys, alignAll as ls = .ok ys ∧ realignAll as ys = .ok ls := by
  induction as generalizing ls with
  | nil => exact ⟨ls, rfl, rfl⟩
  | cons a as ih =>
    obtain ⟨ms, m1, m2⟩ := h 0 a ls rfl rfl
    obtain ⟨ys, y1, y2⟩ := ih ms fun i b ns hb hn => h (i + 1) b ns hb (by
      show (a.transform ls >>= fun ms => alignAll (as.take i) ms) = _
      rw [m1]
      exact hn)
    refine ⟨ys, ?_, ?_⟩
    · show (a.transform ls >>= fun ms => alignAll as ms) = _
      rw [m1]
      exact y1
    · rw [realignAll_cons, y2]
      exact m2

/-- The operator that writes "xyz" for "1". -/
def exOne : Op := ⟨Builtin.replace exEnv, [("a".toList, .str "1".toList), ("b".toList, .str "xyz".toList)],
  strOp (ReplaceAwithB.transform exEnv.σ (Re.lit "1".toList).search "xyz".toList)⟩

theorem exOne_builtin : IsBuiltin exEnv exOne :=
  ⟨_, List.mem_of_getElem? (i := 18) rfl, [.str "1".toList], [("b".toList, .str "xyz".toList)], by decide, rfl⟩

def exWords : List Str := ["aaaxy".toList, "zb".toList]

def exTrie : Trie := match Trie.ofUserWords exWords with | .ok t => t | .error _ => TrieNode.empty

theorem exTrie_eq : Trie.ofUserWords exWords = .ok exTrie := rfl

def exCut : Op := ⟨Builtin.customTok exEnv,
  [("user_words".toList, .list (exWords.map PyVal.str)), ("shortest".toList, .bool false)],
  tokOp (CustomWordTokenizer.transform exEnv.σ exTrie false)⟩

theorem exCut_builtin : IsBuiltin exEnv exCut :=
  ⟨_, List.mem_of_getElem? (i := 23) rfl, [.list (exWords.map PyVal.str)], [], by decide, rfl⟩

theorem exWords_segs : WordSegs exWords false "aaaxyzb".toList ["aaaxy".toList, "zb".toList] := by
  refine .word "aaaxy".toList "zb".toList _ ?_ (.word "zb".toList [] _ ?_ .nil)
  · refine ⟨by decide, by decide, by decide, ?_⟩
    intro v hv _ _
    rcases List.mem_cons.mp hv with e | hv
    · rw [e]; decide
    · rw [List.mem_singleton.mp hv]; decide
  · refine ⟨by decide, by decide, by decide, ?_⟩
    intro v hv _ h
    rcases List.mem_cons.mp hv with e | hv
    · rw [e] at h; exact absurd h (by decide)
    · rw [List.mem_singleton.mp hv]; decide

/-- C73: a pipe, unlike a single operator, need not settle: the labels of "aaa1b" are carried through the pipe and
back, and carrying these once more gives different token labels. -/
theorem C73_pipe_unsettled : ∃ (p : Pipe) (o : Seq) (as : List Aligner) (coll : List Seq) (ls ys xs zs : List Int),
    WellTyped p.steps ∧ (∀ op ∈ p.steps, IsBuiltin exEnv op) ∧
      p.transformSequence (.str "aaa1b".toList) = .ok (o, as, coll) ∧ alignAll as ls = .ok ys ∧
      realignAll as ys = .ok xs ∧ alignAll as xs = .ok zs ∧ ys ≠ zs := by
  have hscan : Scan (Re.lit "1".toList).search "aaa1b".toList 0 [(3, 4)] :=
    .match_ 0 3 4 _ (by decide) (by decide) (.noMatch 4 (by decide) (by decide))
  obtain ⟨a, ha, _, _, hf, hb⟩ := C25_replace exEnv.σ (Re.lit "1".toList).search "xyz".toList "aaa1b".toList
    (C24_regex_sound _ _) _ hscan
  have e : replaceMatches "aaa1b".toList "xyz".toList 0 [(3, 4)] = "aaaxyzb".toList := by decide
  rw [e] at ha hf hb
  have hb := (hb (Or.inl (by decide))).2
  obtain ⟨b, segs, h1, h2, _, h3⟩ := C37_C42_custom exEnv.σ exWords exTrie exTrie_eq false "aaaxyzb".toList
  have es := C37_division_unique _ _ _ _ _ h2 exWords_segs
  subst es
  have t1 : exOne.transform (.str "aaa1b".toList) = .ok (.str "aaaxyzb".toList, a) := by
    show ((strOp (ReplaceAwithB.transform exEnv.σ (Re.lit "1".toList).search "xyz".toList) (.str "aaa1b".toList)) >>= _) = _
    show ((ReplaceAwithB.transform exEnv.σ (Re.lit "1".toList).search "xyz".toList "aaa1b".toList >>= _) >>= _) = _
    rw [ha]
    rfl
  have t2 : exCut.transform (.str "aaaxyzb".toList) = .ok (.list (["aaaxy".toList, "zb".toList].map Tok.str), b) := by
    show ((CustomWordTokenizer.transform exEnv.σ exTrie false "aaaxyzb".toList >>= _) >>= _) = _
    rw [h1]
    rfl
  refine ⟨⟨[exOne, exCut], []⟩, .list (["aaaxy".toList, "zb".toList].map Tok.str), [a, b],
    [.str "aaa1b".toList, .str "aaaxyzb".toList, .list (["aaaxy".toList, "zb".toList].map Tok.str)],
    [1, 1, 1, 2, 3], [1, 2], [1, 1, 1, 1, 2], [1, 1], ?_, ?_, ?_, ?_, ?_, ?_, by decide⟩
  · intro i x y h1 h2
    match i with
    | 0 => injection h1 with h1; injection h2 with h2; rw [← h1, ← h2]; rfl
    | i + 1 => cases h2
  · intro op hop
    rcases List.mem_cons.mp hop with rfl | hop
    · exact exOne_builtin
    · rw [List.mem_singleton.mp hop]; exact exCut_builtin
  · exact (C58_composition _ _ _ _ _).mpr ⟨[(_, a), (_, b)], .cons t1 (.cons t2 (.nil _)), rfl, rfl, rfl⟩
  · show (a.transform [1, 1, 1, 2, 3] >>= fun m => b.transform m >>= fun m => .ok m) = _
    rw [(hf [1, 1, 1, 2, 3] rfl).1]
    show (b.transform _ >>= _) = _
    rw [h3.forward _ (by decide)]
    rfl
  · show (b.inverseTransform [1, 2] >>= fun m => a.inverseTransform m >>= fun m => .ok m) = _
    rw [h3.backward [1, 2] rfl (by intro y hy; simp at hy; rcases hy with rfl | rfl <;> decide)]
    show (a.inverseTransform _ >>= _) = _
    rw [hb _ (by decide)]
    rfl
  · show (a.transform [1, 1, 1, 1, 2] >>= fun m => b.transform m >>= fun m => .ok m) = _
    rw [(hf [1, 1, 1, 1, 2] rfl).1]
    show (b.transform _ >>= _) = _
    rw [h3.forward _ (by decide)]
    rfl

/-! ### examples -/

/-- "a12": the labels 1 2 2 survive, 1 2 3 do not. -/
example : ∃ out a, IntToken.transform SetOrder.id asciiUnicode "a12".toList = .ok (out, a) ∧
    Survives a [1, 2, 2] ∧ ¬ Survives a [1, 2, 3] := by
  obtain ⟨a, h, _⟩ := (C18_C19_int_token SetOrder.id asciiUnicode "a12".toList).run
  have hs := (C73_int_token _ _ _ _ _ h).1
  have e : ∀ ls : List Int, ls.length = 3 → (runs (numeric asciiUnicode) "a12".toList).zip
      (splitLike (runs (numeric asciiUnicode) "a12".toList) ls) =
        [(['a'], ls.take 1), (['1', '2'], (ls.drop 1).take 2)] := fun ls _ => rfl
  refine ⟨_, a, h, (hs _ rfl).mpr ?_, fun h => ?_⟩
  · unfold OneLabelEach
    rw [e _ rfl]
    intro x hx hc
    rcases List.mem_cons.mp hx with rfl | hx
    · exact ⟨1, by decide⟩
    · rw [List.mem_singleton.mp hx]; exact ⟨2, by decide⟩
  · have h := (hs _ rfl).mp h
    unfold OneLabelEach at h
    rw [e _ rfl] at h
    obtain ⟨v, hv⟩ := h (['1', '2'], [2, 3]) (by decide) (by decide)
    have h1 := hv 2 (by decide)
    have h2 := hv 3 (by decide)
    omega

/-- Two spaces in a row carry one label, or the labels do not come back. -/
example : ∃ out a, MergeWhiteSpaceCharacters.transform SetOrder.id "a  b".toList = .ok (out, a) ∧
    ¬ Survives a [1, 1, 0, 2] := by
  obtain ⟨a, h, _⟩ := C21_merge SetOrder.id "a  b".toList
  refine ⟨_, a, h, fun h' => ?_⟩
  obtain ⟨v, hv⟩ := ((C73_merge _ _ _ _ h).1 _ rfl).mp h' ([' ', ' '], [1, 0]) (by decide) (by decide)
  have h1 := hv 1 (by decide)
  have h2 := hv 0 (by decide)
  omega

/-- "a b" as one entity: the space in the middle loses its label, and these labels then settle. -/
example : ∃ a, WhiteSpaceTokenizer.transform SetOrder.id "a b".toList = .ok (["a".toList, "b".toList], a) ∧
    Settles a ∧ a.transform [1, 1, 1] = .ok [1, 1] ∧ a.inverseTransform [1, 1] = .ok [1, 0, 1] ∧
    Survives a [1, 0, 1] := by
  obtain ⟨a, ps, tail, h1, h2, h3⟩ := C39_C42_whitespace SetOrder.id "a b".toList
  have h2' : TokenizedBy (fun _ => false) "a b".toList [([], ['a']), ([' '], ['b'])] [] := by
    refine ⟨by decide, by decide, by decide, by decide, by decide, by decide, ?_⟩
    exact ⟨by simp, trivial⟩
  obtain ⟨e1, e2⟩ := C40_cuts_unique _ _ _ _ _ _ h2 h2'
  subst e1; subst e2
  obtain ⟨_, _, _, _, _, hset⟩ := C73_whitespace_tokenizer _ _ _ _ h1
  have f := h3.forward [1, 1, 1] rfl
  have b := h3.backward [1, 1] rfl (by unfold uintLabels; decide)
  exact ⟨a, h1, hset, f, b, [1, 1], hset.fromInput _ _ _ f b, b⟩

/-- Padding to two tokens drops the third label. -/
example : ∃ out a, Pad.transform SetOrder.id 2 (.str padToken) [.int 5, .int 6, .int 7] = .ok (out, a) ∧
    Survives a [1, 2, 0] ∧ ¬ Survives a [1, 2, 3] := by
  obtain ⟨a, h, _⟩ := C30_pad SetOrder.id 2 (.str padToken) [.int 5, .int 6, .int 7] (Or.inr (by decide))
  have hs := (C73_pad _ 2 _ _ _ _ h).1
  exact ⟨_, a, h, (hs _ rfl).mpr (by decide), fun h => absurd ((hs _ rfl).mp h) (by decide)⟩

/-- C73_settles covers, for instance, replacing the hyphens of "a-b-c". -/
example : ∃ op t a, IsBuiltin exEnv op ∧ op.transform (.str "a-b-c".toList) = .ok (t, a) ∧ Settles a := by
  obtain ⟨op, t, a, h1, h2, _⟩ := exReplace
  exact ⟨op, t, a, h1, h2, C73_settles exEnv exEnv_sane op h1 _ _ a h2⟩

/-- C73_lossless_text: for lower-casing. -/
example : ∃ out a, Lowercase.transform SetOrder.id "Ab".toList = .ok (out, a) ∧ Survives a [3, 4] := by
  obtain ⟨a, h, _⟩ := C16_lowercase SetOrder.id "Ab".toList
  exact ⟨_, a, h, (C73_lossless_text SetOrder.id _ _ a asciiUnicode (fun _ => false) exWords exTrie exTrie_eq false
    (Or.inl h)).2 _ rfl⟩

/-- C73_lossless_list: for an end token. -/
example : ∃ out a, AddEndToken.transform SetOrder.id (.str endToken) [.int 1] = .ok (out, a) ∧ Survives a [3] := by
  obtain ⟨a, h, _⟩ := C28_add_end_token SetOrder.id (.str endToken) [.int 1] (by decide)
  exact ⟨_, a, h, (C73_lossless_list SetOrder.id _ _ a (.int 0) _ (.int 0) [] [] asciiUnicode (Or.inr (Or.inl h))).2 _ rfl⟩

/-- C73_replace: hyphens replaced by a plus sign each; a single label survives, and settles. -/
example : ∃ out a, ReplaceAwithB.transform SetOrder.id (Re.lit "-".toList).search ['+'] "a-b".toList = .ok (out, a) ∧
    Survives a [1, 2, 3] := by
  have hscan : Scan (Re.lit "-".toList).search "a-b".toList 0 [(1, 2)] :=
    .match_ 0 1 2 _ (by decide) (by decide) (.noMatch 2 (by decide) (by decide))
  obtain ⟨a, h, _⟩ := C25_replace SetOrder.id (Re.lit "-".toList).search ['+'] "a-b".toList (C24_regex_sound _ _) _ hscan
  refine ⟨_, a, h, ((C73_replace _ _ _ _ _ (C24_regex_sound _ _) _ hscan a h).1 _ rfl).mpr ⟨Or.inl (by decide), ?_⟩⟩
  intro x hx
  rw [List.mem_singleton.mp hx]
  exact ⟨2, by decide, by decide⟩

end Uttut
