import Verif.Props.Stopwords

/-! Properties C24 and C25: termination of the search-and-replace loop, and `ReplaceAwithB`. -/

namespace Uttut

open Spec Piece

/-! ### C24 -/

theorem patternFuel_some_iff (σ : SetOrder) (m : Matcher) (token : Str) (f b : Transducer) (fuel : Nat) (s : Str) :
    patternTransformFuel σ m token f b fuel s ≠ none ↔
      searchLoop m (fun _ _ _ => token) s fuel 0 ReplacementGroup.empty ≠ none := by
  unfold patternTransformFuel patternGroup
  cases searchLoop m (fun _ _ _ => token) s fuel 0 ReplacementGroup.empty <;> simp

/-- C24: the operator terminates (with some number of iterations) exactly if no search started from a
reached position inside the text yields the empty match at that position. -/
theorem C24_terminates_iff (σ : SetOrder) (m : Matcher) (token : Str) (f b : Transducer) (s : Str)
    (hs : SoundMatcher m s) :
    (∃ fuel, patternTransformFuel σ m token f b fuel s ≠ none) ↔
      ∀ p, Reached m s p → p < s.length → m s p ≠ some (p, p) := by
  constructor
  · rintro ⟨fuel, hf⟩ p hr hp
    rw [patternFuel_some_iff] at hf
    obtain ⟨g, hg⟩ := Option.ne_none_iff_exists'.mp hf
    obtain ⟨ms, hscan⟩ := scan_of_searchLoop _ fuel 0 _ _ hg
    obtain ⟨ms', hscan'⟩ := scan_of_reached hscan hr
    exact hscan'.not_stuck hp
  · intro h
    obtain ⟨ms, hscan⟩ := scan_exists hs h s.length 0 (by omega) (by omega) .start
    refine ⟨s.length + 1, ?_⟩
    rw [patternFuel_some_iff]
    have hl := hscan.length_le hs
    rw [searchLoop_of_scan _ hscan (hscan.wf hs (by omega)) (s.length + 1) (by omega)]
    simp

/-- C24: if it terminates at all, `len(s) + 1` iterations suffice and more iterations give the same
result; this is the result of `patternTransform`. Otherwise no bound suffices and `patternTransform`
reports non-termination. -/
theorem C24_fuel (σ : SetOrder) (m : Matcher) (token : Str) (f b : Transducer) (s : Str)
    (hs : SoundMatcher m s) :
    ((∃ fuel, patternTransformFuel σ m token f b fuel s ≠ none) →
      ∀ fuel, s.length + 1 ≤ fuel →
        patternTransformFuel σ m token f b fuel s = some (patternTransform σ m token f b s)) ∧
    ((∃ p, Reached m s p ∧ p < s.length ∧ m s p = some (p, p)) →
      (∀ fuel, patternTransformFuel σ m token f b fuel s = none) ∧
      patternTransform σ m token f b s = .error .nonTermination) := by
  constructor
  · intro h fuel hfuel
    rw [C24_terminates_iff σ m token f b s hs] at h
    obtain ⟨ms, hscan⟩ := scan_exists hs h s.length 0 (by omega) (by omega) .start
    have hl := hscan.length_le hs
    have key : ∀ fuel, s.length + 1 ≤ fuel → patternTransformFuel σ m token f b fuel s =
        patternTransformFuel σ m token f b (s.length + 1) s := by
      intro fuel hfuel
      unfold patternTransformFuel patternGroup
      rw [searchLoop_of_scan _ hscan (hscan.wf hs (by omega)) fuel (by omega),
        searchLoop_of_scan _ hscan (hscan.wf hs (by omega)) (s.length + 1) (by omega)]
    rw [key fuel hfuel]
    unfold patternTransform
    cases hf : patternTransformFuel σ m token f b (s.length + 1) s with
    | some r => rfl
    | none =>
      have : patternTransformFuel σ m token f b (s.length + 1) s ≠ none := by
        rw [patternFuel_some_iff,
          searchLoop_of_scan _ hscan (hscan.wf hs (by omega)) (s.length + 1) (by omega)]
        simp
      exact absurd hf this
  · rintro ⟨p, hr, hp, hm⟩
    have hnone : ∀ fuel, patternTransformFuel σ m token f b fuel s = none := by
      intro fuel
      cases hf : patternTransformFuel σ m token f b fuel s with
      | none => rfl
      | some r =>
        have := (C24_terminates_iff σ m token f b s hs).mp ⟨fuel, by rw [hf]; simp⟩ p hr hp
        exact absurd hm this
    refine ⟨hnone, ?_⟩
    unfold patternTransform
    rw [hnone]

/-- C24: regular expressions satisfy the contract of `Pattern.search`: a match found from a position lies
to the right of it, inside the text. -/
theorem C24_regex_sound (r : Re) (s : Str) : SoundMatcher r.search s := search_sound r s

/-- C24: if every match met is non-empty, the operator terminates. -/
theorem C24_nonempty_matches (σ : SetOrder) (m : Matcher) (token : Str) (f b : Transducer) (s : Str)
    (hs : SoundMatcher m s) (hne : ∀ p x y, m s p = some (x, y) → x < y) :
    patternTransform σ m token f b s ≠ .error .nonTermination ∧
      ∀ fuel, s.length + 1 ≤ fuel →
        patternTransformFuel σ m token f b fuel s = some (patternTransform σ m token f b s) := by
  have hstuck : ∀ p, Reached m s p → p < s.length → m s p ≠ some (p, p) := fun p _ _ h => by
    have := hne p p p h; omega
  refine ⟨?_, (C24_fuel σ m token f b s hs).1 ((C24_terminates_iff σ m token f b s hs).mpr hstuck)⟩
  obtain ⟨ms, hscan⟩ := scan_exists hs hstuck s.length 0 (by omega) (by omega) .start
  have hfit := hscan.fits hs (by omega) token
  have hsep : Separated false (cut s 0 (ms.map fun x => (⟨x.1, x.2, token⟩ : Rep Str))) := by
    apply separated_of_nonempty
    intro o n hm
    have key : ∀ (l : List (Nat × Nat)) (cur : Nat), (∀ x ∈ l, x.1 < x.2 ∧ x.2 ≤ s.length) →
        (sub o n : Piece Char Char) ∈ cut s cur (l.map fun x => (⟨x.1, x.2, token⟩ : Rep Str)) → o ≠ [] := by
      intro l
      induction l with
      | nil => intro cur _ h; simp [cut] at h
      | cons x l ih =>
        intro cur hx h
        simp only [List.map_cons, cut, List.mem_cons, reduceCtorEq, false_or] at h
        rcases h with h | h
        · injection h with h1 _
          obtain ⟨e1, e2⟩ := hx x (by simp)
          intro ho
          rw [ho] at h1
          have := congrArg List.length h1
          rw [length_slice s e2] at this
          simp at this
          omega
        · exact ih _ (fun y hy => hx y (by simp [hy])) h
    refine key ms 0 ?_ hm
    have hb : ∀ {pos : Nat} {l : List (Nat × Nat)}, pos ≤ s.length → Scan m s pos l →
        ∀ x ∈ l, x.1 < x.2 ∧ x.2 ≤ s.length := by
      intro pos l hpos h
      induction h with
      | atEnd => simp
      | noMatch => simp
      | match_ pos a b l hp hmm _ ih =>
        intro x hx
        obtain ⟨g1, g2, g3⟩ := hs pos a b (by omega) hmm
        rcases List.mem_cons.mp hx with rfl | hx
        · exact ⟨hne _ _ _ hmm, g3⟩
        · exact ih g3 x hx
    exact hb (by omega) hscan
  rw [patternTransform_of_scan σ m token f b s hs ms hscan
    (cut s 0 (ms.map fun x => (⟨x.1, x.2, token⟩ : Rep Str))) (groupOf_cut s 0 _ hfit) hsep
    (by rw [srcOf_cut s 0 _ hfit]; simp)]
  simp

/-- C24: `ReplaceAwithB` with the empty pattern never terminates on a non-empty text. -/
theorem C24_empty_pattern (σ : SetOrder) (b : Str) (c : Char) (s : Str) :
    (∀ fuel, patternTransformFuel σ (Re.lit []).search b Transduce.getMostCommonExceptNotEntity
      Transduce.getMostCommonExceptNotEntity fuel (c :: s) = none) ∧
    ReplaceAwithB.transform σ (Re.lit []).search b (c :: s) = .error .nonTermination :=
  (C24_fuel σ _ b _ _ (c :: s) (search_sound _ _)).2 ⟨0, .start, by simp, rfl⟩

/-- A text on which the loop terminates and one on which a later search gets stuck: `(?<!a)b|...`. -/
example : ∃ p, Reached (Re.alt (Re.lit ['a']) (Re.seq (.notBehind (· == 'c')) (Re.seq (.notAhead (· == 'a'))
    (.notBehind fun c => c != 'a')))).search "ab".toList p ∧ p < 2 ∧
    (Re.alt (Re.lit ['a']) (Re.seq (.notBehind (· == 'c')) (Re.seq (.notAhead (· == 'a'))
    (.notBehind fun c => c != 'a')))).search "ab".toList p = some (p, p) :=
  ⟨1, .next 0 0 1 .start (by decide) (by decide), by decide, by decide⟩

/-! ### C25 -/

theorem transform_length {a : Aligner} {ls y : List Int} (h : a.transform ls = .ok y) :
    y.length = a.outputLength := by
  unfold Aligner.transform at h
  cases h1 : a.validateInput ls with
  | error e => rw [h1] at h; cases h
  | ok _ =>
    rw [h1] at h
    simp only [Except.bind_ok] at h
    cases h2 : a.fwd ls with
    | error e => rw [h2] at h; cases h
    | ok z =>
      rw [h2] at h
      simp only [Except.bind_ok] at h
      unfold Aligner.validateOutput at h
      by_cases h3 : z.length ≠ a.outputLength
      · rw [if_pos h3] at h; cases h
      · rw [if_neg h3] at h
        injection h with h
        subst h
        exact Classical.not_not.mp h3

theorem inverse_length {a : Aligner} {ls y : List Int} (h : a.inverseTransform ls = .ok y) :
    y.length = a.inputLength := by
  unfold Aligner.inverseTransform at h
  cases h1 : a.validateOutput ls with
  | error e => rw [h1] at h; cases h
  | ok _ =>
    rw [h1] at h
    simp only [Except.bind_ok] at h
    cases h2 : a.bwd ls with
    | error e => rw [h2] at h; cases h
    | ok z =>
      rw [h2] at h
      simp only [Except.bind_ok] at h
      unfold Aligner.validateInput at h
      by_cases h3 : z.length ≠ a.inputLength
      · rw [if_pos h3] at h; cases h
      · rw [if_neg h3] at h
        injection h with h
        subst h
        exact Classical.not_not.mp h3

theorem dstOf_cut_matches (s v : Str) (pos : Nat) (ms : List (Nat × Nat)) :
    dstOf (cut s pos (ms.map fun x => (⟨x.1, x.2, v⟩ : Rep Str))) = replaceMatches s v pos ms := by
  induction ms generalizing pos with
  | nil => simp [cut, dstOf, dst, replaceMatches]
  | cons x ms ih =>
    have := ih x.2
    simp only [dstOf] at this ⊢
    simp [cut, dst, replaceMatches, this, List.append_assoc]

theorem labelsWith_cut (s v : Str) (pos : Nat) (ms : List (Nat × Nat)) (ls : List Int)
    (hl : ls.length = s.length)
    (hfit : Fits s.length pos (ms.map fun x => (⟨x.1, x.2, v⟩ : Rep Str))) :
    labelsWith backLabels (cut s pos (ms.map fun x => (⟨x.1, x.2, v⟩ : Rep Str))) (ls.drop pos) =
      replaceLabels ls v.length pos ms := by
  induction ms generalizing pos with
  | nil =>
    simp only [List.map_nil, cut, labelsWith, replaceLabels, List.append_nil]
    rw [List.take_of_length_le (by simp only [List.length_drop]; omega)]
  | cons x ms ih =>
    obtain ⟨h1, h2, h3⟩ := hfit
    have h4 := h3.le
    dsimp only at h1 h2 h3 h4
    simp only [List.map_cons, cut, labelsWith, replaceLabels]
    rw [length_slice s (by omega : x.1 ≤ s.length), length_slice s h4, List.drop_drop, List.drop_drop,
      show pos + (x.1 - pos) = x.1 by omega, show x.1 + (x.2 - x.1) = x.2 by omega, ih _ h3, ← List.append_assoc]
    congr 1
    unfold backLabels slice
    rw [← List.drop_take, ← List.drop_take]

theorem labelsWith_cut_swap (s v : Str) (pos : Nat) (ms : List (Nat × Nat)) (ys : List Int)
    (hfit : Fits s.length pos (ms.map fun x => (⟨x.1, x.2, v⟩ : Rep Str)))
    (hl : ys.length = (replaceMatches s v pos ms).length) :
    labelsWith backLabels ((cut s pos (ms.map fun x => (⟨x.1, x.2, v⟩ : Rep Str))).map swap) ys =
      restoreLabels v.length pos ms ys := by
  induction ms generalizing pos ys with
  | nil =>
    simp only [replaceMatches] at hl
    simp only [List.map_nil, cut, List.map_cons, swap, labelsWith, restoreLabels, List.append_nil]
    rw [List.take_of_length_le (by omega)]
  | cons x ms ih =>
    obtain ⟨h1, h2, h3⟩ := hfit
    have h4 := h3.le
    dsimp only at h1 h2 h3 h4
    simp only [replaceMatches, List.length_append] at hl
    rw [length_slice s (by omega : x.1 ≤ s.length)] at hl
    simp only [List.map_cons, cut, swap, labelsWith, restoreLabels]
    rw [length_slice s (by omega : x.1 ≤ s.length), length_slice s h4,
      ih _ _ h3 (by simp only [List.length_drop]; omega), ← List.append_assoc]
    rfl

theorem scan_separated {m : Matcher} {s : Str} (hs : SoundMatcher m s) (v : Str) {pos : Nat}
    {ms : List (Nat × Nat)} (hpos : pos ≤ s.length) (h : Scan m s pos ms) (pend : Bool) :
    Separated pend (cut s pos (ms.map fun x => (⟨x.1, x.2, v⟩ : Rep Str))) := by
  induction h generalizing pend with
  | atEnd => simp [cut, Separated]
  | noMatch => simp [cut, Separated]
  | match_ pos a b ms hp hm hscan ih =>
    obtain ⟨h1, h2, h3⟩ := hs pos a b hpos hm
    simp only [List.map_cons, cut, Separated]
    split
    · rename_i he
      refine ⟨?_, ih h3 _⟩
      -- an empty match is not at `pos`
      have hlen : (slice s a b).length = 0 := by rw [List.isEmpty_iff.mp he]; rfl
      rw [length_slice s h3] at hlen
      have hab : a = b := by omega
      subst hab
      have : pos ≠ a := by
        rintro rfl
        exact (Scan.match_ pos pos pos ms hp hm hscan).not_stuck hp hm
      have hne : (slice s pos a).isEmpty = false := by
        have : (slice s pos a).length ≠ 0 := by rw [length_slice s h3]; omega
        cases hh : slice s pos a with
        | nil => rw [hh] at this; exact absurd rfl this
        | cons => rfl
      rw [hne, Bool.and_false]
    · exact ih h3 _

theorem distinct_of_noTouch (s : Str) (ms : List (Nat × Nat)) (h : NoTouch ms) : DistinctMatches s ms := by
  unfold DistinctMatches
  induction ms with
  | nil => trivial
  | cons x ms ih =>
    cases ms with
    | nil => exact ⟨fun _ => by simp [touchingDeleted], trivial⟩
    | cons y ms =>
      refine ⟨fun _ => ?_, ih h.2⟩
      have : ¬ (y.1 = x.2 ∧ ([] : Str).length = 0) := fun e => h.1 e.1.symm
      simp only [List.map_cons, touchingDeleted]
      rw [if_neg this]
      simp

theorem distinct_of_ne (s v : Str) (ms : List (Nat × Nat)) (h : v ≠ [] ∨ DistinctMatches s ms) :
    DistinctDeletions s (ms.map fun x => (⟨x.1, x.2, v⟩ : Rep Str)) := by
  by_cases hv : v = []
  · subst hv
    exact h.resolve_left fun h => h rfl
  · clear h
    induction ms with
    | nil => trivial
    | cons x ms ih => exact ⟨fun e => absurd (List.length_eq_zero_iff.mp e) hv, ih⟩

/-- The backward labels of a string edit whose inverse replacements are all different. -/
theorem strAligner_inverse_nodup (σ : SetOrder) (ps : List (Piece Char Char)) (f : Transducer)
    (hnd : (groupOf 0 (ps.map swap)).Nodup) (ls y : List Int) (hl : ls.length = (dstOf ps).length)
    (hy : relabel Transduce.getMostCommonExceptNotEntity (withLabels (ps.map swap) ls) = .ok y) :
    (Aligner.ofStrEdit σ (srcOf ps) ⟨groupOf 0 ps, true⟩ (dstOf ps).length f
      Transduce.getMostCommonExceptNotEntity).inverseTransform ls = .ok y := by
  have hl' : ls.length = (srcOf (ps.map swap)).length := by rw [srcOf_swap]; exact hl
  have hlen : ∀ x n y, Transduce.getMostCommonExceptNotEntity x n = .ok y → y.length = n := by
    intro x n y h
    have h := Except.ok.inj ((getMostCommonExcept_mode x n).symm.trans h)
    rw [← h]; simp
  refine Aligner.inverse_of_bwd _ ls y hl ?_ ?_
  · have := editInverse_labels σ ps hnd Transduce.getMostCommonExceptNotEntity 0 (fun n => rfl) hlen ls hl
    exact this.trans hy
  · rw [relabel_length _ _ ((getMostCommonExcept_good _).respects.withLabels hl') y hy,
      outLenOf_withLabels _ ls hl', outLenOf_eq, dstOf_swap]
    rfl

/-- C25: `ms` being the successive matches, the output is the input with each of them replaced by `b`,
and forward labels are those of `replaceLabels`. If `b` is non-empty, or no text occurs twice in a run of touching
matches, labels can be mapped back. -/
theorem C25_replace (σ : SetOrder) (m : Matcher) (b s : Str) (hs : SoundMatcher m s)
    (ms : List (Nat × Nat)) (hscan : Scan m s 0 ms) :
    ∃ a, ReplaceAwithB.transform σ m b s = .ok (replaceMatches s b 0 ms, a) ∧
      a.inputLength = s.length ∧ a.outputLength = (replaceMatches s b 0 ms).length ∧
      (∀ ls, ls.length = s.length → a.transform ls = .ok (replaceLabels ls b.length 0 ms) ∧
        (replaceLabels ls b.length 0 ms).length = (replaceMatches s b 0 ms).length) ∧
      (b ≠ [] ∨ DistinctMatches s ms → Aligned a s.length (replaceMatches s b 0 ms).length anyLabels ∧
        ∀ ys, ys.length = (replaceMatches s b 0 ms).length →
          a.inverseTransform ys = .ok (restoreLabels b.length 0 ms ys)) := by
  have hfit := hscan.fits hs (by omega) b
  have hsrc : srcOf (cut s 0 (ms.map fun x => (⟨x.1, x.2, b⟩ : Rep Str))) = s := by
    rw [srcOf_cut s 0 _ hfit]; simp
  have hdst := dstOf_cut_matches s b 0 ms
  have hT := patternTransform_of_scan σ m b Transduce.getMostCommonExceptNotEntity
    Transduce.getMostCommonExceptNotEntity s hs ms hscan _ (groupOf_cut s 0 _ hfit)
    (scan_separated hs b (by omega) hscan _) hsrc
  rw [hdst] at hT
  have hgood : ∀ ps : List (Piece Char Char), Good Transduce.getMostCommonExceptNotEntity ps :=
    fun ps o n hm x hx => ⟨_, getMostCommonExcept_mode _ _, by simp⟩
  have hrel : ∀ ls : List Int, ls.length = s.length → relabel Transduce.getMostCommonExceptNotEntity
      (withLabels (cut s 0 (ms.map fun x => (⟨x.1, x.2, b⟩ : Rep Str))) ls) =
        .ok (replaceLabels ls b.length 0 ms) := by
    intro ls hl
    rw [relabel_labelsWith _ backLabels _ (fun _ _ _ _ _ => getMostCommonExcept_mode _ _) ls (by rw [hsrc]; exact hl)]
    have := labelsWith_cut s b 0 ms ls hl hfit
    rw [List.drop_zero] at this
    rw [this]
  refine ⟨_, hT, rfl, rfl, ?_, ?_⟩
  · intro ls hl
    have ht := strAligner_transform σ (cut s 0 (ms.map fun x => (⟨x.1, x.2, b⟩ : Rep Str)))
      Transduce.getMostCommonExceptNotEntity Transduce.getMostCommonExceptNotEntity (hgood _).respects ls
      (replaceLabels ls b.length 0 ms)
    rw [hsrc, hdst] at ht
    have ht := ht hl (hrel ls hl)
    exact ⟨ht, transform_length ht⟩
  · intro hc
    have hnd := (nodup_groupOf_swap_cut s 0 0 _ hfit).mpr (distinct_of_ne s b ms hc)
    have hrest : ∀ ys : List Int, ys.length = (replaceMatches s b 0 ms).length →
        relabel Transduce.getMostCommonExceptNotEntity
          (withLabels ((cut s 0 (ms.map fun x => (⟨x.1, x.2, b⟩ : Rep Str))).map swap) ys) =
            .ok (restoreLabels b.length 0 ms ys) := by
      intro ys hl
      rw [relabel_labelsWith _ backLabels _ (fun _ _ _ _ _ => getMostCommonExcept_mode _ _) ys
        (by rw [srcOf_swap, hdst]; exact hl), labelsWith_cut_swap s b 0 ms ys hfit hl]
    have hB : ∀ ys : List Int, ys.length = (replaceMatches s b 0 ms).length → _ := fun ys hl =>
      strAligner_inverse_nodup σ _ Transduce.getMostCommonExceptNotEntity hnd ys (restoreLabels b.length 0 ms ys)
        (by rw [hdst]; exact hl) (hrest ys hl)
    rw [hsrc, hdst] at hB
    have hF : ∀ ls : List Int, ls.length = s.length → _ := fun ls hl =>
      strAligner_transform σ (cut s 0 (ms.map fun x => (⟨x.1, x.2, b⟩ : Rep Str)))
        Transduce.getMostCommonExceptNotEntity Transduce.getMostCommonExceptNotEntity (hgood _).respects ls
        (replaceLabels ls b.length 0 ms) (by rw [hsrc]; exact hl) (hrel ls hl)
    rw [hsrc, hdst] at hF
    refine ⟨⟨rfl, rfl, fun ls hl => ⟨_, hF ls hl, transform_length (hF ls hl)⟩, fun ys hl _ =>
      ⟨_, hB ys hl, ?_⟩⟩, hB⟩
    exact inverse_length (hB ys hl)

/-- C25, exact: with empty `b` and a text that occurs twice in a run of touching matches, `inverse_transform` raises
AssertionError. -/
theorem C25_touching_deletions (σ : SetOrder) (m : Matcher) (s : Str) (hs : SoundMatcher m s)
    (ms : List (Nat × Nat)) (hscan : Scan m s 0 ms) (hdup : ¬ DistinctMatches s ms) :
    ∃ out a, ReplaceAwithB.transform σ m [] s = .ok (out, a) ∧
      ∀ ys, ys.length = out.length → a.inverseTransform ys = .error .assertionError := by
  have hfit := hscan.fits hs (by omega) []
  have hsrc := srcOf_cut s 0 _ hfit
  rw [List.drop_zero] at hsrc
  have hg := groupOf_cut s 0 _ hfit
  have hT := patternTransform_of_scan σ m [] Transduce.getMostCommonExceptNotEntity
    Transduce.getMostCommonExceptNotEntity s hs _ hscan _ hg
    (scan_separated hs [] (by omega) hscan _) hsrc
  refine ⟨_, _, hT, ?_⟩
  intro ys hl
  have hdup := editInverse_dup (β := Char) σ (cut s 0 (ms.map
    fun x => (⟨x.1, x.2, []⟩ : Rep Str))) fun h => hdup ((nodup_groupOf_swap_cut s 0 0 _ hfit).mp h)
  rw [hsrc] at hdup
  unfold Aligner.inverseTransform Aligner.validateOutput Aligner.ofStrEdit
  dsimp only
  rw [if_neg (by simpa using hl)]
  simp only [Except.bind_ok]
  have : Str2Str.inverse σ s ⟨groupOf 0 (cut s 0 (ms.map
    fun x => (⟨x.1, x.2, []⟩ : Rep Str))), true⟩ = .error .assertionError := hdup
  rw [this]
  rfl

/-- C25: a regex with non-empty matches meets a finite list of matches, so `C25_replace` applies. -/
theorem C25_matches_exist (m : Matcher) (s : Str) (hs : SoundMatcher m s)
    (hne : ∀ p x y, m s p = some (x, y) → x < y) :
    ∃ ms, Scan m s 0 ms ∧ ∀ ms', Scan m s 0 ms' → ms' = ms := by
  obtain ⟨ms, h⟩ := scan_exists hs (fun p _ _ h => by have := hne p p p h; omega) s.length 0 (by omega)
    (by omega) .start
  exact ⟨ms, h, fun ms' h' => h'.det h⟩

/-- C25: matches of a regex are leftmost: the match found from `pos` starts at the first position at which
the regex matches, and is the first alternative tried there. -/
theorem C25_leftmost (r : Re) (s : Str) (pos a b : Nat) (hpos : pos ≤ s.length)
    (h : r.search s pos = some (a, b)) :
    pos ≤ a ∧ (r.ends (s.take a).reverse (s.drop a)).head? = some (b - a) ∧
      ∀ i, pos ≤ i → i < a → r.ends (s.take i).reverse (s.drop i) = [] := by
  obtain ⟨x, y, n, h1, h2, h3, h4, h5⟩ := searchFrom_some r _ _ a b h
  have hlen : (s.take pos).reverse.length = pos := by simp; omega
  rw [hlen] at h2
  have hsplit : ∀ x y, s.drop pos = x ++ y →
      (s.take (pos + x.length)).reverse = x.reverse ++ (s.take pos).reverse ∧ s.drop (pos + x.length) = y := by
    intro x y hxy
    constructor
    · rw [← List.reverse_append]
      congr 1
      rw [List.take_add, hxy, List.take_left]
    · rw [← List.drop_drop, hxy, List.drop_left]
  refine ⟨by omega, ?_, ?_⟩
  · obtain ⟨e1, e2⟩ := hsplit x y h1
    rw [h2, e1, e2, h4]
    congr 1; omega
  · intro i hi1 hi2
    have hx : (s.drop pos) = (s.drop pos).take (i - pos) ++ (s.drop pos).drop (i - pos) := by
      rw [List.take_append_drop]
    have hxl : ((s.drop pos).take (i - pos)).length = i - pos := by
      have : (s.drop pos).length = x.length + y.length := by rw [h1]; simp
      rw [List.length_take]; omega
    obtain ⟨e1, e2⟩ := hsplit _ _ hx
    rw [hxl, show pos + (i - pos) = i by omega] at e1 e2
    have := h5 _ _ hx (by rw [hxl]; omega)
    rw [e1, e2]
    exact this

/-- Replacing `a` in "banana" by "oo". -/
example : Scan (Re.lit ['a']).search "banana".toList 0 [(1, 2), (3, 4), (5, 6)] ∧
    replaceMatches "banana".toList "oo".toList 0 [(1, 2), (3, 4), (5, 6)] = "boonoonoo".toList :=
  ⟨.match_ 0 1 2 _ (by decide) (by decide) (.match_ 2 3 4 _ (by decide) (by decide)
    (.match_ 4 5 6 _ (by decide) (by decide) (.atEnd 6 (by decide)))), by decide⟩

/-- Deleting `a` from "aa": the hypotheses of `C25_touching_deletions`. -/
example : Scan (Re.lit ['a']).search "aa".toList 0 [(0, 1), (1, 2)] ∧
    ¬ DistinctMatches "aa".toList [(0, 1), (1, 2)] :=
  ⟨.match_ 0 0 1 _ (by decide) (by decide) (.match_ 1 1 2 _ (by decide) (by decide) (.atEnd 2 (by decide))),
    by decide⟩

/-- Deleting the letters of "ab": the matches touch and labels can still be mapped back. -/
example : Scan (Re.cls Char.isAlpha).search "ab".toList 0 [(0, 1), (1, 2)] ∧
    DistinctMatches "ab".toList [(0, 1), (1, 2)] ∧ ¬ NoTouch [(0, 1), (1, 2)] :=
  ⟨.match_ 0 0 1 _ (by decide) (by decide) (.match_ 1 1 2 _ (by decide) (by decide) (.atEnd 2 (by decide))),
    by decide, fun h => h.1 rfl⟩

end Uttut
