import Verif.Lemmas.OnePiece
import Verif.Props.Order
import Verif.Props.Parts
import Verif.Props.Args
import Mathlib.Data.Nat.Find

/-! C102: an entity stays in one piece. -/

namespace Uttut

open Spec

/-- Marked labels of a sequence. -/
def seqMarks (cnt : Char → Bool) : Seq → List Int → Marked
  | .str s, ls => marks cnt s ls
  | .list _, ls => allMarks ls

/-- All results of a `_transform` keep the label in one piece. -/
def RunWhole (cnt : Char → Bool) (l : Int) (run : Seq → Res (Seq × Aligner)) : Prop :=
  ∀ s t a ls ys, run s = .ok (t, a) → a.transform ls = .ok ys → Whole l (seqMarks cnt s ls) → Whole l (seqMarks cnt t ys)

theorem strOp_whole {cnt : Char → Bool} {l : Int} {f : Str → Res (Str × Aligner)}
    (h : ∀ s, ∃ (out : Str) (a : Aligner) (F : List Int → List Int), f s = .ok (out, a) ∧ a.inputLength = s.length ∧
      ∀ ls, ls.length = s.length → a.transform ls = .ok (F ls) ∧
        (Whole l (marks cnt s ls) → Whole l (marks cnt out (F ls)))) : RunWhole cnt l (strOp f) := by
  intro s t a ls ys hr ht hw
  cases s with
  | list l => cases hr
  | str s =>
    obtain ⟨⟨out, a'⟩, h1, h2⟩ := bind_eq_ok hr
    injection h2 with h2
    injection h2 with h2 h3
    subst h2; subst h3
    obtain ⟨out', b, F, g1, g2, g3⟩ := h s
    obtain ⟨e1, e2⟩ := det (f := f) h1 g1
    subst e1; subst e2
    obtain ⟨g4, g5⟩ := g3 ls ((transform_input ht).trans g2)
    cases g4.symm.trans ht
    exact g5 hw

theorem tokOp_whole {cnt : Char → Bool} {l : Int} {f : Str → Res (List Str × Aligner)}
    (h : ∀ s, ∃ (out : List Str) (a : Aligner) (F : List Int → List Int), f s = .ok (out, a) ∧ a.inputLength = s.length ∧
      ∀ ls, ls.length = s.length → a.transform ls = .ok (F ls) ∧
        (Whole l (marks cnt s ls) → Whole l (allMarks (F ls)))) : RunWhole cnt l (tokOp f) := by
  intro s t a ls ys hr ht hw
  cases s with
  | list l => cases hr
  | str s =>
    obtain ⟨⟨out, a'⟩, h1, h2⟩ := bind_eq_ok hr
    injection h2 with h2
    injection h2 with h2 h3
    subst h2; subst h3
    obtain ⟨out', b, F, g1, g2, g3⟩ := h s
    obtain ⟨e1, e2⟩ := det (f := f) h1 g1
    subst e1; subst e2
    obtain ⟨g4, g5⟩ := g3 ls ((transform_input ht).trans g2)
    cases g4.symm.trans ht
    exact g5 hw

theorem lstOp_whole {cnt : Char → Bool} {l : Int} {f : List Tok → Res (List Tok × Aligner)}
    (h : ∀ s out a ls ys, f s = .ok (out, a) → a.transform ls = .ok ys → Whole l (allMarks ls) → Whole l (allMarks ys)) :
    RunWhole cnt l (lstOp f) := by
  intro s t a ls ys hr ht hw
  cases s with
  | str s => cases hr
  | list s =>
    obtain ⟨⟨out, a'⟩, h1, h2⟩ := bind_eq_ok hr
    injection h2 with h2
    injection h2 with h2 h3
    subst h2; subst h3
    exact h s out a' ls ys h1 ht hw

theorem lower_whole (σ : SetOrder) {cnt : Char → Bool} (hc : ∀ c, cnt (asciiLower c) = true → cnt c = true) (l : Int) :
    RunWhole cnt l (strOp (Lowercase.transform σ)) := by
  refine strOp_whole fun s => ?_
  obtain ⟨a, h1, h2, h3⟩ := C16_lowercase σ s
  refine ⟨_, a, id, h1, h2.input, fun ls hl => ⟨(h3 ls hl).1, Sourced.whole ?_⟩⟩
  have e : marks cnt (s.map asciiLower) ls = (s.zip ls).map fun p => (cnt (asciiLower p.1), p.2) := by
    unfold marks
    rw [List.zip_map_left, List.map_map]
    rfl
  rw [id, e]
  exact sourced_map _ _ _ fun p _ => ⟨fun h => h, fun h1 h2 => ⟨hc _ h1, h2⟩⟩

theorem around_whole (σ : SetOrder) (valid : Char → Bool) {cnt : Char → Bool} (hc : cnt ' ' = false) {l : Int} (h0 : l ≠ 0) :
    RunWhole cnt l (strOp (AddWhitespaceAroundChar.transform σ valid)) := by
  refine strOp_whole fun s => ?_
  obtain ⟨a, h1, h2, h3, _⟩ := C17_around σ valid s
  exact ⟨_, a, _, h1, h2.input, fun ls hl => ⟨h3 ls hl, Sourced.whole (sourced_around h0 hc valid s ls hl)⟩⟩

theorem blank_whole (σ : SetOrder) (u : Unicode) {cnt : Char → Bool} (hc : cnt ' ' = false) {l : Int} (h0 : l ≠ 0) :
    RunWhole cnt l (strOp (PunctuationExceptEndpointToWhitespace.transform σ u)) := by
  refine strOp_whole fun s => ?_
  obtain ⟨a, h1, h2, h3⟩ := C26_transform σ u s
  refine ⟨_, a, _, h1, h2.input, fun ls hl => ⟨(h3 ls hl).1, Sourced.whole ?_⟩⟩
  have e : ∀ g : Char × Int → Int, marks cnt (s.map (punctuationBlanked u)) ((s.zip ls).map g) =
      (s.zip ls).map fun p => (cnt (punctuationBlanked u p.1), g p) := by
    intro g
    unfold marks
    have e1 : s.map (punctuationBlanked u) = (s.zip ls).map fun p => punctuationBlanked u p.1 := by
      conv => lhs; rw [← List.map_fst_zip (l₁ := s) (l₂ := ls) (by omega)]
      rw [List.map_map]
      rfl
    rw [e1, List.zip_map', List.map_map]
    rfl
  rw [e]
  refine sourced_map _ _ _ fun p _ => ?_
  dsimp only
  unfold punctuationBlanked
  by_cases hp : (p.1 ∈ asciiPunctuation ∨ u.isCatP p.1 = true) ∧ p.1 ≠ '.'
  · rw [if_pos hp, if_pos hp]
    exact ⟨fun h => absurd h.symm h0, fun h => by rw [hc] at h; cases h⟩
  · rw [if_neg hp, if_neg hp]
    exact ⟨fun h => h, fun h1 h2 => ⟨h1, h2⟩⟩

/-- What replaces segments. -/
theorem segLaw_whole {cnt : Char → Bool} {l : Int} {f : Str → Res (Str × Aligner)} {rec : Str → Bool} {new : Str → Str}
    {F B : Str → List Int → List Int}
    (h : ∀ s, ∃ segs, SegLaw f rec new F B s segs ∧ (∀ a out, f s = .ok (out, a) → a.inputLength = s.length) ∧
      ∀ w ∈ segs, rec w = true → ∀ x : List Int, x.length = w.length → (F w x).length = (new w).length ∧
        Sourced l (marks cnt w x) (marks cnt (new w) (F w x))) : RunWhole cnt l (strOp f) := by
  refine strOp_whole fun s => ?_
  obtain ⟨segs, ⟨h1, a, h2, h3, _⟩, h4, h5⟩ := h s
  refine ⟨_, a, _, h2, h4 _ _ h2, fun ls hl => ⟨h3 ls hl, Sourced.whole ?_⟩⟩
  have := sourced_segments (l := l) (cnt := cnt) segs h5 ls (by rw [h1]; exact hl)
  rw [h1] at this
  exact this

theorem run_mem {p : Char → Bool} {s r : Str} (h : r ∈ runs p s) (hr : isRunOf p r = true) : r ≠ [] ∧ ∀ c ∈ r, p c = true := by
  obtain ⟨b, _, hb⟩ := runs_isRuns p s
  obtain ⟨h1, b', h2⟩ := hb.mem r h
  have e := isRunOf_uniform h1 h2
  rw [hr] at e
  subst e
  exact ⟨h1, h2⟩

theorem number_whole {u : Unicode} {q : Str → Bool} {token : Str} {F : List Int → List Int} {f : Str → Res (Str × Aligner)}
    (h : ∀ s, NumberOp u q token F f s) {cnt : Char → Bool} {l : Int}
    (hs : ∀ (w : Str) (x : List Int), w ≠ [] → (∀ c ∈ w, numeric u c = true) → x.length = w.length →
      (F x).length = token.length ∧ Sourced l (marks cnt w x) (marks cnt token (F x))) :
    RunWhole cnt l (strOp f) := by
  refine segLaw_whole fun s => ⟨runs (numeric u) s, number_segLaw h s, fun a out ha => ?_, fun w hw hr x hx => ?_⟩
  · obtain ⟨a', h1, h2, _⟩ := (h s).run
    obtain ⟨_, e⟩ := det (f := f) ha h1
    subst e
    exact h2.input
  · rw [Bool.and_eq_true] at hr
    obtain ⟨w1, w2⟩ := run_mem hw hr.1
    exact hs w x w1 w2 hx

theorem merge_whole (σ : SetOrder) {cnt : Char → Bool} (hc : cnt ' ' = true → ∀ c, isSpace c = true → cnt c = true) (l : Int) :
    RunWhole cnt l (strOp (MergeWhiteSpaceCharacters.transform σ)) := by
  refine segLaw_whole fun s => ⟨runs isSpace s, merge_segLaw σ s, fun a out ha => ?_, fun w hw hr x hx => ?_⟩
  · obtain ⟨a', h1, h2, _⟩ := C21_merge σ s
    obtain ⟨_, e⟩ := det (f := MergeWhiteSpaceCharacters.transform σ) ha h1
    subst e
    exact h2.input
  · rw [Bool.and_eq_true] at hr
    obtain ⟨w1, w2⟩ := run_mem hw hr.1
    exact ⟨rfl, sourced_blank hx w1 fun h c hcw => hc h c (w2 c hcw)⟩

theorem strip_whole (σ : SetOrder) (cnt : Char → Bool) (l : Int) :
    RunWhole cnt l (strOp (StripWhiteSpaceCharacters.transform σ)) := by
  refine strOp_whole fun s => ?_
  obtain ⟨a, h1, h2, lead, trail, _, _, h3, _, h4, _⟩ := C22_strip σ s
  refine ⟨_, a, _, h1, h2.input, fun ls hl => ⟨h4 ls hl, Sourced.whole ?_⟩⟩
  have e : marks cnt (strip s) ((ls.drop lead).take (strip s).length) = ((marks cnt s ls).drop lead).take (strip s).length := by
    unfold marks
    conv => lhs; arg 2; arg 1; rw [← h3]
    rw [List.zip_eq_zipWith, ← List.take_zipWith, ← List.drop_zipWith, ← List.zip_eq_zipWith, List.map_take, List.map_drop]
  rw [e]
  exact .infix_ _ _ _ _

theorem stopwords_whole (σ : SetOrder) {cnt : Char → Bool} (hc : cnt ' ' = false) {l : Int} (h0 : l ≠ 0) :
    RunWhole cnt l (strOp (StopwordsToWhitespace.transform σ)) := by
  refine strOp_whole fun s => ?_
  obtain ⟨segs, hs, _⟩ := C23_segments s
  obtain ⟨a, h1, h2, h3, _⟩ := C23_stopwords σ s segs hs
  refine ⟨_, a, _, h1, h2.input, fun ls hl => ⟨h3 ls hl, Sourced.whole ?_⟩⟩
  have hf := segmented_flatten hs
  have := sourced_segments (l := l) (cnt := cnt) (rec := fun w => decide (w ∈ StopwordsToWhitespace.stopwords))
    (new := fun _ => [' ']) (F := fun _ _ => [0]) segs (fun w _ _ x _ => ⟨rfl, .unseen fun q hq => by
      cases List.mem_singleton.mp hq
      exact ⟨hc, fun e => h0 e.symm⟩⟩) ls (by rw [hf]; exact hl)
  rw [hf] at this
  rw [List.flatMap_def]
  simpa using this

theorem words_whole (σ : SetOrder) (ws : List Str) (t : Trie) (ht : Trie.ofUserWords ws = .ok t) (sh : Bool)
    {cnt : Char → Bool} (hc : cnt ' ' = false) {l : Int} (h0 : l ≠ 0) :
    RunWhole cnt l (strOp (AddWhitespaceAroundWordnZhChar.transform σ t sh)) := by
  refine strOp_whole fun s => ?_
  obtain ⟨a, segs, _, h1, h2, h3, h4, _⟩ := C38_spaces σ ws t ht sh s
  refine ⟨_, a, _, h2, h3.input, fun ls hl => ⟨h4 ls hl, Sourced.whole ?_⟩⟩
  have := sourced_segments (l := l) (cnt := cnt) (rec := spacedSeg ws)
    (new := fun w => [' '] ++ w ++ [' ']) (F := fun _ x => 0 :: x ++ [0]) segs (fun w _ _ x hx =>
      ⟨by simp [hx], sourced_spaced h0 hc hx.symm (.refl _ _)⟩) ls (by rw [h1]; exact hl)
  rw [h1] at this
  rw [List.flatMap_def]
  exact this

theorem tokens_whole {a : Aligner} {ps : List (Str × Str)} {tail : Str} {l : Int} (h0 : l ≠ 0) {cnt : Char → Bool}
    (hn : ∀ p ∈ ps, p.2 ≠ []) (hc : ∀ p ∈ ps, ∀ c ∈ p.2, cnt c = true) (ls : List Int)
    (hl : ls.length = (layout ps tail).length) (hw : Whole l (marks cnt (layout ps tail) ls)) :
    Whole l (allMarks ((tokenSegs ps ls).map tokenLabel)) := by
  by_cases hr : 0 < l ∧ l < 2 ^ 32
  · exact (sourced_tokens hr ps tail hn hc ls hl).whole hw
  · refine whole_absent fun q hq => ?_
    obtain ⟨v, hv, rfl⟩ := List.mem_map.mp hq
    obtain ⟨x, _, rfl⟩ := List.mem_map.mp hv
    intro e
    unfold tokenLabel at e
    split at e
    · rename_i hu
      rcases firstMode_from x with h | h
      · exact h0 (by rw [← e]; exact h)
      · have := hu _ h
        dsimp only at e
        rw [e] at this
        omega
    · exact h0 e.symm

theorem cutter_whole {own : Char → Bool} {f : Str → Res (List Str × Aligner)}
    (h : ∀ s, ∃ a ps tail, f s = .ok (ps.map Prod.snd, a) ∧ TokenizedBy own s ps tail ∧ TokenLabels a ps tail)
    {cnt : Char → Bool} (hc : ∀ c, isSpace c = false → cnt c = true) {l : Int} (h0 : l ≠ 0) : RunWhole cnt l (tokOp f) := by
  refine tokOp_whole fun s => ?_
  obtain ⟨a, ps, tail, h1, h2, h3⟩ := h s
  have e := h2.text
  subst e
  exact ⟨_, a, _, h1, h3.aligned.input, fun ls hl => ⟨h3.forward ls hl, tokens_whole (a := a) h0 h2.nonempty
    (fun p hp c hcp => hc c (h2.solid p hp c hcp)) ls hl⟩⟩

theorem custom_whole (σ : SetOrder) (ws : List Str) (t : Trie) (ht : Trie.ofUserWords ws = .ok t) (sh : Bool)
    {cnt : Char → Bool} (hc : ∀ c, cnt c = true) {l : Int} (h0 : l ≠ 0) :
    RunWhole cnt l (tokOp (CustomWordTokenizer.transform σ t sh)) := by
  refine tokOp_whole fun s => ?_
  obtain ⟨a, segs, h1, h2, h3, h4⟩ := C37_C42_custom σ ws t ht sh s
  have hlay : s = layout (segs.map fun t => (([] : Str), t)) [] := by
    rw [layout, List.append_nil, List.flatMap_map, ← h3]
    exact List.flatMap_id.symm
  rw [hlay]
  refine ⟨_, a, _, by rw [← hlay]; exact h1, h4.aligned.input, fun ls hl => ⟨h4.forward ls hl, tokens_whole (a := a) h0 ?_
    (fun p hp c _ => hc c) ls hl⟩⟩
  intro p hp
  obtain ⟨w, hw, rfl⟩ := List.mem_map.mp hp
  exact wordSegs_nonempty h2 w hw

theorem char_whole (σ : SetOrder) {cnt : Char → Bool} (hc : ∀ c, cnt c = true) {l : Int} (h0 : l ≠ 0) :
    RunWhole cnt l (tokOp (CharTokenizer.transform σ)) := by
  refine tokOp_whole fun s => ?_
  obtain ⟨a, h1, h2, _, h3, _⟩ := C41_char σ s
  refine ⟨_, a, _, h1, h2.input, fun ls hl => ⟨h3 ls hl, fun hw => ?_⟩⟩
  have e : cnt = fun _ => true := funext hc
  rw [e, marks_all hl] at hw
  by_cases hr : 0 ≤ l ∧ l < 2 ^ 32
  · refine Sourced.whole ?_ hw
    unfold allMarks
    rw [List.map_map]
    refine sourced_map _ _ _ fun v _ => ?_
    dsimp only [Function.comp]
    by_cases hv : 0 ≤ v ∧ v < 2 ^ 32
    · rw [if_pos hv]
      exact ⟨fun h => h, fun h1 h2 => ⟨h1, h2⟩⟩
    · rw [if_neg hv]
      exact ⟨fun h => absurd h.symm h0, fun h1 _ => ⟨h1, fun e => hv (by rw [e]; exact hr)⟩⟩
  · refine whole_absent fun q hq => ?_
    obtain ⟨v, hv, rfl⟩ := List.mem_map.mp hq
    obtain ⟨x, _, rfl⟩ := List.mem_map.mp hv
    dsimp only
    split
    · rename_i hx
      exact fun e => hr (by rw [← e]; exact hx)
    · exact fun e => h0 e.symm

theorem accent_whole (σ : SetOrder) (u : Unicode) {cnt : Char → Bool} (hc : ∀ c, cnt c = true) (l : Int) :
    RunWhole cnt l (strOp (StripAccentToken.transform σ u)) := by
  intro s t a ls ys hr ht hw
  cases s with
  | list l => cases hr
  | str s =>
    obtain ⟨⟨out, a'⟩, h1, h2⟩ := bind_eq_ok hr
    injection h2 with h2
    injection h2 with h2 h3
    subst h2; subst h3
    by_cases hl : ((u.nfd s).filter fun c => !u.isMn c).length = s.length
    · obtain ⟨b, g1, g2, g3⟩ := C27_transform σ u s hl
      obtain ⟨e1, e2⟩ := det (f := StripAccentToken.transform σ u) h1 g1
      subst e2
      have hls := (transform_input ht).trans g2.input
      cases (g3 ls hls).1.symm.trans ht
      have e : cnt = fun _ => true := funext hc
      rw [e] at hw ⊢
      simp only [seqMarks] at hw ⊢
      rw [marks_all hls] at hw
      rw [marks_all (by rw [e1, hl]; exact hls)]
      exact hw
    · rw [C27_length_change σ u s hl] at h1
      cases h1

theorem zero_ends {l : Int} (h0 : l ≠ 0) (n : Nat) : ∀ q ∈ allMarks (List.replicate n (0 : Int)), q.2 ≠ l := by
  intro q hq
  obtain ⟨v, hv, rfl⟩ := List.mem_map.mp hq
  rw [List.eq_of_mem_replicate hv]
  exact fun e => h0 e.symm

theorem allMarks_append (x y : List Int) : allMarks (x ++ y) = allMarks x ++ allMarks y := List.map_append

theorem replace_whole (σ : SetOrder) {m : Matcher} {b s : Str} (hs : SoundMatcher m s) {l : Int} (h0 : l ≠ 0)
    {out : Str} {a : Aligner} (h : ReplaceAwithB.transform σ m b s = .ok (out, a))
    (hm : SteadyMatcher m s) {ls ys : List Int} (ht : a.transform ls = .ok ys)
    (hw : Unbroken l ls) : Unbroken l ys := by
  obtain ⟨ms, hscan⟩ := patternTransform_scan h
  obtain ⟨a', h1, h2, h3, h4, _⟩ := C25_replace σ m b s hs ms hscan
  obtain ⟨e1, e2⟩ := det (f := ReplaceAwithB.transform σ m b) h h1
  subst e2
  have hl := (transform_input ht).trans h2
  cases (h4 ls hl).1.symm.trans ht
  rw [← whole_all] at hw ⊢
  obtain ⟨front, k, f1, f2⟩ := sourced_replace h0 hs (n := b.length) hl hscan (Nat.zero_le _) (scan_steady hm hscan).1
  rw [List.drop_zero] at f2
  rw [f1, allMarks_append]
  exact (f2.whole hw).before (zero_ends h0 k)

theorem sos_whole {cnt : Char → Bool} {σ : SetOrder} {sos eos : Tok} {l : Int} (h0 : l ≠ 0) :
    RunWhole cnt l (lstOp (AddSosEos.transform σ sos eos)) := by
  refine lstOp_whole fun s out a ls ys h ht hw => ?_
  have hlen : s.length < 2 ^ 32 := by
    unfold AddSosEos.transform at h
    obtain ⟨g, hg, _⟩ := bind_eq_ok h
    have := addAll_bounds σ _ g hg ((s.length : Int), (s.length : Int), [eos]) (by simp)
    dsimp only at this
    omega
  by_cases hs : s = []
  · subst hs
    have hk := sosEos_kept σ sos eos (fun _ => True) (.list []) (.list out) a (by
      show (AddSosEos.transform σ sos eos [] >>= _) = _
      rw [h]; rfl)
    have hls := List.length_eq_zero_iff.mp ((transform_input ht).trans hk.input)
    subst hls
    refine whole_absent fun q hq => ?_
    obtain ⟨v, hv, rfl⟩ := List.mem_map.mp hq
    rcases hk.honest.fwd _ _ ht v hv with e | e
    · subst e; exact fun e => h0 e.symm
    · cases e
  · obtain ⟨a', h1, h2, h3, _⟩ := C28_add_sos_eos σ sos eos s hs hlen
    obtain ⟨_, e⟩ := det (f := AddSosEos.transform σ sos eos) h h1
    subst e
    cases (h3 ls ((transform_input ht).trans h2.input)).symm.trans ht
    show Whole l (allMarks (List.replicate 1 0 ++ ls ++ List.replicate 1 0))
    rw [allMarks_append, allMarks_append]
    exact (hw.after (zero_ends h0 1)).before (zero_ends h0 1)

theorem end_whole {cnt : Char → Bool} {σ : SetOrder} {eos : Tok} {l : Int} (h0 : l ≠ 0) :
    RunWhole cnt l (lstOp (AddEndToken.transform σ eos)) := by
  refine lstOp_whole fun s out a ls ys h ht hw => ?_
  have hlen : s.length < 2 ^ 32 := by
    unfold AddEndToken.transform at h
    obtain ⟨g, hg, _⟩ := bind_eq_ok h
    have := addAll_bounds σ _ g hg ((s.length : Int), (s.length : Int), [eos]) (by simp)
    dsimp only at this
    omega
  obtain ⟨a', h1, h2, h3, _⟩ := C28_add_end_token σ eos s hlen
  obtain ⟨_, e⟩ := det (f := AddEndToken.transform σ eos) h h1
  subst e
  cases (h3 ls ((transform_input ht).trans h2.input)).symm.trans ht
  show Whole l (allMarks (ls ++ List.replicate 1 0))
  rw [allMarks_append]
  exact hw.before (zero_ends h0 1)

theorem pad_whole {cnt : Char → Bool} {σ : SetOrder} {n : Res Int} {pad : Tok} {l : Int} (h0 : l ≠ 0) :
    RunWhole cnt l (lstOp fun s => n >>= fun n => Pad.transform σ n pad s) := by
  refine lstOp_whole fun s out a ls ys h ht hw => ?_
  obtain ⟨n, _, h⟩ := bind_eq_ok h
  have hpos : 0 ≤ n := by
    rcases Int.lt_or_le n 0 with hn | hn
    · rw [C30_negative _ n pad s hn] at h
      cases h
    · exact hn
  obtain ⟨k, rfl⟩ := Int.eq_ofNat_of_zero_le hpos
  have hlen : s.length = k ∨ s.length < 2 ^ 32 := by
    rcases Nat.lt_or_ge s.length (2 ^ 32) with hlt | hge
    · exact Or.inr hlt
    · refine Or.inl (Classical.byContradiction fun hne => ?_)
      exact C30_too_long σ k pad s (by omega) hge _ h
  obtain ⟨a', h1, h2, h3, _⟩ := C30_pad σ k pad s hlen
  obtain ⟨_, e⟩ := det (f := Pad.transform σ k pad) h h1
  subst e
  cases (h3 ls ((transform_input ht).trans h2.input)).symm.trans ht
  rw [allMarks_append]
  refine Whole.before (zero_ends h0 _) ?_
  have := Sourced.infix_ l (allMarks ls) 0 k
  rw [List.drop_zero] at this
  have e : allMarks (ls.take k) = (allMarks ls).take k := List.map_take
  rw [e]
  exact this.whole hw

theorem null_whole {σ : SetOrder} {nv : Tok → Res (Option (List Tok))} {s out : List Tok} {a : Aligner}
    {mk : ReplacementGroup (List Tok) → Nat → Aligner} (hm : ∀ g n, ∃ i o, mk g n = Aligner.null i o)
    (h : tokenwiseTransform σ nv s mk = .ok (out, a)) {ls ys : List Int} (ht : a.transform ls = .ok ys) : ys = ls := by
  unfold tokenwiseTransform at h
  obtain ⟨g, _, h⟩ := bind_eq_ok h
  obtain ⟨g', _, h⟩ := bind_eq_ok h
  obtain ⟨o, _, h⟩ := bind_eq_ok h
  injection h with h
  injection h with _ h
  subst h
  obtain ⟨i, o, e⟩ := hm g' o.length
  have hf := Aligner.transform_fwd ht
  rw [e] at hf
  exact (Except.ok.inj hf).symm

theorem subwords_whole {σ : SetOrder} {has : Str → Bool} {unk : Str} {n : Int} {s out : List Tok} {a : Aligner} {l : Int}
    (h : SpanSubwords.transform σ has unk n s = .ok (out, a)) {ls ys : List Int} (ht : a.transform ls = .ok ys)
    (hw : Whole l (allMarks ls)) : Whole l (allMarks ys) := by
  rcases tok_strs s with ⟨i, hi⟩ | ⟨ws, rfl⟩
  · rw [spanSubwords_non_string σ has unk n s i hi] at h
    cases h
  · obtain ⟨a', h1, h2, _⟩ := C34_transform σ has unk n ws (fun s => (spanSubwords_ok has unk n s).choose)
      fun s _ => (spanSubwords_ok has unk n s).choose_spec.1
    obtain ⟨_, e⟩ := det (f := SpanSubwords.transform σ has unk n) h h1
    subst e
    have hk := spanSubwords_kept σ has unk n (fun _ => False) (fun _ h => h.elim)
      (.list (ws.map Tok.str)) (.list _) a (by
        show (SpanSubwords.transform σ has unk n _ >>= _) = _
        rw [h]; rfl)
    have hl := (transform_input ht).trans hk.input
    cases (h2 ls (by simpa [Seq.length] using hl)).symm.trans ht
    exact (sourced_flat (fun s => (spanSubwords_ok has unk n s).choose.length) ws ls).whole hw

/-- What the marks must satisfy for the operators that work on text and on lists of tokens. -/
structure Fair (u : Unicode) (cnt : Char → Bool) : Prop where
  lower : ∀ c, cnt (asciiLower c) = true → cnt c = true
  number : ∀ c, numeric u c = true → cnt c = true
  space : cnt ' ' = true → ∀ c, isSpace c = true → cnt c = true
  solid : ∀ c, isSpace c = false → cnt c = true

theorem loose_fair {u : Unicode} (hd : ∀ c, u.isDecimal c = true → isSpace c = false) : Fair u fun c => !isSpace c := by
  refine ⟨fun c h => ?_, fun c h => ?_, fun h => (by cases h), fun c h => by simpa using h⟩
  · rw [lower_space] at h
    exact h
  · unfold numeric digit at h
    simp only [Bool.or_eq_true] at h
    rcases h with h | h | h
    · have : c = '.' := by simpa using h
      subst this
      decide
    · simpa using hd c h
    · have : ∀ c ∈ "０１２３４５６７８９".toList, (!isSpace c) = true := by decide
      exact this c (by simpa using h)

theorem strict_fair (u : Unicode) : Fair u fun _ => true := ⟨fun _ _ => rfl, fun _ _ => rfl, fun _ _ _ => rfl, fun _ _ => rfl⟩

/-- Both in `looseNames` and in `strictNames`. -/
def bothNames : List String :=
  ["Lowercase", "IntToken", "FloatToken", "MergeWhiteSpaceCharacters", "StripWhiteSpaceCharacters", "WhiteSpaceTokenizer",
   "EngTokenizer", "ZhCharTokenizer", "AddSosEos", "AddEndToken", "Pad", "Token2Index", "Token2IndexwithHash",
   "PureNum2Token", "SpanSubwords"]

theorem both_whole (env : Env) (he : env.Sane) {cnt : Char → Bool} (hc : Fair env.u cnt) (name : String) (op : Op)
    (h : Made env name op) (hn : name ∈ bothNames) {l : Int} (h0 : l ≠ 0) : RunWhole cnt l op.run := by
  unfold bothNames at hn
  simp only [List.mem_cons, List.not_mem_nil, or_false] at hn
  rcases hn with rfl | rfl | rfl | rfl | rfl | rfl | rfl | rfl | rfl | rfl | rfl | rfl | rfl | rfl | rfl
  · rw [made_simple rfl h]; exact lower_whole env.σ hc.lower l
  · rw [made_simple rfl h]
    exact number_whole (C18_C19_int_token env.σ env.u) fun w x h1 h2 h3 =>
      ⟨List.length_replicate .., sourced_mode h3 h1 (fun c hcw => hc.number c (h2 c hcw)) 5⟩
  · rw [made_simple rfl h]
    exact number_whole (C18_C19_float_token env.σ env.u he.dot) fun w x h1 h2 h3 =>
      ⟨List.length_replicate .., sourced_mode h3 h1 (fun c hcw => hc.number c (h2 c hcw)) 7⟩
  · rw [made_simple rfl h]; exact merge_whole env.σ hc.space l
  · rw [made_simple rfl h]; exact strip_whole env.σ cnt l
  · rw [made_simple rfl h]; exact cutter_whole (C39_C42_whitespace env.σ) hc.solid h0
  · rw [made_simple rfl h]; exact cutter_whole (C40_C42_eng env.σ env.u) hc.solid h0
  · rw [made_simple rfl h]; exact cutter_whole (C40_C42_zh env.σ env.u) hc.solid h0
  · obtain ⟨_, vals, h⟩ := made_any (c := Builtin.sosEos env) rfl h
    unfold Builtin.sosEos at h
    dsimp only at h
    unfold Builtin.sosEosInit at h
    split at h
    · obtain ⟨s, _, h⟩ := bind_eq_ok h
      obtain ⟨e, _, h⟩ := bind_eq_ok h
      injection h with h
      rw [← h]
      exact sos_whole h0
    · cases h
  · obtain ⟨_, vals, h⟩ := made_any (c := Builtin.endTok env) rfl h
    unfold Builtin.endTok at h
    dsimp only at h
    unfold Builtin.endTokInit at h
    split at h
    · cases h
    · obtain ⟨e, _, h⟩ := bind_eq_ok h
      obtain ⟨e', _, h⟩ := bind_eq_ok h
      injection h with h
      rw [← h]
      exact end_whole h0
    · cases h
  · obtain ⟨_, vals, h⟩ := made_any (c := Builtin.pad env) rfl h
    unfold Builtin.pad at h
    dsimp only at h
    unfold Builtin.padInit at h
    split at h
    · obtain ⟨t, _, h⟩ := bind_eq_ok h
      injection h with h
      rw [← h]
      exact pad_whole h0
    · cases h
  · obtain ⟨_, vals, h⟩ := made_any (c := Builtin.token2index env) rfl h
    unfold Builtin.token2index at h
    dsimp only at h
    unfold Builtin.token2indexInit at h
    split at h
    · obtain ⟨d, _, h⟩ := bind_eq_ok h
      split at h
      · obtain ⟨_, _, h⟩ := bind_eq_ok h
        injection h with h
        rw [← h]
        refine lstOp_whole fun s out a ls ys h ht hw => ?_
        rw [null_whole (fun g n => ⟨_, _, rfl⟩) h ht]
        exact hw
      · obtain ⟨_, _, h⟩ := bind_eq_ok h
        split at h <;> cases h
    · cases h
  · obtain ⟨_, vals, h⟩ := made_any (c := Builtin.token2indexHash env) rfl h
    unfold Builtin.token2indexHash at h
    dsimp only at h
    unfold Builtin.token2indexHashInit at h
    split at h
    · obtain ⟨d, _, h⟩ := bind_eq_ok h
      obtain ⟨_, _, h⟩ := bind_eq_ok h
      injection h with h
      rw [← h]
      refine lstOp_whole fun s out a ls ys h ht hw => ?_
      rw [null_whole (fun g n => ⟨_, _, rfl⟩) h ht]
      exact hw
    · cases h
  · have hnum : ∀ token, RunWhole cnt l (lstOp (PureNum2Token.transform env.σ env.u token)) := by
      intro token
      refine lstOp_whole fun s out a ls ys h ht hw => ?_
      rw [null_whole (fun g n => ⟨_, _, rfl⟩) h ht]
      exact hw
    obtain ⟨_, vals, h⟩ := made_any (c := Builtin.pureNum env) rfl h
    unfold Builtin.pureNum at h
    dsimp only at h
    unfold Builtin.pureNumInit at h
    split at h
    · injection h with h
      rw [← h]
      exact hnum _
    · obtain ⟨t, _, h⟩ := bind_eq_ok h
      injection h with h
      rw [← h]
      exact hnum _
    · cases h
  · obtain ⟨_, vals, h⟩ := made_any (c := Builtin.spanSubwords env) rfl h
    unfold Builtin.spanSubwords at h
    dsimp only at h
    unfold Builtin.spanSubwordsInit at h
    split at h
    · obtain ⟨unk, _, h⟩ := bind_eq_ok h
      injection h with h
      rw [← h]
      refine lstOp_whole fun s out a ls ys h ht hw => ?_
      obtain ⟨has, n, h, _⟩ := spanSubwordsRun_ok h
      exact subwords_whole h ht hw
    · cases h

theorem loose_whole (env : Env) (he : env.Sane) (hd : ∀ c, env.u.isDecimal c = true → isSpace c = false) (name : String)
    (op : Op) (h : Made env name op) (hn : name ∈ looseNames) {l : Int} (h0 : l ≠ 0) :
    RunWhole (fun c => !isSpace c) l op.run := by
  by_cases hb : name ∈ bothNames
  · exact both_whole env he (loose_fair hd) name op h hb h0
  have hsp : (fun c => !isSpace c) ' ' = false := by decide
  have hnum : ∀ (tok : Str) (n : Nat), tok.length = n → ∀ (w : Str) (x : List Int), w ≠ [] → (∀ c ∈ w, numeric env.u c = true) →
      x.length = w.length → ([0] ++ List.replicate n (firstMode x) ++ [0]).length = ([' '] ++ tok ++ [' ']).length ∧
        Sourced l (marks (fun c => !isSpace c) w x)
          (marks (fun c => !isSpace c) ([' '] ++ tok ++ [' ']) ([0] ++ List.replicate n (firstMode x) ++ [0])) := by
    intro tok n ht w x h1 h2 h3
    refine ⟨by simp [ht], sourced_spaced h0 hsp (by simp [ht]) ?_⟩
    exact sourced_mode h3 h1 (fun c hcw => (loose_fair hd).number c (h2 c hcw)) n
  unfold looseNames at hn
  unfold bothNames at hb
  simp only [List.mem_cons, List.not_mem_nil, or_false, not_or] at hn hb
  obtain ⟨b1, b2, b3, b4, b5, b6, b7, b8, b9, b10, b11, b12, b13, b14, b15⟩ := hb
  rcases hn with e | rfl | rfl | rfl | rfl | e | e | rfl | rfl | rfl | e | e | rfl | e | e | e | e | e | e | e | e | e | e
  · exact absurd e b1
  · rw [made_simple rfl h]; exact around_whole _ _ hsp h0
  · rw [made_simple rfl h]; exact around_whole _ _ hsp h0
  · obtain ⟨_, vals, h⟩ := made_any (c := Builtin.aroundWord env) rfl h
    unfold Builtin.aroundWord at h
    dsimp only at h
    unfold Builtin.aroundWordInit at h
    split at h
    · obtain ⟨t, ht, h⟩ := bind_eq_ok h
      obtain ⟨ws, hw⟩ := userWords_ok ht
      injection h with h
      rw [← h]
      exact words_whole env.σ ws t hw _ hsp h0
    · cases h
  · rw [made_simple rfl h]; exact blank_whole _ _ hsp h0
  · exact absurd e b2
  · exact absurd e b3
  · rw [made_simple rfl h]
    exact number_whole (C18_C19_int_token_with_space env.σ env.u) (hnum "_int_".toList 5 rfl)
  · rw [made_simple rfl h]
    exact number_whole (C18_C19_float_token_with_space env.σ env.u he.dot) (hnum "_float_".toList 7 rfl)
  · rw [made_simple rfl h]
    exact number_whole (C18_C19_num_token_with_space env.σ env.u) (hnum "_num_".toList 5 rfl)
  · exact absurd e b4
  · exact absurd e b5
  · rw [made_simple rfl h]; exact stopwords_whole _ hsp h0
  all_goals
    first
    | exact absurd e b6
    | exact absurd e b7
    | exact absurd e b8
    | exact absurd e b9
    | exact absurd e b10
    | exact absurd e b11
    | exact absurd e b12
    | exact absurd e b13
    | exact absurd e b14
    | exact absurd e b15

theorem strict_whole (env : Env) (he : env.Sane) (name : String) (op : Op) (h : Made env name op) (hn : name ∈ strictNames)
    {l : Int} (h0 : l ≠ 0) : RunWhole (fun _ => true) l op.run := by
  by_cases hb : name ∈ bothNames
  · exact both_whole env he (strict_fair _) name op h hb h0
  unfold strictNames at hn
  unfold bothNames at hb
  simp only [List.mem_cons, List.not_mem_nil, or_false, not_or] at hn hb
  obtain ⟨b1, b2, b3, b4, b5, b6, b7, b8, b9, b10, b11, b12, b13, b14, b15⟩ := hb
  rcases hn with e | rfl | e | e | e | e | rfl | rfl | e | e | e | e | e | e | e | e | e | e
  · exact absurd e b1
  · rw [made_simple rfl h]; exact accent_whole _ _ (fun _ => rfl) l
  · exact absurd e b2
  · exact absurd e b3
  · exact absurd e b4
  · exact absurd e b5
  · rw [made_simple rfl h]; exact char_whole _ (fun _ => rfl) h0
  · obtain ⟨_, vals, h⟩ := made_any (c := Builtin.customTok env) rfl h
    unfold Builtin.customTok at h
    dsimp only at h
    unfold Builtin.customTokInit at h
    split at h
    · obtain ⟨t, ht, h⟩ := bind_eq_ok h
      obtain ⟨ws, hw⟩ := userWords_ok ht
      injection h with h
      rw [← h]
      exact custom_whole env.σ ws t hw _ (fun _ => rfl) h0
    · cases h
  all_goals
    first
    | exact absurd e b6
    | exact absurd e b7
    | exact absurd e b8
    | exact absurd e b9
    | exact absurd e b10
    | exact absurd e b11
    | exact absurd e b12
    | exact absurd e b13
    | exact absurd e b14
    | exact absurd e b15

theorem oneOf_made {env : Env} {names : List String} {op : Op} (h : OneOf env names op) :
    (∃ name ∈ names, Made env name op) ∧ IsBuiltin env op := by
  obtain ⟨name, hn, args, kwargs, h1, h2⟩ := h
  refine ⟨⟨name, hn, args, kwargs, h1⟩, ?_⟩
  unfold create at h1
  obtain ⟨c, hc, h1⟩ := bind_eq_ok h1
  exact ⟨c, (registry_get hc).1, args, kwargs, h2, h1⟩

theorem oneOf_lengths {env : Env} (he : env.Sane) {names : List String} {op : Op} (h : OneOf env names op) {s t : Seq}
    {a : Aligner} (hr : op.transform s = .ok (t, a)) {ls ys : List Int} (ht : a.transform ls = .ok ys) :
    ls.length = s.length ∧ ys.length = t.length := by
  obtain ⟨c, hc, args, kwargs, hk, hop⟩ := (oneOf_made h).2
  have hk := builtin_kept env he c hc args kwargs hk op hop s t a (transform_run hr)
  exact ⟨(transform_input ht).trans hk.input, (transform_length ht).trans hk.output⟩

theorem whole_onePiece {l : Int} {s : Seq} {ls : List Int} (h : ls.length = s.length) :
    Whole l (seqMarks (fun c => !isSpace c) s ls) ↔ OnePiece l s ls := by
  cases s with
  | str s => exact whole_text h
  | list t => exact whole_all.trans onePiece_list.symm

theorem whole_unbroken {l : Int} {s : Seq} {ls : List Int} (h : ls.length = s.length) :
    Whole l (seqMarks (fun _ => true) s ls) ↔ Unbroken l ls := by
  cases s with
  | str s => exact whole_strict h
  | list t => exact whole_all

/-- C102: what carries a label other than 0 is in one piece after these operators if it was before: all that is not white
space between two places with the label has it as well. -/
theorem C102_operator (env : Env) (he : env.Sane) (hd : ∀ c, env.u.isDecimal c = true → isSpace c = false) (op : Op)
    (hop : OneOf env looseNames op) (s t : Seq) (a : Aligner) (h : op.transform s = .ok (t, a)) (ls ys : List Int)
    (ht : a.transform ls = .ok ys) (l : Int) (h0 : l ≠ 0) (hl : OnePiece l s ls) : OnePiece l t ys := by
  obtain ⟨e1, e2⟩ := oneOf_lengths he hop h ht
  obtain ⟨name, hn, hm⟩ := (oneOf_made hop).1
  exact (whole_onePiece e2).mp (loose_whole env he hd name op hm hn h0 s t a ls ys (transform_run h) ht
    ((whole_onePiece e1).mpr hl))

/-- C102: these operators put nothing in between at all: consecutive places with the label stay consecutive. -/
theorem C102_strict (env : Env) (he : env.Sane) (op : Op) (hop : OneOf env strictNames op) (s t : Seq) (a : Aligner)
    (h : op.transform s = .ok (t, a)) (ls ys : List Int) (ht : a.transform ls = .ok ys) (l : Int) (h0 : l ≠ 0)
    (hl : Unbroken l ls) : Unbroken l ys := by
  obtain ⟨e1, e2⟩ := oneOf_lengths he hop h ht
  obtain ⟨name, hn, hm⟩ := (oneOf_made hop).1
  exact (whole_unbroken e2).mp (strict_whole env he name op hm hn h0 s t a ls ys (transform_run h) ht
    ((whole_unbroken e1).mpr hl))

/-- C102: the searches of regular expressions find a match also from its own beginning. -/
theorem C102_steady (r : Re) (s : Str) : SteadyMatcher r.search s := by
  intro pos i j hp h
  obtain ⟨x, y, n, h1, h2, h3, h4, _⟩ := searchFrom_some r _ _ i j h
  have hs : s = (s.take pos ++ x) ++ y := by rw [List.append_assoc, ← h1, List.take_append_drop]
  have hi : i = (s.take pos ++ x).length := by rw [h2]; simp
  rw [hi] at h3 ⊢
  have := search_append r (s.take pos ++ x) y
  rw [← hs] at this
  rw [this, searchFrom_here r _ _ n (by rw [List.reverse_append]; exact h4), List.length_reverse, h3]

/-- C102: nor does `ReplaceAwithB(a, b)`, even if `a` matches empty texts: then it ends only if it does so at the end. -/
theorem C102_replace (env : Env) (he : env.Sane) (p b : Str) (m : Matcher) (hm : env.compile p = some m) (op : Op)
    (hop : create env "ReplaceAwithB" [.str p, .str b] [] = .ok op) (s : Str) (t : Seq) (a : Aligner)
    (h : op.transform (.str s) = .ok (t, a)) (hst : SteadyMatcher m s) (ls ys : List Int)
    (ht : a.transform ls = .ok ys) (l : Int) (h0 : l ≠ 0) (hl : Unbroken l ls) : Unbroken l ys := by
  obtain ⟨hc, hi⟩ := create_init (c := Builtin.replace env) (vals := [.str p, .str b]) rfl hop rfl
  have hi : Builtin.replaceInit env [.str p, .str b] = .ok op.run := hi
  simp only [Builtin.replaceInit, PyVal.asStr, hm, Except.bind_ok] at hi
  have hr := transform_run h
  rw [← Except.ok.inj hi] at hr
  obtain ⟨⟨out, a'⟩, h1, h2⟩ := bind_eq_ok (show (ReplaceAwithB.transform env.σ m b s >>= _) = _ from hr)
  injection h2 with h2
  injection h2 with h2 h3
  subst h3
  exact replace_whole env.σ (he.sound p m hm s) h0 h1 hst ht hl

/-- C102: one piece in a list of labels is an interval of it. -/
theorem C102_interval (l : Int) (ls : List Int) :
    Unbroken l ls ↔ ∃ i n : Nat, ∀ j : Nat, ls[j]? = some l ↔ i ≤ j ∧ j < i + n := by
  constructor
  · intro h
    by_cases hex : ∃ j : Nat, ls[j]? = some l
    · have hmin := Nat.find_spec hex
      have hlt : ∀ j : Nat, ls[j]? = some l → Nat.find hex ≤ j := fun j hj => Nat.find_min' hex hj
      generalize Nat.find hex = i at hmin hlt
      have hbound : ∀ j : Nat, ls[j]? = some l → j < ls.length := fun j hj => (List.getElem?_eq_some_iff.mp hj).1
      have hmax : ∃ k : Nat, ls[k]? = some l ∧ ∀ j : Nat, ls[j]? = some l → j ≤ k := by
        by_contra hn
        have : ∀ d : Nat, ∃ k : Nat, i + d ≤ k ∧ ls[k]? = some l := by
          intro d
          induction d with
          | zero => exact ⟨i, Nat.le_refl _, hmin⟩
          | succ d ih =>
            obtain ⟨k, hk, hk2⟩ := ih
            by_contra hno
            refine hn ⟨k, hk2, fun j hj => ?_⟩
            by_contra hgt
            exact hno ⟨j, by omega, hj⟩
        obtain ⟨k, hk, hk2⟩ := this ls.length
        have := hbound k hk2
        omega
      obtain ⟨k, hk, hk2⟩ := hmax
      refine ⟨i, k + 1 - i, fun j => ⟨fun hj => ?_, fun hj => ?_⟩⟩
      · have := hlt j hj
        have := hk2 j hj
        omega
      · have hik := hlt k hk
        rcases Nat.lt_or_eq_of_le hj.1 with h1 | h1
        · rcases Nat.lt_or_eq_of_le (show j ≤ k by omega) with h2 | h2
          · exact h i j k h1 h2 hmin hk
          · rw [h2]; exact hk
        · rw [← h1]; exact hmin
    · exact ⟨0, 0, fun j => ⟨fun hj => absurd ⟨j, hj⟩ hex, fun hj => by omega⟩⟩
  · rintro ⟨i, n, h⟩ a b c hab hbc ha hc
    rw [h] at ha hc ⊢
    omega

/-! ### pipes -/

theorem runs_onePiece {env : Env} (he : env.Sane) (hd : ∀ c, env.u.isDecimal c = true → isSpace c = false) {ops : List Op}
    {s : Seq} {rs : List (Seq × Aligner)} (h : Runs ops s rs) (ho : ∀ op ∈ ops, OneOf env looseNames op) {l : Int}
    (h0 : l ≠ 0) : ∀ ls ys, alignAll (rs.map Prod.snd) ls = .ok ys → OnePiece l s ls → OnePiece l (finalOf s rs) ys := by
  induction h with
  | nil s =>
    intro ls ys ha hl
    cases ha
    exact hl
  | @cons op ops s t a rs h1 h2 ih =>
    intro ls ys ha hl
    obtain ⟨ms, m1, m2⟩ := bind_eq_ok (show (a.transform ls >>= fun ms => alignAll (rs.map Prod.snd) ms) = .ok ys from ha)
    have := ih (fun o hm => ho o (by simp [hm])) ms ys m2
      (C102_operator env he hd op (ho op (by simp)) s t a h1 ls ms m1 l h0 hl)
    rw [finalOf_cons]
    exact this

theorem step_unbroken {env : Env} (he : env.Sane) {op : Op} (ho : OneOf env strictNames op ∨ Replacer env op) {s t : Seq}
    {a : Aligner} (h : op.transform s = .ok (t, a)) {ls ys : List Int} (ht : a.transform ls = .ok ys) {l : Int} (h0 : l ≠ 0)
    (hl : Unbroken l ls) : Unbroken l ys := by
  rcases ho with ho | ⟨p, b, m, hm, hne, hop⟩
  · exact C102_strict env he op ho s t a h ls ys ht l h0 hl
  · cases s with
    | str s =>
      exact C102_replace env he p b m hm op hop s t a h (hne s) ls ys ht l h0 hl
    | list k =>
      obtain ⟨hc, hi⟩ := create_init (c := Builtin.replace env) (vals := [.str p, .str b]) rfl hop rfl
      have hi : Builtin.replaceInit env [.str p, .str b] = .ok op.run := hi
      simp only [Builtin.replaceInit, PyVal.asStr, hm, Except.bind_ok] at hi
      have hr := transform_run h
      rw [← Except.ok.inj hi] at hr
      cases hr

theorem runs_mixed {env : Env} (he : env.Sane) (hd : ∀ c, env.u.isDecimal c = true → isSpace c = false)
    {first rest : List Op} (hf : ∀ op ∈ first, OneOf env strictNames op ∨ Replacer env op)
    (hr : ∀ op ∈ rest, OneOf env looseNames op) {l : Int} (h0 : l ≠ 0) (s : Seq) (rs : List (Seq × Aligner))
    (h : Runs (first ++ rest) s rs) (ls ys : List Int) (ha : alignAll (rs.map Prod.snd) ls = .ok ys) (hl : Unbroken l ls) :
    OnePiece l (finalOf s rs) ys := by
  induction first generalizing s rs ls with
  | nil => exact runs_onePiece he hd h hr h0 ls ys ha (hl.onePiece s)
  | cons op first ih =>
    cases h with
    | @cons _ _ _ t a rs h1 h2 =>
      obtain ⟨ms, m1, m2⟩ := bind_eq_ok (show (a.transform ls >>= fun ms => alignAll (rs.map Prod.snd) ms) = .ok ys from ha)
      rw [finalOf_cons]
      exact ih (fun o hm => hf o (by simp [hm])) t rs h2 ms m2 (step_unbroken he (hf op (by simp)) h1 m1 h0 hl)

/-- C102: through a pipe with operators of the second kind first and then those of the first kind, labels in consecutive
places end in one piece; if the output is a list, in consecutive places again. -/
theorem C102_pipe (env : Env) (he : env.Sane) (hd : ∀ c, env.u.isDecimal c = true → isSpace c = false) (p : Pipe)
    (first rest : List Op) (hp : p.steps = first ++ rest) (hf : ∀ op ∈ first, OneOf env strictNames op ∨ Replacer env op)
    (hr : ∀ op ∈ rest, OneOf env looseNames op) (s o : Seq) (as : List Aligner) (coll : List Seq)
    (h : p.transformSequence s = .ok (o, as, coll)) (ls ys : List Int) (ha : alignAll as ls = .ok ys) (l : Int) (h0 : l ≠ 0)
    (hl : Unbroken l ls) : OnePiece l o ys ∧ ∀ ts, o = .list ts → Unbroken l ys := by
  obtain ⟨rs, r1, r2, r3, _⟩ := (C58_composition p s o as coll).mp h
  rw [hp] at r1
  rw [r3] at ha
  have := runs_mixed he hd hf hr h0 s rs r1 ls ys ha hl
  rw [← r2] at this
  refine ⟨this, fun ts e => ?_⟩
  subst e
  exact onePiece_list.mp this

/-- C102: so what stands for an entity in the output of `Pipe.transform` is in one piece, if no other entity of the datum has
its label; in a list of tokens it is an interval. -/
theorem C102_datum (env : Env) (he : env.Sane) (hd : ∀ c, env.u.isDecimal c = true → isSpace c = false) (p : Pipe)
    (first rest : List Op) (hp : p.steps = first ++ rest) (hf : ∀ op ∈ first, OneOf env strictNames op ∨ Replacer env op)
    (hr : ∀ op ∈ rest, OneOf env looseNames op) (u : Str) (is : List Intent) (es : List Entity) (d : Datum)
    (hn : Datum.new u (some is) (some es) = .ok d) (hw : ∀ e ∈ es, WithinUtterance u e) (t : Transformed)
    (ht : p.transform d = .ok t) (e : Entity) (h0 : e.label ≠ 0) (hu : ∀ x ∈ es, x.label = e.label → x = e) :
    OnePiece e.label t.output t.entityLabels ∧
      ∀ ts, t.output = .list ts → ∃ i n : Nat, ∀ j : Nat, t.entityLabels[j]? = some e.label ↔ i ≤ j ∧ j < i + n := by
  obtain ⟨l0, u1, u2, u3⟩ := C45_labels u is es d hn hw
  unfold Pipe.transform at ht
  rw [u1] at ht
  simp only [Except.bind_ok] at ht
  obtain ⟨⟨o, as, coll⟩, q1, q2⟩ := bind_eq_ok ht
  obtain ⟨ys, y1, y2⟩ := bind_eq_ok q2
  injection y2 with y2
  subst y2
  have hl0 : Unbroken e.label l0 := by
    have key : ∀ j : Nat, l0[j]? = some e.label → e.start ≤ j ∧ (j : Int) < e.stop ∧ e ∈ es := by
      intro j hj
      have hlt : j < u.length := by rw [← u2]; exact (List.getElem?_eq_some_iff.mp hj).1
      by_cases hc : ∃ x ∈ es, x.start ≤ j ∧ (j : Int) < x.stop
      · obtain ⟨x, x1, x2, x3⟩ := hc
        have := (u3 j hlt).1 x x1 x2 x3
        rw [hj] at this
        have e' := hu x x1 (Option.some.inj this).symm
        subst e'
        exact ⟨x2, x3, x1⟩
      · have := (u3 j hlt).2 fun x x1 x2 => hc ⟨x, x1, x2⟩
        rw [hj] at this
        exact absurd (Option.some.inj this) h0
    intro i j k hij hjk hi hk
    obtain ⟨i1, _, i3⟩ := key i hi
    obtain ⟨_, k2, _⟩ := key k hk
    have hlt : k < u.length := by rw [← u2]; exact (List.getElem?_eq_some_iff.mp hk).1
    exact (u3 j (by omega)).1 e i3 (by omega) (by omega)
  obtain ⟨g1, g2⟩ := C102_pipe env he hd p first rest hp hf hr _ o as coll q1 l0 ys y1 e.label h0 hl0
  exact ⟨g1, fun ts hts => (C102_interval _ _).mp (g2 ts hts)⟩

/-! ### Where entities are torn, concrete cases -/

/-- `AddWhitespaceAroundPunctuation()`. -/
def exAround : Op := ⟨Builtin.aroundPunctuation exEnv, [], strOp (AddWhitespaceAroundPunctuation.transform exEnv.σ exEnv.u)⟩

/-- `CharTokenizer()`. -/
def exLetters : Op := ⟨Builtin.charTok exEnv, [], tokOp (CharTokenizer.transform exEnv.σ)⟩

/-- `WhiteSpaceTokenizer()`. -/
def exSplit : Op := ⟨Builtin.wsTok exEnv, [], tokOp (WhiteSpaceTokenizer.transform exEnv.σ)⟩

theorem exAround_run : ∃ a, exAround.transform (.str "a-b".toList) = .ok (.str "a - b".toList, a) ∧
    a.transform [7, 7, 7] = .ok [7, 0, 7, 0, 7] := by
  obtain ⟨a, h1, _, h2, _⟩ := C17_around exEnv.σ (isPunctuation exEnv.u) "a-b".toList
  have e : ("a-b".toList.flatMap fun c => if isPunctuation exEnv.u c then [' ', c, ' '] else [c]) = "a - b".toList := by decide
  rw [e] at h1
  refine ⟨a, ?_, ?_⟩
  · show ((AddWhitespaceAroundPunctuation.transform exEnv.σ exEnv.u "a-b".toList >>= _) >>= _) = _
    unfold AddWhitespaceAroundPunctuation.transform
    rw [h1]
    rfl
  · rw [h2 [7, 7, 7] rfl]
    decide

theorem exLetters_run : ∃ a, exLetters.transform (.str "a - b".toList) = .ok (.list ("a - b".toList.map fun c => .str [c]), a) ∧
    a.transform [7, 0, 7, 0, 7] = .ok [7, 0, 7, 0, 7] := by
  obtain ⟨a, h1, _, _, h2, _⟩ := C41_char exEnv.σ "a - b".toList
  refine ⟨a, ?_, ?_⟩
  · show ((CharTokenizer.transform exEnv.σ "a - b".toList >>= _) >>= _) = _
    rw [h1]
    rfl
  · rw [h2 [7, 0, 7, 0, 7] rfl]
    decide

theorem exSplit_run : ∃ a, exSplit.transform (.str "a - b".toList) =
      .ok (.list [.str "a".toList, .str "-".toList, .str "b".toList], a) ∧ a.transform [7, 0, 7, 0, 7] = .ok [7, 7, 7] := by
  obtain ⟨a, ps, tail, h1, h2, h3⟩ := C39_C42_whitespace exEnv.σ "a - b".toList
  have hT : TokenizedBy (fun _ => false) "a - b".toList [([], "a".toList), ([' '], "-".toList), ([' '], "b".toList)] [] := by
    refine ⟨by decide, by decide, by decide, by decide, by decide, by decide, ?_⟩
    refine ⟨fun h => ?_, fun h => ?_, trivial⟩ <;> cases h
  obtain ⟨e1, e2⟩ := C40_cuts_unique _ _ _ _ _ _ h2 hT
  subst e1; subst e2
  refine ⟨a, ?_, ?_⟩
  · show ((WhiteSpaceTokenizer.transform exEnv.σ "a - b".toList >>= _) >>= _) = _
    rw [h1]
    rfl
  · rw [h3.forward [7, 0, 7, 0, 7] rfl]
    decide

/-- A datum whose only entity is its utterance. -/
def exDashed : Datum := ⟨"a-b".toList, [⟨1⟩], [⟨7, "a-b".toList, 0, 3, []⟩]⟩

theorem exDashed_pipe {op : Op} {o : Seq} {a' : Aligner} {ys : List Int} (h : op.transform (.str "a - b".toList) = .ok (o, a'))
    (h' : a'.transform [7, 0, 7, 0, 7] = .ok ys) : ∃ t, (⟨[exAround, op], []⟩ : Pipe).transform exDashed = .ok t ∧
      t.output = o ∧ t.entityLabels = ys := by
  obtain ⟨a, h1, h2⟩ := exAround_run
  have hu : unpackDatum exDashed = .ok ("a-b".toList, [1], [7, 7, 7]) := rfl
  have hr : (⟨[exAround, op], []⟩ : Pipe).transformSequence (.str "a-b".toList) =
      .ok (o, [a, a'], [.str "a-b".toList, .str "a - b".toList, o]) := by
    refine (C58_composition _ _ _ _ _).mpr ⟨[(.str "a - b".toList, a), (o, a')], ?_, rfl, rfl, rfl⟩
    exact .cons h1 (.cons h (.nil _))
  have ha : alignAll [a, a'] [7, 7, 7] = .ok ys := by
    show (a.transform [7, 7, 7] >>= fun m => a'.transform m >>= fun m => .ok m) = _
    rw [h2, Except.bind_ok, h']
    rfl
  unfold Pipe.transform
  rw [hu, Except.bind_ok]
  dsimp only
  rw [hr, Except.bind_ok]
  dsimp only
  rw [ha]
  exact ⟨_, rfl, rfl, rfl⟩

/-- C102: `CharTokenizer` after an operator that adds white space tears the entity "a-b" into three pieces. -/
theorem C102_torn : ∃ t, (⟨[exAround, exLetters], []⟩ : Pipe).transform exDashed = .ok t ∧
    t.output = .list ("a - b".toList.map fun c => .str [c]) ∧ t.entityLabels = [7, 0, 7, 0, 7] ∧
    ¬ OnePiece 7 t.output t.entityLabels := by
  obtain ⟨a, h1, h2⟩ := exLetters_run
  obtain ⟨t, t1, t2, t3⟩ := exDashed_pipe h1 h2
  refine ⟨t, t1, t2, t3, fun h => ?_⟩
  rw [t2, t3] at h
  exact absurd (h 0 1 2 (by decide) (by decide) rfl rfl trivial) (by decide)

theorem exAround_loose : OneOf exEnv looseNames exAround := ⟨"AddWhitespaceAroundPunctuation", by decide, [], [], rfl, by decide⟩

theorem exSplit_loose : OneOf exEnv looseNames exSplit := ⟨"WhiteSpaceTokenizer", by decide, [], [], rfl, by decide⟩

theorem exLetters_strict : OneOf exEnv strictNames exLetters := ⟨"CharTokenizer", by decide, [], [], rfl, by decide⟩

theorem exEnv_digits : ∀ c, exEnv.u.isDecimal c = true → isSpace c = false := by
  intro c h
  have h : (48 ≤ c.toNat && c.toNat ≤ 57) = true := h
  simp only [Bool.and_eq_true, decide_eq_true_eq] at h
  rw [Bool.eq_false_iff]
  intro hs
  have := (C39_white_space c).mp hs
  simp only [whiteSpaceCodes, List.mem_cons, List.not_mem_nil, or_false] at this
  omega

theorem unbroken_all {l : Int} {ls : List Int} (h : ∀ x ∈ ls, x = l) : Unbroken l ls := by
  intro i j k _ hjk _ hk
  have hlt : j < ls.length := by have := (List.getElem?_eq_some_iff.mp hk).1; omega
  rw [List.getElem?_eq_getElem hlt, h _ (List.getElem_mem hlt)]

/-- A concrete case of `C102_operator`: white space is put into the entity, and it still is in one piece. -/
example : ∃ a, exAround.transform (.str "a-b".toList) = .ok (.str "a - b".toList, a) ∧
    a.transform [7, 7, 7] = .ok [7, 0, 7, 0, 7] ∧ OnePiece 7 (.str "a - b".toList) [7, 0, 7, 0, 7] := by
  obtain ⟨a, h1, h2⟩ := exAround_run
  exact ⟨a, h1, h2, C102_operator exEnv exEnv_sane exEnv_digits exAround exAround_loose _ _ a h1 _ _ h2 7 (by decide)
    ((unbroken_all (by decide)).onePiece _)⟩

/-- It is not so if the text holds something else there. -/
example : ¬ OnePiece 7 (.str "a.-.b".toList) [7, 0, 7, 0, 7] :=
  fun h => absurd (h 0 1 2 (by decide) (by decide) rfl rfl (by unfold Counts; decide)) (by decide)

/-- A concrete case of `C102_strict`. -/
example : ∃ a, exLetters.transform (.str "ab c".toList) = .ok (.list ("ab c".toList.map fun c => .str [c]), a) ∧
    a.transform [7, 7, 0, 0] = .ok [7, 7, 0, 0] ∧ Unbroken 7 [7, 7, 0, 0] := by
  obtain ⟨a, h1, _, _, h2, _⟩ := C41_char exEnv.σ "ab c".toList
  have h3 : exLetters.transform (.str "ab c".toList) = .ok (.list ("ab c".toList.map fun c => .str [c]), a) := by
    show ((CharTokenizer.transform exEnv.σ "ab c".toList >>= _) >>= _) = _
    rw [h1]
    rfl
  have h4 : a.transform [7, 7, 0, 0] = .ok [7, 7, 0, 0] := by
    rw [h2 [7, 7, 0, 0] rfl]
    decide
  exact ⟨a, h3, h4, C102_strict exEnv exEnv_sane exLetters exLetters_strict _ _ a h3 _ _ h4 7 (by decide)
    ((C102_interval 7 [7, 7, 0, 0]).mpr ⟨0, 2, fun j => by
      match j with
      | 0 => simp
      | 1 => simp
      | 2 => simp
      | 3 => simp
      | j + 4 => simp⟩)⟩

/-- Concrete cases of `C102_pipe` and `C102_datum`: with `WhiteSpaceTokenizer` the entity is an interval of the tokens. -/
example : ∃ t, (⟨[exAround, exSplit], []⟩ : Pipe).transform exDashed = .ok t ∧ t.entityLabels = [7, 7, 7] ∧
    ∃ i n : Nat, ∀ j : Nat, t.entityLabels[j]? = some 7 ↔ i ≤ j ∧ j < i + n := by
  obtain ⟨a, h1, h2⟩ := exSplit_run
  obtain ⟨t, t1, t2, t3⟩ := exDashed_pipe h1 h2
  refine ⟨t, t1, t3, ?_⟩
  exact (C102_datum exEnv exEnv_sane exEnv_digits ⟨[exAround, exSplit], []⟩ [] [exAround, exSplit] rfl (by simp)
    (by
      intro op hop
      rcases List.mem_cons.mp hop with rfl | hop
      · exact exAround_loose
      · exact List.mem_singleton.mp hop ▸ exSplit_loose)
    "a-b".toList [⟨1⟩] [⟨7, "a-b".toList, 0, 3, []⟩] exDashed rfl (by unfold WithinUtterance; decide) t t1
    ⟨7, "a-b".toList, 0, 3, []⟩ (by decide) (by simp)).2 _ t2

/-- A concrete case of `C102_replace`. -/
example : ∃ t a, exOne.transform (.str "a1b1".toList) = .ok (t, a) ∧ a.transform [3, 3, 4, 4] = .ok [3, 3, 3, 3, 4, 4, 4, 4] ∧
    Unbroken 4 [3, 3, 3, 3, 4, 4, 4, 4] := by
  obtain ⟨t, a, _, _, _, h1, _, h2, _⟩ := exTwo_run
  refine ⟨_, a, h1, h2, ?_⟩
  exact C102_replace exEnv exEnv_sane "1".toList "xyz".toList _ rfl exOne rfl _ _ a h1 (C102_steady _ _) _ _ h2 4
    (by decide) ((C102_interval 4 [3, 3, 4, 4]).mpr ⟨2, 2, fun j => by
      match j with
      | 0 => simp
      | 1 => simp
      | 2 => simp
      | 3 => simp
      | j + 4 => simp⟩)

end Uttut
