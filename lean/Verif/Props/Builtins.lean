import Verif.Lemmas.Arguments
import Verif.Lemmas.Honest
import Verif.Spec.Builtins
import Verif.Props.Elementwise
import Verif.Props.Hash
import Verif.Props.Numbers
import Verif.Props.Pattern
import Verif.Props.Pipe
import Verif.Props.Serialize
import Verif.Props.SosPad
import Verif.Props.Stopwords
import Verif.Props.Text
import Verif.Props.Tokenizers
import Verif.Props.WordPiece
import Verif.Props.WordZh

/-!
C14: every built-in operator keeps labels aligned with its output.
-/

namespace Uttut

open Spec

/-- What one `_transform` result has to satisfy; `safe` is needed for the way back only. -/
structure Kept (a : Aligner) (n m : Nat) (safe : Prop) : Prop where
  honest : Honest a
  input : a.inputLength = n
  output : a.outputLength = m
  forward : ∀ ls : List Int, ls.length = n → ∃ y, a.transform ls = .ok y ∧ y.length = m
  backward : safe → ∀ ls : List Int, ls.length = m → uintLabels ls →
    ∃ y, a.inverseTransform ls = .ok y ∧ y.length = n

theorem kept_of {a : Aligner} {n m : Nat} {P : Prop} (hh : Honest a) (ha : Aligned a n m uintLabels) : Kept a n m P :=
  ⟨hh, ha.input, ha.output, ha.forward, fun _ => ha.backward⟩

theorem aligned_uint {a : Aligner} {n m : Nat} (ha : Aligned a n m anyLabels) : Aligned a n m uintLabels :=
  ⟨ha.input, ha.output, ha.forward, fun ls hl _ => ha.backward ls hl trivial⟩

/-- A deterministic `f s` that is known to give an aligned result. -/
theorem kept_det {S O : Type} {len : O → Nat} {f : S → Res (O × Aligner)} {s : S} {n : Nat} {P : Prop}
    (hh : ∀ out a, f s = .ok (out, a) → Honest a)
    (he : ∃ out a, f s = .ok (out, a) ∧ Aligned a n (len out) uintLabels) :
    ∀ out a, f s = .ok (out, a) → Kept a n (len out) P := by
  intro out a h
  obtain ⟨out', a', h', ha⟩ := he
  have e := h.symm.trans h'
  injection e with e
  injection e with e1 e2
  subst e1; subst e2
  exact kept_of (hh _ _ h) ha

/-- All results of a `_transform`. -/
def RunKept (run : Seq → Res (Seq × Aligner)) (safe : Seq → Prop) : Prop :=
  ∀ s t a, run s = .ok (t, a) → Kept a s.length t.length (safe s)

theorem strOp_kept {f : Str → Res (Str × Aligner)} {safe : Seq → Prop}
    (h : ∀ s out a, f s = .ok (out, a) → Kept a s.length out.length (safe (.str s))) : RunKept (strOp f) safe := by
  intro s t a hr
  cases s with
  | list l => cases hr
  | str s =>
    obtain ⟨⟨out, a'⟩, h1, h2⟩ := bind_eq_ok hr
    injection h2 with h2
    injection h2 with h2 h3
    subst h2; subst h3
    exact h s out _ h1

theorem tokOp_kept {f : Str → Res (List Str × Aligner)} {safe : Seq → Prop}
    (h : ∀ s out a, f s = .ok (out, a) → Kept a s.length out.length (safe (.str s))) : RunKept (tokOp f) safe := by
  intro s t a hr
  cases s with
  | list l => cases hr
  | str s =>
    obtain ⟨⟨out, a'⟩, h1, h2⟩ := bind_eq_ok hr
    injection h2 with h2
    injection h2 with h2 h3
    subst h2; subst h3
    have := h s out _ h1
    simpa [Seq.length] using this

theorem lstOp_kept {f : List Tok → Res (List Tok × Aligner)} {safe : Seq → Prop}
    (h : ∀ l out a, f l = .ok (out, a) → Kept a l.length out.length (safe (.list l))) : RunKept (lstOp f) safe := by
  intro s t a hr
  cases s with
  | str s => cases hr
  | list l =>
    obtain ⟨⟨out, a'⟩, h1, h2⟩ := bind_eq_ok hr
    injection h2 with h2
    injection h2 with h2 h3
    subst h2; subst h3
    exact h l out _ h1

/-! ### string operators -/

theorem lowercase_kept (σ : SetOrder) (P : Seq → Prop) : RunKept (strOp (Lowercase.transform σ)) P := by
  refine strOp_kept fun s => kept_det (fun out a h => ?_) ?_
  · obtain ⟨a', h1, _⟩ := C16_lowercase σ s
    unfold Lowercase.transform at h
    split at h
    · cases h
    · obtain ⟨g, _, h⟩ := bind_eq_ok h
      obtain ⟨o, _, h⟩ := bind_eq_ok h
      split at h
      · injection h with h
        injection h with _ h
        subst h
        exact honest_null _ _
      · cases h
  · obtain ⟨a, h1, h2, _⟩ := C16_lowercase σ s
    exact ⟨_, a, h1, by rw [List.length_map]; exact aligned_uint h2⟩

theorem around_kept (σ : SetOrder) (valid : Char → Bool) (P : Seq → Prop) :
    RunKept (strOp (AddWhitespaceAroundChar.transform σ valid)) P := by
  refine strOp_kept fun s => kept_det (fun out a h => ?_) ?_
  · exact honest_charwise (fun g n => honest_ofStrEdit _ _ _ _ aroundChar_frugal getMostCommonExcept_frugal) h
  · obtain ⟨a, h1, h2, _⟩ := C17_around σ valid s
    exact ⟨_, a, h1, aligned_uint h2⟩

theorem aroundWord_kept (σ : SetOrder) (ws : List Str) (t : Trie) (ht : Trie.ofUserWords ws = .ok t) (sh : Bool)
    (P : Seq → Prop) : RunKept (strOp (AddWhitespaceAroundWordnZhChar.transform σ t sh)) P := by
  refine strOp_kept fun s => kept_det (fun out a h => ?_) ?_
  · unfold AddWhitespaceAroundWordnZhChar.transform at h
    split at h
    · cases h
    · obtain ⟨g, _, h⟩ := bind_eq_ok h
      obtain ⟨o, _, h⟩ := bind_eq_ok h
      injection h with h
      injection h with _ h
      subst h
      exact honest_ofStrEdit _ _ _ _ aroundWord_fwd_frugal aroundWord_bwd_frugal
  · obtain ⟨a, segs, _, _, h1, h2, _⟩ := C38_spaces σ ws t ht sh s
    exact ⟨_, a, h1, aligned_uint h2⟩

theorem stripAccent_kept (σ : SetOrder) (u : Unicode) (P : Seq → Prop) :
    RunKept (strOp (StripAccentToken.transform σ u)) P := by
  refine strOp_kept fun s out a h => ?_
  by_cases hl : ((u.nfd s).filter fun c => !u.isMn c).length = s.length
  · refine kept_det (f := StripAccentToken.transform σ u) (fun out a h => ?_) ?_ out a h
    · unfold StripAccentToken.transform at h
      dsimp only at h
      split at h
      · exact honest_charwise
          (fun g n => honest_ofStrEdit _ _ _ _ getMostCommonExcept_frugal getMostCommonExcept_frugal) h
      · cases h
    · obtain ⟨a, h1, h2, _⟩ := C27_transform σ u s hl
      exact ⟨_, a, h1, by rw [hl]; exact aligned_uint h2⟩
  · rw [C27_length_change σ u s hl] at h
    cases h

theorem punctuationToWhitespace_kept (σ : SetOrder) (u : Unicode) (P : Seq → Prop) :
    RunKept (strOp (PunctuationExceptEndpointToWhitespace.transform σ u)) P := by
  refine strOp_kept fun s => kept_det (fun out a h => ?_) ?_
  · exact honest_charwise (fun g n => honest_ofStrEdit _ _ _ _ getNotEntity_frugal getNotEntity_frugal) h
  · obtain ⟨a, h1, h2, _⟩ := C26_transform σ u s
    exact ⟨_, a, h1, by rw [List.length_map]; exact aligned_uint h2⟩

theorem number_kept {u : Unicode} {q : Str → Bool} {token : Str} {F : List Int → List Int}
    {f : Str → Res (Str × Aligner)} (h : ∀ s, NumberOp u q token F f s)
    (hh : ∀ s out a, f s = .ok (out, a) → Honest a) (P : Seq → Prop) : RunKept (strOp f) P := by
  refine strOp_kept fun s => kept_det (hh s) ?_
  obtain ⟨a, h1, h2, _⟩ := (h s).run
  exact ⟨_, a, h1, aligned_uint h2⟩

theorem mergeWs_kept (σ : SetOrder) (P : Seq → Prop) : RunKept (strOp (MergeWhiteSpaceCharacters.transform σ)) P := by
  refine strOp_kept fun s => kept_det (fun out a h => ?_) ?_
  · exact honest_pattern getMostCommon_frugal getMostCommon_frugal h
  · obtain ⟨a, h1, h2, _⟩ := C21_merge σ s
    exact ⟨_, a, h1, aligned_uint h2⟩

theorem stripWs_kept (σ : SetOrder) (P : Seq → Prop) : RunKept (strOp (StripWhiteSpaceCharacters.transform σ)) P := by
  refine strOp_kept fun s => kept_det (fun out a h => ?_) ?_
  · exact honest_pattern getNotEntity_frugal getNotEntity_frugal h
  · obtain ⟨a, h1, h2, _⟩ := C22_strip σ s
    exact ⟨_, a, h1, aligned_uint h2⟩

theorem stopwords_kept (σ : SetOrder) (P : Seq → Prop) : RunKept (strOp (StopwordsToWhitespace.transform σ)) P := by
  refine strOp_kept fun s => kept_det (fun out a h => ?_) ?_
  · exact honest_pattern getNotEntity_frugal getNotEntity_frugal h
  · obtain ⟨segs, hs, _⟩ := C23_segments s
    obtain ⟨a, h1, h2, _⟩ := C23_stopwords σ s segs hs
    exact ⟨_, a, h1, aligned_uint h2⟩

theorem patternTransform_scan {σ : SetOrder} {m : Matcher} {token : Str} {f b : Transducer} {s : Str}
    {r : Str × Aligner} (h : patternTransform σ m token f b s = .ok r) : ∃ ms, Scan m s 0 ms := by
  have hne : patternTransformFuel σ m token f b (s.length + 1) s ≠ none := by
    intro e
    unfold patternTransform at h
    rw [e] at h
    cases h
  have h' := (patternFuel_some_iff σ m token f b (s.length + 1) s).mp hne
  cases hs : searchLoop m (fun _ _ _ => token) s (s.length + 1) 0 ReplacementGroup.empty with
  | none => exact absurd hs h'
  | some g => exact scan_of_searchLoop _ _ _ _ _ hs

theorem replace_kept (σ : SetOrder) (m : Matcher) (hm : ∀ s, SoundMatcher m s) (b : Str) (P : Seq → Prop)
    (hP : ∀ s, P (.str s) → b = [] → ∀ ms, Scan m s 0 ms → DistinctMatches s ms) :
    RunKept (strOp (ReplaceAwithB.transform σ m b)) P := by
  refine strOp_kept fun s out a h => ?_
  obtain ⟨ms, hscan⟩ := patternTransform_scan h
  obtain ⟨a', h1, h2, h3, h4, h5⟩ := C25_replace σ m b s (hm s) ms hscan
  rw [h1] at h
  injection h with h
  injection h with e1 e2
  subst e1; subst e2
  refine ⟨honest_pattern getMostCommonExcept_frugal getMostCommonExcept_frugal h1, h2, h3,
    fun ls hl => ⟨_, (h4 ls hl).1, (h4 ls hl).2⟩, fun hp ls hl hu => ?_⟩
  refine (h5 ?_).1.backward ls hl trivial
  by_cases hb : b = []
  · exact Or.inr (hP s hp hb ms hscan)
  · exact Or.inl hb

/-! ### tokenizers -/

theorem tokenLabels_aligned {a : Aligner} {ps : List (Str × Str)} {tail s : Str} {out : List Str}
    (h : TokenLabels a ps tail) (hs : s = layout ps tail) (ho : out.length = ps.length) :
    Aligned a s.length out.length uintLabels := by
  rw [hs, ho]
  exact h.aligned

theorem charTok_kept (σ : SetOrder) (P : Seq → Prop) : RunKept (tokOp (CharTokenizer.transform σ)) P := by
  refine tokOp_kept fun s => kept_det (len := List.length) (fun out a h => ?_) ?_
  · exact honest_tokenizer noneTransducer_frugal noneTransducer_frugal h
  · obtain ⟨a, h1, h2, _⟩ := C41_char σ s
    exact ⟨_, a, h1, by rw [List.length_map]; exact h2⟩

theorem wsTok_kept (σ : SetOrder) (P : Seq → Prop) : RunKept (tokOp (WhiteSpaceTokenizer.transform σ)) P := by
  refine tokOp_kept fun s => kept_det (len := List.length) (fun out a h => ?_) ?_
  · exact honest_tokenizer getMostCommonExcept_frugal getMostCommonExcept_frugal h
  · obtain ⟨a, ps, tail, h1, h2, h3⟩ := C39_C42_whitespace σ s
    exact ⟨_, a, h1, tokenLabels_aligned h3 h2.text (by simp)⟩

theorem engTok_kept (σ : SetOrder) (u : Unicode) (P : Seq → Prop) :
    RunKept (tokOp (EngTokenizer.transform σ u)) P := by
  refine tokOp_kept fun s => kept_det (len := List.length) (fun out a h => ?_) ?_
  · exact honest_tokenizer getMostCommonExcept_frugal getMostCommonExcept_frugal h
  · obtain ⟨a, ps, tail, h1, h2, h3⟩ := C40_C42_eng σ u s
    exact ⟨_, a, h1, tokenLabels_aligned h3 h2.text (by simp)⟩

theorem zhTok_kept (σ : SetOrder) (u : Unicode) (P : Seq → Prop) :
    RunKept (tokOp (ZhCharTokenizer.transform σ u)) P := by
  refine tokOp_kept fun s => kept_det (len := List.length) (fun out a h => ?_) ?_
  · exact honest_tokenizer getMostCommonExcept_frugal getMostCommonExcept_frugal h
  · obtain ⟨a, ps, tail, h1, h2, h3⟩ := C40_C42_zh σ u s
    exact ⟨_, a, h1, tokenLabels_aligned h3 h2.text (by simp)⟩

theorem customTok_kept (σ : SetOrder) (ws : List Str) (t : Trie) (ht : Trie.ofUserWords ws = .ok t) (sh : Bool)
    (P : Seq → Prop) : RunKept (tokOp (CustomWordTokenizer.transform σ t sh)) P := by
  refine tokOp_kept fun s => kept_det (len := List.length) (fun out a h => ?_) ?_
  · unfold CustomWordTokenizer.transform at h
    split at h
    · cases h
    · exact honest_tokenizer getMostCommonExcept_frugal getMostCommonExcept_frugal h
  · obtain ⟨a, segs, h1, _, h2, h3⟩ := C37_C42_custom σ ws t ht sh s
    refine ⟨_, a, h1, tokenLabels_aligned h3 ?_ (by simp)⟩
    rw [← h2]
    unfold layout
    rw [List.flatMap_map, List.append_nil, List.flatten_eq_flatMap]
    rfl

/-! ### list operators -/

theorem sosEos_kept (σ : SetOrder) (sos eos : Tok) (P : Seq → Prop) :
    RunKept (lstOp (AddSosEos.transform σ sos eos)) P := by
  refine lstOp_kept fun l out a h => ?_
  have hlen : l.length < 2 ^ 32 := by
    unfold AddSosEos.transform at h
    obtain ⟨g, hg, _⟩ := bind_eq_ok h
    have := addAll_bounds σ _ g hg ((l.length : Int), (l.length : Int), [eos]) (by simp)
    dsimp only at this
    omega
  refine kept_det (f := AddSosEos.transform σ sos eos) (len := List.length) (fun out a h => ?_) ?_ out a h
  · unfold AddSosEos.transform at h
    obtain ⟨g, hg, h⟩ := bind_eq_ok h
    obtain ⟨o, _, h⟩ := bind_eq_ok h
    injection h with h
    injection h with _ h
    subst h
    exact honest_ofLstEdit _ _ _ _ getNotEntity_frugal getNotEntity_frugal
  · by_cases hl : l = []
    · subst hl
      by_cases he : sos = eos
      · subst he
        obtain ⟨a, h1, h2⟩ := C29_equal_tokens σ sos
        exact ⟨_, a, h1, aligned_uint h2⟩
      · obtain ⟨out, a, h1, h2, h3, _⟩ := C29_empty_list σ sos eos he
        refine ⟨out, a, h1, ?_⟩
        have : out.length = 2 := by rcases h2 with rfl | rfl <;> rfl
        rw [this]
        exact aligned_uint h3
    · obtain ⟨a, h1, h2, _⟩ := C28_add_sos_eos σ sos eos l hl hlen
      exact ⟨_, a, h1, by simpa using aligned_uint h2⟩

theorem endTok_kept (σ : SetOrder) (eos : Tok) (P : Seq → Prop) :
    RunKept (lstOp (AddEndToken.transform σ eos)) P := by
  refine lstOp_kept fun l out a h => ?_
  have hlen : l.length < 2 ^ 32 := by
    unfold AddEndToken.transform at h
    obtain ⟨g, hg, _⟩ := bind_eq_ok h
    have := addAll_bounds σ _ g hg ((l.length : Int), (l.length : Int), [eos]) (by simp)
    dsimp only at this
    omega
  refine kept_det (f := AddEndToken.transform σ eos) (len := List.length) (fun out a h => ?_) ?_ out a h
  · unfold AddEndToken.transform at h
    obtain ⟨g, hg, h⟩ := bind_eq_ok h
    obtain ⟨o, _, h⟩ := bind_eq_ok h
    injection h with h
    injection h with _ h
    subst h
    exact honest_ofLstEdit _ _ _ _ getNotEntity_frugal getNotEntity_frugal
  · obtain ⟨a, h1, h2, _⟩ := C28_add_end_token σ eos l hlen
    exact ⟨_, a, h1, by simpa using aligned_uint h2⟩

theorem pad_kept (σ : SetOrder) (maxlen : Int) (pad : Tok) (P : Seq → Prop) :
    RunKept (lstOp (Pad.transform σ maxlen pad)) P := by
  refine lstOp_kept fun l out a h => ?_
  have hpos : 0 ≤ maxlen := by
    rcases Int.lt_or_le maxlen 0 with hn | hn
    · rw [C30_negative σ maxlen pad l hn] at h
      cases h
    · exact hn
  obtain ⟨n, rfl⟩ := Int.eq_ofNat_of_zero_le hpos
  have hlen : l.length = n ∨ l.length < 2 ^ 32 := by
    rcases Nat.lt_or_ge l.length (2 ^ 32) with hlt | hge
    · exact Or.inr hlt
    · refine Or.inl (Classical.byContradiction fun hne => ?_)
      exact C30_too_long σ n pad l (by omega) hge _ h
  refine kept_det (f := Pad.transform σ n pad) (len := List.length) (fun out a h => ?_) ?_ out a h
  · unfold Pad.transform at h
    obtain ⟨g, hg, h⟩ := bind_eq_ok h
    obtain ⟨o, _, h⟩ := bind_eq_ok h
    injection h with h
    injection h with _ h
    subst h
    exact honest_ofLstEdit _ _ _ _ getNotEntity_frugal getNotEntity_frugal
  · obtain ⟨a, h1, h2, _⟩ := C30_pad σ n pad l hlen
    refine ⟨_, a, h1, ?_⟩
    have : (l.take n ++ List.replicate (n - l.length) pad).length = n := by
      simp only [List.length_append, List.length_take, List.length_replicate]
      omega
    rw [this]
    exact aligned_uint h2

theorem enumAdd_values {ι V : Type} {nv : ι → Res (Option V)} :
    ∀ {xs : List ι} {i : Nat} {g g' : ReplacementGroup V}, enumAdd nv xs i g = .ok g' →
      ∀ x ∈ xs, ∃ v, nv x = .ok v := by
  intro xs
  induction xs with
  | nil => intro _ _ _ _ x hx; cases hx
  | cons y xs ih =>
    intro i g g' h x hx
    unfold enumAdd at h
    obtain ⟨v, hv, h⟩ := bind_eq_ok h
    rcases List.mem_cons.mp hx with rfl | hx
    · exact ⟨v, hv⟩
    · cases v with
      | none => exact ih h x hx
      | some v => exact ih h x hx

theorem tokenwise_values {σ : SetOrder} {nv : Tok → Res (Option (List Tok))} {l : List Tok}
    {mk : ReplacementGroup (List Tok) → Nat → Aligner} {r : List Tok × Aligner}
    (h : tokenwiseTransform σ nv l mk = .ok r) : ∀ x ∈ l, ∃ v, nv x = .ok v := by
  unfold tokenwiseTransform at h
  obtain ⟨g, hg, _⟩ := bind_eq_ok h
  exact enumAdd_values hg

/-- Token by token operators with the null aligner. -/
theorem single_kept (σ : SetOrder) (nv : Tok → Res (Option (List Tok)))
    (hnv : ∀ x v, nv x = .ok (some v) → v.length = 1) (P : Seq → Prop) :
    RunKept (lstOp fun l => tokenwiseTransform σ nv l fun _ n => Aligner.null l.length n) P := by
  refine lstOp_kept fun l out a h => ?_
  have hv := tokenwise_values h
  let nv' : Tok → Option (List Tok) := fun x => match nv x with
    | .ok v => v
    | .error _ => none
  have hc : ∀ x ∈ l, nv x = .ok (nv' x) := by
    intro x hx
    obtain ⟨v, e⟩ := hv x hx
    simp only [nv', e]
  rw [tokenwiseTransform_congr σ nv nv' l hc] at h
  injection h with h
  injection h with h1 h2
  have hlen : (l.flatMap fun x => (nv' x).getD [x]).length = l.length := by
    clear h1 h2
    induction l with
    | nil => rfl
    | cons x l ih =>
      rw [List.flatMap_cons, List.length_append, List.length_cons,
        ih (fun y hy => hv y (List.mem_cons_of_mem _ hy)) (fun y hy => hc y (List.mem_cons_of_mem _ hy))]
      have : ((nv' x).getD [x]).length = 1 := by
        have e := hc x (by simp)
        cases hx : nv' x with
        | none => rfl
        | some v => rw [hx] at e; exact hnv x v e
      omega
  rw [← h1, hlen]
  rw [hlen] at h2
  rw [← h2]
  exact kept_of (honest_null _ _) (aligned_uint (null_aligned _))

theorem token2index_kept (σ : SetOrder) (d : List (Str × Int)) (unk : Str) (P : Seq → Prop) :
    RunKept (lstOp (Token2Index.transform σ d unk)) P := by
  refine single_kept σ (Token2Index.newValue d unk) (fun x v h => ?_) P
  unfold Token2Index.newValue at h
  dsimp only at h
  split at h
  · injection h with h; injection h with h; rw [← h]; rfl
  · split at h
    · injection h with h; injection h with h; rw [← h]; rfl
    · cases h

theorem token2indexHash_kept (σ : SetOrder) (d : List (Str × Int)) (P : Seq → Prop) :
    RunKept (lstOp (Token2IndexwithHash.transform σ d)) P := by
  refine single_kept σ (Token2IndexwithHash.newValue d) (fun x v h => ?_) P
  unfold Token2IndexwithHash.newValue at h
  split at h
  · cases h
  · split at h
    · injection h with h; injection h with h; rw [← h]; rfl
    · injection h with h; injection h with h; rw [← h]; rfl

theorem pureNum_kept (σ : SetOrder) (u : Unicode) (token : Tok) (P : Seq → Prop) :
    RunKept (lstOp (PureNum2Token.transform σ u token)) P := by
  refine single_kept σ (PureNum2Token.newValue u token) (fun x v h => ?_) P
  unfold PureNum2Token.newValue at h
  split at h
  · cases h
  · injection h with h
    split at h
    · injection h with h; rw [← h]; rfl
    · cases h

theorem spanSubwords_kept (σ : SetOrder) (vocab : Str → Bool) (unk : Str) (n : Int) (P : Seq → Prop)
    (hP : ∀ l : List Str, P (.list (l.map Tok.str)) → n < 0 ∨ NoTwoEmpty l) :
    RunKept (lstOp (SpanSubwords.transform σ vocab unk n)) P := by
  refine lstOp_kept fun l out a h => ?_
  have hh : Honest a := honest_tokenwise
    (fun g n => honest_ofLstEdit _ _ _ _ getMostCommon_frugal getMostCommonExcept_frugal) h
  have hstr : ∃ ss : List Str, l = ss.map Tok.str := by
    have hv := tokenwise_values h
    refine ⟨l.map fun t => match t with | .str s => s | .int _ => [], ?_⟩
    rw [List.map_map]
    symm
    refine (List.map_congr_left fun t ht => ?_).trans (List.map_id _)
    obtain ⟨v, e⟩ := hv t ht
    cases t with
    | str s => rfl
    | int i => cases e
  obtain ⟨ss, rfl⟩ := hstr
  let subs : Str → List Str := fun s => Classical.choose (spanSubwords_ok vocab unk n s)
  have hs : ∀ s ∈ ss, SpanSubwords.spanSubwords vocab unk n s = .ok (subs s) :=
    fun s _ => (Classical.choose_spec (spanSubwords_ok vocab unk n s)).1
  obtain ⟨a', h1, h2, h3, h5, h4⟩ := C34_transform σ vocab unk n ss subs hs
  have hlen : (ss.flatMap fun s => (subs s).map Tok.str).length = (ss.flatMap fun s => subs s).length := by
    rw [← List.map_flatMap, List.length_map]
  rw [h1] at h
  injection h with h
  injection h with e1 e2
  subst e1; subst e2
  have hio : a'.inputLength = ss.length ∧ a'.outputLength = (ss.flatMap fun s => (subs s).map Tok.str).length := by
    unfold SpanSubwords.transform tokenwiseTransform at h1
    obtain ⟨g, _, h1⟩ := bind_eq_ok h1
    obtain ⟨g', _, h1⟩ := bind_eq_ok h1
    obtain ⟨o, _, h1⟩ := bind_eq_ok h1
    injection h1 with h1
    injection h1 with e1 e2
    subst e1; subst e2
    exact ⟨by simp [Aligner.ofLstEdit], rfl⟩
  rw [List.length_map]
  refine ⟨hh, hio.1, hio.2, fun ls hl => ⟨_, h2 ls hl, ?_⟩, fun hp ls hl hu => ?_⟩
  · rw [hlen]
    clear h5 h4 h1 h2 h3 hio hh hP hlen hs
    induction ss generalizing ls with
    | nil => cases ls with
      | nil => rfl
      | cons x ls => cases hl
    | cons s ss ih =>
      cases ls with
      | nil => cases hl
      | cons x ls =>
        rw [List.zip_cons_cons, List.flatMap_cons, List.flatMap_cons, List.length_append, List.length_append,
          ih ls (by simpa using hl), List.length_replicate]
  · rw [hlen] at hl
    exact (h3 (hP ss hp)).backward ls hl trivial

/-! ### the classes -/

theorem call_run {c : OpClass} {args : List PyVal} {kwargs : List (Str × PyVal)} {op : Op}
    (h : c.call args kwargs = .ok op) : op.cls = c ∧ ∃ vals, c.init vals = .ok op.run := by
  unfold OpClass.call at h
  obtain ⟨vals, _, h⟩ := bind_eq_ok h
  obtain ⟨run, h1, h⟩ := bind_eq_ok h
  injection h with h
  subst h
  exact ⟨rfl, vals, h1⟩

/-- C14, C66: the constructors of the built-in classes have proper signatures; a class that inherits its
`__init__` has no parameters. -/
theorem C66_signatures (env : Env) (c : OpClass) (hc : c ∈ Builtin.all env) :
    Signature c ∧ (c.ownInit = true ∨ c.params = []) := by
  simp only [Builtin.all, Builtin.concrete, List.cons_append, List.nil_append, List.mem_cons, List.not_mem_nil,
    or_false] at hc
  rcases hc with rfl | rfl | rfl | rfl | rfl | rfl | rfl | rfl | rfl | rfl | rfl | rfl | rfl | rfl | rfl | rfl |
    rfl | rfl | rfl | rfl | rfl | rfl | rfl | rfl | rfl | rfl | rfl | rfl | rfl | rfl | rfl
  all_goals first
    | exact ⟨⟨List.nodup_nil, Nat.le_refl _⟩, Or.inr rfl⟩
    | (refine ⟨⟨?_, ?_⟩, Or.inl rfl⟩ <;>
        (dsimp only [Builtin.aroundWord, Builtin.replace, Builtin.customTok, Builtin.sosEos, Builtin.endTok,
          Builtin.pad, Builtin.token2index, Builtin.spanSubwords, Builtin.token2indexHash, Builtin.pureNum]
         decide))

theorem simple_run {name : String} {i o : SeqType} {run : Seq → Res (Seq × Aligner)} {args : List PyVal}
    {kwargs : List (Str × PyVal)} {op : Op} (h : (Builtin.simple name i o run).call args kwargs = .ok op) :
    op.run = run := by
  obtain ⟨_, vals, h⟩ := call_run h
  injection h with h
  exact h.symm

theorem builtin_kept (env : Env) (he : env.Sane) (c : OpClass) (hc : c ∈ Builtin.all env) (args : List PyVal)
    (kwargs : List (Str × PyVal)) (hk : (kwargs.map Prod.fst).Nodup) (op : Op) (hop : c.call args kwargs = .ok op) :
    RunKept op.run (Safe env op) := by
  obtain ⟨hsig, hown⟩ := C66_signatures env c hc
  simp only [Builtin.all, Builtin.concrete, List.cons_append, List.nil_append, List.mem_cons, List.not_mem_nil,
    or_false] at hc
  rcases hc with rfl | rfl | rfl | rfl | rfl | rfl | rfl | rfl | rfl | rfl | rfl | rfl | rfl | rfl | rfl | rfl |
    rfl | rfl | rfl | rfl | rfl | rfl | rfl | rfl | rfl | rfl | rfl | rfl | rfl | rfl | rfl
  · -- Operator
    obtain ⟨_, vals, h⟩ := call_run hop
    cases h
  · -- AddWhitespaceAroundCharacter
    rw [simple_run hop]
    refine strOp_kept fun s out a h => ?_
    cases s with
    | nil =>
      have h0 := C17_around env.σ (fun _ => false) []
      exact kept_det (f := AddWhitespaceAroundChar.transform env.σ fun _ => false) (s := []) (len := List.length)
        (fun out a h => honest_charwise
          (fun g n => honest_ofStrEdit _ _ _ _ aroundChar_frugal getMostCommonExcept_frugal) h)
        (by obtain ⟨a, h1, h2, _⟩ := h0; exact ⟨_, a, h1, aligned_uint h2⟩) out a h
    | cons x s => cases h
  · -- PatternRecognizer
    rw [simple_run hop]
    refine strOp_kept fun s out a h => ?_
    split at h <;> cases h
  · -- Tokenizer
    rw [simple_run hop]
    exact tokOp_kept fun s out a h => by cases h
  · rw [simple_run hop]; exact lowercase_kept _ _
  · rw [simple_run hop]; exact around_kept _ _ _
  · rw [simple_run hop]; exact around_kept _ _ _
  · -- AddWhitespaceAroundWordnZhChar
    obtain ⟨_, vals, h⟩ := call_run hop
    unfold Builtin.aroundWord at h
    dsimp only at h
    unfold Builtin.aroundWordInit at h
    split at h
    · obtain ⟨t, ht, h⟩ := bind_eq_ok h
      obtain ⟨ws, hw⟩ := userWords_ok ht
      injection h with h
      rw [← h]
      exact aroundWord_kept _ ws t hw _ _
    · cases h
  · rw [simple_run hop]; exact stripAccent_kept _ _ _
  · rw [simple_run hop]; exact punctuationToWhitespace_kept _ _ _
  · rw [simple_run hop]
    exact number_kept (C18_C19_int_token env.σ env.u)
      (fun s out a h => honest_pattern getMostCommon_frugal getMostCommonExcept_frugal h) _
  · rw [simple_run hop]
    exact number_kept (C18_C19_float_token env.σ env.u he.dot)
      (fun s out a h => honest_pattern getMostCommon_frugal getMostCommonExcept_frugal h) _
  · rw [simple_run hop]
    exact number_kept (C18_C19_int_token_with_space env.σ env.u)
      (fun s out a h => honest_pattern (withSpaceFwd_frugal _) getMostCommonExcept_frugal h) _
  · rw [simple_run hop]
    exact number_kept (C18_C19_float_token_with_space env.σ env.u he.dot)
      (fun s out a h => honest_pattern (withSpaceFwd_frugal _) getMostCommonExcept_frugal h) _
  · rw [simple_run hop]; exact mergeWs_kept _ _
  · rw [simple_run hop]; exact stripWs_kept _ _
  · rw [simple_run hop]; exact stopwords_kept _ _
  · rw [simple_run hop]
    exact number_kept (C18_C19_num_token_with_space env.σ env.u)
      (fun s out a h => honest_pattern (withSpaceFwd_frugal _) getMostCommonExcept_frugal h) _
  · -- ReplaceAwithB
    obtain ⟨hcls, _, _, vals, h, _, hb⟩ := C65_capture _ hsig (hown.resolve_right (by intro e; cases e)) args kwargs hk op hop
    obtain ⟨va, a1, a2, _⟩ := hb 0 "a".toList rfl
    obtain ⟨vb, b1, b2, _⟩ := hb 1 "b".toList rfl
    unfold Builtin.replace at h
    dsimp only at h
    unfold Builtin.replaceInit at h
    split at h
    · injection a1 with a1
      injection b1 with b1
      subst a1; subst b1
      obtain ⟨p, hp, h⟩ := bind_eq_ok h
      split at h
      · rename_i m hm
        have ea := asStr_ok hp
        split at h
        · injection h with h
          rw [← h]
          refine replace_kept _ m (he.sound p m hm) _ _ fun s hs hnew ms hscan => ?_
          exact hs.replace (by rw [hcls]; rfl) (by rw [b2, hnew]) p m s ms (by rw [a2, ea]) hm rfl hscan
        · injection h with h
          rw [← h]
          intro s t a hr
          cases s with
          | list l => cases hr
          | str s =>
            refine replace_kept env.σ m (he.sound p m hm) [' '] _ (fun _ _ hnew => by cases hnew) (.str s) t a ?_
            obtain ⟨⟨out, a'⟩, h1, h2⟩ := bind_eq_ok hr
            show (ReplaceAwithB.transform env.σ m [' '] s >>= _) = _
            rw [replaceNoStr_ok h1]
            exact h2
      · cases h
    · cases h
  · rw [simple_run hop]; exact charTok_kept _ _
  · rw [simple_run hop]; exact engTok_kept _ _ _
  · rw [simple_run hop]; exact zhTok_kept _ _ _
  · rw [simple_run hop]; exact wsTok_kept _ _
  · -- CustomWordTokenizer
    obtain ⟨_, vals, h⟩ := call_run hop
    unfold Builtin.customTok at h
    dsimp only at h
    unfold Builtin.customTokInit at h
    split at h
    · obtain ⟨t, ht, h⟩ := bind_eq_ok h
      obtain ⟨ws, hw⟩ := userWords_ok ht
      injection h with h
      rw [← h]
      exact customTok_kept _ ws t hw _ _
    · cases h
  · -- AddSosEos
    obtain ⟨_, vals, h⟩ := call_run hop
    unfold Builtin.sosEos at h
    dsimp only at h
    unfold Builtin.sosEosInit at h
    split at h
    · obtain ⟨s, _, h⟩ := bind_eq_ok h
      obtain ⟨e, _, h⟩ := bind_eq_ok h
      injection h with h
      rw [← h]
      exact sosEos_kept _ _ _ _
    · cases h
  · -- Pad
    obtain ⟨_, vals, h⟩ := call_run hop
    unfold Builtin.pad at h
    dsimp only at h
    unfold Builtin.padInit at h
    split at h
    · rename_i n _
      obtain ⟨t, _, h⟩ := bind_eq_ok h
      injection h with h
      rw [← h]
      intro s u a hr
      cases s with
      | str s => cases hr
      | list l =>
        obtain ⟨⟨out, a'⟩, h1, h2⟩ := bind_eq_ok hr
        obtain ⟨k, _, h1⟩ := bind_eq_ok h1
        refine pad_kept env.σ k t _ (.list l) u a ?_
        show (Pad.transform env.σ k t l >>= _) = _
        rw [h1]
        exact h2
    · cases h
  · -- Token2Index
    obtain ⟨_, vals, h⟩ := call_run hop
    unfold Builtin.token2index at h
    dsimp only at h
    unfold Builtin.token2indexInit at h
    split at h
    · obtain ⟨d, _, h⟩ := bind_eq_ok h
      split at h
      · obtain ⟨_, _, h⟩ := bind_eq_ok h
        injection h with h
        rw [← h]
        exact token2index_kept _ _ _ _
      · obtain ⟨_, _, h⟩ := bind_eq_ok h
        split at h <;> cases h
    · cases h
  · -- SpanSubwords
    obtain ⟨hcls, _, _, vals, h, _, hb⟩ := C65_capture _ hsig (hown.resolve_right (by intro e; cases e)) args kwargs hk op hop
    obtain ⟨vn, n1, n2, _⟩ := hb 2 "maxlen_per_token".toList rfl
    unfold Builtin.spanSubwords at h
    dsimp only at h
    unfold Builtin.spanSubwordsInit at h
    split at h
    · injection n1 with n1
      subst n1
      obtain ⟨unk, _, h⟩ := bind_eq_ok h
      injection h with h
      rw [← h]
      intro s t a hr
      cases s with
      | str s => cases hr
      | list l =>
        obtain ⟨⟨out, a'⟩, h1, h2⟩ := bind_eq_ok hr
        obtain ⟨has, k, h1, hk⟩ := spanSubwordsRun_ok h1
        have hr' : lstOp (SpanSubwords.transform env.σ has unk k) (.list l) = .ok (t, a) := by
          show (SpanSubwords.transform env.σ has unk k l >>= _) = _
          rw [h1]
          exact h2
        rcases hk with hk | rfl
        · refine spanSubwords_kept _ _ _ _ _ (fun l hl => ?_) _ _ _ hr'
          by_cases h0 : k < 0
          · exact Or.inl h0
          · exact Or.inr (hl.subwords (by rw [hcls]; rfl) _ k n2 hk (by omega) l rfl)
        · have := spanSubwords_kept env.σ has unk k (fun s => s = .list []) (fun l hl => Or.inr (by
            cases l with
            | nil => trivial
            | cons x l => cases hl)) _ _ _ hr'
          exact ⟨this.honest, this.input, this.output, this.forward, fun _ => this.backward rfl⟩
    · cases h
  · -- Token2IndexwithHash
    obtain ⟨_, vals, h⟩ := call_run hop
    unfold Builtin.token2indexHash at h
    dsimp only at h
    unfold Builtin.token2indexHashInit at h
    split at h
    · obtain ⟨d, _, h⟩ := bind_eq_ok h
      obtain ⟨_, _, h⟩ := bind_eq_ok h
      injection h with h
      rw [← h]
      exact token2indexHash_kept _ _ _
    · cases h
  · -- PureNum2Token
    obtain ⟨_, vals, h⟩ := call_run hop
    unfold Builtin.pureNum at h
    dsimp only at h
    unfold Builtin.pureNumInit at h
    split at h
    · injection h with h
      rw [← h]
      exact pureNum_kept _ _ _ _
    · obtain ⟨t, _, h⟩ := bind_eq_ok h
      injection h with h
      rw [← h]
      exact pureNum_kept _ _ _ _
    · cases h
  · -- AddEndToken
    obtain ⟨_, vals, h⟩ := call_run hop
    unfold Builtin.endTok at h
    dsimp only at h
    unfold Builtin.endTokInit at h
    split at h
    · cases h
    · obtain ⟨e, _, h⟩ := bind_eq_ok h
      obtain ⟨e', _, h⟩ := bind_eq_ok h
      injection h with h
      rw [← h]
      exact endTok_kept _ _ _
    · cases h

theorem transform_run {op : Op} {s t : Seq} {a : Aligner} (h : op.transform s = .ok (t, a)) :
    op.run s = .ok (t, a) := by
  unfold Op.transform at h
  split at h
  · cases h
  · obtain ⟨⟨t', a'⟩, h1, h⟩ := bind_eq_ok h
    dsimp only at h
    split at h
    · cases h
    · injection h with h
      injection h with h2 h3
      rw [h1, h2, h3]

/-- C14: whenever a built-in operator accepts a sequence, its aligner turns labels of the input into labels of
the output, inventing none, and refuses other label lists. -/
theorem C14_forward (env : Env) (he : env.Sane) (op : Op) (hop : IsBuiltin env op) (s t : Seq) (a : Aligner)
    (h : op.transform s = .ok (t, a)) (ls : List Int) :
    (ls.length = s.length → ∃ ys, a.transform ls = .ok ys ∧ ys.length = t.length ∧ LabelsFrom ls ys) ∧
    (ls.length ≠ s.length → a.transform ls = .error .valueError) := by
  obtain ⟨c, hc, args, kwargs, hk, hop⟩ := hop
  have hkept := builtin_kept env he c hc args kwargs hk op hop s t a (transform_run h)
  refine ⟨fun hl => ?_, fun hl => ?_⟩
  · obtain ⟨y, h1, h2⟩ := hkept.forward ls hl
    exact ⟨y, h1, h2, hkept.honest.fwd _ _ h1⟩
  · unfold Aligner.transform Aligner.validateInput
    rw [hkept.input, if_pos hl]
    rfl

/-- C14: labels and sequence stay aligned both ways through every built-in operator, with any arguments, outside the
two cases excluded by `Safe`. -/
theorem C14_aligned (env : Env) (he : env.Sane) (op : Op) (hop : IsBuiltin env op) (s t : Seq) (a : Aligner)
    (h : op.transform s = .ok (t, a)) (hs : Safe env op s) : Faithful a s.length t.length := by
  obtain ⟨c, hc, args, kwargs, hk, hop⟩ := hop
  have hkept := builtin_kept env he c hc args kwargs hk op hop s t a (transform_run h)
  exact faithful_of ⟨hkept.input, hkept.output, hkept.forward, hkept.backward hs⟩ hkept.honest

theorem eq_of_nodup_map {α β : Type} (f : α → β) : ∀ {l : List α}, (l.map f).Nodup → ∀ {a b}, a ∈ l → b ∈ l →
    f a = f b → a = b := by
  intro l
  induction l with
  | nil => intro _ a b ha; cases ha
  | cons x l ih =>
    intro hnd a b ha hb hab
    rw [List.map_cons, List.nodup_cons] at hnd
    rcases List.mem_cons.mp ha with rfl | ha' <;> rcases List.mem_cons.mp hb with rfl | hb'
    · rfl
    · exact absurd (hab ▸ List.mem_map_of_mem hb') hnd.1
    · exact absurd (hab ▸ List.mem_map_of_mem ha') hnd.1
    · exact ih hnd.2 ha' hb' hab

/-- The names of the operator classes. -/
def builtinNames : List String :=
  ["Operator", "AddWhitespaceAroundCharacter", "PatternRecognizer", "Tokenizer", "Lowercase", "AddWhitespaceAroundCJK",
   "AddWhitespaceAroundPunctuation", "AddWhitespaceAroundWordnZhChar", "StripAccentToken",
   "PunctuationExceptEndpointToWhitespace", "IntToken", "FloatToken", "IntTokenWithSpace", "FloatTokenWithSpace",
   "MergeWhiteSpaceCharacters", "StripWhiteSpaceCharacters", "StopwordsToWhitespace", "NumTokenWithSpace",
   "ReplaceAwithB", "CharTokenizer", "EngTokenizer", "ZhCharTokenizer", "WhiteSpaceTokenizer", "CustomWordTokenizer",
   "AddSosEos", "Pad", "Token2Index", "SpanSubwords", "Token2IndexwithHash", "PureNum2Token", "AddEndToken"]

theorem builtin_names (env : Env) : (Builtin.all env).map OpClass.name = builtinNames.map String.toList := rfl

theorem builtin_names_nodup : (builtinNames.map String.toList).Nodup := by
  have h : builtinNames.Nodup := by decide
  exact List.pairwise_map.mpr (h.imp fun hab e => hab (String.toList_inj.mp e))

theorem builtin_of_name {env : Env} {c c0 : OpClass} (hc : c ∈ Builtin.all env) (h0 : c0 ∈ Builtin.all env)
    (hn : c.name = c0.name) : c = c0 :=
  eq_of_nodup_map OpClass.name (by rw [builtin_names]; exact builtin_names_nodup) hc h0 hn

theorem exists_twoEmpty {l : List Str} (h : ¬ NoTwoEmpty l) : ∃ pre post, l = pre ++ [] :: [] :: post := by
  induction l with
  | nil => exact absurd trivial h
  | cons a l ih =>
    cases l with
    | nil => exact absurd trivial h
    | cons b l =>
      by_cases hab : a ≠ [] ∨ b ≠ []
      · obtain ⟨pre, post, e⟩ := ih fun h' => h ⟨hab, h'⟩
        exact ⟨a :: pre, post, by rw [e]; rfl⟩
      · rw [not_or] at hab
        exact ⟨[], l, by rw [Classical.not_not.mp hab.1, Classical.not_not.mp hab.2]; rfl⟩

/-- C14, exact: in the remaining two cases mapping labels back always raises AssertionError. -/
theorem C14_unsafe (env : Env) (he : env.Sane) (op : Op) (hop : IsBuiltin env op) (s t : Seq) (a : Aligner)
    (h : op.transform s = .ok (t, a)) (hs : ¬ Safe env op s) (ls : List Int) (hl : ls.length = t.length) :
    a.inverseTransform ls = .error .assertionError := by
  obtain ⟨c, hc, args, kwargs, hk, hop⟩ := hop
  obtain ⟨hsig, hown⟩ := C66_signatures env c hc
  have hrun := transform_run h
  by_cases hr : op.cls.name = "ReplaceAwithB".toList ∧ dictGet op.configs "b".toList = some (.str []) ∧
      ∃ p m t ms, dictGet op.configs "a".toList = some (.str p) ∧ env.compile p = some m ∧ s = .str t ∧
        Spec.Scan m t 0 ms ∧ ¬ Spec.DistinctMatches t ms
  · obtain ⟨hn, hb, p, m, u, ms, ha, hm, rfl, hscan, hd⟩ := hr
    have hcr : c = Builtin.replace env :=
      builtin_of_name hc (List.mem_of_getElem? (i := 18) rfl) (by rw [← (call_run hop).1, hn]; rfl)
    subst hcr
    obtain ⟨hcls, _, _, vals, hi, _, hbd⟩ :=
      C65_capture _ hsig (hown.resolve_right (by intro e; cases e)) args kwargs hk op hop
    obtain ⟨va, a1, a2, _⟩ := hbd 0 "a".toList rfl
    obtain ⟨vb, b1, b2, _⟩ := hbd 1 "b".toList rfl
    rw [ha] at a2
    rw [hb] at b2
    injection a2 with a2
    injection b2 with b2
    subst a2; subst b2
    unfold Builtin.replace at hi
    dsimp only at hi
    unfold Builtin.replaceInit at hi
    split at hi
    · injection a1 with a1
      injection b1 with b1
      subst a1; subst b1
      obtain ⟨p', hp, hi⟩ := bind_eq_ok hi
      injection hp with hp
      subst hp
      rw [hm] at hi
      injection hi with hi
      rw [← hi] at hrun
      obtain ⟨out, a', h1, h2⟩ := C25_touching_deletions env.σ m u (he.sound p m hm u) ms hscan hd
      have e : strOp (ReplaceAwithB.transform env.σ m []) (.str u) = .ok (.str out, a') := by
        show (ReplaceAwithB.transform env.σ m [] u >>= _) = _
        rw [h1]
        rfl
      rw [e] at hrun
      injection hrun with hrun
      injection hrun with e1 e2
      subst e1; subst e2
      exact h2 ls hl
    · cases hi
  · by_cases hw : op.cls.name = "SpanSubwords".toList ∧
      ∃ v n, dictGet op.configs "maxlen_per_token".toList = some v ∧ v.asInt = .ok n ∧ 0 ≤ n ∧
        ∃ l : List Str, s = .list (l.map Tok.str) ∧ ¬ Spec.NoTwoEmpty l
    · obtain ⟨hn, v, n, hv, hvn, h0, l, rfl, hd⟩ := hw
      have hcr : c = Builtin.spanSubwords env :=
        builtin_of_name hc (List.mem_of_getElem? (i := 27) rfl) (by rw [← (call_run hop).1, hn]; rfl)
      subst hcr
      obtain ⟨hcls, _, _, vals, hi, _, hbd⟩ :=
        C65_capture _ hsig (hown.resolve_right (by intro e; cases e)) args kwargs hk op hop
      obtain ⟨vn, n1, n2, _⟩ := hbd 2 "maxlen_per_token".toList rfl
      rw [hv] at n2
      injection n2 with n2
      subst n2
      unfold Builtin.spanSubwords at hi
      dsimp only at hi
      unfold Builtin.spanSubwordsInit at hi
      split at hi
      · injection n1 with n1
        subst n1
        obtain ⟨unk, _, hi⟩ := bind_eq_ok hi
        injection hi with hi
        rw [← hi] at hrun
        obtain ⟨pre, post, rfl⟩ := exists_twoEmpty hd
        obtain ⟨⟨out, a'⟩, h1, hrun⟩ := bind_eq_ok (show (Builtin.spanSubwordsRun env _ unk _
          ((pre ++ [] :: [] :: post).map Tok.str) >>= _) = _ from hrun)
        obtain ⟨has, k, h1, hk⟩ := spanSubwordsRun_ok h1
        have hnn : n = k := by
          rcases hk with hk | hk
          · exact Except.ok.inj (hvn.symm.trans hk)
          · simp at hk
        subst hnn
        injection hrun with hrun
        injection hrun with e1 e2
        subst e1; subst e2
        exact C34_adjacent_empty env.σ _ unk n h0 pre post out a' h1 ls hl
      · cases hi
    · exfalso
      refine hs ⟨fun h1 h2 p m t ms h3 h4 h5 h6 => ?_, fun h1 v n h2 h3 h4 l h5 => ?_⟩
      · exact Classical.byContradiction fun hd => hr ⟨h1, h2, p, m, t, ms, h3, h4, h5, h6, hd⟩
      · exact Classical.byContradiction fun hd => hw ⟨h1, v, n, h2, h3, h4, l, h5, hd⟩

/-- C14: for all operators but two no precaution is needed. -/
theorem C14_safe (env : Env) (op : Op) (s : Seq)
    (h : op.cls.name ∉ ["ReplaceAwithB".toList, "SpanSubwords".toList] ∨
      op.cls.name = "ReplaceAwithB".toList ∧ dictGet op.configs "b".toList ≠ some (.str [])) : Safe env op s := by
  refine ⟨fun h1 h2 => ?_, fun h1 => ?_⟩
  · rcases h with h | h
    · exact absurd (by simp [h1]) h
    · exact absurd h2 h.2
  · rcases h with h | h
    · exact absurd (by simp [h1]) h
    · exact absurd (h1.symm.trans h.1) (by decide)

/-- C14, C59: a pipe of built-in operators keeps labels aligned with its output. -/
theorem C14_C59_pipe (env : Env) (he : env.Sane) (p : Pipe) (hp : ∀ op ∈ p.steps, IsBuiltin env op) (s o : Seq)
    (as : List Aligner) (coll : List Seq) (h : p.transformSequence s = .ok (o, as, coll))
    (hs : ∀ (i : Nat) op t, p.steps[i]? = some op → coll[i]? = some t → Safe env op t) : FaithfulAll as s.length o.length :=
  C59_aligned p s o as coll h fun i op t u a hop ht hu =>
    C14_aligned env he op (hp op (List.mem_of_getElem? hop)) t u a hu (hs i op t hop ht)

/-- C14, C59: a pipe of built-in operators turns a datum with entities inside its utterance into labels that fit
its output. -/
theorem C14_C59_datum (env : Env) (he : env.Sane) (p : Pipe) (hp : ∀ op ∈ p.steps, IsBuiltin env op) (d : Datum)
    (hd : ∀ e ∈ d.entities, e.start < e.stop → -(d.utterance.length : Int) ≤ e.start ∧ e.stop ≤ d.utterance.length)
    (o : Seq) (as : List Aligner) (coll : List Seq)
    (h : p.transformSequence (.str d.utterance) = .ok (o, as, coll))
    (hs : ∀ (i : Nat) op t, p.steps[i]? = some op → coll[i]? = some t → Safe env op t) :
    ∃ ys, p.transform d = .ok ⟨o, d.intents.map (fun i => i.label), ys, as, coll⟩ ∧ ys.length = o.length ∧
      ∀ y ∈ ys, y = 0 ∨ ∃ e ∈ d.entities, e.label = y :=
  C59_transform p d o as coll hd h fun i op t u a hop ht hu =>
    C14_aligned env he op (hp op (List.mem_of_getElem? hop)) t u a hu (hs i op t hop ht)

/-! ### a concrete environment -/

/-- Literal patterns, ASCII tables. -/
def exEnv : Env where
  σ := SetOrder.id
  u := asciiUnicode
  compile := fun p => some (Re.lit p).search

theorem exEnv_sane : exEnv.Sane := by
  refine ⟨by decide, fun p m h s => ?_⟩
  injection h with h
  rw [← h]
  exact C24_regex_sound _ _

theorem exReplace : ∃ op t a, IsBuiltin exEnv op ∧ op.transform (.str "a-b-c".toList) = .ok (t, a) ∧
    t = .str "abc".toList ∧ Safe exEnv op (.str "a-b-c".toList) := by
  have h : (Builtin.replace exEnv).call [.str "-".toList] [("b".toList, .str [])] =
      .ok ⟨Builtin.replace exEnv, [("a".toList, .str "-".toList), ("b".toList, .str [])],
        strOp (ReplaceAwithB.transform exEnv.σ (Re.lit "-".toList).search [])⟩ := by rfl
  have hscan : Scan (Re.lit "-".toList).search "a-b-c".toList 0 [(1, 2), (3, 4)] :=
    .match_ 0 1 2 _ (by decide) (by decide) (.match_ 2 3 4 _ (by decide) (by decide)
      (.noMatch 4 (by decide) (by decide)))
  obtain ⟨a, ha, _⟩ := C25_replace exEnv.σ (Re.lit "-".toList).search [] "a-b-c".toList (C24_regex_sound _ _) _ hscan
  have e : replaceMatches "a-b-c".toList [] 0 [(1, 2), (3, 4)] = "abc".toList := by decide
  rw [e] at ha
  refine ⟨_, .str "abc".toList, a, ⟨_, ?_, _, _, ?_, h⟩, ?_, rfl, ?_, ?_⟩
  · exact List.mem_of_getElem? (i := 18) rfl
  · decide
  · unfold Op.transform
    rw [if_neg (by decide)]
    have h1 : strOp (ReplaceAwithB.transform exEnv.σ (Re.lit "-".toList).search [])
        (.str "a-b-c".toList) = .ok (.str "abc".toList, a) := by
      show (ReplaceAwithB.transform exEnv.σ (Re.lit "-".toList).search [] "a-b-c".toList >>= _) = _
      rw [ha]
      rfl
    show (strOp (ReplaceAwithB.transform exEnv.σ (Re.lit "-".toList).search [])
      (.str "a-b-c".toList) >>= _) = _
    rw [h1]
    rfl
  · intro _ _ p m t ms h1 h2 h3 h4
    injection h1 with h1
    injection h1 with h1
    injection h2 with h2
    injection h3 with h3
    subst h1; subst h2; subst h3
    rw [h4.det hscan]
    decide
  · intro hn
    exact absurd hn (by decide)

/-- C14 on "a-b-c" with the hyphens removed: five labels become three and three become five. -/
example : ∃ op t a, IsBuiltin exEnv op ∧ op.transform (.str "a-b-c".toList) = .ok (t, a) ∧ Faithful a 5 3 ∧
    (∀ ls : List Int, ls.length = 5 → ∃ ys, a.transform ls = .ok ys ∧ ys.length = 3 ∧ LabelsFrom ls ys) := by
  obtain ⟨op, t, a, h1, h2, h3, h4⟩ := exReplace
  subst h3
  exact ⟨op, _, a, h1, h2, C14_aligned exEnv exEnv_sane op h1 _ _ a h2 h4,
    fun ls hl => (C14_forward exEnv exEnv_sane op h1 _ _ a h2 ls).1 hl⟩

/-- C14_unsafe: removing the hyphens of "a--b" can not be undone. -/
example : ∃ op t a, IsBuiltin exEnv op ∧ op.transform (.str "a--b".toList) = .ok (t, a) ∧
    t = .str "ab".toList ∧ ¬ Safe exEnv op (.str "a--b".toList) ∧
    a.inverseTransform [1, 2] = .error .assertionError := by
  have h : (Builtin.replace exEnv).call [.str "-".toList] [("b".toList, .str [])] =
      .ok ⟨Builtin.replace exEnv, [("a".toList, .str "-".toList), ("b".toList, .str [])],
        strOp (ReplaceAwithB.transform exEnv.σ (Re.lit "-".toList).search [])⟩ := by rfl
  have hscan : Scan (Re.lit "-".toList).search "a--b".toList 0 [(1, 2), (2, 3)] :=
    .match_ 0 1 2 _ (by decide) (by decide) (.match_ 2 2 3 _ (by decide) (by decide)
      (.noMatch 3 (by decide) (by decide)))
  obtain ⟨a, ha, _⟩ := C25_replace exEnv.σ (Re.lit "-".toList).search [] "a--b".toList (C24_regex_sound _ _) _ hscan
  have e : replaceMatches "a--b".toList [] 0 [(1, 2), (2, 3)] = "ab".toList := by decide
  rw [e] at ha
  have hb : IsBuiltin exEnv ⟨Builtin.replace exEnv, [("a".toList, .str "-".toList), ("b".toList, .str [])],
      strOp (ReplaceAwithB.transform exEnv.σ (Re.lit "-".toList).search [])⟩ :=
    ⟨_, List.mem_of_getElem? (i := 18) rfl, _, _, by decide, h⟩
  have ht : Op.transform ⟨Builtin.replace exEnv, [("a".toList, .str "-".toList), ("b".toList, .str [])],
      strOp (ReplaceAwithB.transform exEnv.σ (Re.lit "-".toList).search [])⟩ (.str "a--b".toList) =
      .ok (.str "ab".toList, a) := by
    unfold Op.transform
    rw [if_neg (by decide)]
    have h1 : strOp (ReplaceAwithB.transform exEnv.σ (Re.lit "-".toList).search [])
        (.str "a--b".toList) = .ok (.str "ab".toList, a) := by
      show (ReplaceAwithB.transform exEnv.σ (Re.lit "-".toList).search [] "a--b".toList >>= _) = _
      rw [ha]
      rfl
    show (strOp (ReplaceAwithB.transform exEnv.σ (Re.lit "-".toList).search [])
      (.str "a--b".toList) >>= _) = _
    rw [h1]
    rfl
  have hu : ¬ Safe exEnv ⟨Builtin.replace exEnv, [("a".toList, .str "-".toList), ("b".toList, .str [])],
      strOp (ReplaceAwithB.transform exEnv.σ (Re.lit "-".toList).search [])⟩ (.str "a--b".toList) := fun hs =>
    absurd (hs.replace rfl rfl _ _ _ _ rfl rfl rfl hscan) (by decide)
  exact ⟨_, _, a, hb, ht, rfl, hu, C14_unsafe exEnv exEnv_sane _ hb _ _ a ht hu [1, 2] rfl⟩

/-- C14_safe covers, for instance, a replacement by a non-empty text. -/
example : Safe exEnv ⟨Builtin.replace exEnv, [("a".toList, .str "-".toList), ("b".toList, .str "+".toList)],
    strOp (ReplaceAwithB.transform exEnv.σ (Re.lit "-".toList).search ['+'])⟩ (.str "a--b".toList) :=
  C14_safe _ _ _ (Or.inr ⟨rfl, fun h => by cases h⟩)

theorem exPipe : ∃ (p : Pipe) (as : List Aligner), (∀ op ∈ p.steps, IsBuiltin exEnv op) ∧ as ≠ [] ∧
    p.transformSequence (.str "a-b-c".toList) =
      .ok (.str "abc".toList, as, [.str "a-b-c".toList, .str "abc".toList]) ∧
    ∀ (i : Nat) op t, p.steps[i]? = some op → [Seq.str "a-b-c".toList, .str "abc".toList][i]? = some t →
      Safe exEnv op t := by
  obtain ⟨op, t, a, h1, h2, h3, h4⟩ := exReplace
  subst h3
  refine ⟨⟨[op], []⟩, [a], fun o ho => ?_, by simp, ?_, fun i o t ho ht => ?_⟩
  · have : o = op := by simpa using ho
    rw [this]
    exact h1
  · show (op.transform (.str "a-b-c".toList) >>= _) = _
    rw [h2]
    rfl
  · cases i with
    | zero =>
      injection ho with ho
      injection ht with ht
      rw [← ho, ← ht]
      exact h4
    | succ i => simp at ho

example : ∃ as : List Aligner, as ≠ [] ∧ FaithfulAll as 5 3 := by
  obtain ⟨p, as, h1, h2, h3, h4⟩ := exPipe
  exact ⟨as, h2, C14_C59_pipe exEnv exEnv_sane p h1 _ _ as _ h3 h4⟩

example : ∃ (p : Pipe) (as : List Aligner) (ys : List Int),
    p.transform ⟨"a-b-c".toList, [⟨4⟩], [⟨7, "b-c".toList, 2, 5, []⟩]⟩ =
      .ok ⟨.str "abc".toList, [4], ys, as, [.str "a-b-c".toList, .str "abc".toList]⟩ ∧ ys.length = 3 := by
  obtain ⟨p, as, h1, h2, h3, h4⟩ := exPipe
  obtain ⟨ys, y1, y2, _⟩ := C14_C59_datum exEnv exEnv_sane p h1
    ⟨"a-b-c".toList, [⟨4⟩], [⟨7, "b-c".toList, 2, 5, []⟩]⟩ (by simp) _ as _ h3 h4
  exact ⟨p, as, ys, y1, y2⟩

example : Signature (Builtin.pad exEnv) ∧ ((Builtin.pad exEnv).ownInit = true ∨ (Builtin.pad exEnv).params = []) :=
  C66_signatures exEnv _ (List.mem_of_getElem? (i := 25) rfl)

end Uttut
