import Verif.Props.Numbers

/-! Properties C16, C21, C22: lower-casing and whitespace operators. -/

namespace Uttut

open Spec Piece

/-! ### C16 -/

set_option maxRecDepth 4000 in
theorem lowerChar_eq (c : Char) : Lowercase.lowerChar c = asciiLower c := by
  by_cases h : c.toNat < 128
  · have key : ∀ n : Fin 128, Lowercase.lowerChar (Char.ofNat n) = asciiLower (Char.ofNat n) := by decide
    have := key ⟨c.toNat, h⟩
    simpa only [Char.ofNat_toNat] using this
  · have h1 : Lowercase.isUpper c = false := by
      unfold Lowercase.isUpper
      have : 'Z'.toNat = 90 := by decide
      simp only [Bool.and_eq_false_iff, decide_eq_false_iff_not]
      right; omega
    unfold Lowercase.lowerChar asciiLower
    rw [h1]
    have h2 : (capitals.zip smalls).lookup c = none := by
      rw [List.lookup_eq_none_iff]
      intro x hx
      have key : ∀ x ∈ capitals.zip smalls, x.1.toNat < 128 := by decide
      have := key x hx
      simp only [bne_iff_ne, ne_eq]
      rintro rfl
      exact h this
    rw [h2]
    rfl

theorem lower_idem (c : Char) : asciiLower (asciiLower c) = asciiLower c := by
  unfold asciiLower
  cases h : (capitals.zip smalls).lookup c with
  | none => simp [h]
  | some d =>
    have hd : (c, d) ∈ capitals.zip smalls := by
      have := List.lookup_eq_some_iff.mp h
      obtain ⟨l1, l2, h, _⟩ := this
      rw [h]; simp
    have key : ∀ x ∈ capitals.zip smalls, (capitals.zip smalls).lookup x.2 = none := by decide
    simp [key _ hd]

/-- C16: the output is the input with each ASCII capital replaced by its small letter; labels pass
through. -/
theorem C16_lowercase (σ : SetOrder) (s : Str) :
    ∃ a, Lowercase.transform σ s = .ok (s.map asciiLower, a) ∧
      Aligned a s.length s.length anyLabels ∧ PassThrough a s.length := by
  have hg := patternGroup_runs σ Lowercase.regex Lowercase.isUpper (fun _ _ _ => true)
    (runRe_plus Lowercase.isUpper) (fun r => r.map Lowercase.lowerChar) Lowercase.newValue
    (fun _ _ _ => rfl) s
  have hsrc := srcOf_runPieces Lowercase.isUpper (fun _ _ _ => true) (fun r => r.map Lowercase.lowerChar) []
    (runs Lowercase.isUpper s)
  rw [runs_flatten] at hsrc
  have hout := dstOf_runPieces Lowercase.isUpper (fun _ => true) (fun r => r.map Lowercase.lowerChar) []
    (runs Lowercase.isUpper s)
  have hout' : (runs Lowercase.isUpper s).flatMap (fun r => if isRunOf Lowercase.isUpper r then
      (if true then r.map Lowercase.lowerChar else r) else r) = s.map asciiLower := by
    conv => rhs; rw [← runs_flatten Lowercase.isUpper s, List.map_flatten, List.flatten_eq_flatMap,
      List.flatMap_map]
    apply flatMap_congr_mem
    intro r hr
    obtain ⟨h1, h2⟩ := mem_runs _ _ _ hr
    cases hb : isRunOf Lowercase.isUpper r with
    | true =>
      simp only [if_true, id]
      exact List.map_congr_left fun c _ => lowerChar_eq c
    | false =>
      rw [hb] at h2
      simp only [Bool.false_eq_true, if_false, id]
      conv => lhs; rw [← List.map_id r]
      apply List.map_congr_left
      intro c hc
      rw [← lowerChar_eq]
      simp [Lowercase.lowerChar, h2 c hc]
  rw [hout'] at hout
  have happ := strApply_pieces (runPieces Lowercase.isUpper (fun _ _ _ => true)
    (fun r => r.map Lowercase.lowerChar) [] (runs Lowercase.isUpper s))
  rw [hsrc] at happ
  refine ⟨Aligner.null s.length s.length, ?_, null_aligned _, null_passThrough _⟩
  unfold Lowercase.transform
  rw [hg]
  simp only [Except.bind_ok]
  rw [happ, hout]
  simp only [Except.bind_ok, List.length_map, if_true]
  rfl

/-- C16: applying `Lowercase` twice equals applying it once. -/
theorem C16_idempotent (σ : SetOrder) (s : Str) :
    andThen (Lowercase.transform σ) (Lowercase.transform σ) s = outputOf (Lowercase.transform σ s) := by
  obtain ⟨a, h, _⟩ := C16_lowercase σ s
  obtain ⟨b, h', _⟩ := C16_lowercase σ (s.map asciiLower)
  rw [andThen_eq (F := fun s => s.map asciiLower) (G := fun s => s.map asciiLower) s ⟨a, h⟩ ⟨b, h'⟩, h]
  simp only [List.map_map]
  show _ = Except.ok _
  congr 1
  exact List.map_congr_left fun c _ => lower_idem c

example : "aBCé Z1".toList.map asciiLower = "abcé z1".toList := by decide

/-! ### whitespace runs and `str.split` -/

theorem splitAux_word (cur r rest : Str) (h : Uniform isSpace false r) :
    splitAux cur (r ++ rest) = splitAux (r.reverse ++ cur) rest := by
  induction r generalizing cur with
  | nil => rfl
  | cons c r ih =>
    have : isSpace c = false := h c (by simp)
    simp only [List.cons_append, splitAux, this, Bool.false_eq_true, if_false]
    rw [ih _ (fun d hd => h d (by simp [hd]))]
    simp

theorem splitAux_space (r rest : Str) (h : Uniform isSpace true r) :
    splitAux [] (r ++ rest) = splitAux [] rest := by
  induction r with
  | nil => rfl
  | cons c r ih =>
    have : isSpace c = true := h c (by simp)
    simp only [List.cons_append, splitAux, this, if_true, List.isEmpty_nil]
    exact ih (fun d hd => h d (by simp [hd]))

theorem splitAux_flush (cur rest : Str) (hc : cur ≠ []) (h : ∀ c ∈ rest.head?, isSpace c = true) :
    splitAux cur rest = cur.reverse :: splitAux [] rest := by
  have he : cur.isEmpty = false := by cases cur <;> simp_all
  cases rest with
  | nil => simp [splitAux, he]
  | cons c rest =>
    have : isSpace c = true := h c (by simp)
    simp [splitAux, this, he]

theorem pySplit_isRuns (b : Bool) (rs : List Str) (h : IsRuns isSpace b rs) :
    pySplit rs.flatten = rs.filter fun r => !isRunOf isSpace r := by
  unfold pySplit
  induction rs generalizing b with
  | nil => rfl
  | cons r rs ih =>
    obtain ⟨h1, h2, h3⟩ := h
    have ih := ih _ h3
    have hb := isRunOf_uniform h1 h2
    simp only [List.flatten_cons]
    cases b with
    | true => rw [splitAux_space _ _ h2, ih, List.filter_cons_of_neg (by simp [hb])]
    | false =>
      rw [splitAux_word _ _ _ h2, List.append_nil, splitAux_flush _ _ (by simpa using h1) h3.head_flatten,
        ih, List.filter_cons_of_pos (by simp [hb]), List.reverse_reverse]

/-- `str.split()` gives the maximal runs of non-whitespace. -/
theorem pySplit_eq (s : Str) : pySplit s = wordsOf s := by
  obtain ⟨b, _, h⟩ := runs_isRuns isSpace s
  have := pySplit_isRuns b _ h
  rw [runs_flatten] at this
  exact this

/-! ### C21 -/

/-- The runs with whitespace runs merged. -/
def mergedRuns (rs : List Str) : List Str := rs.map fun r => if isRunOf isSpace r then [' '] else r

theorem mergedRuns_isRuns (b : Bool) (rs : List Str) (h : IsRuns isSpace b rs) :
    IsRuns isSpace b (mergedRuns rs) := by
  induction rs generalizing b with
  | nil => trivial
  | cons r rs ih =>
    obtain ⟨h1, h2, h3⟩ := h
    have hb := isRunOf_uniform h1 h2
    unfold mergedRuns at ih ⊢
    rw [List.map_cons, hb]
    cases b with
    | true =>
      refine ⟨by simp, ?_, ih _ h3⟩
      intro c hc
      simp at hc
      rw [hc]; decide
    | false => exact ⟨h1, h2, ih _ h3⟩

theorem merge_eq_mergedRuns (s : Str) :
    mapRuns isSpace (fun _ => [' ']) s = (mergedRuns (runs isSpace s)).flatten := by
  unfold mapRuns mergedRuns
  rw [List.flatMap_def]

/-- C21: every maximal run of whitespace becomes one space, nothing else changes. Labels: the space gets
the most common label of the run, and gives its label back to the whole run; uniform runs round-trip. -/
theorem C21_merge (σ : SetOrder) (s : Str) :
    ∃ a, MergeWhiteSpaceCharacters.transform σ s = .ok (mapRuns isSpace (fun _ => [' ']) s, a) ∧
      Aligned a s.length (mapRuns isSpace (fun _ => [' ']) s).length anyLabels ∧
      (∀ ls, ls.length = s.length → a.transform ls =
        .ok (mapLabels (isRunOf isSpace) (fun _ seg => [firstMode seg]) (runs isSpace s)
          (splitLike (runs isSpace s) ls))) ∧
      (∀ ls, ls.length = (mapRuns isSpace (fun _ => [' ']) s).length → a.inverseTransform ls =
        .ok (mapLabels (isRunOf isSpace) (fun r seg => List.replicate r.length (firstMode seg)) (runs isSpace s)
          (splitLike ((runs isSpace s).map fun r => if isRunOf isSpace r then [' '] else r) ls))) ∧
      (∀ ls, ls.length = s.length →
        (∀ x ∈ (runs isSpace s).zip (splitLike (runs isSpace s) ls), isRunOf isSpace x.1 = true →
          ∃ v, ∀ l ∈ x.2, l = v) →
        ∃ y, a.transform ls = .ok y ∧ a.inverseTransform y = .ok ls) := by
  obtain ⟨a, h1, h2, h3, h4, h5⟩ := run_op σ isSpace (.plus isSpace) (fun _ => true) (runRe_plus isSpace) [' ']
    (by simp) Transduce.getMostCommon Transduce.getMostCommon plainLabels plainLabels
    (fun x n hx _ => getMostCommon_firstMode x n hx) (fun x n hx => getMostCommon_firstMode x n hx)
    (fun x n _ => by simp [plainLabels]) (fun x n => by simp [plainLabels]) s
  simp only [Bool.and_true, if_true] at h1 h2 h3 h4 h5
  refine ⟨a, h1, h2, h3, h4, ?_⟩
  intro ls hl hun
  refine h5 ls hl ?_
  intro x hx hx1 _
  obtain ⟨v, hv⟩ := hun x hx hx1
  obtain ⟨e1, e2⟩ := splitLike_mem_length _ ls (by rw [runs_flatten]; exact hl) x hx
  have hx2' : x.2 = List.replicate x.1.length v := by
    rw [← e1]; exact List.eq_replicate_iff.mpr ⟨rfl, hv⟩
  have hpos : 0 < x.1.length := List.length_pos_iff.mpr (mem_runs _ _ _ e2).1
  rw [hx2']
  obtain ⟨m, hm⟩ : ∃ m, x.1.length = m + 1 := ⟨x.1.length - 1, by omega⟩
  rw [hm]
  unfold plainLabels
  rw [firstMode_replicate]
  show List.replicate (m + 1) (firstMode (List.replicate (0 + 1) v)) = _
  rw [firstMode_replicate]

theorem isRuns_no_adjacent (b : Bool) (rs : List Str) (h : IsRuns isSpace b rs)
    (h1 : ∀ r ∈ rs, isRunOf isSpace r = true → r.length = 1) :
    ∀ x c d y, rs.flatten = x ++ c :: d :: y → ¬ (isSpace c = true ∧ isSpace d = true) := by
  induction rs generalizing b with
  | nil => intro x c d y h; simp at h
  | cons r rs ih =>
    obtain ⟨g1, g2, g3⟩ := h
    have ih := ih _ g3 (fun r hr => h1 r (by simp [hr]))
    have hb := isRunOf_uniform g1 g2
    cases b with
    | true =>
      obtain ⟨e, rfl⟩ : ∃ e, r = [e] := List.length_eq_one_iff.mp (h1 r (by simp) hb)
      intro x c d y hx
      simp only [List.flatten_cons, List.cons_append, List.nil_append] at hx
      cases x with
      | nil =>
        simp only [List.nil_append, List.cons.injEq] at hx
        rintro ⟨_, hd⟩
        have := g3.head_flatten d (by rw [hx.2]; simp)
        rw [hd] at this; cases this
      | cons x0 x =>
        simp only [List.cons_append, List.cons.injEq] at hx
        exact ih x c d y hx.2
    | false =>
      intro x c d y hx
      simp only [List.flatten_cons] at hx
      by_cases hlt : x.length < r.length
      · -- `c` is in `r`
        have hc : c ∈ r := by
          have := congrArg (fun l => l[x.length]?) hx
          simp only [List.getElem?_append_left hlt, List.getElem?_append_right (Nat.le_refl _), Nat.sub_self,
            List.getElem?_cons_zero] at this
          exact List.mem_of_getElem? this
        rintro ⟨h, _⟩
        rw [g2 c hc] at h; cases h
      · obtain ⟨x', rfl⟩ : ∃ x', x = r ++ x' := by
          have := List.append_eq_append_iff.mp hx
          rcases this with ⟨a, ha, _⟩ | ⟨a, ha, _⟩
          · exact ⟨a, ha⟩
          · have : r.length = x.length + a.length := by rw [ha]; simp
            have ha0 : a = [] := List.length_eq_zero_iff.mp (by omega)
            subst ha0
            exact ⟨[], by simpa using ha.symm⟩
        rw [List.append_assoc] at hx
        exact ih x' c d y (List.append_cancel_left hx)

/-- C21: the output contains no two adjacent whitespace characters, and no whitespace other than the
space. -/
theorem C21_no_adjacent (σ : SetOrder) (s out : Str) (h : outputOf (MergeWhiteSpaceCharacters.transform σ s) = .ok out) :
    (∀ x c d y, out = x ++ c :: d :: y → ¬ (isSpace c = true ∧ isSpace d = true)) ∧
    (∀ c ∈ out, isSpace c = true → c = ' ') := by
  obtain ⟨a, ha, _⟩ := C21_merge σ s
  rw [ha] at h
  injection h with h
  obtain ⟨b, _, hr⟩ := runs_isRuns isSpace s
  dsimp only at h
  constructor
  · rw [← h, merge_eq_mergedRuns]
    refine isRuns_no_adjacent b _ (mergedRuns_isRuns b _ hr) ?_
    intro r hr hs
    unfold mergedRuns at hr
    obtain ⟨r', hr', rfl⟩ := List.mem_map.mp hr
    by_cases hb : isRunOf isSpace r' = true
    · rw [if_pos hb]; rfl
    · rw [if_neg hb] at hs; exact absurd hs hb
  · intro c hc hs
    rw [← h] at hc
    unfold mapRuns at hc
    obtain ⟨r, hr, hc⟩ := List.mem_flatMap.mp hc
    by_cases hb : isRunOf isSpace r = true
    · rw [if_pos hb] at hc; simpa using hc
    · rw [if_neg hb] at hc
      have := (mem_runs _ _ _ hr).2 c hc
      rw [hs] at this
      exact absurd this.symm hb

/-- C21: the operator is idempotent. -/
theorem C21_idempotent (σ : SetOrder) (s : Str) :
    andThen (MergeWhiteSpaceCharacters.transform σ) (MergeWhiteSpaceCharacters.transform σ) s =
      outputOf (MergeWhiteSpaceCharacters.transform σ s) := by
  obtain ⟨a, h, _⟩ := C21_merge σ s
  obtain ⟨b, h', _⟩ := C21_merge σ (mapRuns isSpace (fun _ => [' ']) s)
  rw [andThen_eq (F := mapRuns isSpace fun _ => [' ']) (G := mapRuns isSpace fun _ => [' ']) s ⟨a, h⟩ ⟨b, h'⟩, h]
  show _ = Except.ok _
  congr 1
  obtain ⟨b, _, hr⟩ := runs_isRuns isSpace s
  have hm := mergedRuns_isRuns b _ hr
  rw [merge_eq_mergedRuns s, merge_eq_mergedRuns, isRuns_unique _ _ _ hm]
  congr 1
  unfold mergedRuns
  rw [List.map_map]
  apply List.map_congr_left
  intro r _
  simp only [Function.comp]
  by_cases hb : isRunOf isSpace r = true
  · simp [hb]
  · simp [hb]

/-- C21: `str.split()` gives the same words before and after; and `str.split()` of the model is the
division into maximal runs of non-whitespace. -/
theorem C21_split (σ : SetOrder) (s out : Str) (h : outputOf (MergeWhiteSpaceCharacters.transform σ s) = .ok out) :
    pySplit out = pySplit s ∧ pySplit s = wordsOf s := by
  obtain ⟨a, ha, _⟩ := C21_merge σ s
  rw [ha] at h
  injection h with h
  refine ⟨?_, pySplit_eq s⟩
  dsimp only at h
  rw [← h, merge_eq_mergedRuns, pySplit_eq s]
  obtain ⟨b, _, hr⟩ := runs_isRuns isSpace s
  rw [pySplit_isRuns b _ (mergedRuns_isRuns b _ hr)]
  unfold wordsOf mergedRuns
  generalize runs isSpace s = rs
  induction rs with
  | nil => rfl
  | cons r rs ih =>
    rw [List.map_cons]
    by_cases hb : isRunOf isSpace r = true
    · rw [if_pos hb, List.filter_cons_of_neg (by decide), List.filter_cons_of_neg (by simp [hb]), ih]
    · rw [if_neg hb, List.filter_cons_of_pos (by simpa using hb), List.filter_cons_of_pos (by simpa using hb), ih]

example : mapRuns isSpace (fun _ => [' ']) " a\t\n b  ".toList = " a b ".toList := by decide

/-! ### C22 -/

theorem dropWhile_nil_of_all {p : Char → Bool} (l : Str) (h : ∀ c ∈ l, p c = true) : l.dropWhile p = [] := by
  have := List.dropWhile_append_of_pos (l₁ := l) (l₂ := []) h
  simpa using this

theorem all_of_dropWhile_nil {p : Char → Bool} (l : Str) (h : l.dropWhile p = []) : ∀ c ∈ l, p c = true := by
  have := List.takeWhile_append_dropWhile (p := p) (l := l)
  rw [h, List.append_nil] at this
  intro c hc
  rw [← this] at hc
  exact List.all_eq_true.mp List.all_takeWhile c hc

theorem dropWhile_head_not {p : Char → Bool} (s : Str) : ∀ c ∈ (s.dropWhile p).head?, p c = false := by
  intro c hc
  rw [Option.mem_def] at hc
  have := List.head?_dropWhile_not p s
  rw [hc] at this
  simpa using this

/-- Division of a text at its stripped part. -/
theorem strip_split (s : Str) : ∃ a b, s = a ++ strip s ++ b ∧ Uniform isSpace true a ∧ Uniform isSpace true b ∧
    a = s.takeWhile isSpace ∧
    (∀ c ∈ (strip s).head?, isSpace c = false) ∧ (∀ c ∈ (strip s).getLast?, isSpace c = false) ∧
    (strip s = [] → b = []) := by
  have h1 : s = s.takeWhile isSpace ++ s.dropWhile isSpace := List.takeWhile_append_dropWhile.symm
  have h2 : (s.dropWhile isSpace).reverse = (s.dropWhile isSpace).reverse.takeWhile isSpace ++
      (s.dropWhile isSpace).reverse.dropWhile isSpace := List.takeWhile_append_dropWhile.symm
  have h3 := congrArg List.reverse h2
  rw [List.reverse_reverse, List.reverse_append] at h3
  have hlast : ∀ c ∈ (strip s).getLast?, isSpace c = false := by
    intro c hc
    unfold strip at hc
    rw [List.getLast?_reverse] at hc
    exact dropWhile_head_not _ c hc
  have hne : strip s = [] → s.dropWhile isSpace = [] := by
    intro h
    unfold strip at h
    rw [List.reverse_eq_nil_iff] at h
    have hall : ∀ c ∈ (s.dropWhile isSpace), isSpace c = true := by
      intro c hc
      have := all_of_dropWhile_nil _ h c (by simpa using hc)
      exact this
    cases hd : s.dropWhile isSpace with
    | nil => rfl
    | cons c cs =>
      have e1 := dropWhile_head_not (p := isSpace) s c (by rw [hd]; simp)
      have e2 := hall c (by rw [hd]; simp)
      rw [e1] at e2; cases e2
  refine ⟨s.takeWhile isSpace, ((s.dropWhile isSpace).reverse.takeWhile isSpace).reverse, ?_, ?_, ?_, rfl, ?_, hlast, ?_⟩
  · rw [List.append_assoc]
    unfold strip
    rw [← h3]
    exact h1
  · intro c hc; exact List.all_eq_true.mp List.all_takeWhile c hc
  · intro c hc
    rw [List.mem_reverse] at hc
    exact List.all_eq_true.mp List.all_takeWhile c hc
  · intro c hc
    have : ∀ c ∈ (s.dropWhile isSpace).head?, isSpace c = false := dropWhile_head_not s
    apply this
    have h3' : s.dropWhile isSpace = strip s ++ ((s.dropWhile isSpace).reverse.takeWhile isSpace).reverse := h3
    rw [h3']
    rw [Option.mem_def] at hc ⊢
    rw [List.head?_append, hc]
    rfl
  · intro h
    have := hne h
    rw [this]; rfl

/-- C22: what stripping means: the text is whitespace, the stripped text, whitespace, and the stripped
text neither starts nor ends with whitespace; this determines it. -/
theorem C22_strip_form (s m : Str) :
    strip s = m ↔ (∃ a b, s = a ++ m ++ b ∧ (∀ c ∈ a, isSpace c = true) ∧ (∀ c ∈ b, isSpace c = true)) ∧
      (∀ c ∈ m.head?, isSpace c = false) ∧ (∀ c ∈ m.getLast?, isSpace c = false) := by
  constructor
  · rintro rfl
    obtain ⟨a, b, h1, h2, h3, _, h5, h6, _⟩ := strip_split s
    exact ⟨⟨a, b, h1, h2, h3⟩, h5, h6⟩
  · rintro ⟨⟨a, b, rfl, ha, hb⟩, hh, hl⟩
    unfold strip
    rw [List.append_assoc, List.dropWhile_append_of_pos ha]
    cases hm : m with
    | nil =>
      rw [List.nil_append, dropWhile_nil_of_all b hb]
      rfl
    | cons c cs =>
      rw [← hm]
      have hc : isSpace c = false := hh c (by rw [hm]; simp)
      have : (m ++ b).dropWhile isSpace = m ++ b := by
        rw [hm, List.cons_append, List.dropWhile_cons_of_neg (by simp [hc])]
      rw [this, List.reverse_append, List.dropWhile_append_of_pos (by intro d hd; exact hb d (by simpa using hd))]
      have hne : m ≠ [] := by rw [hm]; simp
      have hlast := hl (m.getLast hne) (by simp [List.getLast?_eq_some_getLast hne])
      have : m.reverse = m.getLast hne :: m.dropLast.reverse := by
        conv => lhs; rw [← List.dropLast_concat_getLast hne]
        simp
      rw [this, List.dropWhile_cons_of_neg (by simp [hlast]), ← this, List.reverse_reverse]

/-- Pieces of the strip operator. -/
def stripPieces (a m b : Str) : List (Piece Char Char) :=
  (if a.isEmpty then [] else [sub a []]) ++ (if m.isEmpty then [] else [keep m]) ++
    (if b.isEmpty then [] else [sub b []])

theorem stripRegex_end (bef : Str) : stripRegex.ends bef [] = [] := by
  cases bef <;> rfl

theorem stripRegex_lead (a rest : Str) (ha : a ≠ []) (hs : Uniform isSpace true a)
    (hr : ∀ c ∈ rest.head?, isSpace c = false) : (stripRegex.ends [] (a ++ rest)).head? = some a.length := by
  unfold stripRegex
  have htw : (a ++ rest).takeWhile isSpace = a := by
    rw [takeWhile_run (d := isSpace) (p := isSpace) (fun _ h => h) a rest hr]
    exact takeWhile_all (List.all_eq_true.mpr hs)
  obtain ⟨n, hn⟩ : ∃ n, a.length = n + 1 := ⟨a.length - 1, by have := List.length_pos_iff.mpr ha; omega⟩
  simp only [Re.ends, List.isEmpty_nil, if_true, List.flatMap_cons, List.flatMap_nil, List.append_nil,
    List.drop_zero, htw, hn, downFrom, List.map_cons, Nat.zero_add, List.cons_append, List.head?_cons]

theorem stripRegex_trail (bef b : Str) (hbef : bef ≠ []) (hb : b ≠ []) (hs : Uniform isSpace true b) :
    (stripRegex.ends bef b).head? = some b.length := by
  unfold stripRegex
  have htw : b.takeWhile isSpace = b := takeWhile_all (List.all_eq_true.mpr hs)
  have hbe : bef.isEmpty = false := by cases bef <;> simp_all
  obtain ⟨n, hn⟩ : ∃ n, b.length = n + 1 := ⟨b.length - 1, by have := List.length_pos_iff.mpr hb; omega⟩
  have hd : List.drop (n + 1) b = [] := List.drop_of_length_le (by omega)
  simp only [Re.ends, hbe, Bool.false_eq_true, if_false, List.flatMap_nil, List.nil_append, htw, hn, downFrom,
    List.flatMap_cons, hd, List.isEmpty_nil, if_true, List.map_cons, List.map_nil, Nat.add_zero,
    List.cons_append, List.head?_cons]

theorem stripRegex_mid (bef z b : Str) (hz : z ≠ []) (hlast : ∀ c ∈ z.getLast?, isSpace c = false)
    (hhead : bef = [] → ∀ c ∈ z.head?, isSpace c = false) : stripRegex.ends bef (z ++ b) = [] := by
  unfold stripRegex
  have hlt : ((z ++ b).takeWhile isSpace).length < z.length := by
    have hl := hlast (z.getLast hz) (by simp [List.getLast?_eq_some_getLast hz])
    have e : z ++ b = z.dropLast ++ (z.getLast hz :: b) := by
      conv => lhs; rw [← List.dropLast_concat_getLast hz]
      simp
    rw [e, takeWhile_run (d := isSpace) (p := isSpace) (fun _ h => h) _ _ (by simp [hl])]
    have h1 := (List.takeWhile_sublist (l := z.dropLast) isSpace).length_le
    have := List.length_pos_iff.mpr hz
    rw [List.length_dropLast] at h1
    omega
  rw [Re.ends, List.append_eq_nil_iff]
  constructor
  · rw [Re.ends]
    cases hb : bef with
    | nil =>
      obtain ⟨c, z', rfl⟩ := List.exists_cons_of_ne_nil hz
      have hc := hhead hb c (by simp)
      simp [Re.ends, hc, downFrom]
    | cons d ds => simp [Re.ends]
  · rw [Re.ends, List.flatMap_eq_nil_iff]
    intro n hn
    rw [Re.ends, mem_downFrom] at hn
    have : (z ++ b).drop n ≠ [] := by
      intro h
      have := congrArg List.length h
      simp at this
      omega
    have : ((z ++ b).drop n).isEmpty = false := by
      cases h : (z ++ b).drop n with
      | nil => exact absurd h this
      | cons => rfl
    simp [Re.ends, this]

theorem strip_cuts (a m b : Str) (ha : Uniform isSpace true a) (hb : Uniform isSpace true b)
    (hh : ∀ c ∈ m.head?, isSpace c = false) (hl : ∀ c ∈ m.getLast?, isSpace c = false) (hmb : m = [] → b = []) :
    Cuts stripRegex [] (stripPieces a m b) := by
  have hB : ∀ bef, bef ≠ [] → Cuts stripRegex bef (if b.isEmpty then [] else [sub b []]) := by
    intro bef hbef
    by_cases h : b = []
    · subst h; exact stripRegex_end bef
    · have : b.isEmpty = false := by cases b <;> simp_all
      rw [this]
      refine ⟨h, ?_, stripRegex_end _⟩
      simp only [srcOf, List.flatMap_nil, List.append_nil]
      exact stripRegex_trail bef b hbef h hb
  have hsrcB : srcOf (if b.isEmpty then [] else [(sub b [] : Piece Char Char)]) = b := by
    cases b <;> simp [srcOf, src]
  have hM : ∀ bef, (∀ c ∈ bef, isSpace c = true) → Cuts stripRegex bef
      ((if m.isEmpty then [] else [keep m]) ++ (if b.isEmpty then [] else [sub b []])) := by
    intro bef hbef
    by_cases h : m = []
    · have := hmb h
      subst h; subst this
      exact stripRegex_end bef
    · have hme : m.isEmpty = false := by cases m <;> simp_all
      rw [hme]
      refine ⟨?_, hB _ (by simp [h])⟩
      intro y z hyz hz
      show stripRegex.ends (y.reverse ++ bef) (z ++ srcOf (if b.isEmpty then [] else [(sub b [] : Piece Char Char)])) = []
      rw [hsrcB]
      apply stripRegex_mid _ _ _ hz
      · intro c hc
        apply hl
        rw [hyz, Option.mem_def, List.getLast?_append, Option.mem_def.mp hc]
        rfl
      · intro he c hc
        have hy : y = [] := by simpa using (List.append_eq_nil_iff.mp he).1
        subst hy
        exact hh c (by rw [hyz]; exact hc)
  unfold stripPieces
  rw [List.append_assoc]
  by_cases h : a = []
  · subst h; exact hM [] (by simp)
  · have hae : a.isEmpty = false := by cases a <;> simp_all
    rw [hae]
    refine ⟨h, ?_, hM _ (by intro c hc; exact ha c (by simpa using hc))⟩
    apply stripRegex_lead _ _ h ha
    intro c hc
    by_cases hm : m = []
    · have := hmb hm
      subst hm; subst this
      simp [srcOf] at hc
    · obtain ⟨d, m', rfl⟩ := List.exists_cons_of_ne_nil hm
      simp [srcOf, src] at hc
      exact hh c (by simp [hc])

theorem srcOf_stripPieces (a m b : Str) : srcOf (stripPieces a m b) = a ++ m ++ b := by
  unfold stripPieces
  cases a <;> cases m <;> cases b <;> simp [srcOf, src]

theorem dstOf_stripPieces (a m b : Str) : dstOf (stripPieces a m b) = m := by
  unfold stripPieces
  cases a <;> cases m <;> cases b <;> simp [dstOf, dst]

theorem getNotEntity_eq (l : List Int) (n : Nat) : Transduce.getNotEntity l n = .ok (List.replicate n 0) := rfl

/-- C22: the output is the input without leading and trailing whitespace. Forward labels are those of the
kept characters; backwards the removed characters get 0. -/
theorem C22_strip (σ : SetOrder) (s : Str) :
    ∃ a, StripWhiteSpaceCharacters.transform σ s = .ok (strip s, a) ∧
      Aligned a s.length (strip s).length anyLabels ∧
      ∃ lead trail, s.length = lead + (strip s).length + trail ∧
        (∀ c ∈ s.take lead, isSpace c = true) ∧ (s.drop lead).take (strip s).length = strip s ∧
        (∀ c ∈ s.drop (lead + (strip s).length), isSpace c = true) ∧
        (∀ ls, ls.length = s.length → a.transform ls = .ok ((ls.drop lead).take (strip s).length)) ∧
        (∀ ls, ls.length = (strip s).length →
          a.inverseTransform ls = .ok (List.replicate lead 0 ++ ls ++ List.replicate trail 0)) := by
  obtain ⟨a, b, h1, h2, h3, _, h5, h6, h7⟩ := strip_split s
  generalize hst : strip s = m at *
  have hsrc := srcOf_stripPieces a m b
  have hdst := dstOf_stripPieces a m b
  rw [← h1] at hsrc
  have hslen : s.length = a.length + m.length + b.length := by
    have := congrArg List.length h1
    simp only [List.length_append] at this
    exact this
  have htok : ∀ o n, sub o n ∈ stripPieces a m b → n = [] := by
    intro o n hm
    unfold stripPieces at hm
    simp only [List.mem_append] at hm
    rcases hm with (hm | hm) | hm
    · split at hm <;> simp at hm; exact hm.2
    · split at hm <;> simp at hm
    · split at hm <;> simp at hm; exact hm.2
  have hT := patternTransform_cuts σ stripRegex [] Transduce.getNotEntity Transduce.getNotEntity s _
    (strip_cuts a m b h2 h3 h5 h6 h7) htok hsrc
  have hsep : Separated false ((stripPieces a m b).map swap) := by
    unfold stripPieces
    by_cases hm : m = []
    · rw [h7 hm, hm]
      cases a <;> simp [swap, Separated]
    · obtain ⟨d, m', hm⟩ := List.exists_cons_of_ne_nil hm
      rw [hm]
      cases a <;> cases b <;> simp [swap, Separated]
  obtain ⟨hA, hF, hB, _⟩ := strAligner_pack σ _ Transduce.getNotEntity Transduce.getNotEntity s _ hsrc hdst
    (fun o n hm x hx => ⟨_, getNotEntity_eq _ _, by simp⟩)
    (fun o n hm x hx => ⟨_, getNotEntity_eq _ _, by simp⟩) hsep
  rw [hdst] at hT
  refine ⟨_, hT, hA, a.length, b.length, ?_, ?_, ?_, ?_, ?_, ?_⟩
  · exact hslen
  · intro c hc
    rw [h1, List.append_assoc, List.take_left] at hc
    exact h2 c hc
  · rw [h1, List.append_assoc, List.drop_left, List.take_left]
  · intro c hc
    rw [h1, ← List.length_append, List.drop_left] at hc
    exact h3 c hc
  · intro ls hl
    refine hF ls _ hl ?_
    rw [relabel_labelsWith _ (fun _ n => List.replicate n 0) _ (fun _ _ _ _ _ => rfl) ls (by rw [hsrc]; exact hl)]
    congr 1
    have hlen : ls.length = a.length + m.length + b.length := by
      rw [hl]; exact hslen
    unfold stripPieces
    cases a <;> cases m <;> cases b <;> simp [labelsWith] <;> simp at hlen <;> simp [hlen]
  · intro ls hl
    refine hB ls _ hl ?_
    rw [relabel_labelsWith _ (fun _ n => List.replicate n 0) _ (fun _ _ _ _ _ => rfl) ls
      (by rw [srcOf_swap, hdst]; exact hl)]
    congr 1
    unfold stripPieces
    cases a <;> cases m <;> cases b <;> simp [labelsWith, swap] <;> simp at hl <;> first | (simp [hl]; done) | (rw [← hl, List.take_length])

/-- C22: stripping is idempotent. -/
theorem C22_idempotent (σ : SetOrder) (s : Str) :
    andThen (StripWhiteSpaceCharacters.transform σ) (StripWhiteSpaceCharacters.transform σ) s =
      outputOf (StripWhiteSpaceCharacters.transform σ s) := by
  obtain ⟨a, h, _⟩ := C22_strip σ s
  obtain ⟨b, h', _⟩ := C22_strip σ (strip s)
  rw [andThen_eq (F := strip) (G := strip) s ⟨a, h⟩ ⟨b, h'⟩, h]
  show _ = Except.ok _
  congr 1
  have := (C22_strip_form s (strip s)).mp rfl
  exact (C22_strip_form (strip s) (strip s)).mpr ⟨⟨[], [], by simp, by simp, by simp⟩, this.2⟩

example : strip "\t a b \n".toList = "a b".toList := by decide
example : strip "  ".toList = [] := by decide

example : ∃ a, StripWhiteSpaceCharacters.transform SetOrder.id " a\t".toList = .ok ("a".toList, a) ∧
    Aligned a 3 1 anyLabels := by
  obtain ⟨a, h, h', _⟩ := C22_strip SetOrder.id " a\t".toList
  exact ⟨a, h, h'⟩

end Uttut
