import Verif.Lemmas.Regained
import Verif.Props.OnePiece
import Verif.Props.Recover

/-! C103: a predicted entity comes back in one piece. -/

namespace Uttut

open Spec

/-- All results of a `_transform` on this input give back in one piece what their labels have in one piece. -/
def RunFirm (cnt : Char → Bool) (l : Int) (run : Seq → Res (Seq × Aligner)) (s : Seq) : Prop :=
  ∀ t a ys ls, run s = .ok (t, a) → a.inverseTransform ys = .ok ls → Firm l (seqMarks cnt t ys) → Firm l (seqMarks cnt s ls)

theorem strOp_firm {cnt : Char → Bool} {l : Int} {f : Str → Res (Str × Aligner)} {s : Str}
    (h : ∃ (out : Str) (a : Aligner) (B : List Int → List Int), f s = .ok (out, a) ∧ a.outputLength = out.length ∧
      ∀ ys, ys.length = out.length → a.inverseTransform ys = .ok (B ys) ∧
        (Firm l (marks cnt out ys) → Firm l (marks cnt s (B ys)))) : RunFirm cnt l (strOp f) (.str s) := by
  intro t a ys ls hr ht hw
  obtain ⟨⟨out, a'⟩, h1, h2⟩ := bind_eq_ok hr
  injection h2 with h2
  injection h2 with h2 h3
  subst h2; subst h3
  obtain ⟨out', b, B, g1, g2, g3⟩ := h
  obtain ⟨e1, e2⟩ := det (f := f) h1 g1
  subst e1; subst e2
  obtain ⟨g4, g5⟩ := g3 ys ((inverse_input ht).trans g2)
  cases g4.symm.trans ht
  exact g5 hw

theorem strOp_firm_list {cnt : Char → Bool} {l : Int} {f : Str → Res (Str × Aligner)} {s : List Tok} :
    RunFirm cnt l (strOp f) (.list s) := by
  intro t a ys ls hr
  cases hr

theorem strOp_firm_all {cnt : Char → Bool} {l : Int} {f : Str → Res (Str × Aligner)}
    (h : ∀ s, ∃ (out : Str) (a : Aligner) (B : List Int → List Int), f s = .ok (out, a) ∧ a.outputLength = out.length ∧
      ∀ ys, ys.length = out.length → a.inverseTransform ys = .ok (B ys) ∧
        (Firm l (marks cnt out ys) → Firm l (marks cnt s (B ys)))) (s : Seq) : RunFirm cnt l (strOp f) s := by
  cases s with
  | list s => exact strOp_firm_list
  | str s => exact strOp_firm (h s)

theorem tokOp_firm {cnt : Char → Bool} {l : Int} {f : Str → Res (List Str × Aligner)}
    (h : ∀ s, ∃ (out : List Str) (a : Aligner), f s = .ok (out, a) ∧ a.outputLength = out.length ∧
      ∀ ys ls, ys.length = out.length → a.inverseTransform ys = .ok ls → Firm l (allMarks ys) → Firm l (marks cnt s ls)) (s : Seq) :
    RunFirm cnt l (tokOp f) s := by
  intro t a ys ls hr ht hw
  cases s with
  | list l => cases hr
  | str s =>
    obtain ⟨⟨out, a'⟩, h1, h2⟩ := bind_eq_ok hr
    injection h2 with h2
    injection h2 with h2 h3
    subst h2; subst h3
    obtain ⟨out', b, g1, g2, g3⟩ := h s
    obtain ⟨e1, e2⟩ := det (f := f) h1 g1
    subst e1; subst e2
    exact g3 ys ls ((inverse_input ht).trans g2) ht hw

theorem lstOp_firm {cnt : Char → Bool} {l : Int} {f : List Tok → Res (List Tok × Aligner)} {s : List Tok}
    (h : ∀ out a ys ls, f s = .ok (out, a) → a.inverseTransform ys = .ok ls → Firm l (allMarks ys) → Firm l (allMarks ls)) :
    RunFirm cnt l (lstOp f) (.list s) := by
  intro t a ys ls hr ht hw
  obtain ⟨⟨out, a'⟩, h1, h2⟩ := bind_eq_ok hr
  injection h2 with h2
  injection h2 with h2 h3
  subst h2; subst h3
  exact h out a' ys ls h1 ht hw

theorem lstOp_firm_all {cnt : Char → Bool} {l : Int} {f : List Tok → Res (List Tok × Aligner)}
    (h : ∀ s out a ys ls, f s = .ok (out, a) → a.inverseTransform ys = .ok ls → Firm l (allMarks ys) → Firm l (allMarks ls))
    (s : Seq) : RunFirm cnt l (lstOp f) s := by
  cases s with
  | str s => intro t a ys ls hr; cases hr
  | list s => exact lstOp_firm (h s)

/-- One character for one character. -/
theorem marks_swap {cnt : Char → Bool} {l : Int} {s t : Str} {ys : List Int} (hs : ys.length = s.length) (ht : ys.length = t.length)
    (h : ∀ (i : Nat) c c', s[i]? = some c → t[i]? = some c' → cnt c' = false → cnt c = false) :
    Regained l (marks cnt t ys) (marks cnt s ys) := by
  induction s generalizing t ys with
  | nil =>
    cases ys with
    | nil => exact .drop _ _
    | cons y ys => cases hs
  | cons c s ih =>
    cases ys with
    | nil => cases hs
    | cons y ys =>
      cases t with
      | nil => cases ht
      | cons c' t =>
        have e : ∀ (c : Char) (s : Str), marks cnt (c :: s) (y :: ys) = [(cnt c, y)] ++ marks cnt s ys := fun _ _ => rfl
        rw [e, e]
        refine Regained.append ?_ (ih (by simpa using hs) (by simpa using ht) fun i => h (i + 1))
        have := Regained.map (l := l) [()] (fun _ => (cnt c', y)) (fun _ => (cnt c, y)) fun _ _ => ⟨fun h => h, fun hg => ?_⟩
        · exact this
        · rcases hg with e | e
          · exact Or.inl e
          · refine Or.inr ?_
            injection e with e1 e2
            rw [h 0 c c' rfl rfl e1, e2]

theorem lower_firm (σ : SetOrder) {l : Int} (s : Seq) : RunFirm (fun c => !isSpace c) l (strOp (Lowercase.transform σ)) s := by
  refine strOp_firm_all (fun s => ?_) s
  obtain ⟨a, h1, h2, h3⟩ := C16_lowercase σ s
  refine ⟨_, a, id, h1, by rw [List.length_map]; exact h2.output, fun ys hl => ⟨(h3 ys (by simpa using hl)).2, Regained.firm ?_⟩⟩
  refine marks_swap (by simpa using hl) hl fun i c c' hc hc' h => ?_
  rw [List.getElem?_map, hc] at hc'
  cases hc'
  rw [lower_space] at h
  exact h

theorem accent_firm (σ : SetOrder) (u : Unicode) {l : Int} {s : Str}
    (h : ∀ (i : Nat) c c', s[i]? = some c → ((u.nfd s).filter fun c => !u.isMn c)[i]? = some c' →
      isSpace c' = true → isSpace c = true) :
    RunFirm (fun c => !isSpace c) l (strOp (StripAccentToken.transform σ u)) (.str s) := by
  by_cases hl : ((u.nfd s).filter fun c => !u.isMn c).length = s.length
  · refine strOp_firm ?_
    obtain ⟨b, g1, g2, g3⟩ := C27_transform σ u s hl
    refine ⟨_, b, id, g1, by rw [hl]; exact g2.output, fun ys hy => ⟨(g3 ys (hy.trans hl)).2, Regained.firm ?_⟩⟩
    refine marks_swap (hy.trans hl) hy fun i c c' hc hc' e => ?_
    have := h i c c' hc hc' (by simpa using e)
    simpa using this
  · intro t a ys ls hr
    obtain ⟨⟨out, a'⟩, h1, h2⟩ := bind_eq_ok hr
    rw [C27_length_change σ u s hl] at h1
    cases h1

theorem regained_around {l : Int} (h0 : l ≠ 0) {cnt : Char → Bool} (valid : Char → Bool) (s : Str) (ys : List Int)
    (hl : ys.length = (s.flatMap fun c => if valid c then [' ', c, ' '] else [c]).length) :
    Regained l (marks cnt (s.flatMap fun c => if valid c then [' ', c, ' '] else [c]) ys)
      (marks cnt s ((segments (s.map fun c => if valid c then 3 else 1) ys).map firstNonzeroMode)) := by
  induction s generalizing ys with
  | nil => exact .drop _ _
  | cons c s ih =>
    rw [List.flatMap_cons, List.length_append] at hl
    rw [List.flatMap_cons, List.map_cons, segments, List.map_cons]
    have hn : (if valid c then [' ', c, ' '] else [c] : Str).length = if valid c then 3 else 1 := by split <;> rfl
    generalize (if valid c then (3 : Nat) else 1) = n at hn ⊢
    have hc : c ∈ (if valid c then [' ', c, ' '] else [c] : Str) := by split <;> simp
    generalize (if valid c then [' ', c, ' '] else [c] : Str) = t at hl hn hc ⊢
    have ht : (ys.take n).length = t.length := by rw [List.length_take]; omega
    conv => arg 2; rw [← List.take_append_drop n ys]
    rw [marks_append ht.symm]
    have e : marks cnt (c :: s) (firstNonzeroMode (ys.take n) :: (segments (s.map fun c => if valid c then 3 else 1) (ys.drop n)).map
          firstNonzeroMode) = marks cnt [c] (List.replicate [c].length (firstNonzeroMode (ys.take n))) ++
        marks cnt s ((segments (s.map fun c => if valid c then 3 else 1) (ys.drop n)).map firstNonzeroMode) := rfl
    rw [e]
    refine Regained.append (Segment.regained (segment_nonzero h0 ht ?_)) (ih _ (by rw [List.length_drop]; omega))
    by_cases hcc : cnt c = true
    · exact Or.inl ⟨c, hc, hcc⟩
    · refine Or.inr fun d hd => ?_
      cases List.mem_singleton.mp hd
      simpa using hcc

theorem around_firm (σ : SetOrder) (valid : Char → Bool) {cnt : Char → Bool} {l : Int} (h0 : l ≠ 0) (s : Seq) :
    RunFirm cnt l (strOp (AddWhitespaceAroundChar.transform σ valid)) s := by
  refine strOp_firm_all (fun s => ?_) s
  obtain ⟨a, h1, h2, _, h3, _⟩ := C17_around σ valid s
  exact ⟨_, a, _, h1, h2.output, fun ys hl => ⟨h3 ys hl, Regained.firm (regained_around h0 valid s ys hl)⟩⟩

/-- What replaces segments. -/
theorem segLaw_firm {cnt : Char → Bool} {l : Int} {f : Str → Res (Str × Aligner)} {rec : Str → Bool} {new : Str → Str}
    {F B : Str → List Int → List Int}
    (h : ∀ s, ∃ segs, SegLaw f rec new F B s segs ∧ (∀ a out, f s = .ok (out, a) → a.outputLength = out.length) ∧
      ∀ w ∈ segs, rec w = true → ∀ y : List Int, y.length = (new w).length → (B w y).length = w.length ∧
        Regained l (marks cnt (new w) y) (marks cnt w (B w y))) (s : Seq) : RunFirm cnt l (strOp f) s := by
  refine strOp_firm_all (fun s => ?_) s
  obtain ⟨segs, ⟨h1, a, h2, _, h3⟩, h4, h5⟩ := h s
  refine ⟨_, a, _, h2, h4 _ _ h2, fun ys hl => ⟨h3 ys hl, Regained.firm ?_⟩⟩
  have := regained_segments (l := l) (cnt := cnt) segs h5 ys hl
  rw [h1] at this
  exact this

theorem number_firm {u : Unicode} {q : Str → Bool} {token : Str} {F : List Int → List Int} {f : Str → Res (Str × Aligner)}
    (h : ∀ s, NumberOp u q token F f s) {cnt : Char → Bool} {l : Int} (h0 : l ≠ 0) (ht : ∃ c ∈ token, cnt c = true) (s : Seq) :
    RunFirm cnt l (strOp f) s := by
  refine segLaw_firm (fun s => ⟨runs (numeric u) s, number_segLaw h s, fun a out ha => ?_, fun w hw hr y hy => ?_⟩) s
  · obtain ⟨a', h1, h2, _⟩ := (h s).run
    obtain ⟨e1, e⟩ := det (f := f) ha h1
    subst e; subst e1
    exact h2.output
  · exact ⟨List.length_replicate .., Segment.regained (segment_nonzero h0 hy (Or.inl ht))⟩

theorem merge_firm (σ : SetOrder) {l : Int} (s : Seq) :
    RunFirm (fun c => !isSpace c) l (strOp (MergeWhiteSpaceCharacters.transform σ)) s := by
  refine segLaw_firm (fun s => ⟨runs isSpace s, merge_segLaw σ s, fun a out ha => ?_, fun w hw hr y hy => ?_⟩) s
  · obtain ⟨a', h1, h2, _⟩ := C21_merge σ s
    obtain ⟨e1, e⟩ := det (f := MergeWhiteSpaceCharacters.transform σ) ha h1
    subst e; subst e1
    exact h2.output
  · rw [Bool.and_eq_true] at hr
    obtain ⟨w1, w2⟩ := run_mem hw hr.1
    refine ⟨List.length_replicate .., Segment.regained ?_⟩
    obtain ⟨v, rfl⟩ : ∃ v, y = [v] := List.length_eq_one_iff.mp hy
    have ev : firstMode [v] = v := List.mem_singleton.mp (isFirstMode_firstMode [v] (by simp)).1
    refine .one v (fun q hq => ?_) (fun e => ⟨(!isSpace ' ', v), List.mem_singleton.mpr rfl, e⟩) fun hg hne => ⟨?_, fun q hq => ?_⟩
    · rw [ev] at hq
      exact List.eq_of_mem_replicate (marks_of_mem hq).2
    · rcases hg _ (List.mem_singleton.mpr rfl) with e | e
      · exact absurd e hne
      · exact congrArg Prod.snd e
    · obtain ⟨⟨c, hc, e⟩, _⟩ := marks_of_mem hq
      rw [← e, w2 c hc]
      rfl

theorem blank_marks {w : Str} (h : ∀ c ∈ w, isSpace c = true) {n : Nat} :
    ∀ q ∈ marks (fun c => !isSpace c) w (List.replicate n (0 : Int)), q = (false, 0) := by
  intro q hq
  obtain ⟨⟨c, hc, e⟩, hv⟩ := marks_of_mem hq
  refine Prod.ext ?_ (List.eq_of_mem_replicate hv)
  rw [← e, h c hc]
  rfl

theorem strip_firm (σ : SetOrder) {l : Int} (h0 : l ≠ 0) (s : Seq) :
    RunFirm (fun c => !isSpace c) l (strOp (StripWhiteSpaceCharacters.transform σ)) s := by
  refine strOp_firm_all (fun s => ?_) s
  obtain ⟨a, h1, h2, lead, trail, hlen, k1, k2, k3, _, h4⟩ := C22_strip σ s
  refine ⟨_, a, _, h1, h2.output, fun ys hl => ⟨h4 ys hl, Regained.firm ?_⟩⟩
  have es : s = s.take lead ++ strip s ++ s.drop (lead + (strip s).length) := by
    conv => rhs; arg 1; arg 2; rw [← k2]
    rw [← List.drop_drop, List.append_assoc, List.take_append_drop, List.take_append_drop]
  conv => arg 3; rw [es]
  rw [marks_append (by simp [hl]; omega), marks_append (by simp; omega)]
  have := ((Regained.blank h0 (blank_marks k1 (n := lead))).append (Regained.refl l (marks (fun c => !isSpace c) (strip s) ys))).append
    (Regained.blank h0 (blank_marks k3 (n := trail)))
  rwa [List.nil_append, List.append_nil] at this

theorem spaced_map (ws : List Str) (segs : List Str) :
    segs.map (spaced ws) = segs.map fun w => if spacedSeg ws w then [' '] ++ w ++ [' '] else w := rfl

theorem words_firm (σ : SetOrder) (ws : List Str) (t : Trie) (ht : Trie.ofUserWords ws = .ok t) (sh : Bool)
    {cnt : Char → Bool} {l : Int} (s : Seq) :
    RunFirm cnt l (strOp (AddWhitespaceAroundWordnZhChar.transform σ t sh)) s := by
  refine strOp_firm_all (fun s => ?_) s
  obtain ⟨a, segs, _, h1, h2, h3, _, h4, _⟩ := C38_spaces σ ws t ht sh s
  refine ⟨_, a, _, h2, h3.output, fun ys hl => ⟨h4 ys hl, Regained.firm ?_⟩⟩
  rw [List.flatMap_def, spaced_map] at hl ⊢
  have := regained_segments (l := l) (cnt := cnt) (rec := spacedSeg ws)
    (new := fun w => [' '] ++ w ++ [' ']) (B := fun _ x => (x.drop 1).dropLast) segs (fun w _ _ y hy => by
      match y, hy with
      | y0 :: y, hy =>
        obtain ⟨y1, z, rfl⟩ : ∃ y1 z, y = y1 ++ [z] := ⟨y.dropLast, y.getLast (by
          intro e; rw [e] at hy; simp at hy), (List.dropLast_append_getLast _).symm⟩
        have hw : y1.length = w.length := by simpa using hy
        refine ⟨by simp [hw], ?_⟩
        have e1 : marks cnt ([' '] ++ w ++ [' ']) (y0 :: (y1 ++ [z])) =
            marks cnt [' '] [y0] ++ marks cnt w y1 ++ marks cnt [' '] [z] := by
          rw [← marks_append (by simp), ← marks_append (by simp [hw])]
          rfl
        have e2 : ((y0 :: (y1 ++ [z])).drop 1).dropLast = y1 := by simp
        rw [e1, e2]
        have := ((Regained.drop l (marks cnt [' '] [y0])).append (.refl l (marks cnt w y1))).append (.drop l (marks cnt [' '] [z]))
        rwa [List.nil_append, List.append_nil] at this) ys hl
  rw [h1] at this
  exact this

theorem regained_tokens {l : Int} (h0 : l ≠ 0) {cnt : Char → Bool} (ps : List (Str × Str)) (tail : Str)
    (hg : ∀ p ∈ ps, ∀ c ∈ p.1, cnt c = false) (ht : ∀ c ∈ tail, cnt c = false) (ys : List Int) (hl : ys.length = ps.length) :
    Regained l (allMarks ys) (marks cnt (layout ps tail) (charLabels ps tail ys)) := by
  have hb : ∀ (w : Str) (n : Nat), (∀ c ∈ w, cnt c = false) → Regained l [] (marks cnt w (List.replicate n (0 : Int))) := by
    intro w n hw
    refine .blank h0 fun q hq => ?_
    obtain ⟨⟨c, hc, e⟩, hv⟩ := marks_of_mem hq
    exact Prod.ext (by rw [← e]; exact hw c hc) (List.eq_of_mem_replicate hv)
  induction ps generalizing ys with
  | nil =>
    cases ys with
    | nil => exact hb tail _ ht
    | cons y ys => cases hl
  | cons p ps ih =>
    cases ys with
    | nil => cases hl
    | cons y ys =>
      obtain ⟨g, t⟩ := p
      have hlay : layout ((g, t) :: ps) tail = g ++ t ++ layout ps tail := by
        unfold layout
        simp
      have hrest := ih (fun p hp => hg p (List.mem_cons_of_mem _ hp)) ys (by simpa using hl)
      rw [hlay, charLabels, marks_append (by simp), marks_append (by simp)]
      have e : allMarks (y :: ys) = [] ++ allMarks [y] ++ allMarks ys := rfl
      rw [e]
      refine ((hb g _ (hg _ (List.mem_cons_self ..))).append (Segment.regained ?_)).append hrest
      refine .one y (fun q hq => List.eq_of_mem_replicate (marks_of_mem hq).2) (fun e => ⟨(true, y), List.mem_singleton.mpr rfl, e⟩)
        fun hgd hne => ?_
      rcases hgd _ (List.mem_singleton.mpr rfl) with e | e
      · exact absurd e hne
      · cases e

theorem cutter_firm {own : Char → Bool} {f : Str → Res (List Str × Aligner)}
    (h : ∀ s, ∃ a ps tail, f s = .ok (ps.map Prod.snd, a) ∧ TokenizedBy own s ps tail ∧ TokenLabels a ps tail)
    {l : Int} (h0 : l ≠ 0) (s : Seq) : RunFirm (fun c => !isSpace c) l (tokOp f) s := by
  refine tokOp_firm (fun s => ?_) s
  obtain ⟨a, ps, tail, h1, h2, h3⟩ := h s
  refine ⟨_, a, h1, by rw [List.length_map]; exact h3.aligned.output, fun ys ls hl hi => ?_⟩
  rw [List.length_map] at hl
  by_cases hu : uintLabels ys
  · cases (h3.backward ys hl hu).symm.trans hi
    rw [h2.text]
    refine (regained_tokens h0 ps tail (fun p hp c hc => ?_) (fun c hc => ?_) ys hl).firm
    · rw [h2.gaps p hp c hc]; rfl
    · rw [h2.last c hc]; rfl
  · rw [h3.overflow ys hl hu] at hi
    cases hi

theorem custom_firm (σ : SetOrder) (ws : List Str) (t : Trie) (ht : Trie.ofUserWords ws = .ok t) (sh : Bool)
    {cnt : Char → Bool} {l : Int} (h0 : l ≠ 0) (s : Seq) : RunFirm cnt l (tokOp (CustomWordTokenizer.transform σ t sh)) s := by
  refine tokOp_firm (fun s => ?_) s
  obtain ⟨a, segs, h1, h2, h3, h4⟩ := C37_C42_custom σ ws t ht sh s
  have hlay : s = layout (segs.map fun t => (([] : Str), t)) [] := by
    rw [layout, List.append_nil, List.flatMap_map, ← h3]
    exact List.flatMap_id.symm
  have ho := h4.aligned.output
  rw [List.length_map] at ho
  refine ⟨_, a, h1, ho, fun ys ls hl hi => ?_⟩
  have hl' : ys.length = (segs.map fun t => (([] : Str), t)).length := by rw [List.length_map]; exact hl
  by_cases hu : uintLabels ys
  · cases (h4.backward ys hl' hu).symm.trans hi
    conv => rhs; arg 2; rw [hlay]
    refine (regained_tokens h0 _ [] (fun p hp c hc => ?_) (fun c hc => by cases hc) ys hl').firm
    obtain ⟨w, _, rfl⟩ := List.mem_map.mp hp
    cases hc
  · rw [h4.overflow ys hl' hu] at hi
    cases hi

theorem char_firm (σ : SetOrder) {cnt : Char → Bool} {l : Int} (s : Seq) : RunFirm cnt l (tokOp (CharTokenizer.transform σ)) s := by
  refine tokOp_firm (fun s => ?_) s
  obtain ⟨a, h1, h2, h3, _, h4⟩ := C41_char σ s
  refine ⟨_, a, h1, by rw [List.length_map]; exact h2.output, fun ys ls hl hi => ?_⟩
  rw [List.length_map] at hl
  by_cases hu : uintLabels ys
  · cases (h3 ys hl hu).2.symm.trans hi
    refine Regained.firm ?_
    have e1 : allMarks ys = (s.zip ys).map fun p => (true, p.2) := by
      rw [← marks_all hl]
      rfl
    rw [e1]
    refine Regained.map _ _ _ fun p _ => ⟨fun h => h, fun hg => ?_⟩
    rcases hg with e | e
    · exact Or.inl e
    · cases e
  · rw [h4 ys hl hu] at hi
    cases hi

theorem firm_short {l : Int} {P : Marked} (h : P.length ≤ 2) : Firm l P := by
  intro i j k hij hjk _ hk
  simp only [Option.map_eq_some_iff] at hk
  obtain ⟨q, hq, _⟩ := hk
  have := (List.getElem?_eq_some_iff.mp hq).1
  omega

theorem allMarks_length (x : List Int) : (allMarks x).length = x.length := List.length_map ..

theorem sos_firm {cnt : Char → Bool} {σ : SetOrder} {sos eos : Tok} {l : Int} (s : Seq) :
    RunFirm cnt l (lstOp (AddSosEos.transform σ sos eos)) s := by
  refine lstOp_firm_all (fun s out a ys ls h ht hw => ?_) s
  have hlen : s.length < 2 ^ 32 := by
    unfold AddSosEos.transform at h
    obtain ⟨g, hg, _⟩ := bind_eq_ok h
    have := addAll_bounds σ _ g hg ((s.length : Int), (s.length : Int), [eos]) (by simp)
    dsimp only at this
    omega
  by_cases hs : s = []
  · subst hs
    have hk := sosEos_kept σ sos eos (fun _ => True) (.list []) (.list out) a (by
      show (AddSosEos.transform σ sos eos [] >>= _) = _
      rw [h]; rfl)
    refine firm_short ?_
    have : ls.length = 0 := (inverse_length ht).trans hk.input
    rw [allMarks_length]
    omega
  · obtain ⟨a', h1, h2, _, h3⟩ := C28_add_sos_eos σ sos eos s hs hlen
    obtain ⟨_, e⟩ := det (f := AddSosEos.transform σ sos eos) h h1
    subst e
    have hy := (inverse_input ht).trans h2.output
    match ys, hy with
    | y0 :: ys, hy =>
      obtain ⟨y1, z, rfl⟩ : ∃ y1 z, ys = y1 ++ [z] := ⟨ys.dropLast, ys.getLast (by
        intro e; rw [e] at hy; simp at hy), (List.dropLast_append_getLast _).symm⟩
      cases (h3 y1 y0 z (by simpa using hy)).symm.trans ht
      have e1 : allMarks (y0 :: (ls ++ [z])) = allMarks [y0] ++ allMarks ls ++ allMarks [z] := by
        rw [← allMarks_append, ← allMarks_append]
        rfl
      rw [e1] at hw
      have := ((Regained.drop l (allMarks [y0])).append (.refl l (allMarks ls))).append (.drop l (allMarks [z]))
      rw [List.nil_append, List.append_nil] at this
      exact this.firm hw

theorem end_firm {cnt : Char → Bool} {σ : SetOrder} {eos : Tok} {l : Int} (s : Seq) :
    RunFirm cnt l (lstOp (AddEndToken.transform σ eos)) s := by
  refine lstOp_firm_all (fun s out a ys ls h ht hw => ?_) s
  have hlen : s.length < 2 ^ 32 := by
    unfold AddEndToken.transform at h
    obtain ⟨g, hg, _⟩ := bind_eq_ok h
    have := addAll_bounds σ _ g hg ((s.length : Int), (s.length : Int), [eos]) (by simp)
    dsimp only at this
    omega
  obtain ⟨a', h1, h2, _, h3⟩ := C28_add_end_token σ eos s hlen
  obtain ⟨_, e⟩ := det (f := AddEndToken.transform σ eos) h h1
  subst e
  have hy := (inverse_input ht).trans h2.output
  obtain ⟨y1, z, rfl⟩ : ∃ y1 z, ys = y1 ++ [z] := ⟨ys.dropLast, ys.getLast (by
    intro e; rw [e] at hy; simp at hy), (List.dropLast_append_getLast _).symm⟩
  cases (h3 y1 z (by simpa using hy)).symm.trans ht
  rw [allMarks_append] at hw
  have := (Regained.refl l (allMarks ls)).append (.drop l (allMarks [z]))
  rw [List.append_nil] at this
  exact this.firm hw

theorem pad_firm {cnt : Char → Bool} {σ : SetOrder} {n : Res Int} {pad : Tok} {l : Int} (h0 : l ≠ 0) (s : Seq) :
    RunFirm cnt l (lstOp fun s => n >>= fun n => Pad.transform σ n pad s) s := by
  refine lstOp_firm_all (fun s out a ys ls h ht hw => ?_) s
  obtain ⟨n, _, h⟩ := bind_eq_ok h
  have hpos : 0 ≤ n := by
    rcases Int.lt_or_le n 0 with hn | hn
    · rw [C30_negative _ n pad s hn] at h
      cases h
    · exact hn
  obtain ⟨k, rfl⟩ := Int.eq_ofNat_of_zero_le hpos
  have hlen : s.length = k ∨ s.length < 2 ^ 32 := by
    rcases Nat.lt_or_ge s.length (2 ^ 32) with hlt | hge
    · exact Or.inr hlt
    · refine Or.inl (Classical.byContradiction fun hne => ?_)
      exact C30_too_long σ k pad s (by omega) hge _ h
  obtain ⟨a', h1, h2, _, h3⟩ := C30_pad σ k pad s hlen
  obtain ⟨_, e⟩ := det (f := Pad.transform σ k pad) h h1
  subst e
  cases (h3 ys ((inverse_input ht).trans h2.output)).symm.trans ht
  rw [allMarks_append]
  refine Firm.before (zero_ends h0 _) ?_
  have := (Regained.refl l (allMarks (ys.take s.length))).append (.drop l (allMarks (ys.drop s.length)))
  rw [List.append_nil, ← allMarks_append, List.take_append_drop] at this
  exact this.firm hw

theorem null_firm {σ : SetOrder} {nv : Tok → Res (Option (List Tok))} {s out : List Tok} {a : Aligner}
    {mk : ReplacementGroup (List Tok) → Nat → Aligner} (hm : ∀ g n, ∃ i o, mk g n = Aligner.null i o)
    (h : tokenwiseTransform σ nv s mk = .ok (out, a)) {ls ys : List Int} (ht : a.inverseTransform ys = .ok ls) : ls = ys := by
  unfold tokenwiseTransform at h
  obtain ⟨g, _, h⟩ := bind_eq_ok h
  obtain ⟨g', _, h⟩ := bind_eq_ok h
  obtain ⟨o, _, h⟩ := bind_eq_ok h
  injection h with h
  injection h with _ h
  subst h
  obtain ⟨i, o, e⟩ := hm g' o.length
  have hf := Aligner.inverse_bwd ht
  rw [e] at hf
  exact (Except.ok.inj hf).symm

theorem noTwoEmpty {l : List Str} (h : ∀ s ∈ l, s ≠ []) : NoTwoEmpty l := by
  induction l with
  | nil => trivial
  | cons a l ih =>
    cases l with
    | nil => trivial
    | cons b l => exact ⟨Or.inl (h a (by simp)), ih fun s hs => h s (List.mem_cons_of_mem _ hs)⟩

theorem regained_flat {l : Int} (h0 : l ≠ 0) {α : Type} (f : α → Nat) (ws : List α) (hf : ∀ w ∈ ws, f w ≠ 0) (ys : List Int)
    (hl : ys.length = (ws.map f).sum) :
    Regained l (allMarks ys) (allMarks ((segments (ws.map f) ys).map firstNonzeroMode)) := by
  induction ws generalizing ys with
  | nil =>
    exact .drop _ _
  | cons w ws ih =>
    rw [List.map_cons, List.sum_cons] at hl
    rw [List.map_cons, segments, List.map_cons]
    conv => arg 2; rw [← List.take_append_drop (f w) ys]
    rw [allMarks_append]
    have e : allMarks (firstNonzeroMode (ys.take (f w)) :: (segments (ws.map f) (ys.drop (f w))).map firstNonzeroMode) =
      allMarks [firstNonzeroMode (ys.take (f w))] ++ allMarks ((segments (ws.map f) (ys.drop (f w))).map firstNonzeroMode) := rfl
    rw [e]
    have hw := hf w (List.mem_cons_self ..)
    refine Regained.append (Segment.regained ?_) (ih (fun w hw => hf w (List.mem_cons_of_mem _ hw)) _ (by
      rw [List.length_drop]; omega))
    have hlen : (ys.take (f w)).length = f w := by rw [List.length_take]; omega
    generalize ys.take (f w) = x at hlen
    refine .one (firstNonzeroMode x) (fun q hq => by cases List.mem_singleton.mp hq; rfl) (fun e => ?_) fun hg hne => ?_
    · rcases firstNonzeroMode_mem x with h | h
      · exact absurd (e.symm.trans h) h0
      · exact ⟨(true, firstNonzeroMode x), List.mem_map.mpr ⟨_, h, rfl⟩, e⟩
    · have hx : ∀ v ∈ x, v = l := by
        intro v hv
        rcases hg (true, v) (List.mem_map.mpr ⟨v, hv, rfl⟩) with e | e
        · exact e
        · cases e
      rcases firstNonzeroMode_good (l := l) (fun v hv => Or.inl (hx v hv)) with h | h
      · exact absurd h.1 hne
      · cases x with
        | nil => exact absurd hlen.symm hw
        | cons v x => exact absurd ((hx v (by simp)).symm.trans (h.2 v (by simp))) h0

theorem subwords_firm {σ : SetOrder} {has : Str → Bool} {unk : Str} {n : Int} {s out : List Tok} {a : Aligner} {l : Int}
    (h0 : l ≠ 0) (hs : Tok.str [] ∉ s) (h : SpanSubwords.transform σ has unk n s = .ok (out, a)) {ls ys : List Int}
    (ht : a.inverseTransform ys = .ok ls) (hw : Firm l (allMarks ys)) : Firm l (allMarks ls) := by
  rcases tok_strs s with ⟨i, hi⟩ | ⟨ws, rfl⟩
  · rw [spanSubwords_non_string σ has unk n s i hi] at h
    cases h
  · have hne : ∀ w ∈ ws, w ≠ [] := fun w hw e => hs (List.mem_map.mpr ⟨w, hw, by rw [e]⟩)
    obtain ⟨a', h1, _, h2, h3, _⟩ := C34_transform σ has unk n ws (fun s => (spanSubwords_ok has unk n s).choose)
      fun s _ => (spanSubwords_ok has unk n s).choose_spec.1
    obtain ⟨_, e⟩ := det (f := SpanSubwords.transform σ has unk n) h h1
    subst e
    have hl := (inverse_input ht).trans (h2 (Or.inr (noTwoEmpty hne))).output
    cases (h3 (Or.inr (noTwoEmpty hne)) ys hl).symm.trans ht
    refine Regained.firm (regained_flat h0 _ ws (fun w hm e => ?_) ys (by rw [hl, List.length_flatMap])) hw
    exact (spanSubwords_ok has unk n w).choose_spec.2 (hne w hm) (List.length_eq_zero_iff.mp e)

theorem regained_replace {m : Matcher} {s : Str} (hs : SoundMatcher m s) {l : Int} (h0 : l ≠ 0) {cnt : Char → Bool} {b : Str}
    (hb : ∃ c ∈ b, cnt c = true) {pos : Nat} {ms : List (Nat × Nat)} (h : Scan m s pos ms) (hp : pos ≤ s.length) (ys : List Int)
    (hl : ys.length = (replaceMatches s b pos ms).length) :
    Regained l (marks cnt (replaceMatches s b pos ms) ys) (marks cnt (s.drop pos) (restoreLabels b.length pos ms ys)) := by
  induction h generalizing ys with
  | atEnd pos hge => exact .refl _ _
  | noMatch pos hlt hn => exact .refl _ _
  | match_ pos i j ms hlt hm hrest ih =>
    obtain ⟨b1, b2, b3⟩ := hs pos i j hp hm
    rw [replaceMatches, List.length_append, List.length_append] at hl
    rw [replaceMatches, restoreLabels]
    have hk : (slice s pos i).length = i - pos := by
      unfold slice
      simp
      omega
    have e1 : s.drop pos = slice s pos i ++ slice s i j ++ s.drop j := by
      unfold slice
      conv => lhs; rw [← List.take_append_drop (i - pos) (s.drop pos), List.drop_drop]
      rw [List.append_assoc]
      congr 1
      · first | rfl | rw [List.drop_take]
      · conv => lhs; rw [← List.take_append_drop (j - i) (s.drop _), List.drop_drop]
        have e : pos + (i - pos) = i := by omega
        have e' : i + (j - i) = j := by omega
        rw [e, e']
        congr 1
        first | rfl | rw [List.drop_take]
    have hk2 : (slice s i j).length = j - i := by
      unfold slice
      simp
      omega
    have e2 : ys = ys.take (i - pos) ++ (ys.drop (i - pos)).take b.length ++ (ys.drop (i - pos)).drop b.length := by
      rw [List.append_assoc, List.take_append_drop, List.take_append_drop]
    have l1 : (ys.take (i - pos)).length = (slice s pos i).length := by rw [List.length_take, hk]; omega
    have l2 : ((ys.drop (i - pos)).take b.length).length = b.length := by rw [List.length_take, List.length_drop]; omega
    conv => arg 2; rw [e2]
    rw [marks_append (by rw [List.length_append, List.length_append, l1, l2]), marks_append l1.symm, e1,
      marks_append (by rw [List.length_append, List.length_append, l1, List.length_replicate, hk2]), marks_append l1.symm]
    refine Regained.append (Regained.append (.refl _ _) (Segment.regained ?_)) (ih b3 _ (by
      rw [List.length_drop, List.length_drop]; omega))
    have := segment_nonzero (w := slice s i j) h0 l2 (Or.inl hb)
    rw [hk2] at this
    exact this

theorem replace_firm (σ : SetOrder) {m : Matcher} {b s : Str} (hs : SoundMatcher m s) {cnt : Char → Bool} {l : Int} (h0 : l ≠ 0)
    (hb : ∃ c ∈ b, cnt c = true) : RunFirm cnt l (strOp (ReplaceAwithB.transform σ m b)) (.str s) := by
  by_cases hex : ∃ ms, Scan m s 0 ms
  · obtain ⟨ms, hscan⟩ := hex
    refine strOp_firm ?_
    obtain ⟨a', h1, h2, h3, _, h4⟩ := C25_replace σ m b s hs ms hscan
    have hne : b ≠ [] := by
      rintro rfl
      obtain ⟨c, hc, _⟩ := hb
      cases hc
    refine ⟨_, a', _, h1, h3, fun ys hl => ⟨(h4 (Or.inl hne)).2 ys hl, Regained.firm ?_⟩⟩
    have := regained_replace (cnt := cnt) hs h0 hb hscan (Nat.zero_le _) ys hl
    rwa [List.drop_zero] at this
  · intro t a ys ls hr
    obtain ⟨⟨out, a'⟩, h1, h2⟩ := bind_eq_ok hr
    exact absurd (patternTransform_scan h1) hex

theorem named_firm (env : Env) (he : env.Sane) (name : String)
    (op : Op) (h : Made env name op) (hn : name ∈ returnNames) {l : Int} (h0 : l ≠ 0) (s : Seq) :
    RunFirm (fun c => !isSpace c) l op.run s := by
  unfold returnNames at hn
  simp only [List.mem_cons, List.not_mem_nil, or_false] at hn
  rcases hn with rfl | rfl | rfl | rfl | rfl | rfl | rfl | rfl | rfl | rfl | rfl | rfl | rfl | rfl | rfl | rfl | rfl | rfl |
    rfl | rfl | rfl | rfl
  · rw [made_simple rfl h]; exact lower_firm env.σ s
  · rw [made_simple rfl h]; exact around_firm _ _ h0 s
  · rw [made_simple rfl h]; exact around_firm _ _ h0 s
  · obtain ⟨_, vals, h⟩ := made_any (c := Builtin.aroundWord env) rfl h
    unfold Builtin.aroundWord at h
    dsimp only at h
    unfold Builtin.aroundWordInit at h
    split at h
    · obtain ⟨t, ht, h⟩ := bind_eq_ok h
      obtain ⟨ws, hw⟩ := userWords_ok ht
      injection h with h
      rw [← h]
      exact words_firm env.σ ws t hw _ s
    · cases h
  · rw [made_simple rfl h]
    exact number_firm (C18_C19_int_token env.σ env.u) h0 (by decide) s
  · rw [made_simple rfl h]
    exact number_firm (C18_C19_float_token env.σ env.u he.dot) h0 (by decide) s
  · rw [made_simple rfl h]
    exact number_firm (C18_C19_int_token_with_space env.σ env.u) h0 (by decide) s
  · rw [made_simple rfl h]
    exact number_firm (C18_C19_float_token_with_space env.σ env.u he.dot) h0 (by decide) s
  · rw [made_simple rfl h]
    exact number_firm (C18_C19_num_token_with_space env.σ env.u) h0 (by decide) s
  · rw [made_simple rfl h]; exact merge_firm env.σ s
  · rw [made_simple rfl h]; exact strip_firm env.σ h0 s
  · rw [made_simple rfl h]; exact char_firm env.σ s
  · obtain ⟨_, vals, h⟩ := made_any (c := Builtin.customTok env) rfl h
    unfold Builtin.customTok at h
    dsimp only at h
    unfold Builtin.customTokInit at h
    split at h
    · obtain ⟨t, ht, h⟩ := bind_eq_ok h
      obtain ⟨ws, hw⟩ := userWords_ok ht
      injection h with h
      rw [← h]
      exact custom_firm env.σ ws t hw _ h0 s
    · cases h
  · rw [made_simple rfl h]; exact cutter_firm (C39_C42_whitespace env.σ) h0 s
  · rw [made_simple rfl h]; exact cutter_firm (C40_C42_eng env.σ env.u) h0 s
  · rw [made_simple rfl h]; exact cutter_firm (C40_C42_zh env.σ env.u) h0 s
  · obtain ⟨_, vals, h⟩ := made_any (c := Builtin.sosEos env) rfl h
    unfold Builtin.sosEos at h
    dsimp only at h
    unfold Builtin.sosEosInit at h
    split at h
    · obtain ⟨b, _, h⟩ := bind_eq_ok h
      obtain ⟨e, _, h⟩ := bind_eq_ok h
      injection h with h
      rw [← h]
      exact sos_firm s
    · cases h
  · obtain ⟨_, vals, h⟩ := made_any (c := Builtin.endTok env) rfl h
    unfold Builtin.endTok at h
    dsimp only at h
    unfold Builtin.endTokInit at h
    split at h
    · cases h
    · obtain ⟨e, _, h⟩ := bind_eq_ok h
      obtain ⟨e', _, h⟩ := bind_eq_ok h
      injection h with h
      rw [← h]
      exact end_firm s
    · cases h
  · obtain ⟨_, vals, h⟩ := made_any (c := Builtin.pad env) rfl h
    unfold Builtin.pad at h
    dsimp only at h
    unfold Builtin.padInit at h
    split at h
    · obtain ⟨t, _, h⟩ := bind_eq_ok h
      injection h with h
      rw [← h]
      exact pad_firm h0 s
    · cases h
  · obtain ⟨_, vals, h⟩ := made_any (c := Builtin.token2index env) rfl h
    unfold Builtin.token2index at h
    dsimp only at h
    unfold Builtin.token2indexInit at h
    split at h
    · obtain ⟨d, _, h⟩ := bind_eq_ok h
      split at h
      · obtain ⟨_, _, h⟩ := bind_eq_ok h
        injection h with h
        rw [← h]
        refine lstOp_firm_all (fun s out a ys ls h ht hw => ?_) s
        rw [null_firm (fun g n => ⟨_, _, rfl⟩) h ht]
        exact hw
      · obtain ⟨_, _, h⟩ := bind_eq_ok h
        split at h <;> cases h
    · cases h
  · obtain ⟨_, vals, h⟩ := made_any (c := Builtin.token2indexHash env) rfl h
    unfold Builtin.token2indexHash at h
    dsimp only at h
    unfold Builtin.token2indexHashInit at h
    split at h
    · obtain ⟨d, _, h⟩ := bind_eq_ok h
      obtain ⟨_, _, h⟩ := bind_eq_ok h
      injection h with h
      rw [← h]
      refine lstOp_firm_all (fun s out a ys ls h ht hw => ?_) s
      rw [null_firm (fun g n => ⟨_, _, rfl⟩) h ht]
      exact hw
    · cases h
  · have hnum : ∀ token, RunFirm (fun c => !isSpace c) l (lstOp (PureNum2Token.transform env.σ env.u token)) s := by
      intro token
      refine lstOp_firm_all (fun s out a ys ls h ht hw => ?_) s
      rw [null_firm (fun g n => ⟨_, _, rfl⟩) h ht]
      exact hw
    obtain ⟨_, vals, h⟩ := made_any (c := Builtin.pureNum env) rfl h
    unfold Builtin.pureNum at h
    dsimp only at h
    unfold Builtin.pureNumInit at h
    split at h
    · injection h with h
      rw [← h]
      exact hnum _
    · obtain ⟨t, _, h⟩ := bind_eq_ok h
      injection h with h
      rw [← h]
      exact hnum _
    · cases h

/-- Made by a registered operator. -/
theorem returns_builtin {env : Env} {op : Op} {s : Seq} (h : Returns env op s) : IsBuiltin env op := by
  cases h with
  | named _ h => exact (oneOf_made h).2
  | replace s p b m hm hop hb =>
    unfold create at hop
    obtain ⟨c, hc, h1⟩ := bind_eq_ok hop
    exact ⟨c, (registry_get hc).1, _, _, by simp, h1⟩
  | accent s h _ => exact (oneOf_made h).2
  | subwords l h _ => exact (oneOf_made h).2

theorem returns_lengths {env : Env} (he : env.Sane) {op : Op} {s : Seq} (h : Returns env op s) {t : Seq}
    {a : Aligner} (hr : op.transform s = .ok (t, a)) {ls ys : List Int} (ht : a.inverseTransform ys = .ok ls) :
    ls.length = s.length ∧ ys.length = t.length := by
  obtain ⟨c, hc, args, kwargs, hk, hop⟩ := returns_builtin h
  have hk := builtin_kept env he c hc args kwargs hk op hop s t a (transform_run hr)
  exact ⟨(inverse_length ht).trans hk.input, (inverse_input ht).trans hk.output⟩

theorem returns_firm {env : Env} (he : env.Sane) {op : Op} {s : Seq} (h : Returns env op s) {l : Int} (h0 : l ≠ 0) :
    RunFirm (fun c => !isSpace c) l op.run s := by
  cases h with
  | named _ h =>
    obtain ⟨name, hn, hm⟩ := (oneOf_made h).1
    exact named_firm env he name op hm hn h0 s
  | replace s p b m hm hop hb =>
    obtain ⟨hc, hi⟩ := create_init (c := Builtin.replace env) (vals := [.str p, .str b]) rfl hop rfl
    have hi : Builtin.replaceInit env [.str p, .str b] = .ok op.run := hi
    simp only [Builtin.replaceInit, PyVal.asStr, hm, Except.bind_ok] at hi
    rw [← Except.ok.inj hi]
    obtain ⟨c, hc1, hc2⟩ := hb
    exact replace_firm env.σ (he.sound p m hm s) h0 ⟨c, hc1, by rw [hc2]; rfl⟩
  | accent s h hs =>
    obtain ⟨name, hn, hm⟩ := (oneOf_made h).1
    cases List.mem_singleton.mp hn
    rw [made_simple rfl hm]
    exact accent_firm env.σ env.u hs
  | subwords k h hs =>
    obtain ⟨name, hn, hm⟩ := (oneOf_made h).1
    cases List.mem_singleton.mp hn
    obtain ⟨_, vals, h⟩ := made_any (c := Builtin.spanSubwords env) rfl hm
    unfold Builtin.spanSubwords at h
    dsimp only at h
    unfold Builtin.spanSubwordsInit at h
    split at h
    · obtain ⟨unk, _, h⟩ := bind_eq_ok h
      injection h with h
      rw [← h]
      refine lstOp_firm fun out a ys ls h ht hw => ?_
      obtain ⟨has, n, h, _⟩ := spanSubwordsRun_ok h
      exact subwords_firm h0 hs h ht hw
    · cases h

theorem firm_gapless {l : Int} {s : Seq} {ls : List Int} (h : ls.length = s.length) :
    Firm l (seqMarks (fun c => !isSpace c) s ls) ↔ Gapless l s ls := by
  cases s with
  | str s => exact firm_text h
  | list t => exact firm_all.trans solid_list.symm

/-- C103: labels in one piece come back in one piece through these operators: between two places with the label every place
has it, or holds white space and has the label 0. -/
theorem C103_operator (env : Env) (he : env.Sane) (op : Op) (s : Seq) (hop : Returns env op s) (t : Seq) (a : Aligner)
    (h : op.transform s = .ok (t, a)) (ys ls : List Int) (ht : a.inverseTransform ys = .ok ls) (l : Int) (h0 : l ≠ 0)
    (hl : Gapless l t ys) : Gapless l s ls := by
  obtain ⟨e1, e2⟩ := returns_lengths he hop h ht
  exact (firm_gapless e1).mp (returns_firm he hop h0 t a ys ls (transform_run h) ht ((firm_gapless e2).mpr hl))

theorem runs_gapless {env : Env} (he : env.Sane) {ops : List Op}
    {s : Seq} {rs : List (Seq × Aligner)} (h : Runs ops s rs)
    (ho : ∀ (i : Nat) op x, ops[i]? = some op → (s :: rs.map Prod.fst)[i]? = some x → Returns env op x) {l : Int}
    (h0 : l ≠ 0) : ∀ ys ls, realignAll (rs.map Prod.snd) ys = .ok ls → Gapless l (finalOf s rs) ys → Gapless l s ls := by
  induction h with
  | nil s =>
    intro ys ls ha hl
    cases ha
    exact hl
  | @cons op ops s t a rs h1 h2 ih =>
    intro ys ls ha hl
    rw [List.map_cons, realignAll_cons] at ha
    obtain ⟨ms, m1, m2⟩ := bind_eq_ok ha
    rw [finalOf_cons] at hl
    have := ih (fun i o x hi hx => ho (i + 1) o x hi hx) ys ms m1 hl
    exact C103_operator env he op s (ho 0 op s rfl rfl) t a h1 ms ls m2 l h0 this

/-- C103: and so through a pipe of them; if the output is a list of tokens, labels in consecutive places come back in one
piece. -/
theorem C103_pipe (env : Env) (he : env.Sane) (p : Pipe) (s o : Seq) (as : List Aligner) (coll : List Seq)
    (h : p.transformSequence s = .ok (o, as, coll))
    (ho : ∀ (i : Nat) op x, p.steps[i]? = some op → coll[i]? = some x → Returns env op x) (ys ls : List Int)
    (ha : realignAll as ys = .ok ls) (l : Int) (h0 : l ≠ 0) :
    (Gapless l o ys → Gapless l s ls) ∧ ∀ ts, o = .list ts → Unbroken l ys → Gapless l s ls := by
  obtain ⟨rs, r1, r2, r3, r4⟩ := (C58_composition p s o as coll).mp h
  rw [r4] at ho
  rw [r3] at ha
  have := runs_gapless he r1 ho h0 ys ls ha
  rw [← r2] at this
  refine ⟨this, fun ts e hu => this ?_⟩
  subst e
  exact solid_list.mpr hu

theorem maximal_at {ls : List Int} {i : Nat} {v : Int} (h : ls[i]? = some v) : ∃ a b : Nat, a ≤ i ∧ i < b ∧ IsMaximalRun ls a b v := by
  have h1 : ∃ a, a ≤ i ∧ ∀ j, a ≤ j → j ≤ i → ls[j]? = some v :=
    ⟨i, Nat.le_refl _, fun j k1 k2 => by rw [Nat.le_antisymm k2 k1]; exact h⟩
  have h2 : ∃ b, i < b ∧ ls[b]? ≠ some v :=
    ⟨ls.length + i + 1, by omega, by rw [List.getElem?_eq_none (by omega)]; simp⟩
  obtain ⟨a1, a2⟩ := Nat.find_spec h1
  obtain ⟨b1, b2⟩ := Nat.find_spec h2
  have hmin := fun a => Nat.find_min h1 (m := a)
  have hmin2 := fun b => Nat.find_min h2 (m := b)
  generalize Nat.find h1 = a at *
  generalize Nat.find h2 = b at *
  have hin : ∀ j, a ≤ j → j < b → ls[j]? = some v := by
    intro j k1 k2
    by_cases hj : j ≤ i
    · exact a2 j k1 hj
    · by_contra hn
      exact hmin2 j k2 ⟨by omega, hn⟩
  refine ⟨a, b, a1, b1, by omega, ?_, hin, fun ha hn => ?_, b2⟩
  · have := (List.getElem?_eq_some_iff.mp (hin (b - 1) (by omega) (by omega))).1
    omega
  · refine hmin (a - 1) (by omega) ⟨by omega, fun j k1 k2 => ?_⟩
    by_cases hj : j = a - 1
    · rw [hj]; exact hn
    · exact a2 j (by omega) k2

/-- C103: so an entity predicted in consecutive tokens is in one piece in the datum packed for the utterance: between two
entities of its label every character is in an entity of that label, or is white space in no entity. -/
theorem C103_datum (env : Env) (he : env.Sane) (p : Pipe) (u : Str) (o : Seq) (as : List Aligner) (coll : List Seq)
    (h : p.transformSequence (.str u) = .ok (o, as, coll))
    (ho : ∀ (i : Nat) op x, p.steps[i]? = some op → coll[i]? = some x → Returns env op x) (ys ls : List Int)
    (ha : realignAll as ys = .ok ls) (hu : u.length < 2 ^ 31) (intents : List Int) (d : Datum)
    (hd : packToDatum u intents ls = .ok d) (l : Int) (h0 : l ≠ 0) (hl : Gapless l o ys) (e f : Entity)
    (hm : e ∈ d.entities) (hf : f ∈ d.entities) (h1 : e.label = l) (h2 : f.label = l) (i : Nat) (hi : e.start ≤ i)
    (hj : (i : Int) < f.stop) : (∃ g ∈ d.entities, g.label = l ∧ g.start ≤ i ∧ (i : Int) < g.stop) ∨
      ((∃ c, u[i]? = some c ∧ isSpace c = true) ∧ ∀ g ∈ d.entities, ¬ (g.start ≤ i ∧ (i : Int) < g.stop)) := by
  have hg := (C103_pipe env he p (.str u) o as coll h ho ys ls ha l h0).1 hl
  obtain ⟨p1, p2, p3, p4⟩ := C46_pack_errors u intents ls
  have hlen : u.length = ls.length := by
    by_contra hn
    rw [p1 hn] at hd
    cases hd
  have hint : ∀ x ∈ intents, IsInt32 x := by
    by_contra hn
    rw [p2 hlen (by simpa using hn)] at hd
    cases hd
  have hne : u ≠ [] := by
    rintro rfl
    cases List.length_eq_zero_iff.mp hlen.symm
    rw [p3 hint] at hd
    cases hd
  have hlab : ∀ x ∈ ls, IsInt32 x := by
    by_contra hn
    obtain ⟨x, hx, hx2⟩ : ∃ x ∈ ls, ¬ IsInt32 x := by simpa using hn
    rw [p4 hlen ⟨x, hx, fun e => hx2 (by rw [e]; unfold IsInt32; decide), hx2⟩] at hd
    cases hd
  obtain ⟨d', is, q1, _, q2, _⟩ := C46_pack u intents ls hne hlen hu hint hlab
  cases q1.symm.trans hd
  have run : ∀ g ∈ d.entities, ∃ a b : Nat, IsMaximalRun ls a b g.label ∧ g.label ≠ 0 ∧ g.start = a ∧ g.stop = b := by
    intro g hg
    obtain ⟨a, b, r1, r2, r3⟩ := (q2 g).mp hg
    exact ⟨a, b, r1, r2, by rw [r3], by rw [r3]⟩
  have inside : ∀ g ∈ d.entities, g.start ≤ i → (i : Int) < g.stop → ls[i]? = some g.label := by
    intro g hg k1 k2
    obtain ⟨a, b, r1, _, r3, r4⟩ := run g hg
    exact r1.2.2.1 i (by omega) (by omega)
  have some_ : ls[i]? = some l → ∃ g ∈ d.entities, g.label = l ∧ g.start ≤ i ∧ (i : Int) < g.stop := by
    intro hv
    obtain ⟨a, b, k1, k2, k3⟩ := maximal_at hv
    exact ⟨⟨l, pySlice u a b, a, b, []⟩, (q2 _).mpr ⟨a, b, k3, h0, rfl⟩, rfl, by dsimp only; omega, by dsimp only; omega⟩
  obtain ⟨a, b, r1, _, r3, r4⟩ := run e hm
  obtain ⟨a', b', r1', _, r3', r4'⟩ := run f hf
  have ea : ls[a]? = some l := by rw [← h1]; exact r1.2.2.1 a (Nat.le_refl _) r1.1
  have fb : ls[b' - 1]? = some l := by rw [← h2]; exact r1'.2.2.1 (b' - 1) (by have := r1'.1; omega) (by have := r1'.1; omega)
  have key : ls[i]? = some l ∨ ls[i]? = some 0 ∧ ¬ Counts (.str u) i := by
    by_cases e1 : i = a
    · exact Or.inl (by rw [e1]; exact ea)
    · by_cases e2 : i = b' - 1
      · exact Or.inl (by rw [e2]; exact fb)
      · exact hg a i (b' - 1) (by omega) (by omega) ea fb
  rcases key with k | ⟨k1, k2⟩
  · exact Or.inl (some_ k)
  · refine Or.inr ⟨?_, fun g hg k => ?_⟩
    · have hlt : i < u.length := by rw [hlen]; exact (List.getElem?_eq_some_iff.mp k1).1
      refine ⟨u[i], List.getElem?_eq_getElem hlt, ?_⟩
      by_contra hn
      refine k2 fun c hc => ?_
      rw [List.getElem?_eq_getElem hlt] at hc
      cases hc
      simpa using hn
    · have := inside g hg k.1 k.2
      rw [k1] at this
      obtain ⟨_, _, _, r2, _⟩ := run g hg
      exact r2 (Option.some.inj this).symm

/-! ### Where predicted entities are torn, concrete cases -/

/-- `PunctuationExceptEndpointToWhitespace()`. -/
def exBlank : Op :=
  ⟨Builtin.punctuationToWhitespace exEnv, [], strOp (PunctuationExceptEndpointToWhitespace.transform exEnv.σ exEnv.u)⟩

theorem exBlank_made : create exEnv "PunctuationExceptEndpointToWhitespace" [] [] = .ok exBlank := rfl

theorem exBlank_run : ∃ a, exBlank.transform (.str "a-b".toList) = .ok (.str "a b".toList, a) ∧
    a.inverseTransform [7, 0, 7] = .ok [7, 0, 7] := by
  obtain ⟨a, h1, _, h2⟩ := C26_transform exEnv.σ exEnv.u "a-b".toList
  have e : "a-b".toList.map (punctuationBlanked exEnv.u) = "a b".toList := by decide
  rw [e] at h1
  refine ⟨a, ?_, ?_⟩
  · show ((PunctuationExceptEndpointToWhitespace.transform exEnv.σ exEnv.u "a-b".toList >>= _) >>= _) = _
    rw [h1]
    rfl
  · rw [(h2 [7, 0, 7] rfl).2]
    decide

theorem exSplit_back : ∃ a, exSplit.transform (.str "a b".toList) = .ok (.list [.str "a".toList, .str "b".toList], a) ∧
    a.inverseTransform [7, 7] = .ok [7, 0, 7] := by
  obtain ⟨a, ps, tail, h1, h2, h3⟩ := C39_C42_whitespace exEnv.σ "a b".toList
  have hT : TokenizedBy (fun _ => false) "a b".toList [([], "a".toList), ([' '], "b".toList)] [] := by
    refine ⟨by decide, by decide, by decide, by decide, by decide, by decide, ?_⟩
    exact ⟨fun h => (by cases h), trivial⟩
  obtain ⟨e1, e2⟩ := C40_cuts_unique _ _ _ _ _ _ h2 hT
  subst e1; subst e2
  refine ⟨a, ?_, ?_⟩
  · show ((WhiteSpaceTokenizer.transform exEnv.σ "a b".toList >>= _) >>= _) = _
    rw [h1]
    rfl
  · rw [h3.backward [7, 7] rfl (by unfold uintLabels; decide)]
    decide

/-- C103: after `PunctuationExceptEndpointToWhitespace` the entity predicted for all tokens of "a-b" comes back as two
entities, without the character "-" between them. -/
theorem C103_torn : ∃ o as coll d, (⟨[exBlank, exSplit], []⟩ : Pipe).transformSequence (.str "a-b".toList) = .ok (o, as, coll) ∧
    o = .list [.str "a".toList, .str "b".toList] ∧ Unbroken 7 [7, 7] ∧ realignAll as [7, 7] = .ok [7, 0, 7] ∧
    packToDatum "a-b".toList [1] [7, 0, 7] = .ok d ∧
    d.entities = [⟨7, "a".toList, 0, 1, []⟩, ⟨7, "b".toList, 2, 3, []⟩] ∧ ¬ Gapless 7 (.str "a-b".toList) [7, 0, 7] := by
  obtain ⟨a, h1, h2⟩ := exBlank_run
  obtain ⟨b, g1, g2⟩ := exSplit_back
  refine ⟨_, _, _, ⟨"a-b".toList, [⟨1⟩], [⟨7, "a".toList, 0, 1, []⟩, ⟨7, "b".toList, 2, 3, []⟩]⟩,
    (C58_composition _ _ _ _ _).mpr ⟨[(_, a), (_, b)], .cons h1 (.cons g1 (.nil _)), rfl, rfl, rfl⟩, rfl,
    unbroken_all (by decide), ?_, rfl, rfl, fun h => ?_⟩
  · show realignAll [a, b] [7, 7] = _
    rw [realignAll_cons, realignAll_cons]
    show ((Except.ok [7, 7] >>= fun m => b.inverseTransform m) >>= fun m => a.inverseTransform m) = _
    rw [Except.bind_ok, g2, Except.bind_ok, h2]
  · rcases h 0 1 2 (by decide) (by decide) rfl rfl with h | ⟨_, h⟩
    · exact absurd h (by decide)
    · exact h (by unfold Counts; decide)

theorem exAround_back : ∃ a, exAround.transform (.str "a-b".toList) = .ok (.str "a - b".toList, a) ∧
    a.inverseTransform [7, 0, 7, 0, 7] = .ok [7, 7, 7] := by
  obtain ⟨a, h1, _, _, h2, _⟩ := C17_around exEnv.σ (isPunctuation exEnv.u) "a-b".toList
  have e : ("a-b".toList.flatMap fun c => if isPunctuation exEnv.u c then [' ', c, ' '] else [c]) = "a - b".toList := by decide
  rw [e] at h1 h2
  refine ⟨a, ?_, ?_⟩
  · show ((AddWhitespaceAroundPunctuation.transform exEnv.σ exEnv.u "a-b".toList >>= _) >>= _) = _
    unfold AddWhitespaceAroundPunctuation.transform
    rw [h1]
    rfl
  · rw [h2 [7, 0, 7, 0, 7] rfl]
    decide

theorem exSplit_back3 : ∃ a, exSplit.transform (.str "a - b".toList) =
      .ok (.list [.str "a".toList, .str "-".toList, .str "b".toList], a) ∧ a.inverseTransform [7, 7, 7] = .ok [7, 0, 7, 0, 7] := by
  obtain ⟨a, ps, tail, h1, h2, h3⟩ := C39_C42_whitespace exEnv.σ "a - b".toList
  have hT : TokenizedBy (fun _ => false) "a - b".toList [([], "a".toList), ([' '], "-".toList), ([' '], "b".toList)] [] := by
    refine ⟨by decide, by decide, by decide, by decide, by decide, by decide, ?_⟩
    refine ⟨fun h => ?_, fun h => ?_, trivial⟩ <;> cases h
  obtain ⟨e1, e2⟩ := C40_cuts_unique _ _ _ _ _ _ h2 hT
  subst e1; subst e2
  refine ⟨a, ?_, ?_⟩
  · show ((WhiteSpaceTokenizer.transform exEnv.σ "a - b".toList >>= _) >>= _) = _
    rw [h1]
    rfl
  · rw [h3.backward [7, 7, 7] rfl (by unfold uintLabels; decide)]
    decide

theorem exSplit_returns (s : Seq) : Returns exEnv exSplit s :=
  .named _ _ ⟨"WhiteSpaceTokenizer", by decide, [], [], rfl, by decide⟩

theorem exAround_returns (s : Seq) : Returns exEnv exAround s :=
  .named _ _ ⟨"AddWhitespaceAroundPunctuation", by decide, [], [], rfl, by decide⟩

/-- A concrete case of `C103_operator`: the blank between the two tokens has the label 0. -/
example : ∃ a, exSplit.transform (.str "a b".toList) = .ok (.list [.str "a".toList, .str "b".toList], a) ∧
    a.inverseTransform [7, 7] = .ok [7, 0, 7] ∧ Gapless 7 (.str "a b".toList) [7, 0, 7] := by
  obtain ⟨a, h1, h2⟩ := exSplit_back
  exact ⟨a, h1, h2, C103_operator exEnv exEnv_sane exSplit _ (exSplit_returns _) _ a h1 _ _ h2 7 (by decide)
    (solid_list.mpr (unbroken_all (by decide)))⟩

/-- A concrete case of `C103_operator` for `ReplaceAwithB("1", "xyz")`. -/
example : ∃ a, exOne.transform (.str "a1b1".toList) = .ok (.str "axyzbxyz".toList, a) ∧
    a.inverseTransform [0, 7, 7, 5, 0, 5, 5, 9] = .ok [0, 7, 0, 5] ∧ Gapless 7 (.str "a1b1".toList) [0, 7, 0, 5] := by
  obtain ⟨_, a, _, _, _, h1, _, _, h2⟩ := exTwo_run
  refine ⟨a, h1, h2, ?_⟩
  refine C103_operator exEnv exEnv_sane exOne _ (.replace _ _ "1".toList "xyz".toList _ rfl rfl (by decide)) _ a h1 _ _ h2 7
    (by decide) ?_
  intro i j k hij hjk hi hk
  match k, hk with
  | 0, hk => omega
  | 1, hk => omega
  | 2, hk =>
    obtain rfl : i = 0 := by omega
    cases hi
  | 3, hk => cases hk
  | 4, hk => cases hk
  | 5, hk => cases hk
  | 6, hk => cases hk
  | 7, hk => cases hk
  | k + 8, hk => cases hk

/-- Concrete cases of `C103_pipe` and `C103_datum`. -/
example : ∃ o as coll d, (⟨[exAround, exSplit], []⟩ : Pipe).transformSequence (.str "a-b".toList) = .ok (o, as, coll) ∧
    realignAll as [7, 7, 7] = .ok [7, 7, 7] ∧ Gapless 7 (.str "a-b".toList) [7, 7, 7] ∧
    packToDatum "a-b".toList [1] [7, 7, 7] = .ok d ∧ d.entities = [⟨7, "a-b".toList, 0, 3, []⟩] ∧
    ((∃ g ∈ d.entities, g.label = 7 ∧ g.start ≤ (1 : Nat) ∧ ((1 : Nat) : Int) < g.stop) ∨
      ((∃ c, "a-b".toList[1]? = some c ∧ isSpace c = true) ∧
        ∀ g ∈ d.entities, ¬ (g.start ≤ (1 : Nat) ∧ ((1 : Nat) : Int) < g.stop))) := by
  obtain ⟨a, h1, h2⟩ := exAround_back
  obtain ⟨b, g1, g2⟩ := exSplit_back3
  have hr : (⟨[exAround, exSplit], []⟩ : Pipe).transformSequence (.str "a-b".toList) = .ok (_, [a, b], _) :=
    (C58_composition _ _ _ _ _).mpr ⟨[(_, a), (_, b)], .cons h1 (.cons g1 (.nil _)), rfl, rfl, rfl⟩
  have ha : realignAll [a, b] [7, 7, 7] = .ok [7, 7, 7] := by
    rw [realignAll_cons, realignAll_cons]
    show ((Except.ok [7, 7, 7] >>= fun m => b.inverseTransform m) >>= fun m => a.inverseTransform m) = _
    rw [Except.bind_ok, g2, Except.bind_ok, h2]
  have ho : ∀ (i : Nat) op x, (⟨[exAround, exSplit], []⟩ : Pipe).steps[i]? = some op →
      [Seq.str "a-b".toList, .str "a - b".toList, .list [.str "a".toList, .str "-".toList, .str "b".toList]][i]? = some x →
      Returns exEnv op x := by
    intro i op x hi _
    match i, hi with
    | 0, hi => cases hi; exact exAround_returns _
    | 1, hi => cases hi; exact exSplit_returns _
    | i + 2, hi => cases hi
  have hlt : "a-b".toList.length < 2 ^ 31 := by
    have : "a-b".toList.length = 3 := rfl
    omega
  have hd : packToDatum "a-b".toList [1] [7, 7, 7] = .ok ⟨"a-b".toList, [⟨1⟩], [⟨7, "a-b".toList, 0, 3, []⟩]⟩ := by
    have e : "a-b".toList = ['a', '-', 'b'] := rfl
    rw [e]
    rfl
  exact ⟨_, _, _, _, hr, ha,
    (C103_pipe exEnv exEnv_sane _ _ _ _ _ hr ho _ _ ha 7 (by decide)).2 _ rfl (unbroken_all (by decide)), hd, rfl,
    C103_datum exEnv exEnv_sane _ _ _ _ _ hr ho _ _ ha hlt [1] _ hd 7 (by decide)
      (solid_list.mpr (unbroken_all (by decide))) _ _ (List.mem_singleton.mpr rfl) (List.mem_singleton.mpr rfl) rfl rfl 1
      (by decide) (by decide)⟩

end Uttut
