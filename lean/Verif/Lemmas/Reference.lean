import Verif.Spec.Reference
import Verif.Props.Bert

/-! Lemmas about the reference BERT tokenizer. -/

namespace Uttut

open Spec

/-! ### the scanner -/

theorem scan_congr (own own' : Char → Bool) (s cur : Str) (h : ∀ c ∈ s, isSpace c = false → own c = own' c) :
    scanWords own s cur = scanWords own' s cur := by
  induction s generalizing cur with
  | nil => rfl
  | cons c cs ih =>
    have ih := fun cur => ih cur fun d hd => h d (List.mem_cons_of_mem _ hd)
    simp only [scanWords]
    by_cases hs : isSpace c = true
    · rw [if_pos hs, if_pos hs, ih]
    · rw [if_neg hs, if_neg hs, h c (List.mem_cons_self ..) (by simpa using hs), ih, ih]

theorem emit_map (g : Char → Char) (cur : Str) : emit (cur.map g) = (emit cur).map (List.map g) := by
  cases cur <;> rfl

theorem scan_map (own : Char → Bool) (g : Char → Char) (s cur : Str) (h : ∀ c ∈ s, isSpace (g c) = isSpace c) :
    scanWords own (s.map g) (cur.map g) = (scanWords (fun c => own (g c)) s cur).map (List.map g) := by
  induction s generalizing cur with
  | nil => exact emit_map g cur
  | cons c cs ih =>
    have ih := fun cur => ih cur fun d hd => h d (List.mem_cons_of_mem _ hd)
    have ih0 : scanWords own (cs.map g) [] = _ := ih []
    simp only [List.map_cons, scanWords, h c (List.mem_cons_self ..)]
    by_cases hs : isSpace c = true
    · rw [if_pos hs, if_pos hs, ih0, emit_map, List.map_append]
    · rw [if_neg hs, if_neg hs]
      by_cases ho : own (g c) = true
      · rw [if_pos ho, if_pos ho, ih0, emit_map, List.map_append]
        rfl
      · rw [if_neg ho, if_neg ho, ← ih (cur ++ [c]), List.map_append]
        rfl

/-- Replacing whitespace by other whitespace. -/
theorem scan_blank (own : Char → Bool) (k : Char → Char) (s cur : Str)
    (h : ∀ c ∈ s, k c = c ∨ (isSpace c = true ∧ isSpace (k c) = true)) :
    scanWords own (s.map k) cur = scanWords own s cur := by
  induction s generalizing cur with
  | nil => rfl
  | cons c cs ih =>
    have ih := fun cur => ih cur fun d hd => h d (List.mem_cons_of_mem _ hd)
    simp only [List.map_cons, scanWords]
    rcases h c (List.mem_cons_self ..) with e | ⟨e1, e2⟩
    · rw [e, ih, ih]
    · rw [if_pos e1, if_pos e2, ih]

theorem scan_own (own : Char → Bool) (w : Str) (hs : ∀ c ∈ w, isSpace c = false) (c : Char) (hc : isSpace c = false)
    (ho : own c = true) (rest cur : Str) :
    scanWords own (w ++ c :: rest) cur = scanWords own w cur ++ [c] :: scanWords own rest [] := by
  induction w generalizing cur with
  | nil =>
    show scanWords own (c :: rest) cur = emit cur ++ _
    rw [scanWords, if_neg (by simp [hc]), if_pos ho]
  | cons d w ih =>
    have ih := fun cur => ih (fun e he => hs e (List.mem_cons_of_mem _ he)) cur
    have hd : isSpace d = false := hs d (List.mem_cons_self ..)
    show scanWords own (d :: (w ++ c :: rest)) cur = _
    simp only [scanWords, hd, Bool.false_eq_true, if_false]
    by_cases hod : own d = true
    · rw [if_pos hod, if_pos hod, ih, List.append_assoc]
      rfl
    · rw [if_neg hod, if_neg hod, ih]

theorem flatMap_emit (own : Char → Bool) (cur : Str) :
    (emit cur).flatMap (fun w => scanWords own w []) = scanWords own cur [] := by
  unfold emit
  by_cases h : cur = []
  · subst h; rfl
  · rw [if_neg h]; simp

/-- Cutting the tokens of a coarser division. -/
theorem flatMap_scan_own (a b : Char → Bool) (s cur : Str) (hs : ∀ c ∈ cur, isSpace c = false)
    (ha : ∀ c ∈ cur, a c = false) :
    (scanWords a s cur).flatMap (fun w => scanWords b w []) = scanWords (fun c => b c || a c) (cur ++ s) [] := by
  have hcur : ∀ cur : Str, (∀ c ∈ cur, a c = false) → scanWords b cur [] = scanWords (fun c => b c || a c) cur [] :=
    fun cur ha => scan_congr _ _ _ _ fun c hc _ => by rw [ha c hc, Bool.or_false]
  induction s generalizing cur with
  | nil => rw [scanWords, flatMap_emit, List.append_nil, hcur cur ha]
  | cons c cs ih =>
    simp only [scanWords]
    by_cases h : isSpace c = true
    · rw [if_pos h, List.flatMap_append, ih [] (by simp) (by simp), flatMap_emit, hcur cur ha,
        scanWords_append_emit _ cur hs (c :: cs) [] (by simp [h])]
      congr 1
      show _ = scanWords _ (c :: cs) []
      rw [scanWords, if_pos h]
      rfl
    · have h' : isSpace c = false := by simpa using h
      rw [if_neg h]
      by_cases hac : a c = true
      · rw [if_pos hac, List.flatMap_append, List.flatMap_cons, ih [] (by simp) (by simp), flatMap_emit, hcur cur ha,
          scan_own _ cur hs c h' (by rw [hac, Bool.or_true])]
        congr 1
        have : scanWords b [c] [] = [[c]] := by
          simp only [scanWords, h', Bool.false_eq_true, if_false]
          by_cases hb : b c = true
          · rw [if_pos hb]; rfl
          · rw [if_neg hb]; rfl
        rw [this]
        rfl
      · have hac' : a c = false := by simpa using hac
        rw [if_neg hac, ih (cur ++ [c])]
        · rw [List.append_assoc]; rfl
        · intro d hd
          rcases List.mem_append.mp hd with hd | hd
          · exact hs d hd
          · rw [List.mem_singleton.mp hd]; exact h'
        · intro d hd
          rcases List.mem_append.mp hd with hd | hd
          · exact ha d hd
          · rw [List.mem_singleton.mp hd]; exact hac'

theorem emit_flatten (cur : Str) : (emit cur).flatten = cur := by
  unfold emit
  by_cases h : cur = []
  · rw [if_pos h, h]; rfl
  · rw [if_neg h]; simp

theorem scan_flatten (own : Char → Bool) (s cur : Str) :
    (scanWords own s cur).flatten = cur ++ s.filter fun c => !isSpace c := by
  induction s generalizing cur with
  | nil => simp [scanWords, emit_flatten]
  | cons c cs ih =>
    simp only [scanWords]
    by_cases h : isSpace c = true
    · rw [if_pos h, List.flatten_append, emit_flatten, ih, List.filter_cons_of_neg (by simp [h])]
      rfl
    · rw [if_neg h, List.filter_cons_of_pos (by simp at h; simp [h])]
      by_cases ho : own c = true
      · rw [if_pos ho, List.flatten_append, emit_flatten, List.flatten_cons, ih]
        rfl
      · rw [if_neg ho, ih, List.append_assoc]
        rfl

theorem scan_mem (own : Char → Bool) (s : Str) {w : Str} (hw : w ∈ scanWords own s []) {c : Char} (hc : c ∈ w) :
    c ∈ s ∧ isSpace c = false := by
  have : c ∈ (scanWords own s []).flatten := List.mem_flatten.mpr ⟨w, hw, hc⟩
  rw [scan_flatten, List.nil_append, List.mem_filter] at this
  exact ⟨this.1, by simpa using this.2⟩

/-- The tokens of a division are those of the scanner. -/
theorem tokenizedBy_scan {own : Char → Bool} {s : Str} {ps : List (Str × Str)} {tail : Str}
    (h : TokenizedBy own s ps tail) : ps.map Prod.snd = scanWords own s [] := by
  obtain ⟨qs, tail', h1, h2⟩ := scanWords_spec own s [] (by simp) (by simp)
  obtain ⟨e, _⟩ := C40_cuts_unique own s ps qs tail tail' h h1
  rw [e, h2]

theorem scan_solid_append (own : Char → Bool) (m b cur : Str) (hb : ∀ c ∈ b, isSpace c = true) :
    scanWords own (m ++ b) cur = scanWords own m cur := by
  induction m generalizing cur with
  | nil =>
    induction b generalizing cur with
    | nil => rfl
    | cons c b ihb =>
      have hc : isSpace c = true := hb c (List.mem_cons_self ..)
      have ihb := ihb (fun d hd => hb d (List.mem_cons_of_mem _ hd)) []
      show scanWords own (c :: b) cur = emit cur
      rw [scanWords, if_pos hc]
      have : scanWords own b [] = [] := ihb
      rw [this, List.append_nil]
  | cons c m ih =>
    show scanWords own (c :: (m ++ b)) cur = _
    simp only [scanWords, ih]

theorem scan_space_append (own : Char → Bool) (a m : Str) (ha : ∀ c ∈ a, isSpace c = true) :
    scanWords own (a ++ m) [] = scanWords own m [] := by
  induction a with
  | nil => rfl
  | cons c a ih =>
    show scanWords own (c :: (a ++ m)) [] = _
    rw [scanWords, if_pos (ha c (List.mem_cons_self ..)), ih fun d hd => ha d (List.mem_cons_of_mem _ hd)]
    rfl

namespace Reference

/-- `strip()` before `split()` makes no difference. -/
theorem whitespaceTokenize_eq (s : Str) : whitespaceTokenize s = pySplit s := by
  obtain ⟨a, b, h1, h2, h3, _⟩ := strip_split s
  have h : pySplit s = pySplit (strip s) := by
    rw [pySplit_scan, pySplit_scan]
    have : s = a ++ (strip s ++ b) := by rw [← List.append_assoc]; exact h1
    conv => lhs; rw [this]
    rw [scan_space_append _ _ _ (fun c hc => h2 c hc), scan_solid_append _ _ _ _ (fun c hc => h3 c hc)]
  rw [h]
  show (if (strip s).isEmpty then [] else pySplit (strip s)) = _
  cases hs : strip s with
  | nil => rfl
  | cons c cs => rfl

theorem isPunctuation_eq (r : RefUnicode) (c : Char) : isPunctuation r c = Uttut.isPunctuation r.u c := by
  unfold isPunctuation Uttut.isPunctuation
  cases r.u.isCatP c <;> rfl

theorem isChineseChar_eq (c : Char) : isChineseChar c.toNat = isCJK c := rfl

theorem chinese_eq (s : Str) : tokenizeChineseChars s = ZhCharTokenizer.tokenizeChineseChars s := by
  induction s with
  | nil => rfl
  | cons c cs ih =>
    unfold ZhCharTokenizer.tokenizeChineseChars at ih ⊢
    rw [tokenizeChineseChars, List.flatMap_cons, ih, isChineseChar_eq]
    by_cases h : isCJK c = true
    · rw [if_pos h, if_pos h]; rfl
    · rw [if_neg h, if_neg h]; rfl

theorem chinese_scan (s cur : Str) :
    scanWords (fun _ => false) (tokenizeChineseChars s) cur = scanWords isCJK s cur := by
  rw [chinese_eq]
  induction s generalizing cur with
  | nil => rfl
  | cons c cs ih =>
    have hsp : isSpace ' ' = true := by decide
    unfold ZhCharTokenizer.tokenizeChineseChars at ih ⊢
    rw [List.flatMap_cons]
    by_cases h : isCJK c = true
    · have hn := isCJK_not_space c h
      rw [if_pos h]
      simp only [List.cons_append, List.nil_append, scanWords, hsp, if_true, hn, Bool.false_eq_true, if_false, h, ih]
      simp [emit]
    · rw [if_neg h]
      have h' : isCJK c = false := by simpa using h
      simp only [List.cons_append, List.nil_append, scanWords, h', ih]

theorem appendLast_eq (ws : List Str) (c : Char) : appendLast ws c = EngTokenizer.appendLast ws c := by
  induction ws with
  | nil => rfl
  | cons w ws ih =>
    cases ws with
    | nil => rfl
    | cons v ws => exact congrArg (w :: ·) ih

theorem splitOnPuncLoop_eq (r : RefUnicode) (t : Str) (b : Bool) (out : List Str) :
    splitOnPuncLoop r t b out = EngTokenizer.splitOnPuncLoop r.u t b out := by
  induction t generalizing b out with
  | nil => rfl
  | cons c cs ih =>
    simp only [splitOnPuncLoop, EngTokenizer.splitOnPuncLoop, isPunctuation_eq, ih, appendLast_eq]

theorem runSplitOnPunc_scan (r : RefUnicode) (t : Str) (hs : ∀ c ∈ t, isSpace c = false) :
    runSplitOnPunc r t = scanWords (Uttut.isPunctuation r.u) t [] := by
  rw [← Uttut.runSplitOnPunc_scan r.u t hs]
  exact splitOnPuncLoop_eq _ _ _ _

/-- What `_clean_text` does to a character it keeps. -/
def blank (r : RefUnicode) (c : Char) : Char := if isWhitespace r c then ' ' else c

theorem discarded_iff (r : RefUnicode) (c : Char) :
    (c.toNat = 0 ∨ c.toNat = 0xfffd ∨ isControl r c = true) ↔ discarded r c = true := by
  unfold isControl discarded
  by_cases h : c = '\t' ∨ c = '\n' ∨ c = '\r'
  · rw [if_pos h]
    have : "\t\n\r".toList.contains c = true := by
      rcases h with rfl | rfl | rfl <;> rfl
    rw [this]
    simp
  · rw [if_neg h]
    have : "\t\n\r".toList.contains c = false := by
      rw [not_or, not_or] at h
      rw [List.contains_eq_mem, decide_eq_false_iff_not]
      show c ∉ ['\t', '\n', '\r']
      simp [h.1, h.2.1, h.2.2]
    rw [this]
    simp [or_assoc]

theorem cleanText_eq (r : RefUnicode) (s : Str) :
    cleanText r s = (s.filter fun c => !discarded r c).map (blank r) := by
  induction s with
  | nil => rfl
  | cons c cs ih =>
    rw [cleanText]
    by_cases h : discarded r c = true
    · rw [if_pos ((discarded_iff r c).mpr h), List.filter_cons_of_neg (by simp [h]), ih]
    · rw [if_neg (fun h' => h ((discarded_iff r c).mp h')), List.filter_cons_of_pos (by simp at h; simp [h]),
        List.map_cons, ← ih]
      show _ = (if isWhitespace r c then ' ' else c) :: cleanText r cs
      by_cases hw : isWhitespace r c = true
      · rw [if_pos hw, if_pos hw]
      · rw [if_neg hw, if_neg hw]

theorem whitespace_space (r : RefUnicode) (c : Char) (h : isWhitespace r c = true)
    (hz : r.isZs c = true → isSpace c = true) : isSpace c = true := by
  unfold isWhitespace at h
  by_cases hc : c = ' ' ∨ c = '\t' ∨ c = '\n' ∨ c = '\r'
  · rcases hc with rfl | rfl | rfl | rfl <;> rfl
  · rw [if_neg hc] at h
    exact hz h

/-- The first division made by the reference tokenizer. -/
theorem origTokens_eq (r : RefUnicode) (s : Str) (hz : ∀ c ∈ s, r.isZs c = true → isSpace c = true) :
    whitespaceTokenize (tokenizeChineseChars (cleanText r s)) =
      scanWords isCJK (s.filter fun c => !discarded r c) [] := by
  rw [whitespaceTokenize_eq, pySplit_scan, chinese_scan, cleanText_eq]
  refine scan_blank _ _ _ _ fun c hc => ?_
  unfold blank
  by_cases h : isWhitespace r c = true
  · rw [if_pos h]
    exact Or.inr ⟨whitespace_space r c h (hz c (List.mem_of_mem_filter hc)), rfl⟩
  · rw [if_neg h]; exact Or.inl rfl

theorem basicTokenize_scan (r : RefUnicode) (b : Bool) (g : Char → Char) (s : Str)
    (hz : ∀ c ∈ s, r.isZs c = true → isSpace c = true)
    (hg : ∀ c ∈ s, isSpace c = false → isSpace (g c) = false)
    (ht : ∀ t, (∀ c ∈ t, c ∈ s ∧ isSpace c = false) → (if b then runStripAccents r (r.lower t) else t) = t.map g) :
    basicTokenize r b s = (scanWords (fun c => Uttut.isPunctuation r.u (g c) || isCJK c)
      (s.filter fun c => !discarded r c) []).map (List.map g) := by
  unfold basicTokenize
  simp only
  rw [origTokens_eq r s hz, whitespaceTokenize_eq]
  have hmem : ∀ w ∈ scanWords isCJK (s.filter fun c => !discarded r c) [], ∀ c ∈ w, c ∈ s ∧ isSpace c = false :=
    fun w hw c hc => ⟨List.mem_of_mem_filter (scan_mem _ _ hw hc).1, (scan_mem _ _ hw hc).2⟩
  have e : (scanWords isCJK (s.filter fun c => !discarded r c) []).flatMap (splitToken r b) =
      (scanWords (fun c => Uttut.isPunctuation r.u (g c) || isCJK c) (s.filter fun c => !discarded r c) []).map
        (List.map g) := by
    have h1 : (scanWords isCJK (s.filter fun c => !discarded r c) []).flatMap (splitToken r b) =
        (scanWords isCJK (s.filter fun c => !discarded r c) []).flatMap fun w =>
          (scanWords (fun c => Uttut.isPunctuation r.u (g c)) w []).map (List.map g) := by
      refine flatMap_congr_mem fun w hw => ?_
      unfold splitToken
      rw [ht w (hmem w hw), runSplitOnPunc_scan]
      · exact scan_map _ g w [] fun c hc => by
          rw [(hmem w hw c hc).2, hg c (hmem w hw c hc).1 (hmem w hw c hc).2]
      · intro c hc
        obtain ⟨d, hd, rfl⟩ := List.mem_map.mp hc
        exact hg d (hmem w hw d hd).1 (hmem w hw d hd).2
    rw [h1, ← List.map_flatMap, flatMap_scan_own _ _ _ [] (by simp) (by simp)]
    rfl
  rw [e]
  refine pySplit_join _ fun w hw => ?_
  obtain ⟨v, hv, rfl⟩ := List.mem_map.mp hw
  refine ⟨fun h => (scanWords_mem _ _ [] (by simp) v hv).1 (List.map_eq_nil_iff.mp h), fun c hc => ?_⟩
  obtain ⟨d, hd, rfl⟩ := List.mem_map.mp hc
  have := scan_mem _ _ hv hd
  exact hg d (List.mem_of_mem_filter this.1) this.2

/-! ### word pieces -/

theorem longestEntry_eq (vocab : Str → Bool) (w : Str) (start e : Nat) :
    longestEntry vocab w start e = SpanSubwords.longestPiece vocab w start e := by
  induction e with
  | zero => rfl
  | succ e ih => simp only [longestEntry, SpanSubwords.longestPiece, ih]

theorem entriesLoop_eq (vocab : Str → Bool) (w : Str) (fuel start : Nat) (subs : List Str) :
    entriesLoop vocab w fuel start subs = SpanSubwords.loop vocab w fuel start subs := by
  induction fuel generalizing start subs with
  | zero => rfl
  | succ fuel ih =>
    simp only [entriesLoop, SpanSubwords.loop, longestEntry_eq]
    split
    · cases SpanSubwords.longestPiece vocab w start w.length with
      | none => rfl
      | some p => exact ih _ _
    · rfl

theorem wordpieceLoop_eq (vocab : Str → Bool) (unk : Str) (limit : Int) (subs : Str → List Str) (ws : List Str)
    (h : ∀ w ∈ ws, SpanSubwords.spanSubwords vocab unk limit w = .ok (subs w)) (out : List Str) :
    wordpieceLoop vocab unk limit ws out = .ok (out ++ ws.flatMap subs) := by
  induction ws generalizing out with
  | nil => simp [wordpieceLoop]
  | cons w ws ih =>
    have ih := fun out => ih (fun v hv => h v (List.mem_cons_of_mem _ hv)) out
    have hw := h w (List.mem_cons_self ..)
    unfold SpanSubwords.spanSubwords at hw
    unfold wordpieceLoop
    rw [entriesLoop_eq, List.flatMap_cons, ← List.append_assoc]
    by_cases hl : (w.length : Int) > limit
    · rw [if_pos hl] at hw ⊢
      rw [ih, Except.ok.inj hw]
    · rw [if_neg hl] at hw ⊢
      revert hw
      cases SpanSubwords.loop vocab w (w.length + 1) 0 [] with
      | none => intro hw; cases hw
      | some o =>
        cases o with
        | none => intro hw; rw [← Except.ok.inj hw]; exact ih _
        | some l => intro hw; rw [← Except.ok.inj hw]; exact ih _

end Reference

end Uttut
