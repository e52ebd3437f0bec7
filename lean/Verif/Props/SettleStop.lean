import Verif.Props.SettleSubwords

/-! C119: two more steps that only move labels. -/

namespace Uttut

open Spec

/-- Maps of labels that move labels, without the errors. -/
def MovesBy (F B : List Int → List Int) (n m : Nat) : Prop := ∃ src dst c,
  Carries (fun ls => .ok (F ls)) (fun ys => .ok (B ys)) n m src dst c fun _ => 0

theorem movesBy_id (F B : List Int → List Int) (n : Nat) (hF : ∀ ls, F ls = ls) (hB : ∀ ls, B ls = ls) : MovesBy F B n n :=
  have h := carries_id n
  ⟨_, _, _, ⟨fun ls hl => (congrArg Except.ok (hF ls)).trans (h.fwd ls hl),
    fun ys hy => (congrArg Except.ok (hB ys)).trans (h.bwd ys hy), h.inverse, h.range⟩⟩

theorem movesBy_const (F B : List Int → List Int) (n m : Nat) (hF : ∀ ls, F ls = List.replicate m 0)
    (hB : ∀ ls, B ls = List.replicate n 0) : MovesBy F B n m := by
  have e : ∀ (k : Nat) (ls : List Int), List.replicate k (0 : Int) = moved k (fun _ => none) (fun _ => 0) ls := fun k ls =>
    moved_eq (by simp) fun j hj => by simp [hj]
  refine ⟨fun _ => none, fun _ => none, fun _ => 0, fun ls _ => ?_, fun ys _ => ?_, fun i j => ?_, fun i j h => by cases h⟩
  · exact congrArg Except.ok ((hF ls).trans (e _ _))
  · exact congrArg Except.ok ((hB ys).trans (e _ _))
  · constructor <;> (intro h; cases h)

/-- Sources of labels that stand side by side. -/
def beside (n m : Nat) (src src' : Nat → Option Nat) (j : Nat) : Option Nat :=
  if j < m then src j else (src' (j - m)).map (· + n)

theorem beside_iff {n m : Nat} {src src' : Nat → Option Nat} (h : ∀ i j, src j = some i → i < n) (i j : Nat) :
    beside n m src src' j = some i ↔ (j < m ∧ i < n ∧ src j = some i) ∨ (m ≤ j ∧ n ≤ i ∧ src' (j - m) = some (i - n)) := by
  unfold beside
  split
  · rename_i hj
    constructor
    · exact fun e => Or.inl ⟨hj, h _ _ e, e⟩
    · rintro (⟨_, _, e⟩ | ⟨_, _, _⟩)
      · exact e
      · omega
  · rename_i hj
    rw [Option.map_eq_some_iff]
    constructor
    · rintro ⟨x, e, rfl⟩
      exact Or.inr ⟨by omega, by omega, by rw [Nat.add_sub_cancel]; exact e⟩
    · rintro (⟨_, _, e⟩ | ⟨_, _, e⟩)
      · omega
      · exact ⟨_, e, by omega⟩

theorem moved_append (n1 m1 m2 : Nat) (src1 src2 : Nat → Option Nat) (c1 c2 c : Nat → Int) (ls : List Int)
    (h1 : ∀ i j, src1 j = some i → i < n1) (hc : ∀ j, c j = if j < m1 then c1 j else c2 (j - m1)) :
    moved m1 src1 c1 (ls.take n1) ++ moved m2 src2 c2 (ls.drop n1) = moved (m1 + m2) (beside n1 m1 src1 src2) c ls := by
  refine moved_eq (by simp [moved_length]) fun j hj => ?_
  rw [beside, hc]
  by_cases h : j < m1
  · rw [List.getD_eq_getElem?_getD, List.getElem?_append_left (by rw [moved_length]; exact h), ← List.getD_eq_getElem?_getD,
      moved_getD _ _ _ _ _ h, if_pos h, if_pos h]
    cases e : src1 j with
    | none => rfl
    | some i =>
      show (ls.take n1).getD i 0 = ls.getD i 0
      rw [List.getD_eq_getElem?_getD, List.getElem?_take, if_pos (h1 _ _ e), List.getD_eq_getElem?_getD]
  · rw [List.getD_eq_getElem?_getD, List.getElem?_append_right (by rw [moved_length]; omega), ← List.getD_eq_getElem?_getD,
      moved_length, moved_getD _ _ _ _ _ (by omega), if_neg h, if_neg h]
    cases e : src2 (j - m1) with
    | none => rfl
    | some i =>
      show (ls.drop n1).getD i 0 = ls.getD (i + n1) 0
      rw [List.getD_eq_getElem?_getD, List.getElem?_drop, List.getD_eq_getElem?_getD, Nat.add_comm]

theorem movesBy_append {F B F' B' : List Int → List Int} {n1 m1 n2 m2 : Nat} (h : MovesBy F B n1 m1) (h' : MovesBy F' B' n2 m2) :
    MovesBy (fun ls => F (ls.take n1) ++ F' (ls.drop n1)) (fun ys => B (ys.take m1) ++ B' (ys.drop m1)) (n1 + n2) (m1 + m2) := by
  obtain ⟨src, dst, c, h⟩ := h
  obtain ⟨src', dst', c', h'⟩ := h'
  have hs : ∀ i j, src j = some i → i < n1 := fun i j e => (h.range _ _ e).1
  have hd : ∀ j i, dst i = some j → j < m1 := fun j i e => (h.range _ _ ((h.inverse _ _).mpr e)).2
  refine ⟨beside n1 m1 src src', beside m1 n1 dst dst', fun j => if j < m1 then c j else c' (j - m1), fun ls hl => ?_,
    fun ys hy => ?_, fun i j => ?_, fun i j e => ?_⟩
  · have e1 := Except.ok.inj (h.fwd (ls.take n1) (by rw [List.length_take]; omega))
    have e2 := Except.ok.inj (h'.fwd (ls.drop n1) (by rw [List.length_drop]; omega))
    show Except.ok (F (ls.take n1) ++ F' (ls.drop n1)) = _
    rw [e1, e2, moved_append _ _ _ _ _ _ _ _ _ hs fun _ => rfl]
  · have e1 := Except.ok.inj (h.bwd (ys.take m1) (by rw [List.length_take]; omega))
    have e2 := Except.ok.inj (h'.bwd (ys.drop m1) (by rw [List.length_drop]; omega))
    show Except.ok (B (ys.take m1) ++ B' (ys.drop m1)) = _
    rw [e1, e2, moved_append _ _ _ _ _ _ _ (fun _ => 0) _ hd fun _ => (ite_self _).symm]
  · rw [beside_iff hs, beside_iff hd, h.inverse, h'.inverse]
    constructor
    · rintro (⟨a, b, e⟩ | ⟨a, b, e⟩)
      · exact Or.inl ⟨b, a, e⟩
      · exact Or.inr ⟨b, a, e⟩
    · rintro (⟨a, b, e⟩ | ⟨a, b, e⟩)
      · exact Or.inl ⟨b, a, e⟩
      · exact Or.inr ⟨b, a, e⟩
  · rcases (beside_iff hs i j).mp e with ⟨_, _, e⟩ | ⟨_, _, e⟩
    · have := h.range _ _ e
      omega
    · have := h'.range _ _ e
      omega

theorem movesBy_parts {ι : Type} (parts : List ι) (len new : ι → Nat) (F B : ι → List Int → List Int)
    (h : ∀ w ∈ parts, MovesBy (F w) (B w) (len w) (new w)) :
    MovesBy (fun ls => (parts.zip (segments (parts.map len) ls)).flatMap fun x => F x.1 x.2)
      (fun ys => (parts.zip (segments (parts.map new) ys)).flatMap fun x => B x.1 x.2) (parts.map len).sum (parts.map new).sum := by
  induction parts with
  | nil => exact movesBy_const _ _ _ _ (fun _ => rfl) fun _ => rfl
  | cons w parts ih => exact movesBy_append (h w (.head _)) (ih fun w hw => h w (.tail _ hw))

theorem PartByPart.moves {ι : Type} {a : Aligner} {parts : List ι} {len new : ι → Nat} {F B : ι → List Int → List Int}
    (hp : PartByPart a parts len new F B) (h : ∀ w ∈ parts, MovesBy (F w) (B w) (len w) (new w)) :
    MovesTo (parts.map len).sum (parts.map new).sum a := by
  obtain ⟨src, dst, c, hc⟩ := movesBy_parts parts len new F B h
  exact ⟨src, dst, c, fun ls hl => (hp.fwd ls hl).trans (hc.fwd ls hl), fun ys hy => (hp.bwd ys hy).trans (hc.bwd ys hy),
    hc.inverse, hc.range⟩

theorem moves_stopwords (σ : SetOrder) (s out : Str) (a : Aligner) (h : StopwordsToWhitespace.transform σ s = .ok (out, a)) :
    MovesTo s.length out.length a := by
  obtain ⟨segs, hs, _⟩ := C23_segments s
  obtain ⟨a', h1, h2, h3, h4⟩ := C23_stopwords σ s segs hs
  obtain ⟨e1, e2⟩ := det (f := StopwordsToWhitespace.transform σ) h h1
  subst e1; subst e2
  have hfl : segs.flatten = s := segmented_flatten hs
  have hout : (segs.flatMap fun w => if w ∈ StopwordsToWhitespace.stopwords then [' '] else w) =
      (segs.map fun w => if w ∈ StopwordsToWhitespace.stopwords then [' '] else w).flatten := List.flatMap_def ..
  have hp : PartByPart a segs List.length
      (fun w => (if w ∈ StopwordsToWhitespace.stopwords then [' '] else w).length)
      (fun w x => if decide (w ∈ StopwordsToWhitespace.stopwords) then [0] else x)
      (fun w x => if decide (w ∈ StopwordsToWhitespace.stopwords) then List.replicate w.length 0 else x) := by
    refine partByPart_text (by rw [hfl]; exact h2.input) (by rw [← hout]; exact h2.output) (fun ls hl => ?_)
      (fun ls hl => ?_) ?_ ?_
    · rw [hfl] at hl; exact h3 ls hl
    · rw [← hout] at hl; exact h4 ls hl
    · intro w _ x hx
      by_cases hc : w ∈ StopwordsToWhitespace.stopwords <;> simp [hc, hx]
    · intro w _ x hx
      by_cases hc : w ∈ StopwordsToWhitespace.stopwords
      · simp [hc]
      · rw [if_neg hc] at hx; simp [hc, hx]
  have hm := hp.moves fun w _ => ?_
  · rw [← hp.output, ← hp.input, h2.input, h2.output] at hm
    exact hm
  · by_cases hc : w ∈ StopwordsToWhitespace.stopwords
    · simp only [hc, decide_true, if_true]
      exact movesBy_const _ _ _ _ (fun _ => rfl) fun _ => rfl
    · simp only [hc, decide_false, if_false]
      exact movesBy_id _ _ _ (fun _ => rfl) fun _ => rfl

/-- C119: `StopwordsToWhitespace` only moves labels. -/
theorem C119_moves_stopwords (env : Env) (op : Op) (h : Made env "StopwordsToWhitespace" op) : OpMoves op := by
  rw [made_simple (env := env) (name := "StopwordsToWhitespace") rfl h]
  exact op_of_str' (P := MovesTo) rfl (moves_stopwords env.σ)

theorem movesBy_congr {F B F' B' : List Int → List Int} {n m n' m' : Nat} (h : MovesBy F B n m) (hn : n' = n) (hm : m' = m)
    (hF : ∀ ls, ls.length = n → F' ls = F ls) (hB : ∀ ls, ls.length = m → B' ls = B ls) : MovesBy F' B' n' m' := by
  subst hn; subst hm
  obtain ⟨src, dst, c, h⟩ := h
  exact ⟨src, dst, c, fun ls hl => (congrArg Except.ok (hF ls hl)).trans (h.fwd ls hl),
    fun ls hl => (congrArg Except.ok (hB ls hl)).trans (h.bwd ls hl), h.inverse, h.range⟩

theorem movesBy_frame (k : Nat) : MovesBy (fun x => 0 :: x ++ [0]) (fun x => (x.drop 1).dropLast) k (k + 2) := by
  have h0 : MovesBy (fun _ => [0]) (fun _ => []) 0 1 := movesBy_const _ _ _ _ (fun _ => rfl) fun _ => rfl
  have h1 : MovesBy (fun x => x) (fun x => x) k k := movesBy_id _ _ _ (fun _ => rfl) fun _ => rfl
  refine movesBy_congr (movesBy_append h0 (movesBy_append h1 h0)) (by omega) (by omega) (fun ls hl => ?_) fun ls hl => ?_
  · simp only [List.drop_zero, List.cons_append, List.nil_append]
    rw [List.take_of_length_le (by omega)]
  · simp only [List.nil_append, List.append_nil]
    rw [List.dropLast_eq_take, List.length_drop, show ls.length - 1 - 1 = k by omega]

theorem moves_aroundWord (σ : SetOrder) (ws : List Str) (t : Trie) (ht : Trie.ofUserWords ws = .ok t) (sh : Bool)
    (s out : Str) (a : Aligner) (h : AddWhitespaceAroundWordnZhChar.transform σ t sh s = .ok (out, a)) :
    MovesTo s.length out.length a := by
  obtain ⟨a', segs, _, hfl, h1, h2, h3, h4, _⟩ := C38_spaces σ ws t ht sh s
  obtain ⟨e1, e2⟩ := det (f := AddWhitespaceAroundWordnZhChar.transform σ t sh) h h1
  subst e1; subst e2
  have hout : segs.flatMap (spaced ws) = (segs.map (spaced ws)).flatten := List.flatMap_def ..
  have hlen : ∀ w, (spaced ws w).length = if spacedSeg ws w then w.length + 2 else w.length := by
    intro w
    unfold spaced
    split <;> simp
  have hp : PartByPart a segs List.length (fun w => (spaced ws w).length)
      (fun w x => if spacedSeg ws w then 0 :: x ++ [0] else x)
      (fun w x => if spacedSeg ws w then (x.drop 1).dropLast else x) := by
    refine partByPart_text (by rw [hfl]; exact h2.input) (by rw [← hout]; exact h2.output) (fun ls hl => ?_)
      (fun ls hl => ?_) ?_ ?_
    · rw [hfl] at hl; exact h3 ls hl
    · rw [← hout] at hl; exact h4 ls hl
    · intro w _ x hx
      rw [hlen]
      split <;> simp [hx]
    · intro w _ x hx
      rw [hlen] at hx
      split <;> rename_i hc
      · rw [if_pos hc] at hx
        simp [hx]
      · rw [if_neg hc] at hx
        exact hx
  have hm := hp.moves fun w _ => ?_
  · rw [← hp.output, ← hp.input, h2.input, h2.output] at hm
    exact hm
  · rw [hlen]
    by_cases hc : spacedSeg ws w
    · simp only [hc, if_true]
      exact movesBy_frame _
    · simp only [hc]
      exact movesBy_id _ _ _ (fun _ => rfl) fun _ => rfl

/-- C119: `AddWhitespaceAroundWordnZhChar` only moves labels. -/
theorem C119_moves_words (env : Env) (op : Op) (h : Made env "AddWhitespaceAroundWordnZhChar" op) : OpMoves op := by
  obtain ⟨_, vals, h⟩ := made_any (name := "AddWhitespaceAroundWordnZhChar") (c := Builtin.aroundWord env) rfl h
  unfold Builtin.aroundWord at h
  dsimp only at h
  unfold Builtin.aroundWordInit at h
  split at h
  · obtain ⟨t, ht, h⟩ := bind_eq_ok h
    obtain ⟨ws, hw⟩ := userWords_ok ht
    injection h with h
    exact op_of_str' (P := MovesTo) h.symm (moves_aroundWord env.σ ws t hw _)
  · cases h

/-- Stop words, punctuation and white space at the ends are blanked: the pipe settles, with a run of it. -/
example : ∃ ops : List Op, (∀ s o as coll, (⟨ops, []⟩ : Pipe).transformSequence s = .ok (o, as, coll) → SettlesAll as) ∧
    ((⟨ops, []⟩ : Pipe).transformSequence (.str "好,吧".toList)).map Prod.fst = .ok (.str "好".toList) := by
  obtain ⟨o1, h1⟩ : ∃ op, create exEnv "StopwordsToWhitespace" [] [] = .ok op := ⟨_, rfl⟩
  obtain ⟨o2, h2⟩ : ∃ op, create exEnv "PunctuationExceptEndpointToWhitespace" [] [] = .ok op := ⟨_, rfl⟩
  obtain ⟨o3, h3⟩ : ∃ op, create exEnv "StripWhiteSpaceCharacters" [] [] = .ok op := ⟨_, rfl⟩
  refine ⟨[] ++ [o1, o2, o3] ++ [], fun s o as coll h => C119_pipe exEnv exEnv_sane [] [o1, o2, o3] [] []
    (fun _ h => by cases h) (Or.inr ?_) (fun _ h => by cases h) s o as coll h, ?_⟩
  · intro op ho
    simp only [List.mem_cons, List.not_mem_nil, or_false] at ho
    rcases ho with rfl | rfl | rfl
    · exact C119_moves_stopwords exEnv _ ⟨_, _, h1⟩
    · exact C119_moves exEnv "PunctuationExceptEndpointToWhitespace" _ ⟨_, _, h2⟩ (by decide)
    · exact C119_moves exEnv "StripWhiteSpaceCharacters" _ ⟨_, _, h3⟩ (by decide)
  · cases h1; cases h2; cases h3
    rfl

end Uttut
