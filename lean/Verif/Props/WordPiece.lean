import Verif.Props.Tokenwise

/-!
C33, C34: `span_subwords` and the operator `SpanSubwords`.
-/

namespace Uttut

open Spec Piece SpanSubwords

/-- Vocabulary entries of a segmentation of the rest of a word. -/
def markAll (first : Bool) : List Str → List Str
  | [] => []
  | r :: rs => wordPiece first r :: rs.map (wordPiece false)

theorem longestPiece_spec (vocab : Str → Bool) (pre rest : Str) (k : Nat) (hk : k ≤ rest.length) :
    (match longestPiece vocab (pre ++ rest) pre.length (pre.length + k) with
     | none => ∀ r, r <+: rest → r ≠ [] → r.length ≤ k → vocab (wordPiece pre.isEmpty r) = false
     | some (p, e) => ∃ r, r <+: rest ∧ r ≠ [] ∧ r.length ≤ k ∧ p = wordPiece pre.isEmpty r ∧
        e = pre.length + r.length ∧ vocab p = true ∧
        ∀ r', r' <+: rest → r.length < r'.length → r'.length ≤ k → vocab (wordPiece pre.isEmpty r') = false) := by
  induction k with
  | zero =>
    have : longestPiece vocab (pre ++ rest) pre.length (pre.length + 0) = none := by
      rw [Nat.add_zero]
      generalize hp : pre.length = n
      rw [← hp]
      cases n with
      | zero => rw [hp]; rfl
      | succ n => rw [hp]; unfold longestPiece; rw [if_neg (by omega)]
    rw [this]
    intro r _ hr hl
    exact absurd (List.length_eq_zero_iff.mp (by omega)) hr
  | succ k ih =>
    have ih := ih (by omega)
    have hsl : slice (pre ++ rest) pre.length (pre.length + k + 1) = rest.take (k + 1) := by
      unfold slice
      rw [show pre.length + k + 1 = pre.length + (k + 1) by omega, List.take_length_add_append]
      simp
    have hmark : (if pre.length > 0 then ['#', '#'] ++ slice (pre ++ rest) pre.length (pre.length + k + 1)
        else slice (pre ++ rest) pre.length (pre.length + k + 1)) = wordPiece pre.isEmpty (rest.take (k + 1)) := by
      rw [hsl]
      unfold wordPiece
      cases pre with
      | nil => rfl
      | cons c cs => rfl
    have hstep : longestPiece vocab (pre ++ rest) pre.length (pre.length + (k + 1)) =
        if vocab (wordPiece pre.isEmpty (rest.take (k + 1))) then
          some (wordPiece pre.isEmpty (rest.take (k + 1)), pre.length + (k + 1))
        else longestPiece vocab (pre ++ rest) pre.length (pre.length + k) := by
      rw [show pre.length + (k + 1) = (pre.length + k) + 1 by omega]
      conv => lhs; unfold longestPiece
      rw [if_pos (by omega)]
      dsimp only
      rw [hmark]
    rw [hstep]
    have hlt : (rest.take (k + 1)).length = k + 1 := by rw [List.length_take]; omega
    by_cases hv : vocab (wordPiece pre.isEmpty (rest.take (k + 1))) = true
    · rw [if_pos hv]
      dsimp only
      refine ⟨rest.take (k + 1), List.take_prefix _ _, ?_, by omega, rfl, by omega, hv, ?_⟩
      · intro h; rw [h] at hlt; simp at hlt
      · intro r' _ h1 h2; omega
    · rw [if_neg hv]
      have hex : ∀ r, r <+: rest → r.length = k + 1 → vocab (wordPiece pre.isEmpty r) = false := by
        intro r hr hl
        rw [List.prefix_iff_eq_take] at hr
        rw [hr, hl]
        simpa using hv
      cases hlp : longestPiece vocab (pre ++ rest) pre.length (pre.length + k) with
      | none =>
        rw [hlp] at ih
        dsimp only at ih ⊢
        intro r hr hne hl
        by_cases h : r.length = k + 1
        · exact hex r hr h
        · exact ih r hr hne (by omega)
      | some pe =>
        obtain ⟨p, e⟩ := pe
        rw [hlp] at ih
        dsimp only at ih ⊢
        obtain ⟨r, h1, h2, h3, h4, h5, h6, h7⟩ := ih
        refine ⟨r, h1, h2, by omega, h4, h5, h6, ?_⟩
        intro r' hr' hl1 hl2
        by_cases h : r'.length = k + 1
        · exact hex r' hr' h
        · exact h7 r' hr' hl1 (by omega)

theorem loop_spec (vocab : Str → Bool) (fuel : Nat) (pre rest : Str) (subs : List Str)
    (hf : rest.length < fuel) :
    (∃ rs, Greedy vocab pre.isEmpty rest rs ∧
      loop vocab (pre ++ rest) fuel pre.length subs = some (some (subs ++ markAll pre.isEmpty rs))) ∨
    ((¬ ∃ rs, Greedy vocab pre.isEmpty rest rs) ∧
      loop vocab (pre ++ rest) fuel pre.length subs = some none) := by
  induction fuel generalizing pre rest subs with
  | zero => omega
  | succ fuel ih =>
    simp only [loop]
    by_cases hr : rest = []
    · subst hr
      left
      refine ⟨[], by simp [Greedy], ?_⟩
      rw [if_neg (by simp)]
      simp [markAll]
    · have hpos : 0 < rest.length := List.length_pos_iff.mpr hr
      rw [if_pos (by rw [List.length_append]; omega)]
      have hlp := longestPiece_spec vocab pre rest rest.length (Nat.le_refl _)
      rw [← List.length_append] at hlp
      cases hc : longestPiece vocab (pre ++ rest) pre.length (pre ++ rest).length with
      | none =>
        rw [hc] at hlp
        dsimp only at hlp ⊢
        right
        refine ⟨?_, rfl⟩
        rintro ⟨rs, hg⟩
        cases rs with
        | nil => exact hr hg
        | cons r rs =>
          obtain ⟨h1, h2, _, rest', h4, _⟩ := hg
          have := hlp r ⟨rest', h4.symm⟩ h1 (by rw [h4]; simp)
          rw [this] at h2; cases h2
      | some pe =>
        obtain ⟨p, e⟩ := pe
        rw [hc] at hlp
        dsimp only at hlp ⊢
        obtain ⟨r, ⟨rest', h1⟩, h2, h3, h4, h5, h6, h7⟩ := hlp
        have hrl : 0 < r.length := List.length_pos_iff.mpr h2
        have hne : (pre ++ r).isEmpty = false := by
          cases r with
          | nil => exact absurd rfl h2
          | cons c cs => cases pre <;> rfl
        have hl' : rest'.length < fuel := by
          have := congrArg List.length h1
          rw [List.length_append] at this; omega
        have ih := ih (pre ++ r) rest' (subs ++ [p]) hl'
        rw [List.append_assoc, h1, List.length_append, ← h5, hne] at ih
        rcases ih with ⟨rs, hg, hl⟩ | ⟨hg, hl⟩
        · left
          refine ⟨r :: rs, ⟨h2, h4 ▸ h6, ?_, rest', h1.symm, hg⟩, ?_⟩
          · intro r' hr' hlt
            exact h7 r' hr' hlt hr'.length_le
          · rw [hl, h4]
            cases rs <;> simp [markAll]
        · right
          refine ⟨?_, hl⟩
          rintro ⟨rs, hgr⟩
          cases rs with
          | nil => exact hr hgr
          | cons q qs =>
            obtain ⟨g1, g2, g3, rest'', g4, g5⟩ := hgr
            have hq : q <+: rest := ⟨rest'', g4.symm⟩
            have hr' : r <+: rest := ⟨rest', h1⟩
            have hlen : q.length = r.length := by
              rcases Nat.lt_trichotomy q.length r.length with hlt | heq | hgt
              · have := g3 r hr' hlt
                rw [h4] at h6; rw [h6] at this; cases this
              · exact heq
              · have := h7 q hq hgt hq.length_le
                rw [g2] at this; cases this
            have hqr : q = r := by
              rw [List.prefix_iff_eq_take] at hq hr'
              rw [hq, hr', hlen]
            subst hqr
            have : rest' = rest'' := List.append_cancel_left (h1.trans g4)
            subst this
            exact hg ⟨qs, g5⟩

/-- C33: the greedy segmentation, if there is one and the word is short enough, is returned. -/
theorem C33_segmentation (vocab : Str → Bool) (unk : Str) (maxChars : Int) (word : Str) (rs : List Str)
    (hlen : (word.length : Int) ≤ maxChars) (h : Greedy vocab true word rs) :
    spanSubwords vocab unk maxChars word = .ok (wordPieces rs) := by
  unfold spanSubwords
  rw [if_neg (by omega)]
  have huniq : ∀ (f : Bool) (w : Str) (as bs : List Str), Greedy vocab f w as → Greedy vocab f w bs → as = bs := by
    intro f w as
    induction as generalizing f w with
    | nil =>
      intro bs ha hb
      cases bs with
      | nil => rfl
      | cons b bs =>
        obtain ⟨g1, _, _, r', g4, _⟩ := hb
        have ha : w = [] := ha
        rw [ha] at g4
        exact absurd (List.append_eq_nil_iff.mp g4.symm).1 g1
    | cons a as ih =>
      intro bs ha hb
      obtain ⟨a1, a2, a3, w1, a4, a5⟩ := ha
      cases bs with
      | nil =>
        have hb : w = [] := hb
        rw [hb] at a4
        exact absurd (List.append_eq_nil_iff.mp a4.symm).1 a1
      | cons b bs =>
        obtain ⟨b1, b2, b3, w2, b4, b5⟩ := hb
        have ha' : a <+: w := ⟨w1, a4.symm⟩
        have hb' : b <+: w := ⟨w2, b4.symm⟩
        have hl : a.length = b.length := by
          rcases Nat.lt_trichotomy a.length b.length with hlt | heq | hgt
          · have := a3 b hb' hlt; rw [b2] at this; cases this
          · exact heq
          · have := b3 a ha' hgt; rw [a2] at this; cases this
        have hab : a = b := by
          rw [List.prefix_iff_eq_take] at ha' hb'
          rw [ha', hb', hl]
        subst hab
        have hw : w1 = w2 := List.append_cancel_left (a4.symm.trans b4)
        subst hw
        rw [ih false w1 bs a5 b5]
  rcases loop_spec vocab (word.length + 1) [] word [] (by omega) with ⟨rs', hg, hl⟩ | ⟨hg, _⟩
  · simp only [List.nil_append, List.length_nil] at hl
    rw [hl]
    have := huniq true word rs rs' h hg
    subst this
    cases rs <;> rfl
  · exact absurd ⟨rs, h⟩ hg

/-- C33: without a greedy segmentation, or beyond the length limit, the result is `[unk]`. -/
theorem C33_unknown (vocab : Str → Bool) (unk : Str) (maxChars : Int) (word : Str)
    (h : maxChars < (word.length : Int) ∨ ¬ ∃ rs, Greedy vocab true word rs) :
    spanSubwords vocab unk maxChars word = .ok [unk] := by
  unfold spanSubwords
  by_cases hlen : (word.length : Int) > maxChars
  · rw [if_pos hlen]
  · rw [if_neg hlen]
    rcases loop_spec vocab (word.length + 1) [] word [] (by omega) with ⟨rs', hg, _⟩ | ⟨_, hl⟩
    · rcases h with h | h
      · omega
      · exact absurd ⟨rs', hg⟩ h
    · simp only [List.nil_append, List.length_nil] at hl
      rw [hl]

/-- The pieces of a greedy segmentation concatenate to the word. -/
theorem C33_concatenates (vocab : Str → Bool) (first : Bool) (word : Str) (rs : List Str)
    (h : Greedy vocab first word rs) : rs.flatten = word := by
  induction rs generalizing first word with
  | nil => exact (show word = [] from h).symm
  | cons r rs ih =>
    obtain ⟨_, _, _, w', h4, h5⟩ := h
    rw [List.flatten_cons, ih false w' h5, h4]

/-- The vocabulary of the examples. -/
def demoVocab (s : Str) : Bool := ["un".toList, "u".toList, "##a".toList, "##able".toList].contains s

/-- `unable` is segmented as `un`, `##able`: the longer piece wins over `u` and over `##a`. -/
theorem demo_greedy : Greedy demoVocab true "unable".toList ["un".toList, "able".toList] := by
  have hpre : ∀ (s r : Str), r <+: s → ∃ n ≤ s.length, r = s.take n := by
    intro s r h
    exact ⟨r.length, h.length_le, List.prefix_iff_eq_take.mp h⟩
  refine ⟨by decide, by decide, ?_, "able".toList, by decide, by decide, by decide, ?_, [], by decide, rfl⟩
  · intro r hr hl
    obtain ⟨n, hn, rfl⟩ := hpre _ _ hr
    have : ∀ n ≤ 6, ("un".toList).length < (("unable".toList).take n).length →
      demoVocab (wordPiece true (("unable".toList).take n)) = false := by decide
    exact this n hn hl
  · intro r hr hl
    obtain ⟨n, hn, rfl⟩ := hpre _ _ hr
    have : ∀ n ≤ 4, ("able".toList).length < (("able".toList).take n).length →
      demoVocab (wordPiece false (("able".toList).take n)) = false := by decide
    exact this n hn hl

example : spanSubwords demoVocab unkToken 200 "unable".toList = .ok ["un".toList, "##able".toList] :=
  C33_segmentation _ _ _ _ _ (by decide) demo_greedy

/-- No segmentation: nothing starts with `x`. -/
example : spanSubwords demoVocab unkToken 200 "x".toList = .ok [unkToken] := by
  refine C33_unknown _ _ _ _ (Or.inr ?_)
  rintro ⟨rs, h⟩
  match rs, h with
  | r :: rs, h =>
    obtain ⟨h1, h2, _, w', h4, _⟩ := h
    have hl := congrArg List.length h4
    rw [List.length_append] at hl
    have hr : 0 < r.length := List.length_pos_iff.mpr h1
    have hw : w' = [] := List.length_eq_zero_iff.mp (by simp at hl; omega)
    rw [hw, List.append_nil] at h4
    rw [← h4] at h2
    exact absurd h2 (by decide)

/-! ### C34 -/

/-- The subwords of a token: `span_subwords` always returns. -/
theorem spanSubwords_ok (vocab : Str → Bool) (unk : Str) (maxChars : Int) (word : Str) :
    ∃ subs, spanSubwords vocab unk maxChars word = .ok subs ∧ (word ≠ [] → subs ≠ []) := by
  by_cases h : maxChars < (word.length : Int) ∨ ¬ ∃ rs, Greedy vocab true word rs
  · exact ⟨[unk], C33_unknown vocab unk maxChars word h, by simp⟩
  · rw [not_or] at h
    obtain ⟨rs, hg⟩ := Classical.not_not.mp h.2
    refine ⟨wordPieces rs, C33_segmentation vocab unk maxChars word rs (by omega) hg, fun hw => ?_⟩
    cases rs with
    | nil => exact absurd hg hw
    | cons r rs => simp [wordPieces]

instance decNoTwoEmpty : (l : List Str) → Decidable (NoTwoEmpty l)
  | [] => isTrue trivial
  | [_] => isTrue trivial
  | a :: b :: l =>
    have := decNoTwoEmpty (b :: l)
    inferInstanceAs (Decidable ((a ≠ [] ∨ b ≠ []) ∧ NoTwoEmpty (b :: l)))

/-- New value of a token with subwords `subs`. -/
private def subNv (subs : Str → List Str) : Tok → Option (List Tok)
  | .int _ => none
  | .str s => if subs s ≠ [s] then some ((subs s).map Tok.str) else none

private theorem subNv_getD (subs : Str → List Str) (s : Str) :
    (subNv subs (.str s)).getD [.str s] = (subs s).map Tok.str := by
  unfold subNv
  by_cases h : subs s ≠ [s]
  · simp only [if_pos h]; rfl
  · simp only [if_neg h]; simp [Classical.not_not.mp h]

private theorem newValue_eq (vocab : Str → Bool) (unk : Str) (maxChars : Int) (l : List Str)
    (subs : Str → List Str) (hs : ∀ s ∈ l, spanSubwords vocab unk maxChars s = .ok (subs s)) :
    ∀ t ∈ l.map Tok.str, newValue vocab unk maxChars t = .ok (subNv subs t) := by
  intro t ht
  obtain ⟨s, hs', rfl⟩ := List.mem_map.mp ht
  simp only [newValue, hs s hs', Except.bind_ok]
  rfl

private theorem separated_subs (subs : Str → List Str) (l : List Str) (pend : Bool)
    (hne : ∀ s ∈ l, s ≠ [] → subs s ≠ []) (h : NoTwoEmpty l)
    (hp : pend = true → ∀ s, l.head? = some s → s ≠ []) :
    Separated pend ((elemPieces id (subNv subs) (l.map Tok.str)).map swap) := by
  induction l generalizing pend with
  | nil => trivial
  | cons s l ih =>
    have htail : NoTwoEmpty l := by
      cases l with
      | nil => trivial
      | cons b l => exact h.2
    have ih' := fun pend hp => ih pend (fun x hx => hne x (by simp [hx])) htail hp
    simp only [elemPieces, List.map_cons] at ih' ⊢
    cases hn : subNv subs (.str s) with
    | none =>
      simp only [swap, Separated]
      exact ih' _ (by simp)
    | some v =>
      simp only [swap, Separated]
      have hv : v = (subs s).map Tok.str := by
        have := subNv_getD subs s
        rw [hn] at this
        exact this
      by_cases hve : v = []
      · subst hve
        have hse : s = [] := by
          by_cases hs : s = []
          · exact hs
          · have := hne s (by simp) hs
            have h0 : subs s = [] := by simpa using hv.symm
            exact absurd h0 this
        have hpf : pend = false := by
          cases pend with
          | false => rfl
          | true => exact absurd hse (hp rfl s rfl)
        rw [if_pos (show ([] : List Tok).isEmpty = true from rfl)]
        refine ⟨hpf, ih' true ?_⟩
        intro _ b hb
        cases l with
        | nil => simp at hb
        | cons b' l' =>
          simp at hb
          subst hb
          rcases h.1 with h | h
          · exact absurd hse h
          · exact h
      · have : v.isEmpty = false := by simpa using hve
        rw [this]
        exact ih' false (by simp)

private theorem separated_full (subs : Str → List Str) (l : List Str) (pend : Bool) (hne : ∀ s ∈ l, subs s ≠ []) :
    Separated pend ((elemPieces id (subNv subs) (l.map Tok.str)).map swap) := by
  induction l generalizing pend with
  | nil => trivial
  | cons s l ih =>
    have ih' := fun pend => ih pend (fun x hx => hne x (by simp [hx]))
    simp only [elemPieces, List.map_cons] at ih' ⊢
    cases hn : subNv subs (.str s) with
    | none =>
      simp only [swap, Separated]
      exact ih' _
    | some v =>
      simp only [swap, Separated]
      have hv : v = (subs s).map Tok.str := by
        have := subNv_getD subs s
        rw [hn] at this
        exact this
      have : v.isEmpty = false := by
        rw [hv]
        have := hne s (by simp)
        simpa using this
      rw [this]
      exact ih' false

private theorem subs_short (vocab : Str → Bool) (unk : Str) (maxChars : Int) (h : maxChars < 0) (s : Str)
    (v : List Str) (hv : spanSubwords vocab unk maxChars s = .ok v) : v ≠ [] := by
  rw [C33_unknown vocab unk maxChars s (Or.inl (by omega))] at hv
  injection hv with hv
  rw [← hv]
  simp

/-- C34: `SpanSubwords` concatenates the subwords of all tokens and gives every subword the label of
its token. Going back, a token gets the most common non-zero label of its subwords. -/
theorem C34_transform (σ : SetOrder) (vocab : Str → Bool) (unk : Str) (maxChars : Int) (l : List Str)
    (subs : Str → List Str) (hs : ∀ s ∈ l, spanSubwords vocab unk maxChars s = .ok (subs s)) :
    ∃ a, SpanSubwords.transform σ vocab unk maxChars (l.map Tok.str) =
        .ok (l.flatMap (fun s => (subs s).map Tok.str), a) ∧
      (∀ ls : List Int, ls.length = l.length → a.transform ls =
        .ok ((l.zip ls).flatMap fun p => List.replicate (subs p.1).length p.2)) ∧
      (maxChars < 0 ∨ NoTwoEmpty l → Aligned a l.length (l.flatMap fun s => subs s).length anyLabels) ∧
      (maxChars < 0 ∨ NoTwoEmpty l → ∀ ls : List Int, ls.length = (l.flatMap fun s => subs s).length →
        a.inverseTransform ls = .ok ((segments (l.map fun s => (subs s).length) ls).map firstNonzeroMode)) ∧
      ((∀ s ∈ l, s ≠ []) → ∀ ls y, a.transform ls = .ok y → a.inverseTransform y = .ok ls) := by
  have hne : ∀ s ∈ l, s ≠ [] → subs s ≠ [] := by
    intro s hm h
    obtain ⟨v, hv, hv'⟩ := spanSubwords_ok vocab unk maxChars s
    rw [hs s hm] at hv
    injection hv with hv
    exact hv ▸ hv' h
  have ht := tokenwiseTransform_congr σ (newValue vocab unk maxChars) (subNv subs) (l.map Tok.str)
    (newValue_eq vocab unk maxChars l subs hs)
    (fun g n => Aligner.ofLstEdit σ (l.map Tok.str) g n Transduce.getMostCommon
      Transduce.getMostCommonExceptNotEntity)
  have hout : ((l.map Tok.str).flatMap fun x => (subNv subs x).getD [x]) =
      l.flatMap fun s => (subs s).map Tok.str := by
    rw [List.flatMap_map]
    congr 1; funext s; exact subNv_getD subs s
  have hlen : (l.flatMap fun s => (subs s).map Tok.str).length = (l.flatMap fun s => subs s).length := by
    simp [List.length_flatMap]
  have hsrc := srcOf_elemPieces id (subNv subs) (l.map Tok.str)
  have hdst := dstOf_elemPieces id (subNv subs) (l.map Tok.str)
  rw [List.map_id] at hsrc
  simp only [id] at hdst
  rw [hout] at hdst
  have hgf : Good Transduce.getMostCommon (elemPieces id (subNv subs) (l.map Tok.str)) :=
    getMostCommon_good _ (fun o n hm => by
      obtain ⟨x, _, h, _⟩ := mem_elemPieces hm
      rw [h]; simp)
  have hgb : Good Transduce.getMostCommonExceptNotEntity
      ((elemPieces id (subNv subs) (l.map Tok.str)).map swap) := getMostCommonExcept_good _
  have hsepd : maxChars < 0 ∨ NoTwoEmpty l →
      Separated false ((elemPieces id (subNv subs) (l.map Tok.str)).map swap) := by
    rintro (h | h)
    · exact separated_full subs l false fun s hm => subs_short vocab unk maxChars h s _ (hs s hm)
    · exact separated_subs subs l false hne h (by simp)
  have hpack := fun hsep => lstAligner_pack σ _ _ _ (l.map Tok.str) _ hsrc hdst hgf hgb hsep
  rw [hout] at ht
  refine ⟨_, ht, fun ls hl => ?_, fun h => ?_, fun h ls hl => ?_, fun h => ?_⟩
  · have h2 := lstAligner_transform σ _ Transduce.getMostCommon Transduce.getMostCommonExceptNotEntity
      hgf.respects ls _ (by rw [hsrc, List.length_map]; exact hl)
      (relabel_elemPieces id (subNv subs) Transduce.getMostCommon
        (fun t x => List.replicate ((subNv subs t).getD []).length x) (l.map Tok.str) (by
          intro t _ n hn x
          rw [hn]
          exact getMostCommon_replicate 1 n.length (by omega) x) ls (by rw [List.length_map]; exact hl))
    rw [hsrc, hdst] at h2
    rw [h2]
    rw [List.zip_map_left, List.flatMap_map]
    congr 2
    funext p
    obtain ⟨s, x⟩ := p
    simp only [Prod.map, id]
    cases hn : subNv subs (.str s) with
    | none =>
      have := subNv_getD subs s
      rw [hn] at this
      have := congrArg List.length this
      simp at this
      rw [← this]; rfl
    | some v =>
      have := subNv_getD subs s
      rw [hn] at this
      have := congrArg List.length this
      simp at this
      simp [this]
  · have h1 := (hpack (hsepd h)).1
    rw [List.length_map] at h1
    rw [← hlen]; exact h1
  · refine (hpack (hsepd h)).2.2.1 ls _ (by rw [hlen]; exact hl) ?_
    refine (relabel_elemPieces_back id (subNv subs) (l.map Tok.str) ls (by
      simp only [id]; rw [hout, hlen]; exact hl)).trans ?_
    rw [List.map_map]
    congr 3
    refine List.map_congr_left fun s _ => ?_
    have := congrArg List.length (subNv_getD subs s)
    rw [List.length_map] at this
    exact this
  · have hno : NoTwoEmpty l := by
      clear hs ht hout hlen hsrc hdst hgf hgb hpack hsepd hne
      induction l with
      | nil => trivial
      | cons a l ih =>
        cases l with
        | nil => trivial
        | cons b l => exact ⟨Or.inl (h a (by simp)), ih (fun s hs => h s (by simp [hs]))⟩
    refine (hpack (hsepd (Or.inr hno))).2.2.2 ?_
    intro o n hm x hx
    obtain ⟨t, ht, ho, hn⟩ := mem_elemPieces hm
    obtain ⟨s, hsm, rfl⟩ := List.mem_map.mp ht
    subst ho
    have hnl : 0 < n.length := by
      have := subNv_getD subs s
      rw [hn] at this
      have h0 : n = (subs s).map Tok.str := this
      have := hne s hsm (h s hsm)
      rw [h0, List.length_map]
      exact List.length_pos_iff.mpr this
    match x, hx with
    | [x], _ =>
      refine ⟨List.replicate n.length x, getMostCommon_replicate 1 n.length (by omega) x, by simp, ?_⟩
      refine getMostCommonExcept_const _ 1 x (fun y hy => Or.inr (List.eq_of_mem_replicate hy)) ?_
      intro _
      exact List.mem_replicate.mpr ⟨by omega, rfl⟩

example : ∃ a, SpanSubwords.transform SetOrder.id demoVocab unkToken 200
      (["unable".toList, "x".toList].map Tok.str) =
      .ok ([.str "un".toList, .str "##able".toList, .str unkToken], a) ∧
    a.transform [3, 4] = .ok [3, 3, 4] ∧ a.inverseTransform [0, 2, 4] = .ok [2, 4] := by
  obtain ⟨a, h1, h2, _, h3, _⟩ := C34_transform SetOrder.id demoVocab unkToken 200 ["unable".toList, "x".toList]
    (fun s => if s = "x".toList then [unkToken] else ["un".toList, "##able".toList]) (by decide)
  exact ⟨a, h1, h2 [3, 4] rfl, h3 (Or.inr ⟨Or.inl (by decide), trivial⟩) [0, 2, 4] rfl⟩

/-- C34: with two neighbouring empty tokens, mapping labels back raises AssertionError. -/
theorem C34_adjacent_empty (σ : SetOrder) (vocab : Str → Bool) (unk : Str) (maxChars : Int)
    (hm : 0 ≤ maxChars) (pre post : List Str) (out : List Tok) (a : Aligner)
    (h : SpanSubwords.transform σ vocab unk maxChars ((pre ++ [] :: [] :: post).map Tok.str) = .ok (out, a))
    (ls : List Int) (hl : ls.length = out.length) : a.inverseTransform ls = .error .assertionError := by
  classical
  have hex : ∃ subs : Str → List Str, ∀ s, spanSubwords vocab unk maxChars s = .ok (subs s) :=
    ⟨fun s => (spanSubwords_ok vocab unk maxChars s).choose,
      fun s => (spanSubwords_ok vocab unk maxChars s).choose_spec.1⟩
  obtain ⟨subs, hs⟩ := hex
  have hempty : subs [] = [] := by
    have := C33_segmentation vocab unk maxChars [] [] (by simpa using hm) rfl
    rw [hs []] at this
    injection this
  have ht := tokenwiseTransform_congr σ (newValue vocab unk maxChars) (subNv subs)
    ((pre ++ [] :: [] :: post).map Tok.str)
    (newValue_eq vocab unk maxChars _ subs (fun s _ => hs s))
    (fun g n => Aligner.ofLstEdit σ ((pre ++ [] :: [] :: post).map Tok.str) g n Transduce.getMostCommon
      Transduce.getMostCommonExceptNotEntity)
  have h := ht.symm.trans h
  injection h with h
  injection h with h1 h2
  subst h2
  rw [h1]
  have hsrc := srcOf_elemPieces id (subNv subs) ((pre ++ [] :: [] :: post).map Tok.str)
  rw [List.map_id] at hsrc
  have hnv : subNv subs (.str []) = some [] := by
    show (if subs [] ≠ [[]] then some ((subs []).map Tok.str) else none) = some []
    rw [hempty]; rfl
  have hdup : ¬ (groupOf 0 ((elemPieces id (subNv subs)
      ((pre ++ [] :: [] :: post).map Tok.str)).map swap)).Nodup := by
    simp only [elemPieces, List.map_append, List.map_cons, hnv, groupOf_append, swap, groupOf]
    intro hnd
    have := (List.nodup_append.mp hnd).2.1
    simp at this
  have hinv := editInverse_dup (β := Tok) σ _ hdup
  rw [hsrc] at hinv
  unfold Aligner.inverseTransform Aligner.validateOutput
  rw [if_neg (by rw [hl]; simp [Aligner.ofLstEdit])]
  simp only [Except.bind_ok, Aligner.ofLstEdit, Lst2Lst.inverse]
  rw [hinv]
  rfl

example : ∃ out a, SpanSubwords.transform SetOrder.id demoVocab unkToken 200
      (([] ++ [] :: [] :: ["u".toList]).map Tok.str) = .ok (out, a) ∧ out.length = 1 := by
  obtain ⟨a, h, _⟩ := C34_transform SetOrder.id demoVocab unkToken 200 ([] ++ [] :: [] :: ["u".toList])
    (fun s => if s = [] then [] else ["u".toList]) (by decide)
  exact ⟨_, a, h, rfl⟩

end Uttut
