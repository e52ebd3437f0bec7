import Verif.Lemmas.Ops
import Verif.Props.Edit

/-!
C17, C26, C27, C31, C35: operators that rewrite single characters or tokens.
-/

namespace Uttut

open Spec Piece

/-! ### Character classes -/

/-- C17/C26: punctuation is ASCII punctuation or a Unicode category starting with P. -/
theorem C17_punctuation (u : Unicode) (c : Char) :
    isPunctuation u c = true ↔ c ∈ asciiPunctuation ∨ u.isCatP c = true := by
  have key : c ∈ asciiPunctuation ↔ (33 ≤ c.toNat ∧ c.toNat ≤ 47) ∨ (58 ≤ c.toNat ∧ c.toNat ≤ 64) ∨
      (91 ≤ c.toNat ∧ c.toNat ≤ 96) ∨ (123 ≤ c.toNat ∧ c.toNat ≤ 126) := by
    constructor
    · intro h
      have hall : ∀ d ∈ asciiPunctuation, (33 ≤ d.toNat ∧ d.toNat ≤ 47) ∨ (58 ≤ d.toNat ∧ d.toNat ≤ 64) ∨
          (91 ≤ d.toNat ∧ d.toNat ≤ 96) ∨ (123 ≤ d.toNat ∧ d.toNat ≤ 126) := by decide
      exact hall c h
    · intro h
      have hall : ∀ n, n < 127 → (33 ≤ n ∧ n ≤ 47) ∨ (58 ≤ n ∧ n ≤ 64) ∨
          (91 ≤ n ∧ n ≤ 96) ∨ (123 ≤ n ∧ n ≤ 126) → Char.ofNat n ∈ asciiPunctuation := by decide
      have := hall c.toNat (by omega) h
      rwa [Char.ofNat_toNat] at this
  rw [key]
  unfold isPunctuation
  dsimp only
  split
  · rename_i h
    simp only [Bool.or_eq_true, Bool.and_eq_true, decide_eq_true_eq] at h
    simp only [true_iff]
    left; omega
  · rename_i h
    simp only [Bool.or_eq_true, Bool.and_eq_true, decide_eq_true_eq] at h
    constructor
    · intro h'; right
      by_cases hp : u.isCatP c = true
      · exact hp
      · rw [if_neg hp] at h'; simp at h'
    · intro h'
      rcases h' with h' | h'
      · exact absurd h' (by omega)
      · rw [if_pos h']

example (u : Unicode) : isPunctuation u '$' = true := (C17_punctuation u '$').mpr (Or.inl (by decide))

/-- C17: the CJK predicate is membership in one of eight Unicode blocks. -/
theorem C17_cjk (c : Char) : isCJK c = true ↔ ∃ b ∈ cjkBlocks, b.1 ≤ c.toNat ∧ c.toNat ≤ b.2 := by
  simp only [isCJK, cjkBlocks, List.mem_cons, List.not_mem_nil, or_false, exists_eq_or_imp,
    Bool.or_eq_true, Bool.and_eq_true, decide_eq_true_eq, exists_eq_left, ge_iff_le]
  omega

example : isCJK '中' = true := (C17_cjk '中').mpr ⟨(0x4E00, 0x9FFF), by decide, by decide⟩

/-! ### C17 -/

private theorem aroundUndoes (valid : Char → Bool) (s : Str) :
    Undoes AddWhitespaceAroundChar.fwd AddWhitespaceAroundChar.bwd
      (elemPieces id (fun c => if valid c then some [' ', c, ' '] else none) s) := by
  intro o n hm x hx
  obtain ⟨c, _, ho, hn⟩ := mem_elemPieces hm
  subst ho
  have hn' : n.length = 3 := by
    split at hn
    · injection hn with hn; rw [← hn]; rfl
    · simp at hn
  match x, hx with
  | [l], _ =>
    refine ⟨[0, l, 0], rfl, by rw [hn']; rfl, ?_⟩
    exact getMostCommonExcept_const [0, l, 0] 1 l (by simp) (by simp)

/-- C17: `AddWhitespaceAroundCharacter` (for any character predicate) outputs `" c "` for every
matching character, labels `0, l, 0` for it, keeps everything else, and the inverse label map undoes
the forward one. -/
theorem C17_around (σ : SetOrder) (valid : Char → Bool) (s : Str) :
    ∃ a, AddWhitespaceAroundChar.transform σ valid s =
        .ok (s.flatMap (fun c => if valid c then [' ', c, ' '] else [c]), a) ∧
      Aligned a s.length (s.flatMap (fun c => if valid c then [' ', c, ' '] else [c])).length anyLabels ∧
      (∀ ls : List Int, ls.length = s.length → a.transform ls =
        .ok ((s.zip ls).flatMap fun p => if valid p.1 then [0, p.2, 0] else [p.2])) ∧
      (∀ ls : List Int, ls.length = (s.flatMap (fun c => if valid c then [' ', c, ' '] else [c])).length →
        a.inverseTransform ls = .ok ((segments (s.map fun c => if valid c then 3 else 1) ls).map firstNonzeroMode)) ∧
      (∀ ls y : List Int, a.transform ls = .ok y → a.inverseTransform y = .ok ls) := by
  have hsrc := srcOf_elemPieces id (fun c => if valid c then some [' ', c, ' '] else none) s
  have hdst := dstOf_elemPieces id (fun c => if valid c then some [' ', c, ' '] else none) s
  have hout : (s.flatMap fun c => ((if valid c then some [' ', c, ' '] else none : Option Str)).getD [id c]) =
      s.flatMap fun c => if valid c then [' ', c, ' '] else [c] := by
    congr 1; funext c; by_cases h : valid c <;> simp [h]
  rw [hout] at hdst
  rw [List.map_id] at hsrc
  have hU := aroundUndoes valid s
  obtain ⟨h1, h2, h3, h4⟩ := strAligner_pack σ _ AddWhitespaceAroundChar.fwd AddWhitespaceAroundChar.bwd
    s _ hsrc hdst hU.good (getMostCommonExcept_good _) (separated_swap_of_nonempty _ (fun o n hm => by
      obtain ⟨c, _, _, hn⟩ := mem_elemPieces hm
      split at hn
      · injection hn with hn; rw [← hn]; simp
      · simp at hn) _)
  refine ⟨_, ?_, h1, fun ls hl => h2 ls _ hl ?_, fun ls hl => h3 ls _ hl ?_, h4 hU⟩
  · have := charwiseTransform_eq σ id (fun c => if valid c then some [' ', c, ' '] else none) s
      (fun g n => Aligner.ofStrEdit σ s g n AddWhitespaceAroundChar.fwd AddWhitespaceAroundChar.bwd)
    rw [List.map_id, hout] at this
    exact this
  · rw [relabel_elemPieces id _ _ (fun _ l => [0, l, 0]) s (fun _ _ _ _ _ => rfl) ls hl]
    congr 2; funext p; by_cases h : valid p.1 <;> simp [h]
  · refine (relabel_elemPieces_back id _ s ls (by rw [hout]; exact hl)).trans ?_
    congr 3
    exact List.map_congr_left fun c _ => by by_cases h : valid c <;> simp [h]

example : ∃ a, AddWhitespaceAroundChar.transform SetOrder.id isCJK "a中".toList =
    .ok ("a 中 ".toList, a) ∧ a.transform [1, 2] = .ok [1, 0, 2, 0] ∧
      a.inverseTransform [1, 5, 0, 7] = .ok [1, 5] := by
  obtain ⟨a, h, _, h', h'', _⟩ := C17_around SetOrder.id isCJK "a中".toList
  exact ⟨a, h, h' [1, 2] rfl, h'' [1, 5, 0, 7] rfl⟩

/-- C17 for `AddWhitespaceAroundCJK`: exactly the characters of the CJK blocks are surrounded. -/
theorem C17_cjk_op (σ : SetOrder) (s : Str) :
    ∃ a, AddWhitespaceAroundCJK.transform σ s =
        .ok (s.flatMap (fun c =>
          if ∃ b ∈ cjkBlocks, b.1 ≤ c.toNat ∧ c.toNat ≤ b.2 then [' ', c, ' '] else [c]), a) ∧
      ∀ ls y : List Int, a.transform ls = .ok y → a.inverseTransform y = .ok ls := by
  obtain ⟨a, h1, _, _, _, h4⟩ := C17_around σ isCJK s
  refine ⟨a, ?_, h4⟩
  unfold AddWhitespaceAroundCJK.transform
  rw [h1]
  congr 3
  funext c
  by_cases h : isCJK c = true
  · rw [if_pos h, if_pos ((C17_cjk c).mp h)]
  · rw [if_neg h, if_neg (fun h' => h ((C17_cjk c).mpr h'))]

example : ∃ a, AddWhitespaceAroundCJK.transform SetOrder.id "漢b".toList = .ok (" 漢 b".toList, a) := by
  obtain ⟨a, h, _⟩ := C17_cjk_op SetOrder.id "漢b".toList
  exact ⟨a, h⟩

/-- C17 for `AddWhitespaceAroundPunctuation`. -/
theorem C17_punctuation_op (σ : SetOrder) (u : Unicode) (s : Str) :
    ∃ a, AddWhitespaceAroundPunctuation.transform σ u s =
        .ok (s.flatMap (fun c =>
          if c ∈ asciiPunctuation ∨ u.isCatP c = true then [' ', c, ' '] else [c]), a) ∧
      ∀ ls y : List Int, a.transform ls = .ok y → a.inverseTransform y = .ok ls := by
  obtain ⟨a, h1, _, _, _, h4⟩ := C17_around σ (isPunctuation u) s
  refine ⟨a, ?_, h4⟩
  unfold AddWhitespaceAroundPunctuation.transform
  rw [h1]
  congr 3
  funext c
  by_cases h : isPunctuation u c = true
  · rw [if_pos h, if_pos ((C17_punctuation u c).mp h)]
  · rw [if_neg h, if_neg (fun h' => h ((C17_punctuation u c).mpr h'))]

/-- A small Unicode table for the examples: only ASCII. -/
def asciiUnicode : Unicode where
  isDecimal c := '0'.toNat ≤ c.toNat && c.toNat ≤ '9'.toNat
  isCatP _ := false
  isMn c := c.toNat == 0x301
  nfd s := s.flatMap fun c => if c = 'é' then ['e', Char.ofNat 0x301] else [c]

example : ∃ a, AddWhitespaceAroundPunctuation.transform SetOrder.id asciiUnicode "a,b".toList =
    .ok ("a , b".toList, a) := by
  obtain ⟨a, h, _⟩ := C17_punctuation_op SetOrder.id asciiUnicode "a,b".toList
  exact ⟨a, h⟩

/-! ### C26 -/

/-- The output of `PunctuationExceptEndpointToWhitespace`. -/
def punctuationBlanked (u : Unicode) (c : Char) : Char :=
  if (c ∈ asciiPunctuation ∨ u.isCatP c = true) ∧ c ≠ '.' then ' ' else c

/-- C26: every punctuation character other than '.' becomes a space with label 0, everything else and
its label is kept, in both directions. -/
theorem C26_transform (σ : SetOrder) (u : Unicode) (s : Str) :
    ∃ a, PunctuationExceptEndpointToWhitespace.transform σ u s = .ok (s.map (punctuationBlanked u), a) ∧
      Aligned a s.length s.length anyLabels ∧
      (∀ ls : List Int, ls.length = s.length →
        a.transform ls = .ok ((s.zip ls).map fun p =>
          if (p.1 ∈ asciiPunctuation ∨ u.isCatP p.1 = true) ∧ p.1 ≠ '.' then 0 else p.2) ∧
        a.inverseTransform ls = .ok ((s.zip ls).map fun p =>
          if (p.1 ∈ asciiPunctuation ∨ u.isCatP p.1 = true) ∧ p.1 ≠ '.' then 0 else p.2)) := by
  let nv : Char → Option Char := fun c =>
    if (c ∈ asciiPunctuation ∨ u.isCatP c = true) ∧ c ≠ '.' then some ' ' else none
  have hnv : PunctuationExceptEndpointToWhitespace.newValue u =
      fun c => .ok ((nv c).map fun v => [v]) := by
    funext c
    unfold PunctuationExceptEndpointToWhitespace.newValue
    congr 1
    by_cases h : (c ∈ asciiPunctuation ∨ u.isCatP c = true) ∧ c ≠ '.'
    · rw [if_pos (by simp [(C17_punctuation u c).mpr h.1, h.2])]
      simp only [nv, if_pos h, Option.map_some]
    · rw [if_neg, show nv c = none from if_neg h]
      · rfl
      · intro h'
        simp only [Bool.and_eq_true, Bool.not_eq_true', beq_eq_false_iff_ne, ne_eq] at h'
        exact h ⟨(C17_punctuation u c).mp h'.1, h'.2⟩
  have hsrc := srcOf_elemPieces id (fun c => (nv c).map fun v => [v]) s
  have hdst := dstOf_elemPieces id (fun c => (nv c).map fun v => [v]) s
  have hout : (s.flatMap fun c => ((nv c).map fun v => [v]).getD [id c]) = s.map (punctuationBlanked u) := by
    rw [← List.flatMap_singleton' (s.map (punctuationBlanked u)), List.flatMap_map]
    congr 1; funext c
    by_cases h : (c ∈ asciiPunctuation ∨ u.isCatP c = true) ∧ c ≠ '.'
    · simp only [nv, if_pos h, punctuationBlanked]; rfl
    · simp only [nv, if_neg h, punctuationBlanked]; rfl
  rw [hout] at hdst
  rw [List.map_id] at hsrc
  obtain ⟨h1, h2, h3, _⟩ := strAligner_pack σ _ Transduce.getNotEntity Transduce.getNotEntity
    s _ hsrc hdst (getNotEntity_good _) (getNotEntity_good _)
    (by rw [swap_elemPieces]; exact separated_elemPieces _ _ _ _)
  rw [List.length_map] at h1 h2 h3
  have hlab : ∀ (pr : Char → Char) (g : Char → Str) (ls : List Int), (∀ c, (g c).length = 1) →
      ls.length = s.length →
      relabel Transduce.getNotEntity (withLabels (elemPieces pr (fun c => (nv c).map fun _ => g c) s) ls)
      = .ok ((s.zip ls).map fun p =>
          if (p.1 ∈ asciiPunctuation ∨ u.isCatP p.1 = true) ∧ p.1 ≠ '.' then 0 else p.2) := by
    intro pr g ls hg hl
    rw [relabel_elemPieces pr _ _ (fun _ _ => [0]) s ?_ ls hl]
    · rw [← List.flatMap_singleton' (List.map _ (s.zip ls)), List.flatMap_map]
      congr 2; funext p
      by_cases h : (p.1 ∈ asciiPunctuation ∨ u.isCatP p.1 = true) ∧ p.1 ≠ '.'
      · simp only [nv, if_pos h]; rfl
      · simp only [nv, if_neg h]; rfl
    · intro c _ n hn l
      have : n.length = 1 := by
        cases hc : nv c with
        | none => rw [hc] at hn; simp at hn
        | some v => rw [hc] at hn; injection hn with hn; rw [← hn]; exact hg c
      rw [this]; rfl
  refine ⟨_, ?_, h1, fun ls hl => ⟨h2 ls _ hl ?_, h3 ls _ hl ?_⟩⟩
  · unfold PunctuationExceptEndpointToWhitespace.transform
    rw [hnv]
    have := charwiseTransform_eq σ id (fun c => (nv c).map fun v => [v]) s
      (fun g n => Aligner.ofStrEdit σ s g n Transduce.getNotEntity Transduce.getNotEntity)
    rw [List.map_id, hout, List.length_map] at this
    exact this
  · have := hlab id (fun _ => [' ']) ls (fun _ => rfl) hl
    have he : (fun c => (nv c).map fun v => [v]) = fun c => (nv c).map fun _ => [' '] := by
      funext c
      by_cases h : (c ∈ asciiPunctuation ∨ u.isCatP c = true) ∧ c ≠ '.'
      · simp only [nv, if_pos h]; rfl
      · simp only [nv, if_neg h]; rfl
    rw [he]; exact this
  · rw [swap_elemPieces]
    exact hlab _ (fun c => [id c]) ls (fun _ => rfl) hl

example : ∃ a, PunctuationExceptEndpointToWhitespace.transform SetOrder.id asciiUnicode "a,b.".toList =
    .ok ("a b.".toList, a) ∧ a.transform [1, 2, 3, 4] = .ok [1, 0, 3, 4] := by
  obtain ⟨a, h, _, h'⟩ := C26_transform SetOrder.id asciiUnicode "a,b.".toList
  exact ⟨a, h, (h' [1, 2, 3, 4] rfl).1⟩

/-- C26: the output has no punctuation except '.', provided the space is not classified as punctuation
(it is category Zs in Unicode). -/
theorem C26_no_punctuation (σ : SetOrder) (u : Unicode) (s out : Str) (a : Aligner)
    (hu : u.isCatP ' ' = false)
    (h : PunctuationExceptEndpointToWhitespace.transform σ u s = .ok (out, a)) :
    ∀ c ∈ out, isPunctuation u c = true → c = '.' := by
  obtain ⟨a', h', _⟩ := C26_transform σ u s
  rw [h'] at h
  injection h with h
  have h : s.map (punctuationBlanked u) = out := congrArg Prod.fst h
  subst h
  intro c hc hp
  obtain ⟨d, _, rfl⟩ := List.mem_map.mp hc
  rw [C17_punctuation] at hp
  unfold punctuationBlanked at hp ⊢
  by_cases hd : (d ∈ asciiPunctuation ∨ u.isCatP d = true) ∧ d ≠ '.'
  · rw [if_pos hd] at hp
    rcases hp with hp | hp
    · exact absurd hp (by decide)
    · rw [hu] at hp; cases hp
  · rw [if_neg hd] at hp ⊢
    by_cases h0 : d = '.'
    · exact h0
    · exact absurd ⟨hp, h0⟩ hd

/-- C26: idempotent. -/
theorem C26_idempotent (σ σ' : SetOrder) (u : Unicode) (s out : Str) (a : Aligner)
    (hu : u.isCatP ' ' = false)
    (h : PunctuationExceptEndpointToWhitespace.transform σ u s = .ok (out, a)) :
    ∃ a', PunctuationExceptEndpointToWhitespace.transform σ' u out = .ok (out, a') := by
  have hno := C26_no_punctuation σ u s out a hu h
  obtain ⟨a', h', _⟩ := C26_transform σ' u out
  refine ⟨a', ?_⟩
  rw [h']
  congr 2
  rw [List.map_congr_left (g := id), List.map_id]
  intro c hc
  unfold punctuationBlanked
  rw [if_neg]; · rfl
  rintro ⟨hp, hne⟩
  exact hne (hno c hc ((C17_punctuation u c).mpr hp))

example : asciiUnicode.isCatP ' ' = false := rfl

/-! ### C27 -/

/-- C27: if stripping accents keeps the length, the output is the stripped text and labels pass
unchanged in both directions. -/
theorem C27_transform (σ : SetOrder) (u : Unicode) (s : Str)
    (h : ((u.nfd s).filter fun c => !u.isMn c).length = s.length) :
    ∃ a, StripAccentToken.transform σ u s = .ok ((u.nfd s).filter (fun c => !u.isMn c), a) ∧
      Aligned a s.length s.length anyLabels ∧ PassThrough a s.length := by
  let out := (u.nfd s).filter fun c => !u.isMn c
  have hlen : s.length = out.length := h.symm
  let nv : Char × Char → Option Char := fun p => if p.1 ≠ p.2 then some p.2 else none
  have hnv : StripAccentToken.newValue = fun p => .ok ((nv p).map fun v => [v]) := by
    funext p
    unfold StripAccentToken.newValue
    congr 1
    by_cases hp : p.1 ≠ p.2
    · simp only [nv, if_pos hp, Option.map_some]
    · simp only [nv, if_neg hp, Option.map_none]
  have hfst : (s.zip out).map Prod.fst = s := by
    rw [List.map_fst_zip]; omega
  have hsrc := srcOf_elemPieces Prod.fst (fun p => (nv p).map fun v => [v]) (s.zip out)
  have hdst := dstOf_elemPieces Prod.fst (fun p => (nv p).map fun v => [v]) (s.zip out)
  have hout : ((s.zip out).flatMap fun p => ((nv p).map fun v => [v]).getD [p.1]) = out := by
    have : (fun p : Char × Char => ((nv p).map fun v => [v]).getD [p.1]) = fun p => [p.2] := by
      funext p
      by_cases hp : p.1 ≠ p.2
      · simp only [nv, if_pos hp]; rfl
      · simp only [nv, if_neg hp]
        have : p.1 = p.2 := Classical.not_not.mp hp
        simp [this]
    rw [this]
    have h2 : (s.zip out).map Prod.snd = out := by rw [List.map_snd_zip]; omega
    conv => rhs; rw [← h2]
    rw [← List.flatMap_singleton' (List.map _ _), List.flatMap_map]
  rw [hout] at hdst
  rw [hfst] at hsrc
  obtain ⟨h1, h2, h3, _⟩ := strAligner_pack σ _ Transduce.getMostCommonExceptNotEntity
    Transduce.getMostCommonExceptNotEntity s _ hsrc hdst
    (getMostCommonExcept_good _) (getMostCommonExcept_good _)
    (by rw [swap_elemPieces]; exact separated_elemPieces _ _ _ _)
  rw [← hlen] at h1 h2 h3
  have hlab : ∀ (pr : Char × Char → Char) (g : Char × Char → Char → Str) (ls : List Int),
      (∀ c v, (g c v).length = 1) → ls.length = s.length →
      relabel Transduce.getMostCommonExceptNotEntity
        (withLabels (elemPieces pr (fun c => (nv c).map fun v => g c v) (s.zip out)) ls) = .ok ls := by
    intro pr g ls hg hl
    have hz : ls.length = (s.zip out).length := by rw [List.length_zip]; omega
    rw [relabel_elemPieces pr _ _ (fun _ l => [l]) _ ?_ ls hz]
    · refine congrArg Except.ok (Eq.trans ?_ (zip_flatMap_snd _ _ hz))
      congr 1; funext p; split <;> rfl
    · intro c _ n hn l
      have : n.length = 1 := by
        cases hc : nv c with
        | none => rw [hc] at hn; simp at hn
        | some v => rw [hc] at hn; injection hn with hn; rw [← hn]; exact hg c v
      rw [this]
      exact getMostCommonExcept_const [l] 1 l (by simp) (by simp)
  refine ⟨_, ?_, h1, fun ls hl => ⟨h2 ls _ hl ?_, h3 ls _ hl ?_⟩⟩
  · unfold StripAccentToken.transform
    dsimp only
    rw [if_pos (show s.length = (StripAccentToken.stripAccents u s).length from hlen), hnv]
    have := charwiseTransform_eq σ Prod.fst (fun c => (nv c).map fun v => [v]) (s.zip out)
      (fun g n => Aligner.ofStrEdit σ s g n Transduce.getMostCommonExceptNotEntity
        Transduce.getMostCommonExceptNotEntity)
    rw [hfst, hout, ← hlen] at this
    exact this
  · exact hlab Prod.fst (fun _ v => [v]) ls (fun _ _ => rfl) hl
  · rw [swap_elemPieces]
    exact hlab _ (fun c _ => [c.1]) ls (fun _ _ => rfl) hl

example : ∃ a, StripAccentToken.transform SetOrder.id asciiUnicode "é!".toList = .ok ("e!".toList, a) := by
  obtain ⟨a, h, _⟩ := C27_transform SetOrder.id asciiUnicode "é!".toList (by decide)
  exact ⟨a, by rw [h]; congr⟩

/-- C27: if stripping accents changes the length, `transform` raises AssertionError. -/
theorem C27_length_change (σ : SetOrder) (u : Unicode) (s : Str)
    (h : ((u.nfd s).filter fun c => !u.isMn c).length ≠ s.length) :
    StripAccentToken.transform σ u s = .error .assertionError := by
  unfold StripAccentToken.transform
  dsimp only
  rw [if_neg (fun h' => h h'.symm)]

/-- A standalone combining accent is such a text. -/
example : StripAccentToken.transform SetOrder.id asciiUnicode ['e', Char.ofNat 0x301]
    = .error .assertionError := C27_length_change _ _ _ (by decide)

end Uttut
