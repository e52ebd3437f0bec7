import Verif.Props.Tokenizers
import Verif.Props.Stopwords

/-! Property C38: `AddWhitespaceAroundWordnZhChar`. -/

namespace Uttut

open Spec Piece AddWhitespaceAroundWordnZhChar

/-- Segments that get spaces: user words and CJK characters. -/
def spacedSeg (ws : List Str) (seg : Str) : Bool :=
  decide (seg ∈ ws) || match seg with
    | [c] => decide (∃ b ∈ cjkBlocks, b.1 ≤ c.toNat ∧ c.toNat ≤ b.2)
    | _ => false

/-- A segment in the output. -/
def spaced (ws : List Str) (seg : Str) : Str := if spacedSeg ws seg then [' '] ++ seg ++ [' '] else seg

def spacedPieces (ws : List Str) (segs : List Str) : List (Piece Char Char) :=
  segs.map fun seg => if spacedSeg ws seg then sub seg ([' '] ++ seg ++ [' ']) else keep seg

theorem srcOf_spacedPieces (ws segs : List Str) : srcOf (spacedPieces ws segs) = segs.flatten := by
  induction segs with
  | nil => rfl
  | cons t segs ih =>
    simp only [spacedPieces, List.map_cons] at ih ⊢
    by_cases h : spacedSeg ws t = true
    · rw [if_pos h]; simp only [srcOf_keep, srcOf_sub, dstOf_keep, dstOf_sub, ih, List.flatten_cons, h, if_true]
    · rw [if_neg h]; simp only [srcOf_keep, srcOf_sub, dstOf_keep, dstOf_sub, ih, List.flatten_cons, h, if_false, Bool.false_eq_true]

theorem dstOf_spacedPieces (ws segs : List Str) :
    dstOf (spacedPieces ws segs) = segs.flatMap (spaced ws) := by
  induction segs with
  | nil => rfl
  | cons t segs ih =>
    simp only [spacedPieces, List.map_cons, List.flatMap_cons, spaced] at ih ⊢
    by_cases h : spacedSeg ws t = true
    · rw [if_pos h]; simp only [srcOf_keep, srcOf_sub, dstOf_keep, dstOf_sub, ih, List.flatten_cons, h, if_true]
    · rw [if_neg h]; simp only [srcOf_keep, srcOf_sub, dstOf_keep, dstOf_sub, ih, List.flatten_cons, h, if_false, Bool.false_eq_true]

theorem mem_spacedPieces {ws segs : List Str} {o n : Str} (h : sub o n ∈ spacedPieces ws segs) :
    o ∈ segs ∧ spacedSeg ws o = true ∧ n = [' '] ++ o ++ [' '] := by
  simp only [spacedPieces, List.mem_map] at h
  obtain ⟨t, ht, he⟩ := h
  by_cases hs : spacedSeg ws t = true
  · rw [if_pos hs] at he
    injection he with e1 e2
    subst e1
    exact ⟨ht, hs, e2.symm⟩
  · rw [if_neg hs] at he
    simp at he

theorem wordZhLoop_spec (t : Trie) (ws : List Str) (ht : Holds t ws) (sh : Bool) (n : Nat) (pre rest : Str)
    (g : ReplacementGroup Str) (hn : rest.length < n) :
    ∃ segs, WordSegs ws sh rest segs ∧
      loop t sh (pre ++ rest) n pre.length g =
        some ⟨g.reps ++ groupOf pre.length (spacedPieces ws segs), g.isDone⟩ := by
  induction n generalizing pre rest g with
  | zero => omega
  | succ n ih =>
    unfold loop
    cases rest with
    | nil => exact ⟨[], .nil, by simp [spacedPieces, groupOf]⟩
    | cons c cs =>
      rw [if_pos (by simp), List.drop_left]
      have hbest := matchPrefix_best t ws ht (c :: cs) sh
      cases hm : t.matchPrefix (c :: cs) sh with
      | none =>
        rw [hm] at hbest
        dsimp only
        have hsl : slice (pre ++ c :: cs) pre.length (pre.length + 1) = [c] := by
          have := slice_mid pre [c] cs
          simpa using this
        rw [hsl]
        dsimp only
        have hnot : [c] ∉ ws := fun hc => hbest [c] hc (by simp) (by simp)
        have hsp : spacedSeg ws [c] = isCJK c := by
          unfold spacedSeg
          rw [decide_eq_false hnot, Bool.false_or, Bool.eq_iff_iff, decide_eq_true_iff, C17_cjk]
        by_cases hk : isCJK c = true
        · rw [if_pos hk, ReplacementGroup.add_of_le g (Nat.le_succ _)]
          obtain ⟨segs, h1, h2⟩ := ih (pre ++ [c]) cs
            ⟨g.reps ++ [⟨pre.length, pre.length + 1, [' ', c, ' ']⟩], g.isDone⟩ (by simpa using hn)
          refine ⟨[c] :: segs, .char c cs segs hbest h1, ?_⟩
          have e : spacedPieces ws ([c] :: segs) = sub [c] [' ', c, ' '] :: spacedPieces ws segs := by
            simp [spacedPieces, hsp, hk]
          rw [e]
          simpa [groupOf] using h2
        · rw [if_neg hk]
          obtain ⟨segs, h1, h2⟩ := ih (pre ++ [c]) cs g (by simpa using hn)
          refine ⟨[c] :: segs, .char c cs segs hbest h1, ?_⟩
          have e : spacedPieces ws ([c] :: segs) = keep [c] :: spacedPieces ws segs := by
            simp [spacedPieces, hsp, hk]
          rw [e]
          simpa [groupOf] using h2
      | some w =>
        rw [hm] at hbest
        dsimp only
        obtain ⟨rest', hr⟩ := hbest.2.2.1
        have hpos := List.length_pos_iff.mpr hbest.2.1
        rw [← hr] at hbest hn ⊢
        rw [ReplacementGroup.add_of_le g (Nat.le_add_right _ _)]
        obtain ⟨segs, h1, h2⟩ := ih (pre ++ w) rest'
          ⟨g.reps ++ [⟨pre.length, pre.length + w.length, [' '] ++ w ++ [' ']⟩], g.isDone⟩
          (by simp at hn; omega)
        refine ⟨w :: segs, .word w rest' segs hbest h1, ?_⟩
        have hsp : spacedSeg ws w = true := by
          unfold spacedSeg
          rw [decide_eq_true hbest.1, Bool.true_or]
        have e : spacedPieces ws (w :: segs) = sub w ([' '] ++ w ++ [' ']) :: spacedPieces ws segs := by
          simp [spacedPieces, hsp]
        rw [e]
        simpa [groupOf] using h2

theorem labelsWith_spacedPieces (ws : List Str) (F : List Int → Nat → List Int) (segs : List Str)
    (ls : List Int) : labelsWith F (spacedPieces ws segs) ls =
      mapLabels (spacedSeg ws) (fun t x => F x (t.length + 2)) segs (splitLike segs ls) := by
  induction segs generalizing ls with
  | nil => rfl
  | cons t segs ih =>
    simp only [spacedPieces, List.map_cons] at ih ⊢
    by_cases h : spacedSeg ws t = true
    · simp only [h, if_true, labelsWith, splitLike, mapLabels, List.zip_cons_cons, List.flatMap_cons, ih]
      simp
    · simp only [h, if_false, labelsWith, splitLike, mapLabels, List.zip_cons_cons, List.flatMap_cons, ih,
        Bool.false_eq_true]

theorem labelsWith_spacedPieces_swap (ws : List Str) (F : List Int → Nat → List Int) (segs : List Str)
    (ls : List Int) : labelsWith F ((spacedPieces ws segs).map swap) ls =
      mapLabels (spacedSeg ws) (fun t x => F x t.length) segs (splitLike (segs.map (spaced ws)) ls) := by
  induction segs generalizing ls with
  | nil => rfl
  | cons t segs ih =>
    simp only [spacedPieces, List.map_cons, spaced] at ih ⊢
    by_cases h : spacedSeg ws t = true
    · simp only [h, if_true, labelsWith, swap, splitLike, mapLabels, List.zip_cons_cons, List.flatMap_cons, ih]
    · simp only [h, if_false, labelsWith, swap, splitLike, mapLabels, List.zip_cons_cons, List.flatMap_cons, ih,
        Bool.false_eq_true]

theorem pySlice_inner (x : List Int) : pySlice x 1 (-1) = (x.drop 1).dropLast := by
  unfold pySlice slice clampIdx
  cases x with
  | nil => rfl
  | cons a x =>
    have h1 : ((-1 : Int) + (((a :: x).length : Nat) : Int)).toNat = x.length := by simp; omega
    rw [if_neg (by decide), if_pos (by decide), h1]
    cases x with
    | nil => rfl
    | cons b x => simp [List.dropLast_eq_take]

/-- C38: `AddWhitespaceAroundWordnZhChar` never raises; the text is divided into best user words and single
characters, words and CJK characters get a space on both sides, everything else is unchanged. The new spaces
get label 0; the labels of the other characters are kept, forwards and backwards, so that
`inverse_transform(transform(labels)) == labels`. -/
theorem C38_spaces (σ : SetOrder) (ws : List Str) (t : Trie) (ht : Trie.ofUserWords ws = .ok t) (sh : Bool)
    (s : Str) :
    ∃ a segs, WordSegs ws sh s segs ∧ segs.flatten = s ∧
      transform σ t sh s = .ok (segs.flatMap (spaced ws), a) ∧
      Aligned a s.length (segs.flatMap (spaced ws)).length anyLabels ∧
      (∀ ls, ls.length = s.length → a.transform ls =
        .ok (mapLabels (spacedSeg ws) (fun _ x => 0 :: x ++ [0]) segs (splitLike segs ls))) ∧
      (∀ ls, ls.length = (segs.flatMap (spaced ws)).length → a.inverseTransform ls =
        .ok (mapLabels (spacedSeg ws) (fun _ x => (x.drop 1).dropLast) segs
          (splitLike (segs.map (spaced ws)) ls))) ∧
      (∀ ls y, a.transform ls = .ok y → a.inverseTransform y = .ok ls) := by
  obtain ⟨segs, h1, h2⟩ := wordZhLoop_spec t ws (ofUserWords_holds ws t ht).1 sh (s.length + 1) [] s
    ReplacementGroup.empty (by omega)
  simp only [List.nil_append, List.length_nil, ReplacementGroup.empty] at h2
  have hfl := wordSegs_flatten h1
  have hsrc := srcOf_spacedPieces ws segs
  rw [hfl] at hsrc
  have hdst := dstOf_spacedPieces ws segs
  have hmem : ∀ o n, sub o n ∈ spacedPieces ws segs → n = [' '] ++ o ++ [' '] := fun o n h => (mem_spacedPieces h).2.2
  have hU : Undoes fwd bwd (spacedPieces ws segs) := by
    intro o n hm x hx
    have hn := hmem o n hm
    refine ⟨_, rfl, ?_, ?_⟩
    · rw [hn]; simp [hx]
    · show Except.ok (pySlice _ 1 (-1)) = _
      rw [pySlice_inner]
      simp
  have hG : Good bwd ((spacedPieces ws segs).map swap) := by
    intro o n hm x hx
    refine ⟨_, rfl, ?_⟩
    have := hmem _ _ (mem_map_swap hm)
    rw [pySlice_inner]
    rw [this] at hx
    simp at hx ⊢
    omega
  obtain ⟨hA, hT, hI, hR⟩ := strAligner_pack σ (spacedPieces ws segs) fwd bwd s _ hsrc hdst hU.good hG
    (separated_swap_of_nonempty _ (fun o n hm => by rw [hmem o n hm]; simp) _)
  have hseg : ∀ o n, sub o n ∈ spacedPieces ws segs → o ≠ [] := fun o n hm =>
    wordSegs_nonempty h1 o (mem_spacedPieces hm).1
  have hrun : transform σ t sh s = .ok (segs.flatMap (spaced ws),
      Aligner.ofStrEdit σ s ⟨groupOf 0 (spacedPieces ws segs), true⟩ (segs.flatMap (spaced ws)).length fwd bwd) := by
    have hap := strApply_pieces (spacedPieces ws segs)
    rw [hsrc, hdst] at hap
    unfold transform
    simp only [ReplacementGroup.empty, h2]
    rw [done_groupOf (β := Char) σ 0 (spacedPieces ws segs) false false (separated_of_nonempty _ hseg false)]
    simp only [Except.bind_ok, hap]
    rfl
  refine ⟨_, segs, h1, hfl, hrun, hA, fun ls hl => ?_, fun ls hl => ?_, hR hU⟩
  · refine hT ls _ hl ?_
    rw [relabel_labelsWith fwd (fun x _ => 0 :: x ++ [0]) _ (fun _ _ _ _ _ => rfl) ls (by rw [hsrc]; exact hl),
      labelsWith_spacedPieces]
  · refine hI ls _ hl ?_
    rw [relabel_labelsWith bwd (fun x _ => (x.drop 1).dropLast) _
      (fun _ _ _ x _ => by rw [← pySlice_inner]; rfl) ls (by rw [srcOf_swap, hdst]; exact hl),
      labelsWith_spacedPieces_swap]

example : ∃ t a, Trie.ofUserWords ["珍奶".toList, "珍奶去冰".toList] = .ok t ∧
    transform SetOrder.id t false "GB珍奶去冰杯".toList = .ok ("GB 珍奶去冰  杯 ".toList, a) := by
  exact ⟨_, _, rfl, rfl⟩

end Uttut
