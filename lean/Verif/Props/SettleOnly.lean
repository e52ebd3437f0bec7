import Verif.Props.SettleStop

/-! C119: no other steps spread labels. -/

namespace Uttut

open Spec

/-- On `s` the labels `ls` and `ms`, different at `i`, become different only where `ys` is 0, but `ys` gives `i` a label. -/
def mixes (r : Res Op) (s : Seq) (i : Nat) (ls ms ys : List Int) : Bool :=
  match r with
  | .error _ => false
  | .ok op => match op.transform s with
    | .error _ => false
    | .ok (t, a) => match a.transform ls, a.transform ms, a.inverseTransform ys with
      | .ok fs, .ok gs, .ok xs => decide (ls.length = s.length ∧ ms.length = s.length ∧ ys.length = t.length ∧ i < s.length ∧
          ls.getD i 0 ≠ ms.getD i 0 ∧ (∀ j < t.length, fs.getD j 0 = gs.getD j 0 ∨ ys.getD j 0 = 0) ∧ xs.getD i 0 ≠ 0)
      | _, _, _ => false

theorem mixes_made {name : String} {args : List PyVal} {s : Seq} {i : Nat} {ls ms ys : List Int}
    (h : mixes (create exEnv name args []) s i ls ms ys = true) : ∃ op, Made exEnv name op ∧ ¬ OpSpreads op := by
  unfold mixes at h
  split at h
  · cases h
  · rename_i op ho
    refine ⟨op, ⟨args, [], ho⟩, fun hr => ?_⟩
    split at h
    · cases h
    · rename_i t a ht
      split at h
      · rename_i fs gs xs hf hg hx
        obtain ⟨h1, h2, h3, h4, h5, h6, h7⟩ := of_decide_eq_true h
        rcases hr _ _ _ ht with ⟨own, c, hs⟩ | hno
        · rw [hs.fwd ls h1] at hf
          rw [hs.fwd ms h2] at hg
          cases hf; cases hg
          obtain ⟨xs', g1, _, g2⟩ := hs.bwd ys h3
          cases hx.symm.trans g1
          have key : ∀ j, own j = some i → ys.getD j 0 = 0 := fun j hj => by
            have hlt := (hs.range _ _ hj).2
            rcases h6 j hlt with e | e
            · rw [moved_getD _ _ _ _ _ hlt, moved_getD _ _ _ _ _ hlt, hj] at e
              exact absurd e h5
            · exact e
          rcases g2 i h4 0 fun j hj => Or.inl (key j hj) with e | e
          · exact h7 e
          · exact h7 e.1
        · exact hno _ _ hx
      · cases h

/-- Some labels of the output of `s` can be carried back and some, as many, cannot. -/
def refuses (r : Res Op) (s : Seq) (ys zs : List Int) : Bool :=
  match r with
  | .error _ => false
  | .ok op => match op.transform s with
    | .error _ => false
    | .ok (t, a) => match a.inverseTransform ys, a.inverseTransform zs with
      | .ok _, .error _ => zs.length == t.length
      | _, _ => false

theorem refuses_made {name : String} {args : List PyVal} {s : Seq} {ys zs : List Int}
    (h : refuses (create exEnv name args []) s ys zs = true) : ∃ op, Made exEnv name op ∧ ¬ OpSpreads op := by
  unfold refuses at h
  split at h
  · cases h
  · rename_i op ho
    refine ⟨op, ⟨args, [], ho⟩, fun hr => ?_⟩
    split at h
    · cases h
    · rename_i t a ht
      split at h
      · rename_i xs e hx hz
        rcases hr _ _ _ ht with ⟨own, c, hs⟩ | hno
        · obtain ⟨xs', g1, _⟩ := hs.bwd zs (by simpa using h)
          rw [hz] at g1
          cases g1
        · exact hno _ _ hx
      · cases h

set_option maxRecDepth 10000 in
/-- C119: no other operator spreads labels. -/
theorem C119_spreads_only : ∀ name ∈ ["IntToken", "FloatToken", "IntTokenWithSpace", "FloatTokenWithSpace", "NumTokenWithSpace",
      "ReplaceAwithB", "MergeWhiteSpaceCharacters", "AddWhitespaceAroundCJK", "AddWhitespaceAroundPunctuation",
      "WhiteSpaceTokenizer", "EngTokenizer", "ZhCharTokenizer", "CustomWordTokenizer",
      "CharTokenizer"], ∃ op, Made exEnv name op ∧ ¬ OpSpreads op := by
  intro name hn
  simp only [List.mem_cons, List.not_mem_nil, or_false] at hn
  rcases hn with rfl | rfl | rfl | rfl | rfl | rfl | rfl | rfl | rfl | rfl | rfl | rfl | rfl | rfl
  · exact mixes_made (s := .str "11".toList) (args := []) (i := 1) (ls := [1, 2]) (ms := [1, 1]) (ys := [1,1,1,1,1]) (by decide)
  · exact mixes_made (s := .str "1.1".toList) (args := []) (i := 1) (ls := [1, 2, 1]) (ms := [1, 1, 1]) (ys := [1,1,1,1,1,1,1]) (by decide)
  · exact mixes_made (s := .str "11".toList) (args := []) (i := 1) (ls := [1, 2]) (ms := [1, 1]) (ys := [0,1,1,1,1,1,0]) (by decide)
  · exact mixes_made (s := .str "1.1".toList) (args := []) (i := 1) (ls := [1, 2, 1]) (ms := [1, 1, 1]) (ys := [0,1,1,1,1,1,1,1,0]) (by decide)
  · exact mixes_made (s := .str "11".toList) (args := []) (i := 1) (ls := [1, 2]) (ms := [1, 1]) (ys := [0,1,1,1,1,1,0]) (by decide)
  · exact mixes_made (s := .str "aa".toList) (args := [.str "aa".toList, .str "b".toList]) (i := 1) (ls := [1, 2]) (ms := [1, 1]) (ys := [1]) (by decide)
  · exact mixes_made (s := .str "  ".toList) (args := []) (i := 1) (ls := [1, 2]) (ms := [1, 1]) (ys := [1]) (by decide)
  · exact mixes_made (s := .str "中".toList) (args := []) (i := 0) (ls := [1]) (ms := [2]) (ys := [1, 0, 0]) (by decide)
  · exact mixes_made (s := .str "!".toList) (args := []) (i := 0) (ls := [1]) (ms := [2]) (ys := [1, 0, 0]) (by decide)
  · exact mixes_made (s := .str "ab".toList) (args := []) (i := 1) (ls := [1, 2]) (ms := [1, 1]) (ys := [1]) (by decide)
  · exact mixes_made (s := .str "ab".toList) (args := []) (i := 1) (ls := [1, 2]) (ms := [1, 1]) (ys := [1]) (by decide)
  · exact mixes_made (s := .str "ab".toList) (args := []) (i := 1) (ls := [1, 2]) (ms := [1, 1]) (ys := [1]) (by decide)
  · exact mixes_made (s := .str "ab".toList) (args := [.list [.str "ab".toList]]) (i := 1) (ls := [1, 2]) (ms := [1, 1]) (ys := [1]) (by decide)
  · exact refuses_made (s := .str "a".toList) (args := []) (ys := [1]) (zs := [-1]) (by decide)

/-- Every operator is in one of the lists of `C119_moves`, `C119_moves_stopwords`, `C119_moves_words`, `C119_spreads` and `C119_spreads_only`. -/
example : ∀ c ∈ Builtin.concrete exEnv, c.name ∈ (["Lowercase", "StripAccentToken", "StripWhiteSpaceCharacters",
      "PunctuationExceptEndpointToWhitespace", "AddSosEos", "AddEndToken", "Pad", "Token2Index", "Token2IndexwithHash",
      "PureNum2Token"] ++ ["StopwordsToWhitespace", "AddWhitespaceAroundWordnZhChar", "SpanSubwords"] ++
    ["IntToken", "FloatToken", "IntTokenWithSpace", "FloatTokenWithSpace", "NumTokenWithSpace",
      "ReplaceAwithB", "MergeWhiteSpaceCharacters", "AddWhitespaceAroundCJK", "AddWhitespaceAroundPunctuation",
      "WhiteSpaceTokenizer", "EngTokenizer", "ZhCharTokenizer", "CustomWordTokenizer",
      "CharTokenizer"]).map String.toList := by decide

end Uttut
