import Verif.Props.Settle

/-! C119: no other steps give all labels back. -/

namespace Uttut

open Spec

/-- The step does not give the labels `ys` of its output back. -/
def loses (r : Res Op) (s : Seq) (ys : List Int) : Bool :=
  match r with
  | .error _ => false
  | .ok op => match op.transform s with
    | .error _ => false
    | .ok (_, a) => match a.inverseTransform ys with
      | .error _ => false
      | .ok xs => match a.transform xs with
        | .error _ => true
        | .ok zs => zs != ys

theorem loses_made {name : String} {args : List PyVal} {s : Seq} {l : List Int}
    (h : loses (create exEnv name args []) s l = true) : ∃ op, Made exEnv name op ∧ ¬ OpReturns op := by
  unfold loses at h
  split at h
  · cases h
  · rename_i op ho
    refine ⟨op, ⟨args, [], ho⟩, fun hr => ?_⟩
    split at h
    · cases h
    · rename_i t a ht
      split at h
      · cases h
      · rename_i xs hx
        rw [hr _ _ _ ht _ _ hx] at h
        simp at h

/-- The step does not give the labels `ls` of its input back. -/
def changes (r : Res Op) (s : Seq) (ls : List Int) : Bool :=
  match r with
  | .error _ => false
  | .ok op => match op.transform s with
    | .error _ => false
    | .ok (_, a) => match a.transform ls with
      | .error _ => false
      | .ok ys => match a.inverseTransform ys with
        | .error _ => true
        | .ok zs => zs != ls

theorem changes_made {name : String} {args : List PyVal} {s : Seq} {l : List Int}
    (h : changes (create exEnv name args []) s l = true) : ∃ op, Made exEnv name op ∧ ¬ OpKeeps op := by
  unfold changes at h
  split at h
  · cases h
  · rename_i op ho
    refine ⟨op, ⟨args, [], ho⟩, fun hr => ?_⟩
    split at h
    · cases h
    · rename_i t a ht
      split at h
      · cases h
      · rename_i xs hx
        rw [hr _ _ _ ht _ _ hx] at h
        simp at h

set_option maxRecDepth 10000 in
/-- C119: every other operator loses some labels of its output. -/
theorem C119_returns_only : ∀ name ∈ ["AddSosEos", "AddEndToken", "Pad", "IntToken", "FloatToken", "IntTokenWithSpace", "FloatTokenWithSpace",
      "NumTokenWithSpace", "ReplaceAwithB", "AddWhitespaceAroundCJK", "AddWhitespaceAroundPunctuation",
      "PunctuationExceptEndpointToWhitespace", "SpanSubwords", "AddWhitespaceAroundWordnZhChar",
      "StopwordsToWhitespace"], ∃ op, Made exEnv name op ∧ ¬ OpReturns op := by
  intro name hn
  simp only [List.mem_cons, List.not_mem_nil, or_false] at hn
  rcases hn with rfl | rfl | rfl | rfl | rfl | rfl | rfl | rfl | rfl | rfl | rfl | rfl | rfl | rfl | rfl
  · exact loses_made (s := .list []) (args := []) (l := [1, 1]) (by decide)
  · exact loses_made (s := .list []) (args := [.str "e".toList]) (l := [1]) (by decide)
  · exact loses_made (s := .list []) (args := [.int 1]) (l := [1]) (by decide)
  · exact loses_made (s := .str "1".toList) (args := []) (l := [1,2,1,1,1]) (by decide)
  · exact loses_made (s := .str "1.1".toList) (args := []) (l := [1,2,1,1,1,1,1]) (by decide)
  · exact loses_made (s := .str "1".toList) (args := []) (l := [1,1,2,1,1,1,1]) (by decide)
  · exact loses_made (s := .str "1.1".toList) (args := []) (l := [1,1,2,1,1,1,1,1,1]) (by decide)
  · exact loses_made (s := .str "1".toList) (args := []) (l := [1,1,2,1,1,1,1]) (by decide)
  · exact loses_made (s := .str "a".toList) (args := [.str "a".toList, .str "bc".toList]) (l := [1,2]) (by decide)
  · exact loses_made (s := .str "中".toList) (args := []) (l := [1,1,1]) (by decide)
  · exact loses_made (s := .str "!".toList) (args := []) (l := [1,1,1]) (by decide)
  · exact loses_made (s := .str "!".toList) (args := []) (l := [1]) (by decide)
  · exact loses_made (s := .list [.str "ab".toList]) (args := [.dict [("a".toList, .int 0),("##b".toList, .int 1),("u".toList,.int 2)], .str "u".toList]) (l := [1,2]) (by decide)
  · exact loses_made (s := .str "ab".toList) (args := [.list [.str "ab".toList]]) (l := [1, 1,2, 1]) (by decide)
  · exact loses_made (s := .str "吧".toList) (args := []) (l := [1]) (by decide)

set_option maxRecDepth 10000 in
/-- C119: every other operator changes some labels of its input. -/
theorem C119_keeps_only : ∀ name ∈ ["Pad", "IntToken", "FloatToken", "IntTokenWithSpace", "FloatTokenWithSpace", "NumTokenWithSpace", "ReplaceAwithB",
      "MergeWhiteSpaceCharacters", "StripWhiteSpaceCharacters", "PunctuationExceptEndpointToWhitespace",
      "WhiteSpaceTokenizer", "EngTokenizer", "ZhCharTokenizer", "CharTokenizer", "CustomWordTokenizer", "SpanSubwords", "StopwordsToWhitespace"], ∃ op, Made exEnv name op ∧ ¬ OpKeeps op := by
  intro name hn
  simp only [List.mem_cons, List.not_mem_nil, or_false] at hn
  rcases hn with rfl | rfl | rfl | rfl | rfl | rfl | rfl | rfl | rfl | rfl | rfl | rfl | rfl | rfl | rfl | rfl | rfl
  · exact changes_made (s := .list [.str "a".toList]) (args := [.int 0]) (l := [1]) (by decide)
  · exact changes_made (s := .str "11".toList) (args := []) (l := [1,2]) (by decide)
  · exact changes_made (s := .str "1.1".toList) (args := []) (l := [1,2,1]) (by decide)
  · exact changes_made (s := .str "11".toList) (args := []) (l := [1,2]) (by decide)
  · exact changes_made (s := .str "1.1".toList) (args := []) (l := [1,2,1]) (by decide)
  · exact changes_made (s := .str "11".toList) (args := []) (l := [1,2]) (by decide)
  · exact changes_made (s := .str "a".toList) (args := [.str "a".toList, .str "".toList]) (l := [1]) (by decide)
  · exact changes_made (s := .str "  ".toList) (args := []) (l := [1,2]) (by decide)
  · exact changes_made (s := .str " ".toList) (args := []) (l := [1]) (by decide)
  · exact changes_made (s := .str "!".toList) (args := []) (l := [1]) (by decide)
  · exact changes_made (s := .str "ab".toList) (args := []) (l := [1,2]) (by decide)
  · exact changes_made (s := .str "ab".toList) (args := []) (l := [1,2]) (by decide)
  · exact changes_made (s := .str "ab".toList) (args := []) (l := [1,2]) (by decide)
  · exact changes_made (s := .str "a".toList) (args := []) (l := [-1]) (by decide)
  · exact changes_made (s := .str "ab".toList) (args := [.list [.str "ab".toList]]) (l := [1,2]) (by decide)
  · exact changes_made (s := .list [.str "".toList]) (args := [.dict [("a".toList, .int 0),("##b".toList, .int 1),("u".toList,.int 2)], .str "u".toList]) (l := [2]) (by decide)
  · exact changes_made (s := .str "吧".toList) (args := []) (l := [1]) (by decide)

/-- Every operator is in one of the lists of `C119_returns` and `C119_returns_only`, and of `C119_keeps` and
`C119_keeps_only`. -/
example : (∀ c ∈ Builtin.concrete exEnv, c.name ∈ (["Lowercase", "StripAccentToken", "MergeWhiteSpaceCharacters", "StripWhiteSpaceCharacters", "CharTokenizer",
      "WhiteSpaceTokenizer", "EngTokenizer", "ZhCharTokenizer", "CustomWordTokenizer", "Token2Index",
      "Token2IndexwithHash", "PureNum2Token"] ++
    ["AddSosEos", "AddEndToken", "Pad", "IntToken", "FloatToken", "IntTokenWithSpace", "FloatTokenWithSpace",
      "NumTokenWithSpace", "ReplaceAwithB", "AddWhitespaceAroundCJK", "AddWhitespaceAroundPunctuation",
      "PunctuationExceptEndpointToWhitespace", "SpanSubwords", "AddWhitespaceAroundWordnZhChar",
      "StopwordsToWhitespace"]).map String.toList) ∧
    ∀ c ∈ Builtin.concrete exEnv, c.name ∈ (["Lowercase", "StripAccentToken", "AddWhitespaceAroundCJK", "AddWhitespaceAroundPunctuation",
      "AddWhitespaceAroundWordnZhChar", "AddSosEos", "AddEndToken", "Token2Index", "Token2IndexwithHash",
      "PureNum2Token"] ++
    ["Pad", "IntToken", "FloatToken", "IntTokenWithSpace", "FloatTokenWithSpace", "NumTokenWithSpace",
      "ReplaceAwithB", "MergeWhiteSpaceCharacters", "StripWhiteSpaceCharacters",
      "PunctuationExceptEndpointToWhitespace", "WhiteSpaceTokenizer", "EngTokenizer", "ZhCharTokenizer",
      "CharTokenizer", "CustomWordTokenizer", "SpanSubwords", "StopwordsToWhitespace"]).map String.toList := by decide

end Uttut
