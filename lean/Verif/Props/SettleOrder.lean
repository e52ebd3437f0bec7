import Verif.Props.SettleStop

/-! C119: the order of the three kinds of steps matters. -/

namespace Uttut

open Spec

/-- Labels carried through the steps on the text `s`. -/
def exThere (ops : List Op) (s : Str) (ls : List Int) : Res (List Int) := do
  let r ← (⟨ops, []⟩ : Pipe).transformSequence (.str s)
  alignAll r.2.1 ls

/-- Labels carried back through the steps on the text `s`. -/
def exBack (ops : List Op) (s : Str) (ls : List Int) : Res (List Int) := do
  let r ← (⟨ops, []⟩ : Pipe).transformSequence (.str s)
  realignAll r.2.1 ls

/-- On some text, carrying labels to and fro a second time changes them. -/
def Unsettled (ops : List Op) : Prop := ∃ (s : Str) (o : Seq) (as : List Aligner) (coll : List Seq),
  (⟨ops, []⟩ : Pipe).transformSequence (.str s) = .ok (o, as, coll) ∧ ¬ SettlesAll as

theorem unsettled_back {ops : List Op} (s : Str) (ys xs zs xs' : List Int) (h1 : exBack ops s ys = .ok xs)
    (h2 : exThere ops s xs = .ok zs) (h3 : exBack ops s zs = .ok xs') (hne : xs' ≠ xs) : Unsettled ops := by
  unfold exBack at h1 h3
  unfold exThere at h2
  obtain ⟨⟨o, as, coll⟩, h, h1⟩ := bind_eq_ok h1
  rw [h] at h2 h3
  refine ⟨s, o, as, coll, h, fun hs => hne ?_⟩
  exact Except.ok.inj ((show realignAll as zs = .ok xs' from h3).symm.trans (hs.fromOutput ys xs zs h1 h2))

theorem unsettled_there {ops : List Op} (s : Str) (ls ys xs ys' : List Int) (h1 : exThere ops s ls = .ok ys)
    (h2 : exBack ops s ys = .ok xs) (h3 : exThere ops s xs = .ok ys') (hne : ys' ≠ ys) : Unsettled ops := by
  unfold exThere at h1 h3
  unfold exBack at h2
  obtain ⟨⟨o, as, coll⟩, h, h1⟩ := bind_eq_ok h1
  rw [h] at h2 h3
  refine ⟨s, o, as, coll, h, fun hs => hne ?_⟩
  exact Except.ok.inj ((show alignAll as xs = .ok ys' from h3).symm.trans (hs.fromInput ls ys xs h1 h2))

/-- C119: in any other order the pipe need not settle. The first step gives the labels of its input back, the second moves
labels and the third gives the labels of its output back. -/
theorem C119_order : ∃ k m r : Op, Made exEnv "AddWhitespaceAroundPunctuation" k ∧
    Made exEnv "PunctuationExceptEndpointToWhitespace" m ∧ Made exEnv "MergeWhiteSpaceCharacters" r ∧
    OpKeeps k ∧ OpMoves m ∧ OpReturns r ∧ Unsettled [k, m] ∧ Unsettled [m, r] ∧ Unsettled [k, r] := by
  obtain ⟨k, h1⟩ : ∃ op, create exEnv "AddWhitespaceAroundPunctuation" [] [] = .ok op := ⟨_, rfl⟩
  obtain ⟨m, h2⟩ : ∃ op, create exEnv "PunctuationExceptEndpointToWhitespace" [] [] = .ok op := ⟨_, rfl⟩
  obtain ⟨r, h3⟩ : ∃ op, create exEnv "MergeWhiteSpaceCharacters" [] [] = .ok op := ⟨_, rfl⟩
  refine ⟨k, m, r, ⟨_, _, h1⟩, ⟨_, _, h2⟩, ⟨_, _, h3⟩, C119_keeps exEnv _ _ ⟨_, _, h1⟩ (by decide),
    C119_moves exEnv _ _ ⟨_, _, h2⟩ (by decide), C119_returns exEnv _ _ ⟨_, _, h3⟩ (by decide), ?_, ?_, ?_⟩
  · cases h1; cases h2
    exact unsettled_back ",".toList [5, 0, 0] [5] [0, 0, 0] [0] rfl rfl rfl (by decide)
  · cases h2; cases h3
    exact unsettled_back " ,,".toList [7] [7, 0, 0] [0] [0, 0, 0] rfl rfl rfl (by decide)
  · cases h1; cases h3
    exact unsettled_there " ,".toList [1, 2] [1, 2, 0] [1, 1] [1, 1, 0] rfl rfl rfl (by decide)

end Uttut
