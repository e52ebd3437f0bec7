import Verif.Spec.Ops

/-! Specification vocabulary for the predefined BERT pipes. -/

namespace Uttut.Spec

/-- A CJK ideograph. -/
def ideograph (c : Char) : Bool := cjkBlocks.any fun b => decide (b.1 ≤ c.toNat ∧ c.toNat ≤ b.2)

/-- A punctuation character or ASCII symbol. -/
def punctuation (u : Unicode) (c : Char) : Bool := asciiPunctuation.contains c || u.isCatP c

/-- The characters that stand alone. -/
def standsAlone (u : Unicode) (c : Char) : Bool := punctuation u c || ideograph c

/-- A space on both sides of the characters in `v`. -/
def spaceOut (v : Char → Bool) (s : Str) : Str := s.flatMap fun c => if v c then [' ', c, ' '] else [c]

/-- The text before accents are stripped: small letters, punctuation and ideographs spaced out, no superfluous
whitespace. -/
def bertText (u : Unicode) (s : Str) : Str :=
  strip (mapRuns isSpace (fun _ => [' ']) (spaceOut (punctuation u) (spaceOut ideograph (s.map asciiLower))))

/-- The text without its accents. -/
def unaccented (u : Unicode) (t : Str) : Str := (u.nfd t).filter fun c => !u.isMn c

/-- Stripping accents from texts over the characters of `s` replaces them one by one, according to `f`, and neither
makes nor removes whitespace. -/
structure Charwise (u : Unicode) (f : Char → Char) (s : Str) : Prop where
  chars : ∀ t, (∀ c ∈ t, c = ' ' ∨ c ∈ s.map asciiLower) → unaccented u t = t.map f
  space : ∀ c, c = ' ' ∨ c ∈ s.map asciiLower → isSpace (f c) = isSpace c

/-- The subwords of a word: its greedy division into entries of the vocabulary, or `unk` when there is none or the word
is too long. -/
def IsSubwords (vocab : Str → Bool) (unk : Str) (limit : Nat) (word : Str) (ps : List Str) : Prop :=
  (word.length ≤ limit ∧ ∃ rs, Greedy vocab true word rs ∧ ps = wordPieces rs) ∨
  ((limit < word.length ∨ ¬ ∃ rs, Greedy vocab true word rs) ∧ ps = [unk])

/-- The entries of the vocabulary of `word_piece_pipe`. -/
def wordPieceEntries : List Str :=
  ["[UNK]".toList, "[CLS]".toList, "[SEP]".toList, "want".toList, "##want".toList, "##ed".toList, "wa".toList,
   "un".toList, "runn".toList, "##ing".toList]

/-- The entries of the vocabulary of `full_pipe`: a comma in addition. -/
def fullEntries : List Str := wordPieceEntries ++ [",".toList]

end Uttut.Spec
