import Verif.Model.Base
import Verif.Spec.Edit

/-!
Specifications for operators and label aligners.
-/

namespace Uttut.Spec

/-- The aligner belongs to an input of length `m` and an output of length `n`: labels of the input can
be transformed to labels of the output, and labels of the output that satisfy `ok` back. -/
structure Aligned (a : Aligner) (m n : Nat) (ok : List Int → Prop) : Prop where
  input : a.inputLength = m
  output : a.outputLength = n
  forward : ∀ ls, ls.length = m → ∃ y, a.transform ls = .ok y ∧ y.length = n
  backward : ∀ ls, ls.length = n → ok ls → ∃ y, a.inverseTransform ls = .ok y ∧ y.length = m

/-- Any labels. -/
def anyLabels : List Int → Prop := fun _ => True

/-- Labels that fit `unsigned int`. -/
def uintLabels : List Int → Prop := fun ls => ∀ x ∈ ls, 0 ≤ x ∧ x < 2 ^ 32

/-- The two label maps are the identity. -/
def PassThrough (a : Aligner) (n : Nat) : Prop :=
  ∀ ls, ls.length = n → a.transform ls = .ok ls ∧ a.inverseTransform ls = .ok ls

/-- Maximal runs of characters that agree on `p`. -/
def runs (p : Char → Bool) : Str → List Str
  | [] => []
  | c :: cs =>
    match runs p cs with
    | [] => [[c]]
    | r :: rs => if r.head?.map p = some (p c) then (c :: r) :: rs else [c] :: r :: rs

/-- The characters of a run satisfy `p` (a run is uniform, so its first character decides). -/
def isRunOf (p : Char → Bool) (r : Str) : Bool := r.head?.any p

/-- Replace every maximal run of `p`-characters by `g run`, keep everything else. -/
def mapRuns (p : Char → Bool) (g : Str → Str) (s : Str) : Str :=
  (runs p s).flatMap fun r => if isRunOf p r then g r else r

/-- Decimal digits: Unicode category Nd, or one of the full-width digits. -/
def digit (u : Unicode) (c : Char) : Bool := u.isDecimal c || "０１２３４５６７８９".toList.contains c

/-- The characters of numeric runs. -/
def numeric (u : Unicode) (c : Char) : Bool := c == '.' || digit u c

/-- Only digits. -/
def isInteger (u : Unicode) (r : Str) : Bool := r.all (digit u)

/-- Digits, a dot, digits. -/
def isFloat (u : Unicode) (r : Str) : Bool :=
  match r.dropWhile (digit u) with
  | '.' :: t => !(r.takeWhile (digit u)).isEmpty && !t.isEmpty && t.all (digit u)
  | _ => false

/-- The Unicode table is right about ASCII: the decimal digits are `0`-`9`. -/
def AsciiDigits (u : Unicode) : Prop :=
  ∀ c : Char, c.toNat < 128 → (u.isDecimal c = true ↔ c ∈ "0123456789".toList)

/-- Labels of the runs of a text after rewriting: recognised runs get `F labels`, others keep theirs. -/
def mapLabels (rec : Str → Bool) (F : Str → List Int → List Int) (rs : List Str) (segs : List (List Int)) :
    List Int :=
  (rs.zip segs).flatMap fun x => if rec x.1 then F x.1 x.2 else x.2

/-- Cut labels into segments as long as the given texts. -/
def splitLike : List Str → List Int → List (List Int)
  | [], _ => []
  | r :: rs, ls => ls.take r.length :: splitLike rs (ls.drop r.length)

/-- Cut labels into segments of the given lengths. -/
def segments : List Nat → List Int → List (List Int)
  | [], _ => []
  | n :: ns, ls => ls.take n :: segments ns (ls.drop n)

/-- `ms` are the successive matches met when searching `s` from `pos` on, each search starting where the
previous match ended, until a search fails or the end of the text is reached. -/
inductive Scan (m : Matcher) (s : Str) : Nat → List (Nat × Nat) → Prop
  | atEnd (pos : Nat) : s.length ≤ pos → Scan m s pos []
  | noMatch (pos : Nat) : pos < s.length → m s pos = none → Scan m s pos []
  | match_ (pos a b : Nat) (ms : List (Nat × Nat)) :
    pos < s.length → m s pos = some (a, b) → Scan m s b ms → Scan m s pos ((a, b) :: ms)

/-- Positions from which a search is started. -/
inductive Reached (m : Matcher) (s : Str) : Nat → Prop
  | start : Reached m s 0
  | next (pos a b : Nat) : Reached m s pos → pos < s.length → m s pos = some (a, b) → Reached m s b

/-- Any `Pattern.search`: a match found from `pos` lies within `s[pos:]`. -/
def SoundMatcher (m : Matcher) (s : Str) : Prop :=
  ∀ pos a b, pos ≤ s.length → m s pos = some (a, b) → pos ≤ a ∧ a ≤ b ∧ b ≤ s.length

/-- The text with the matches `ms` (in increasing order, from `pos` on) replaced by `v`. -/
def replaceMatches (s v : Str) : Nat → List (Nat × Nat) → Str
  | pos, [] => s.drop pos
  | pos, (a, b) :: ms => slice s pos a ++ v ++ replaceMatches s v b ms

/-- Labels after replacing the matches `ms` by a text of length `n`: the new text gets the most common
non-zero label of the replaced one. -/
def replaceLabels (ls : List Int) (n : Nat) : Nat → List (Nat × Nat) → List Int
  | pos, [] => ls.drop pos
  | pos, (a, b) :: ms =>
    slice ls pos a ++ List.replicate n (firstNonzeroMode (slice ls a b)) ++ replaceLabels ls n b ms

/-- Labels of the original text, from labels `ys` of the text with the matches `ms` replaced. -/
def restoreLabels (n : Nat) : (pos : Nat) → List (Nat × Nat) → (ys : List Int) → List Int
  | _, [], ys => ys
  | pos, (a, b) :: ms, ys =>
    ys.take (a - pos) ++ List.replicate (b - a) (firstNonzeroMode ((ys.drop (a - pos)).take n)) ++
      restoreLabels n b ms ((ys.drop (a - pos)).drop n)

/-- No match starts where the previous one ended. -/
def NoTouch : List (Nat × Nat) → Prop
  | x :: y :: ms => x.2 ≠ y.1 ∧ NoTouch (y :: ms)
  | _ => True

/-- Matches of a run of touching matches have pairwise different texts. -/
def DistinctMatches (s : Str) (ms : List (Nat × Nat)) : Prop :=
  DistinctDeletions s (ms.map fun x => (⟨x.1, x.2, []⟩ : Rep Str))

instance (s : Str) (ms : List (Nat × Nat)) : Decidable (DistinctMatches s ms) :=
  inferInstanceAs (Decidable (DistinctDeletions s _))

/-- Python `str.strip()`. -/
def strip (s : Str) : Str := ((s.dropWhile isSpace).reverse.dropWhile isSpace).reverse

/-- The ASCII capital letters. -/
def capitals : Str := "ABCDEFGHIJKLMNOPQRSTUVWXYZ".toList

/-- The ASCII small letters. -/
def smalls : Str := "abcdefghijklmnopqrstuvwxyz".toList

/-- The small letter of an ASCII capital; other characters are kept. -/
def asciiLower (c : Char) : Char := ((capitals.zip smalls).lookup c).getD c

/-- The whitespace-separated words of a text. -/
def wordsOf (s : Str) : List Str := (runs isSpace s).filter fun r => !isRunOf isSpace r

/-- `segs` divides `s`, read from left to right, into the longest words of `ws` found at each position,
and single characters at which no word of `ws` starts. -/
inductive Segmented (ws : List Str) : Str → List Str → Prop
  | nil : Segmented ws [] []
  | char (c : Char) (rest : Str) (segs : List Str) :
    (∀ w ∈ ws, ¬ w <+: c :: rest) → Segmented ws rest segs → Segmented ws (c :: rest) ([c] :: segs)
  | word (w rest : Str) (segs : List Str) :
    w ∈ ws → (∀ v ∈ ws, v <+: w ++ rest → v.length ≤ w.length) → Segmented ws rest segs →
      Segmented ws (w ++ rest) (w :: segs)

/-- The answer `r` to "which word of `ws` starts `text`": the longest (shortest) non-empty one, `none` if
there is none. -/
def BestWord (ws : List Str) (shortest : Bool) (text : Str) : Option Str → Prop
  | none => ∀ v ∈ ws, v ≠ [] → ¬ v <+: text
  | some w => w ∈ ws ∧ w ≠ [] ∧ w <+: text ∧
      ∀ v ∈ ws, v ≠ [] → v <+: text → if shortest then w.length ≤ v.length else v.length ≤ w.length

/-- `segs` divides `s`, read from left to right, into the longest (shortest) words of `ws` found at each
position, and single characters at which no non-empty word of `ws` starts. -/
inductive WordSegs (ws : List Str) (shortest : Bool) : Str → List Str → Prop
  | nil : WordSegs ws shortest [] []
  | char (c : Char) (rest : Str) (segs : List Str) :
    BestWord ws shortest (c :: rest) none → WordSegs ws shortest rest segs →
      WordSegs ws shortest (c :: rest) ([c] :: segs)
  | word (w rest : Str) (segs : List Str) :
    BestWord ws shortest (w ++ rest) (some w) → WordSegs ws shortest rest segs →
      WordSegs ws shortest (w ++ rest) (w :: segs)

/-- The text made of gaps and tokens in alternation, and a last gap. -/
def layout (ps : List (Str × Str)) (tail : Str) : Str := (ps.flatMap fun p => p.1 ++ p.2) ++ tail

/-- The labels of the characters of each token. -/
def tokenSegs : List (Str × Str) → List Int → List (List Int)
  | [], _ => []
  | p :: ps, ls => (ls.drop p.1.length).take p.2.length :: tokenSegs ps (ls.drop (p.1.length + p.2.length))

/-- The label of a token: the most frequent label of its characters, 0 if one of them is no unsigned
32-bit integer. -/
def tokenLabel (seg : List Int) : Int := if ∀ x ∈ seg, 0 ≤ x ∧ x < 2 ^ 32 then firstMode seg else 0

/-- The labels of the characters, from labels of the tokens: dropped characters get 0. -/
def charLabels : List (Str × Str) → (tail : Str) → List Int → List Int
  | p :: ps, tail, y :: ys =>
    List.replicate p.1.length 0 ++ List.replicate p.2.length y ++ charLabels ps tail ys
  | _, tail, _ => List.replicate tail.length 0

/-- Between two neighbouring tokens there is a gap, or one of the touching characters is in `own`. -/
def Parted (own : Char → Bool) : List (Str × Str) → Prop
  | p :: q :: ps => (q.1 = [] → (∃ c ∈ p.2.getLast?, own c = true) ∨ ∃ c ∈ q.2.head?, own c = true) ∧
      Parted own (q :: ps)
  | _ => True

/-- `ps` and `tail` cut `s` into tokens and whitespace between them; the characters in `own` are tokens of
their own; the other tokens are as long as possible. -/
structure TokenizedBy (own : Char → Bool) (s : Str) (ps : List (Str × Str)) (tail : Str) : Prop where
  text : s = layout ps tail
  gaps : ∀ p ∈ ps, ∀ c ∈ p.1, isSpace c = true
  last : ∀ c ∈ tail, isSpace c = true
  nonempty : ∀ p ∈ ps, p.2 ≠ []
  solid : ∀ p ∈ ps, ∀ c ∈ p.2, isSpace c = false
  alone : ∀ p ∈ ps, ∀ c ∈ p.2, own c = true → p.2 = [c]
  parted : Parted own ps

/-- The characters Python counts as white space: the ASCII controls 9-13 and 28-31, the space, next line, and the
Unicode separators. -/
def whiteSpaceCodes : List Nat :=
  [9, 10, 11, 12, 13, 28, 29, 30, 31, 32, 133, 160, 5760, 8192, 8193, 8194, 8195, 8196, 8197, 8198, 8199, 8200, 8201,
   8202, 8232, 8233, 8239, 8287, 12288]

/-- ASCII punctuation and symbols. -/
def asciiPunctuation : List Char := "!\"#$%&'()*+,-./:;<=>?@[\\]^_`{|}~".toList

/-- The Unicode blocks with CJK ideographs. -/
def cjkBlocks : List (Nat × Nat) :=
  [(0x3400, 0x4DBF), (0x4E00, 0x9FFF), (0xF900, 0xFAFF), (0x20000, 0x2A6DF), (0x2A700, 0x2B73F),
   (0x2B740, 0x2B81F), (0x2B820, 0x2CEAF), (0x2F800, 0x2FA1F)]

/-- No two neighbouring empty tokens. -/
def NoTwoEmpty : List Str → Prop
  | a :: b :: l => (a ≠ [] ∨ b ≠ []) ∧ NoTwoEmpty (b :: l)
  | _ => True

/-- Vocabulary entry of a word piece: pieces that do not start the word carry the prefix `##`. -/
def wordPiece (first : Bool) (r : Str) : Str := if first then r else '#' :: '#' :: r

/-- `rs` is the greedy longest-match segmentation of `rest`; `first` says whether `rest` is the whole
word. -/
def Greedy (vocab : Str → Bool) : (first : Bool) → (rest : Str) → (rs : List Str) → Prop
  | _, rest, [] => rest = []
  | first, rest, r :: rs =>
    r ≠ [] ∧ vocab (wordPiece first r) = true ∧
    (∀ r', r' <+: rest → r.length < r'.length → vocab (wordPiece first r') = false) ∧
    ∃ rest', rest = r ++ rest' ∧ Greedy vocab false rest' rs

/-- The vocabulary entries of a segmentation. -/
def wordPieces : List Str → List Str
  | [] => []
  | r :: rs => wordPiece true r :: rs.map (wordPiece false)

end Uttut.Spec
