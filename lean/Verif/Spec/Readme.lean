import Verif.Model.Builtins
import Verif.Spec.Bert

/-!
Specification vocabulary for the pipe of `README.md:37-60`: numbers become tokens, whitespace is cleaned up, the text is
cut into English words, start and end tokens are added, the list is brought to a fixed size and turned into indices.
-/

namespace Uttut.Spec

/-- A call `p.add(name, kwargs, checkpoint=…)`. -/
structure AddCall where
  name : String
  kwargs : List (Str × PyVal)
  checkpoint : Option Str

/-- Consecutive calls of `add`; the first exception ends the program. -/
def addCalls (f : Factory) : List AddCall → Pipe → Res Pipe
  | [], p => .ok p
  | c :: cs, p =>
    match p.add f c.name.toList (some c.kwargs) c.checkpoint with
    | (p, .ok _) => addCalls f cs p
    | (_, .error e) => .error e

/-- `README.md:40-60` with any `maxlen` and any `token2index`. -/
def readmeCalls (maxlen : Nat) (d : List (Str × Int)) : List AddCall :=
  [⟨"IntTokenWithSpace", [], none⟩, ⟨"FloatTokenWithSpace", [], none⟩, ⟨"MergeWhiteSpaceCharacters", [], none⟩,
   ⟨"StripWhiteSpaceCharacters", [], none⟩, ⟨"EngTokenizer", [], none⟩,
   ⟨"AddSosEos", [], some "result_of_add_sos_eos".toList⟩,
   ⟨"Pad", [("maxlen".toList, .int maxlen)], none⟩,
   ⟨"Token2Index", [("token2index".toList, .dict (d.map fun kv => (kv.1, .int kv.2)))], none⟩]

/-- The text with its integers replaced. -/
def withInts (u : Unicode) (s : Str) : Str :=
  mapRuns (numeric u) (fun r => if isInteger u r then " _int_ ".toList else r) s

/-- The text with its numbers replaced. -/
def withNumbers (u : Unicode) (s : Str) : Str :=
  mapRuns (numeric u) (fun r => if isFloat u r then " _float_ ".toList else r) (withInts u s)

/-- Labels of a text whose numbers of the kind `q` are replaced by a token of length `k` between two spaces. -/
def replacedLabels (u : Unicode) (q : Str → Bool) (k : Nat) (s : Str) (ls : List Int) : List Int :=
  mapLabels (fun r => isRunOf (numeric u) r && q r) (fun _ seg => [0] ++ List.replicate k (firstMode seg) ++ [0])
    (runs (numeric u) s) (splitLike (runs (numeric u) s) ls)

/-- Labels of a text from those of the text whose numbers of the kind `q` were replaced by `token`. -/
def restoredLabels (u : Unicode) (q : Str → Bool) (token : Str) (s : Str) (ls : List Int) : List Int :=
  mapLabels (fun r => isRunOf (numeric u) r && q r) (fun r seg => List.replicate r.length (firstNonzeroMode seg))
    (runs (numeric u) s)
    (splitLike ((runs (numeric u) s).map fun r => if isRunOf (numeric u) r && q r then token else r) ls)

/-- Labels of `withNumbers u s`. -/
def numberedLabels (u : Unicode) (s : Str) (ls : List Int) : List Int :=
  replacedLabels u (isFloat u) 7 (withInts u s) (replacedLabels u (isInteger u) 5 s ls)

/-- Labels of `s` from labels of `withNumbers u s`. -/
def unnumberedLabels (u : Unicode) (s : Str) (ls : List Int) : List Int :=
  restoredLabels u (isInteger u) " _int_ ".toList s
    (restoredLabels u (isFloat u) " _float_ ".toList (withInts u s) ls)

/-- A token list between start and end token; the empty list may come out the other way round. -/
def Framed (words out : List Str) : Prop :=
  out = "<sos>".toList :: words ++ ["<eos>".toList] ∨ words = [] ∧ out = ["<eos>".toList, "<sos>".toList]

/-- Exactly `n` tokens: cut at the end, or filled up. -/
def fitted (n : Nat) (l : List Str) : List Str := l.take n ++ List.replicate (n - l.length) "<pad>".toList

/-- The index of a token: its own, or that of `<unk>` if it has none. -/
def IsIndex (d : List (Str × Int)) (w : Str) (i : Int) : Prop :=
  (w, i) ∈ d ∨ (w ∉ d.map Prod.fst ∧ ("<unk>".toList, i) ∈ d)

end Uttut.Spec
