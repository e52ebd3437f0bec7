import Verif.Model.Py

/-
Model of `uttut/pipeline/ops/utils/trie.py`.
-/

namespace Uttut

/-- `ops/utils/trie.py:1-25` `TrieNode`: `_word` and `_children` (a dict from characters). -/
inductive TrieNode
  | mk (word : Option Str) (children : List (Char × TrieNode))

namespace TrieNode

/-- `trie.py:3-5` `TrieNode()`. -/
def empty : TrieNode := .mk none []

/-- `trie.py:16-18` `word`. -/
def word : TrieNode → Option Str
  | .mk w _ => w

/-- `trie.py:4` `_children`. -/
def children : TrieNode → List (Char × TrieNode)
  | .mk _ cs => cs

/-- `trie.py:7-11` `has_child` / `get_child`. -/
def getChild (n : TrieNode) (c : Char) : Option TrieNode := dictGet n.children c

/-- Truth value of `node.word`: neither `None` nor `''` (`trie.py:22`, `trie.py:42`, `trie.py:61`). -/
def truthyWord : TrieNode → Option Str
  | .mk (some (c :: cs)) _ => some (c :: cs)
  | _ => none

/-- `trie.py:20-25` the `word` setter: AttributeError if a non-empty word is already there. -/
def setWord (n : TrieNode) (w : Str) : Res TrieNode :=
  match n.truthyWord with
  | none => .ok (.mk (some w) n.children)
  | some _ => .error .attributeError

/-- `trie.py:46-52` `insert`, walking down the remaining characters; the updated child is stored back
(the Python code mutates it in place). -/
def insertAux (w : Str) : (rest : Str) → TrieNode → Res TrieNode
  | [], n => n.setWord w
  | c :: cs, n => do
    let child := (n.getChild c).getD TrieNode.empty
    let child' ← insertAux w cs child
    return .mk n.word (dictSet n.children c child')

end TrieNode

/-- `trie.py:28-31` `Trie`: its root. -/
abbrev Trie := TrieNode

namespace Trie

/-- `trie.py:46-52` `insert`. -/
def insert (t : Trie) (w : Str) : Res Trie := TrieNode.insertAux w w t

/-- `trie.py:36-44` `exactly_search` (also `__contains__`, L33-34). -/
def exactlySearch : Trie → Str → Bool
  | n, [] => n.truthyWord.isSome
  | n, c :: cs =>
    match n.getChild c with
    | none => false
    | some n' => exactlySearch n' cs

/-- `trie.py:57-65`: the loop of `match_prefix`, state `(current, longest_word)`. -/
def matchLoop (shortest : Bool) : TrieNode → Option Str → Str → Option Str
  | _, longest, [] => longest
  | n, longest, c :: cs =>
    match n.getChild c with
    | none => longest
    | some n' =>
      match n'.truthyWord with
      | some w => if shortest then some w else matchLoop shortest n' (some w) cs
      | none => matchLoop shortest n' longest cs

/-- `trie.py:54-65` `match_prefix`. -/
def matchPrefix (t : Trie) (text : Str) (shortest : Bool := false) : Option Str :=
  matchLoop shortest t none text

/-- `custom_word_tokenizer.py:37-44` and `add_whitespace_around_word_n_zhchar.py:46-53`: validation of
the user words and construction of the trie. -/
def ofUserWords (words : List Str) : Res Trie :=
  if words.length < 1 then .error .valueError
  else words.foldlM (fun t w => insert t w) TrieNode.empty

end Trie

end Uttut
