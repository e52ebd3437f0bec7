import Verif.Model.Label

/-!
The unit tests of `/repo/uttut/pipeline/edit/tests/*.py`, each assertion read as a statement about the
model and evaluated by the kernel. These are tests of the model, not proofs about it: they show that the
definitions the theorems are about give the values the project's own tests expect. The order in which a
set is enumerated is reversed (`rev`), so that no check relies on insertion order.
-/

namespace Uttut
namespace Conform

/-- Sets enumerated in reverse insertion order. -/
def rev : SetOrder := ⟨fun _ l => l.reverse, fun _ l => l.reverse_perm⟩

/-- The call returns `v`. -/
def gives {α : Type} [DecidableEq α] (r : Res α) (v : α) : Bool :=
  match r with
  | .ok o => decide (o = v)
  | .error _ => false

/-- The call raises `e`. -/
def fails {α : Type} (r : Res α) (e : Exc) : Bool :=
  match r with
  | .ok _ => false
  | .error e' => decide (e' = e)

/-- `ReplacementGroup.add_all` with strings. -/
def rs (l : List (Int × Int × String)) : Res (ReplacementGroup Str) :=
  ReplacementGroup.addAll rev (l.map fun r => (r.1, r.2.1, r.2.2.toList))

/-- `ReplacementGroup.add_all` with lists of tokens. -/
def rl (l : List (Int × Int × List String)) : Res (ReplacementGroup (List Str)) :=
  ReplacementGroup.addAll rev (l.map fun r => (r.1, r.2.1, r.2.2.map String.toList))

/-- A list of tokens. -/
def tk (l : List String) : List Str := l.map String.toList

/-- `list(s)` for a string `s`. -/
def chars (s : String) : List String := s.toList.map fun c => String.singleton c

/-! `test_label_propagation.py:14-83` -/

def propS (l : List Int) (g : List (Int × Int × String)) : Res (List Int) := do
  propagate l (← rs g) getMostCommonLabel
def propL (l : List Int) (g : List (Int × Int × List String)) : Res (List Int) := do
  propagate l (← rl g) getMostCommonLabel

example : gives (propS [1, 1, 1, 0, 0, 3, 0, 2, 2] [(0, 3, "a"), (5, 6, "abc"), (7, 9, "abcd")])
    [1, 0, 0, 3, 3, 3, 0, 2, 2, 2, 2] = true := by decide +kernel
example : gives (propS [1, 0, 0, 3, 3, 3, 0, 2, 2, 2, 2] [(0, 1, "abc"), (3, 6, "a"), (7, 11, "ab")])
    [1, 1, 1, 0, 0, 3, 0, 2, 2] = true := by decide +kernel
example : gives (propL [1, 1, 1, 0, 0, 3, 0, 2, 2]
    [(0, 3, ["a"]), (5, 6, ["a", "b", "c"]), (7, 9, ["a", "b", "c", "d"])])
    [1, 0, 0, 3, 3, 3, 0, 2, 2, 2, 2] = true := by decide +kernel
example : gives (propL [1, 0, 0, 3, 3, 3, 0, 2, 2, 2, 2]
    [(0, 1, ["a", "b", "c"]), (3, 6, ["a"]), (7, 11, ["a", "b"])])
    [1, 1, 1, 0, 0, 3, 0, 2, 2] = true := by decide +kernel
example : gives (propS [1, 2, 3, 4] [(0, 0, "a"), (1, 1, "abc"), (4, 4, "abcd")])
    [0, 1, 0, 0, 0, 2, 3, 4, 0, 0, 0, 0] = true := by decide +kernel
example : gives (propS [0, 1, 0, 0, 0, 2, 3, 4, 0, 0, 0, 0] [(0, 1, ""), (2, 5, ""), (8, 12, "")])
    [1, 2, 3, 4] = true := by decide +kernel
example : gives (propL [1, 2, 3, 4]
    [(0, 0, ["a"]), (1, 1, ["a", "b", "c"]), (4, 4, ["a", "b", "c", "d"])])
    [0, 1, 0, 0, 0, 2, 3, 4, 0, 0, 0, 0] = true := by decide +kernel
example : gives (propL [0, 1, 0, 0, 0, 2, 3, 4, 0, 0, 0, 0] [(0, 1, []), (2, 5, []), (8, 12, [])])
    [1, 2, 3, 4] = true := by decide +kernel
example : gives (propS [1, 2, 3, 4, 5, 6] [(0, 1, ""), (2, 4, ""), (5, 6, "")]) [2, 5] = true := by
  decide +kernel
example : gives (propL [1, 2, 3, 4, 5, 6] [(0, 1, []), (2, 4, []), (5, 6, [])]) [2, 5] = true := by
  decide +kernel
example : gives (propS [2, 5] [(0, 0, "a"), (1, 1, "ab"), (2, 2, "c")]) [0, 2, 0, 0, 5, 0] = true := by
  decide +kernel
example : gives (propL [2, 5] [(0, 0, ["a"]), (1, 1, ["a", "b"]), (2, 2, ["c"])]) [0, 2, 0, 0, 5, 0] = true := by
  decide +kernel

/-! `test_label_propagation.py:86-149` -/

def reduceS (l : List Int) (g : List (Int × Int)) (f : Transducer := getMostCommonLabel) :
    Res (List Int) := do
  reduceBySpanGroup l (← SpanGroup.addAll g) f
def expandS (l : List Int) (g : List (Int × Int)) : Res (List Int) := do
  expandBySpanGroup l (← SpanGroup.addAll g)
/-- `zero_transduce` of the test. -/
def zeroTransduce : Transducer := fun _ n => .ok (List.replicate n 0)

example : gives (reduceS [2, 2, 3, 5, 5] [(0, 2), (2, 5)]) [2, 5] = true := by decide +kernel
example : gives (expandS [2, 5] [(0, 2), (2, 5)]) [2, 2, 5, 5, 5] = true := by decide +kernel
example : fails (reduceS [1, 2, 3, 4, 5] [(0, 2), (2, 4)]) .valueError = true := by decide +kernel
example : fails (expandS [1, 2, 3] [(0, 2), (2, 4)]) .valueError = true := by decide +kernel
example : gives (do propagate [1, 2, 3, 4, 5] (← rs [(0, 2, "a"), (2, 5, "b")]) zeroTransduce)
    [0, 0] = true := by decide +kernel
example : gives (reduceS [1, 2, 3, 4, 5] [(0, 2), (2, 5)] zeroTransduce) [0, 0] = true := by decide +kernel
example : gives (reduceS [1] [(0, 1)]) [1] = true := by decide +kernel
example : gives (expandS [1] [(0, 1)]) [1] = true := by decide +kernel

/-! `test_lst2lst.py`, `test_str2str.py` -/

/-- Forward and backward `apply` and `inverse` of one case (strings). -/
def bothS (a : String) (g : List (Int × Int × String)) (b : String) (h : List (Int × Int × String)) :
    Bool :=
  match rs g, rs h with
  | .ok g, .ok h =>
    gives (Str2Str.apply a.toList g) b.toList && gives (Str2Str.apply b.toList h) a.toList &&
    gives (do (← Str2Str.inverse rev a.toList g).eq h) true &&
    gives (do (← Str2Str.inverse rev b.toList h).eq g) true
  | _, _ => false

/-- Forward and backward `apply` and `inverse` of one case (lists). -/
def bothL (a : List String) (g : List (Int × Int × List String)) (b : List String)
    (h : List (Int × Int × List String)) : Bool :=
  match rl g, rl h with
  | .ok g, .ok h =>
    gives (Lst2Lst.apply (tk a) g) (tk b) && gives (Lst2Lst.apply (tk b) h) (tk a) &&
    gives (do (← Lst2Lst.inverse rev (tk a) g).eq h) true &&
    gives (do (← Lst2Lst.inverse rev (tk b) h).eq g) true
  | _, _ => false

example : bothS "我想要喝200元的珍奶10杯" [(4, 7, "_int_"), (11, 13, "_int_")]
    "我想要喝_int_元的珍奶_int_杯" [(4, 9, "200"), (13, 18, "10")] = true := by decide +kernel
example : bothS "我想喝珍奶"
    [(0, 0, "其實"), (0, 1, "妳"), (1, 1, "不"), (3, 5, "多多綠"), (5, 5, "對吧！")]
    "其實妳不想喝多多綠對吧！"
    [(0, 2, ""), (2, 3, "我"), (3, 4, ""), (6, 9, "珍奶"), (9, 12, "")] = true := by decide +kernel
example : bothS "我不想喝珍奶" [(1, 2, "")] "我想喝珍奶" [(1, 1, "不")] = true := by decide +kernel
example : bothS "這個句子沒有改變" [] "這個句子沒有改變" [] = true := by decide +kernel
example : bothL (chars "我想要喝200元的珍奶10杯") [(4, 7, chars "_int_"), (11, 13, chars "_int_")]
    (chars "我想要喝_int_元的珍奶_int_杯") [(4, 9, chars "200"), (13, 18, chars "10")] = true := by
  decide +kernel
example : bothL (chars "我想喝珍奶")
    [(0, 0, chars "其實"), (0, 1, ["妳"]), (1, 1, ["不"]), (3, 5, chars "多多綠"), (5, 5, chars "對吧！")]
    (chars "其實妳不想喝多多綠對吧！")
    [(0, 2, []), (2, 3, ["我"]), (3, 4, []), (6, 9, chars "珍奶"), (9, 12, [])] = true := by decide +kernel
example : bothL (chars "我不想喝珍奶") [(1, 2, [])] (chars "我想喝珍奶") [(1, 1, ["不"])] = true := by
  decide +kernel
example : bothL ["這個", "句子", "沒有", "改變"] [] ["這個", "句子", "沒有", "改變"] [] = true := by
  decide +kernel

/-! `test_replacement.py:36-63` (texts and annotations are not modelled) -/

def sv (s : String) : Str ⊕ List Str := .inl s.toList
def lv (l : List String) : Str ⊕ List Str := .inr (tk l)
/-- A `new_value` that may be a string, a list or a number. -/
instance : NewValue (Str ⊕ List Str) := ⟨fun | .inl _ => .str | .inr _ => .list⟩

/-- Construct two replacements and compare them. -/
def repEq (a b : Int × Int × (Str ⊕ List Str)) : Res Bool := do
  return decide ((← Rep.newPy a.1 a.2.1 a.2.2) = (← Rep.newPy b.1 b.2.1 b.2.2))

example : gives (repEq (10, 15, sv "薄餡亂入") (10, 15, sv "薄餡亂入")) true = true := by decide +kernel
example : gives (repEq (10, 15, sv "薄餡亂入") (10, 15, sv "隼興亂入")) false = true := by decide +kernel
example : gives (repEq (10, 15, sv "薄餡亂入") (9, 15, sv "薄餡亂入")) false = true := by decide +kernel
example : gives (repEq (10, 15, sv "薄餡亂入") (10, 11, sv "薄餡亂入")) false = true := by decide +kernel
example : gives (repEq (10, 15, lv ["薄餡亂入"]) (10, 15, sv "薄餡亂入")) false = true := by decide +kernel

/-! `test_replacement_group.py` -/

/-- `[Replacement(*o) for o in objs] == group[:]` and `len(group) == len(objs)`. -/
def itemsAre (g : Res (ReplacementGroup (Str ⊕ List Str))) (objs : List (Int × Int × (Str ⊕ List Str))) :
    Bool :=
  match g, objs.mapM fun o => Rep.newPy o.1 o.2.1 o.2.2 with
  | .ok g, .ok l => gives g.items l && decide (g.reps.length = objs.length)
  | _, _ => false

def rsv (l : List (Int × Int × (Str ⊕ List Str))) : Res (ReplacementGroup (Str ⊕ List Str)) :=
  ReplacementGroup.addAll rev l

def rgEq (a b : List (Int × Int × (Str ⊕ List Str))) : Res Bool := do (← rsv a).eq (← rsv b)

example : (ReplacementGroup.empty : ReplacementGroup Str).isEmpty = true := by decide +kernel
example : itemsAre (rsv [(0, 0, sv "a"), (0, 2, sv "b")]) [(0, 0, sv "a"), (0, 2, sv "b")] = true := by
  decide +kernel
example : itemsAre (rsv [(0, 0, lv ["a"]), (0, 2, lv ["b"])]) [(0, 0, lv ["a"]), (0, 2, lv ["b"])] = true := by
  decide +kernel
example : gives (do return (← rsv []).isEmpty) true = true := by decide +kernel
example : fails (do
    (← (ReplacementGroup.empty : ReplacementGroup Str).addPy 1 3 "abc".toList).getItem 0)
    .runtimeError = true := by decide +kernel
example : fails (rsv [(0, 1, sv "a"), (0, 2, lv ["b"])]) .typeError = true := by decide +kernel
example : gives (rgEq [] []) true = true := by decide +kernel
example : gives (rgEq [(0, 0, sv "a"), (1, 2, sv "b")] [(0, 0, sv "a"), (1, 2, sv "b")]) true = true := by
  decide +kernel
example : gives (rgEq [(0, 0, lv ["a"]), (1, 2, lv ["b"])] [(0, 0, lv ["a"]), (1, 2, lv ["b"])]) true = true := by
  decide +kernel
example : gives (rgEq [(0, 0, sv "a")] [(0, 0, sv "a"), (1, 2, sv "b")]) false = true := by decide +kernel
example : gives (rgEq [(0, 0, sv "a"), (1, 2, sv "b")] [(0, 0, sv "a"), (1, 3, sv "b")]) false = true := by
  decide +kernel
example : gives (rgEq [(0, 0, sv "a"), (1, 2, sv "b")] [(0, 0, lv ["a"]), (1, 3, lv ["b"])]) false = true := by
  decide +kernel
example : itemsAre (rsv [(1, 2, sv "b"), (0, 1, sv "a")]) [(0, 1, sv "a"), (1, 2, sv "b")] = true := by
  decide +kernel
example : fails (rsv [(1, 10, sv "b"), (2, 15, sv "a")]) .valueError = true := by decide +kernel
example : fails (rsv [(1, 10, sv "b"), (2, 8, sv "a")]) .valueError = true := by decide +kernel

/-! `test_span.py`, `test_span_group.py` -/

def spEq (a b : Int × Int) : Res Bool := do
  return decide ((← Span.newPy a.1 a.2) = (← Span.newPy b.1 b.2))
def spansAre (g : Res SpanGroup) (l : List (Int × Int)) : Bool :=
  match g, l.mapM fun o => Span.newPy o.1 o.2 with
  | .ok g, .ok l => gives g.items l && decide (g.spans.length = l.length)
  | _, _ => false
def sgEq (a b : List (Int × Int)) : Res Bool := do (← SpanGroup.addAll a).eq (← SpanGroup.addAll b)

example : gives (Span.newPy 10 15) ⟨10, 15⟩ = true := by decide +kernel
example : gives (spEq (10, 15) (10, 15)) true = true := by decide +kernel
example : gives (spEq (10, 15) (9, 15)) false = true := by decide +kernel
example : gives (spEq (10, 15) (10, 11)) false = true := by decide +kernel
example : fails (SpanGroup.addAll [(0, 1), (3, 5)]) .valueError = true := by decide +kernel
example : fails (SpanGroup.addAll [(1, 3), (3, 5)]) .valueError = true := by decide +kernel
example : spansAre (SpanGroup.addAll [(0, 0), (0, 2)]) [(0, 0), (0, 2)] = true := by decide +kernel
example : gives (do return decide ((← SpanGroup.addAll []).spans.length = 0)) true = true := by decide +kernel
example : fails (do (← SpanGroup.empty.addPy 1 3).items) .runtimeError = true := by decide +kernel
example : fails (SpanGroup.addAllTuples [[0]]) .valueError = true := by decide +kernel
example : fails (SpanGroup.addAllTuples [[0, 0, 3]]) .valueError = true := by decide +kernel
example : gives (sgEq [] []) true = true := by decide +kernel
example : gives (sgEq [(0, 0), (0, 2)] [(0, 0), (0, 2)]) true = true := by decide +kernel
example : gives (sgEq [(0, 0)] [(0, 0), (0, 2)]) false = true := by decide +kernel
example : gives (sgEq [(0, 0), (0, 2)] [(0, 0), (0, 3)]) false = true := by decide +kernel
example : spansAre (SpanGroup.addAll [(1, 2), (0, 1)]) [(0, 1), (1, 2)] = true := by decide +kernel
example : fails (SpanGroup.addAll [(1, 10), (2, 15)]) .valueError = true := by decide +kernel
example : fails (SpanGroup.addAll [(1, 10), (2, 8)]) .valueError = true := by decide +kernel

/-! `test_str2lst.py` -/

/-- One case of `test_cases`: split, join and recompute the spans. -/
def splitCase (s : String) (tokens : List String) (spans : List (Int × Int)) : Bool :=
  match SpanGroup.addAll spans with
  | .error _ => false
  | .ok g =>
    gives (Str2Lst.apply s.toList g) (tk tokens) && gives (Lst2Str.apply (tk tokens) g) s.toList &&
    gives (do g.eq (← Str2Lst.genSpanGroup s.toList (tk tokens))) true

/-- The replacement group computed from tokens is the expected one. -/
def alignCase (s : String) (tokens : List String) (l : List (Int × Int × String)) : Bool :=
  gives (do (← rs l).eq (← Str2Lst.genReplacementGroup rev s.toList (tk tokens))) true

example : splitCase "我想要喝200元的珍奶10杯" ["我", "想要", "喝", "200元", "的", "珍奶", "10杯"]
    [(0, 1), (1, 3), (3, 4), (4, 8), (8, 9), (9, 11), (11, 14)] = true := by decide +kernel
example : splitCase "我想要喝 200 元的珍奶 10 杯"
    ["我", "想要", "喝", " ", "200", " ", "元", "的", "珍奶", " ", "10", " ", "杯"]
    [(0, 1), (1, 3), (3, 4), (4, 5), (5, 8), (8, 9), (9, 10), (10, 11), (11, 13), (13, 14), (14, 16),
      (16, 17), (17, 18)] = true := by decide +kernel
example : splitCase "I'vebeentoJapan." ["I", "'", "ve", "been", "to", "Japan", "."]
    [(0, 1), (1, 2), (2, 4), (4, 8), (8, 10), (10, 15), (15, 16)] = true := by decide +kernel
example : splitCase "I'vebeentoJapan." ["I've", "been", "to", "Japan", "."]
    [(0, 4), (4, 8), (8, 10), (10, 15), (15, 16)] = true := by decide +kernel
example : fails (do Str2Lst.apply "薄餡亂入".toList (← SpanGroup.addAll [(0, 1), (1, 2)])) .valueError = true := by
  decide +kernel
example : fails (do Lst2Str.apply (tk ["薄餡", "亂入"]) (← SpanGroup.addAll [(0, 1)])) .valueError = true := by
  decide +kernel
example : fails (do
    Lst2Str.apply (tk ["我", "想要", "喝", "多多綠"]) (← SpanGroup.addAll [(0, 1), (1, 3), (3, 5), (5, 8)]))
    .valueError = true := by decide +kernel
example : fails (Str2Lst.genSpanGroup "我想要喝200元的珍奶10杯".toList (tk ["薄餡", "亂入"])) .valueError = true := by
  decide +kernel
example : fails (Str2Lst.genSpanGroup "I've been to Japan.".toList
    (tk ["I", "'", "ve", "been", "to", "Japan", "."])) .valueError = true := by decide +kernel
example : alignCase "我想要喝200元的珍奶10杯" ["我", "想要", "喝", "200元", "的", "珍奶", "10杯"] [] = true := by
  decide +kernel
example : alignCase "我想要喝 200 元的珍奶 10 杯"
    ["我", "想要", "喝", " ", "200", " ", "元", "的", "珍奶", " ", "10", " ", "杯"] [] = true := by
  decide +kernel
example : alignCase "I've been to Japan." ["I", "'", "ve", "been", "to", "Japan", "."]
    [(4, 5, ""), (9, 10, ""), (12, 13, "")] = true := by decide +kernel
example : alignCase "I've been to Japan." ["I've", "been", "to", "Japan", "."]
    [(4, 5, ""), (9, 10, ""), (12, 13, "")] = true := by decide +kernel
example : fails (Str2Lst.genReplacementGroup rev "我想要喝200元的珍奶10杯".toList (tk ["薄餡", "亂入"]))
    .valueError = true := by decide +kernel
example : fails (Str2Lst.genReplacementGroup rev "我想要喝珍奶".toList (tk ["我", "想要", "喝", "多多綠"]))
    .valueError = true := by decide +kernel
example : fails (Str2Lst.genReplacementGroup rev "我想要喝珍奶".toList (tk ["珍奶", "我", "想要", "喝"]))
    .valueError = true := by decide +kernel

/-! `test_validate_start_end.py` -/

example : gives (validateStartEnd 1 3) () = true := by decide +kernel
example : fails (validateStartEnd 18 10) .valueError = true := by decide +kernel

end Conform
end Uttut
