import Verif.Model.Elements
import Verif.Model.Ordinal
import Verif.Model.Trie
import Verif.Model.Hash
import Verif.Conform.Edit

/-!
The unit tests of `/repo/uttut/tests`, `/repo/uttut/toolkits/tests`, `/repo/uttut/transformers/tests`,
`/repo/uttut/pipeline/tests/test_utils.py` and `/repo/uttut/pipeline/ops/utils/tests`, read as statements
about the model and evaluated by the kernel. Tests of the model, not proofs about it. Left out: the tests
that replace a function of the library by a mock, and `assertIsInstance`.
-/

namespace Uttut
namespace Conform

/-- `Entity(label, value, start, end, replacements)`. -/
def ent (label : Int) (value : String) (start stop : Int) (reps : List String := []) : Res Entity :=
  Entity.new label value.toList start stop (some (tk reps))

/-- `Datum(utterance, [Intent(i), ...], [entities])`. -/
def dat (u : String) (is : List Int) (es : List (Res Entity)) : Res Datum := do
  let is ← is.mapM Intent.new
  let es ← es.mapM id
  Datum.new u.toList (some is) (some es)

/-- A condition on two results. -/
def both {α β : Type} (a : Res α) (b : Res β) (p : α → β → Bool) : Bool :=
  match a, b with
  | .ok a, .ok b => p a b
  | _, _ => false

/-- A condition on a result. -/
def holds {α : Type} (a : Res α) (p : α → Bool) : Bool :=
  match a with
  | .ok a => p a
  | .error _ => false

/-! `tests/test_elements.py:16-27` -/
example : gives (Intent.new 1) ⟨1⟩ = true := by decide +kernel

/-! `tests/test_elements.py:30-66` -/
example : holds (ent 1 "紐約" 1 3) Entity.noReplacements = true := by decide +kernel
example : holds (ent 1 "紐約" 1 3 ["台北"]) (fun e => !e.noReplacements) = true := by decide +kernel
example : holds (Entity.fromDict ⟨1, 1, 3, some (tk ["斯堪地那維亞", "KIX"])⟩ "去紐約的機票".toList)
    (fun e => e.value == "紐約".toList && e.label == 1 && e.start == 1 && e.stop == 3 &&
      setEq e.replacements (tk ["KIX", "斯堪地那維亞"])) = true := by decide +kernel
example : holds (Entity.fromDict ⟨1, 1, 3, none⟩ "去紐約的機票".toList)
    (fun e => e.value == "紐約".toList && e.label == 1 && e.start == 1 && e.stop == 3 &&
      setEq e.replacements []) = true := by decide +kernel
example : holds (ent 1 "紐約" 1 3 ["斯堪地那維亞", "KIX"])
    (fun e => let d := e.toDict rev
      d.label == 1 && d.start == 1 && d.stop == 3 &&
      setEq (d.replacements.getD []) (tk ["斯堪地那維亞", "KIX"])) = true := by decide +kernel
example : holds (ent 1 "紐約" 1 3) (fun e => decide (e.toDict rev = ⟨1, 1, 3, none⟩)) = true := by
  decide +kernel

/-! `tests/test_elements.py:134-214` -/
example : both (ent 1 "紐約" 1 3 ["台北"]) (ent 1 "紐約" 1 3 ["台北"]) Entity.eq = true := by decide +kernel
example : both (ent 1 "紐約" 1 2 ["台北"]) (ent 2 "紐約" 1 2 ["台北"]) (fun a b => !a.eq b) = true := by
  decide +kernel
example : both (ent 1 "紐約" 1 2 ["台北"]) (ent 1 "新加坡" 1 2 ["台北"]) (fun a b => !a.eq b) = true := by
  decide +kernel
example : both (ent 1 "紐約" 1 2 ["台北"]) (ent 1 "紐約" 0 2 ["台北"]) (fun a b => !a.eq b) = true := by
  decide +kernel
example : both (ent 1 "紐約" 1 2 ["台北"]) (ent 1 "紐約" 1 3 ["台北"]) (fun a b => !a.eq b) = true := by
  decide +kernel
example : both (ent 1 "紐約" 1 2 ["台北"]) (ent 1 "紐約" 1 2 ["台北", "KIX"]) (fun a b => !a.eq b) = true := by
  decide +kernel

/-! `tests/test_elements.py:217-420` -/
example : fails (dat "去紐約的機票" [0] [ent 1 "紐約" 1 2]) .entityPositionError = true := by decide +kernel
example : fails (dat "去紐約的機票" [0] [ent 1 "紐約" 0 3]) .entityPositionError = true := by decide +kernel
example : fails (dat "去紐曰的機票" [0] [ent 1 "紐約" 1 3]) .entityPositionError = true := by decide +kernel
example : fails (dat "我想吃麥當勞快樂兒童餐" [0] [ent 0 "快樂" 6 8, ent 1 "快樂兒童餐" 6 11])
    .entityOverlapping = true := by decide +kernel

/-- The entities of the flight utterance, unsorted. -/
def flight : List (Res Entity) :=
  [ent 0 "新加坡" 10 13 ["斯堪地那維亞", "KIX"], ent 1 "明天" 3 5 ["下禮拜二"], ent 2 "紐約" 6 8]

example : holds (dat "我想訂明天從紐約飛到新加坡的機票" [1] flight)
    (fun d => decide (d.entities.map (fun e => (e.label, e.value, e.start, e.stop)) =
      [(1, "明天".toList, 3, 5), (2, "紐約".toList, 6, 8), (0, "新加坡".toList, 10, 13)])) = true := by
  decide +kernel
example : holds (dat "去紐約的機票" [0] [ent 1 "紐約" 1 3]) Datum.hasEntities = true := by decide +kernel
example : holds (dat "去紐約的機票" [0] []) (fun d => !d.hasEntities) = true := by decide +kernel
example : both (dat "我想訂明天從紐約飛到新加坡的機票" [1] flight)
    (Datum.new "我想訂明天從紐約飛到新加坡的機票".toList none none) Datum.hasSameUtteranceAs = true := by
  decide +kernel
example : both (dat "我想訂明天從紐約飛到新加坡的機票" [1] flight) (dat "我想訂機票" [1] [])
    Datum.hasSameIntentsAs = true := by decide +kernel
example : both (dat "我想訂明天從紐約飛到新加坡的機票" [1] flight)
    (dat "我想查明天從紐約飛往新加坡的機票" [0] flight) Datum.hasSameEntitiesAs = true := by decide +kernel

/-! `tests/test_entity_overlapping_ratio.py` -/
example : holds (dat "家豪大大" [] [ent 1 "家豪" 0 2])
    (fun d => decide (expandEntityToList d = some [1, 1, 0, 0])) = true := by decide +kernel
example : penalty 0 1 5 = 1 := by decide +kernel
example : penalty 1 2 5 = 5 := by decide +kernel
example : penalty 1 1 5 = 0 := by decide +kernel
example : fails (do
    entityOverlappingRatio (← dat "家豪大大喜歡吃豪大大雞排" [] [ent 1 "家豪" 0 2])
      (← dat "家豪大喜歡吃豪大大雞排" [] [ent 1 "家豪" 0 2]) 2) .differentUtterance = true := by
  decide +kernel

def chicken : List (Res Entity) :=
  [ent 1 "家豪" 0 2, ent 2 "豪大" 7 9, ent 3 "大" 9 10, ent 4 "雞排" 10 12]

example : gives (do
    entityOverlappingRatio (← dat "家豪大大喜歡吃豪大大雞排" [] chicken)
      (← dat "家豪大大喜歡吃豪大大雞排" [] chicken) 2) 1 = true := by decide +kernel
example : gives (do
    entityOverlappingRatio
      (← dat "吃豪大大雞排" [] [ent 2 "豪大" 1 3, ent 3 "大" 3 4, ent 4 "雞排" 4 6])
      (← dat "吃豪大大雞排" [] [ent 2 "豪大" 1 3, ent 5 "大雞排" 3 6]) 2) 0 = true := by decide +kernel
example : gives (do
    entityOverlappingRatio
      (← dat "家豪大大喜歡吃豪大大雞排" [] [ent 1 "家豪" 0 2, ent 6 "大" 9 10, ent 4 "雞排" 10 12])
      (← dat "家豪大大喜歡吃豪大大雞排" [] [ent 1 "家豪" 0 2, ent 5 "大雞排" 9 12]) 2)
    (1 / 2) = true := by decide +kernel

/-! `tests/test_expand_by_entities.py` -/
def trip : Res Datum :=
  dat "我想訂明天從紐約飛到新加坡的機票" [0]
    [ent 1 "明天" 3 5 ["下禮拜二"], ent 2 "紐約" 6 8, ent 3 "新加坡" 10 13 ["斯堪地那維亞", "KIX"]]

/-- `expected_data` of the test. -/
def trips : List (Res Datum) :=
  [dat "我想訂明天從紐約飛到新加坡的機票" [0] [ent 1 "明天" 3 5, ent 2 "紐約" 6 8, ent 3 "新加坡" 10 13],
   dat "我想訂明天從紐約飛到斯堪地那維亞的機票" [0]
    [ent 1 "明天" 3 5, ent 2 "紐約" 6 8, ent 3 "斯堪地那維亞" 10 16],
   dat "我想訂明天從紐約飛到KIX的機票" [0] [ent 1 "明天" 3 5, ent 2 "紐約" 6 8, ent 3 "KIX" 10 13],
   dat "我想訂下禮拜二從紐約飛到新加坡的機票" [0]
    [ent 1 "下禮拜二" 3 7, ent 2 "紐約" 8 10, ent 3 "新加坡" 12 15],
   dat "我想訂下禮拜二從紐約飛到斯堪地那維亞的機票" [0]
    [ent 1 "下禮拜二" 3 7, ent 2 "紐約" 8 10, ent 3 "斯堪地那維亞" 12 18],
   dat "我想訂下禮拜二從紐約飛到KIX的機票" [0]
    [ent 1 "下禮拜二" 3 7, ent 2 "紐約" 8 10, ent 3 "KIX" 12 15]]

/-- Every result is one of the expected data. -/
def among (rs : List Datum) (l : List (Res Datum)) : Bool :=
  rs.all fun d => l.any fun e => holds e (d.eq ·)

example : holds (do expandByEntities rev (← trip) none true)
    (fun l => l.length == 6 && among l trips) = true := by decide +kernel
example : holds (do expandByEntities rev (← trip) none false)
    (fun l => l.length == 2 && among l (trips.drop 4)) = true := by decide +kernel
example : holds (dat "薄餡亂入" [0] []) (fun d =>
    gives (expandByEntities rev d none true) [d] && gives (expandByEntities rev d none false) [d]) = true := by
  decide +kernel
example : both (aggregateEntities (tk ["我想喝", "珍奶", "半糖"]) [none, some 1, some 2] 0)
    ([ent 1 "珍奶" 3 5, ent 2 "半糖" 5 7].mapM id) (fun a b => decide (a = b)) = true := by decide +kernel

/-! `tests/test_get_unique_entities.py` -/
example : holds (dat "家豪大大喜歡吃豪大雞排" [0]
      [ent 1 "豪大" 7 9 ["肯德基", "麥噹噹"], ent 2 "雞排" 9 11 ["漢堡", "薯條", "滷肉飯"]])
    (fun d => setEq (getUniqueEntities rev [d]) [1, 2]) = true := by decide +kernel

/-! `toolkits/tests/test_get_kth_combination.py` -/
def kth (k : Int) : Res (List Str) :=
  getKthCombination [tk ["1", "2", "3"], tk ["A", "B", "C"], tk ["I", "II"]] k

example : (((List.range 18).map fun k : Nat => kth k).zip
    [["1", "A", "I"], ["2", "A", "I"], ["3", "A", "I"], ["1", "B", "I"], ["2", "B", "I"], ["3", "B", "I"],
     ["1", "C", "I"], ["2", "C", "I"], ["3", "C", "I"], ["1", "A", "II"], ["2", "A", "II"],
     ["3", "A", "II"], ["1", "B", "II"], ["2", "B", "II"], ["3", "B", "II"], ["1", "C", "II"],
     ["2", "C", "II"], ["3", "C", "II"]]).all (fun p => gives p.1 (tk p.2)) = true := by decide +kernel

/-! `toolkits/tests/test_partition_by_entities.py` -/
def partsAre (d : Res Datum) (orig : Bool) (parts : List (List String)) (labels : List (Option Int)) :
    Bool :=
  holds d fun d =>
    let r := partitionByEntities rev d orig
    r.1.length == parts.length && (r.1.zip parts).all (fun p => setEq p.1 (tk p.2)) &&
      decide (r.2 = labels)

def trip2 : Res Datum :=
  dat "我想訂明天從紐約飛到新加坡的機票" [0]
    [ent 0 "明天" 3 5 ["下禮拜二"], ent 1 "紐約" 6 8, ent 2 "新加坡" 10 13 ["斯堪地那維亞", "KIX"]]

example : partsAre trip2 false
    [["我想訂"], ["下禮拜二"], ["從"], ["紐約"], ["飛到"], ["斯堪地那維亞", "KIX"], ["的機票"]]
    [none, some 0, none, some 1, none, some 2, none] = true := by decide +kernel
example : partsAre trip2 true
    [["我想訂"], ["明天", "下禮拜二"], ["從"], ["紐約"], ["飛到"], ["新加坡", "斯堪地那維亞", "KIX"], ["的機票"]]
    [none, some 0, none, some 1, none, some 2, none] = true := by decide +kernel
example : partsAre (dat "薄餡亂入" [0] []) true [["薄餡亂入"]] [none] = true := by decide +kernel
example : partsAre (dat "薄餡亂入" [0] []) false [["薄餡亂入"]] [none] = true := by decide +kernel

/-! `transformers/tests/test_ordinal_label.py` -/
def names (l : List (String × Int)) : List (Str × Int) := l.map fun p => (p.1.toList, p.2)

def tx : Res OrdinalLabel :=
  OrdinalLabel.new (names [("HI", 0), ("BYE", 1), ("ORDER", 2)]) (names [("ITEM", 1), ("SUGAR", 2)]) 0

/-- `TRANSFORMATION_PAIRS` -/
def pairs : List (RawDatum × Res Datum) :=
  [(⟨"你好".toList, tk ["HI"], none⟩, dat "你好" [0] []),
   (⟨"我想喝珍奶半糖".toList, tk ["ORDER"],
      some [⟨"ITEM".toList, 3, 5, some (tk ["拿鐵", "多多綠", "紅茶"])⟩,
        ⟨"SUGAR".toList, 5, 7, some (tk ["無糖", "全糖"])⟩]⟩,
    dat "我想喝珍奶半糖" [2] [ent 1 "珍奶" 3 5 ["拿鐵", "多多綠", "紅茶"], ent 2 "半糖" 5 7 ["無糖", "全糖"]])]

def rawAlike (a b : RawDatum) : Bool :=
  a.utterance == b.utterance && setEq a.names b.names &&
  a.entities.isSome == b.entities.isSome &&
  (a.entities.getD []).length == (b.entities.getD []).length &&
  ((a.entities.getD []).zip (b.entities.getD [])).all fun p =>
    p.1.name == p.2.name && p.1.start == p.2.start && p.1.stop == p.2.stop &&
    setEq (p.1.replacements.getD []) (p.2.replacements.getD [])

example : OrdinalLabel.isValidMapping (names [("HI", 0), ("BYE", 1), ("ORDER", 2)]) = true := by decide +kernel
example : OrdinalLabel.isValidMapping (names [("HI", 0), ("BYE", 1), ("ORDER", 1)]) = false := by decide +kernel
example : OrdinalLabel.isValidMapping (names [("HI", 0), ("BYE", 1), ("ORDER", 3)]) = false := by decide +kernel
example : OrdinalLabel.isValidMapping (names [("HI", -1), ("BYE", 0), ("ORDER", 1)]) = false := by decide +kernel
example : pairs.all (fun p =>
    holds (do (← tx).humanize rev (← p.2)) fun r => rawAlike r p.1) = true := by decide +kernel
example : pairs.all (fun p => both (do (← tx).machanize p.1) p.2 Datum.eq) = true := by decide +kernel
example : holds (do
    let t ← OrdinalLabel.new (names [("HI", 0), ("BYE", 1), ("ORDER", 2)])
      (names [("DRINK", 1), ("SIZE", 2)]) 0
    return (t, ← OrdinalLabel.deserialize t.serialize)) (fun p => decide (p.1 = p.2)) = true := by
  decide +kernel

def raw : List RawDatum :=
  [⟨"你好".toList, tk ["GREETINGS"], none⟩,
   ⟨"我想喝珍奶半糖".toList, tk ["ORDER"],
      some [⟨"ITEM".toList, 3, 5, some (tk ["拿鐵", "多多綠", "紅茶"])⟩,
        ⟨"SUGAR".toList, 5, 7, some (tk ["無糖", "全糖"])⟩]⟩]

example : gives (OrdinalLabel.fromRawDictionary raw 0)
    ⟨names [("GREETINGS", 0), ("ORDER", 1)], names [("ITEM", 1), ("SUGAR", 2)], 0⟩ = true := by decide +kernel
example : gives (OrdinalLabel.fromRawDictionary raw 1)
    ⟨names [("GREETINGS", 0), ("ORDER", 1)], names [("ITEM", 0), ("SUGAR", 2)], 1⟩ = true := by decide +kernel
example : gives (OrdinalLabel.fromRawDictionary raw 2)
    ⟨names [("GREETINGS", 0), ("ORDER", 1)], names [("ITEM", 0), ("SUGAR", 1)], 2⟩ = true := by decide +kernel

/-! `pipeline/tests/test_utils.py` -/
example : gives (do
    unpackDatum (← dat "我想訂明天從紐約飛到新加坡的機票" [1]
      [ent 1 "新加坡" 10 13 ["斯堪地那維亞", "KIX"], ent 2 "明天" 3 5 ["下禮拜二"], ent 3 "紐約" 6 8]))
    ("我想訂明天從紐約飛到新加坡的機票".toList, [1], [0, 0, 0, 2, 2, 0, 3, 3, 0, 0, 1, 1, 1, 0, 0, 0]) = true := by
  decide +kernel

def packs (u : String) (is ls : List Int) (d : Res Datum) : Bool :=
  both d (packToDatum u.toList is ls) Datum.eq

example : packs "abb" [1, 2] [1, 2, 2] (dat "abb" [1, 2] [ent 1 "a" 0 1, ent 2 "bb" 1 3]) = true := by
  decide +kernel
example : packs "acbb" [1, 2] [1, 0, 2, 2] (dat "acbb" [1, 2] [ent 1 "a" 0 1, ent 2 "bb" 2 4]) = true := by
  decide +kernel
example : packs " acbb" [1, 2] [0, 1, 0, 2, 2] (dat " acbb" [1, 2] [ent 1 "a" 1 2, ent 2 "bb" 3 5]) = true := by
  decide +kernel
example : packs " acbbo" [1, 2] [0, 1, 0, 2, 2, 0]
    (dat " acbbo" [1, 2] [ent 1 "a" 1 2, ent 2 "bb" 3 5]) = true := by decide +kernel
example : packs "abb" [1, 2, 2, 1, 1, 1] [1, 2, 2]
    (dat "abb" [1, 2] [ent 1 "a" 0 1, ent 2 "bb" 1 3]) = true := by decide +kernel
example : packs "abc" [1, 2] [1, 2, 3]
    (dat "abc" [1, 2] [ent 1 "a" 0 1, ent 2 "b" 1 2, ent 3 "c" 2 3]) = true := by decide +kernel
example : fails (packToDatum "abb".toList [1, 2] [1, 3]) .valueError = true := by decide +kernel

/-! `pipeline/ops/utils/tests/test_trie.py`, `test_consistent_hash.py` -/
example : holds (Trie.insert TrieNode.empty "abc".toList) (fun t =>
    t.exactlySearch "abc".toList && !t.exactlySearch "ab".toList && !t.exactlySearch "zxy".toList) = true := by
  decide +kernel
example : holds (do (← Trie.insert TrieNode.empty "珍奶".toList).insert "珍奶去冰".toList) (fun t =>
    t.matchPrefix "珍奶去冰".toList == some "珍奶去冰".toList &&
    t.matchPrefix "珍奶去冰".toList true == some "珍奶".toList &&
    t.matchPrefix "珍奶去冰謝謝".toList == some "珍奶去冰".toList &&
    t.matchPrefix "我想要珍奶去冰".toList == none) = true := by decide +kernel
example : consistentHash "隼興".toList 100 = 15 := by decide +kernel
example : consistentHash "希臘優格".toList 100 = 51 := by decide +kernel

end Conform
end Uttut
