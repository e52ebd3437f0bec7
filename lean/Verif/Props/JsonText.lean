import Verif.Spec.Listed
import Verif.Lemmas.JsonText
import Verif.Props.Serialize

/-! C78: which texts are read as JSON, and that what is written is JSON. -/

namespace Uttut
open Spec Spec.JsonText

/-- C78: a text is read as the value `v` exactly when the grammar of JSON says that it stands for `v`. -/
theorem C78_json (text : Str) (v : PyVal) : Json.loads text = .ok v ↔ IsJson text v := Json.loads_iff text v

/-- C78: every other text raises ValueError. -/
theorem C78_not_json (text : Str) : Json.loads text = .error .valueError ↔ ¬ ∃ v, IsJson text v := by
  constructor
  · rintro h ⟨v, hv⟩
    rw [(C78_json text v).mpr hv] at h
    cases h
  · intro h
    unfold Json.loads
    split
    · rfl
    · next v r hv =>
      split
      · next he =>
        refine absurd ⟨v, (C78_json text v).mp ?_⟩ h
        unfold Json.loads
        rw [hv]
        dsimp only
        rw [if_pos he]
      · rfl

/-- C78: no text stands for two values. -/
theorem C78_json_one (text : Str) (v w : PyVal) (hv : IsJson text v) (hw : IsJson text w) : v = w := by
  have h := (C78_json text v).mpr hv
  rw [(C78_json text w).mpr hw] at h
  injection h with h
  exact h.symm

/-- C78: a value without tuples is written as a text that stands for it, in every layout. -/
theorem C78_dumps (a : Bool) (ind : Json.Layout) (v : PyVal) (hp : Plain v) : IsJson (Json.dumps a ind v) v :=
  (C78_json _ _).mp (Json.loads_dumps a ind v hp)

/-! ### Tuples -/

theorem allAsLists_eq (l : List PyVal) : allAsLists l = l.map asLists := by
  induction l with
  | nil => rfl
  | cons v l ih => simp only [allAsLists, ih, List.map_cons]

theorem valuesAsLists_eq (d : List (Str × PyVal)) : valuesAsLists d = d.map fun kv => (kv.1, asLists kv.2) := by
  induction d with
  | nil => rfl
  | cons kv d ih => obtain ⟨k, v⟩ := kv; simp only [valuesAsLists, ih, List.map_cons]

theorem valuesAsLists_keys (d : List (Str × PyVal)) : (valuesAsLists d).map Prod.fst = d.map Prod.fst := by
  rw [valuesAsLists_eq, List.map_map]
  rfl

theorem asLists_plain {v : PyVal} (h : WellKeyed v) : Plain (asLists v) := by
  induction h with
  | none => exact .none
  | bool b => exact .bool b
  | int i => exact .int i
  | str s => exact .str s
  | list l _ ih =>
    refine .list _ fun v hv => ?_
    rw [allAsLists_eq] at hv
    obtain ⟨w, hw, rfl⟩ := List.mem_map.mp hv
    exact ih w hw
  | tuple l _ ih =>
    refine .list _ fun v hv => ?_
    rw [allAsLists_eq] at hv
    obtain ⟨w, hw, rfl⟩ := List.mem_map.mp hv
    exact ih w hw
  | dict d hk _ ih =>
    refine .dict _ (by rw [valuesAsLists_keys]; exact hk) fun kv hkv => ?_
    rw [valuesAsLists_eq] at hkv
    obtain ⟨w, hw, rfl⟩ := List.mem_map.mp hkv
    exact ih w hw

theorem dumpItems_asLists (a : Bool) (ind : Json.Layout) (l : List PyVal) (level : Nat)
    (h : ∀ v ∈ l, ∀ level, Json.dump a ind level (asLists v) = Json.dump a ind level v) :
    Json.dumpItems a ind level (allAsLists l) = Json.dumpItems a ind level l := by
  induction l with
  | nil => rfl
  | cons v l ih =>
    simp only [allAsLists, Json.dumpItems]
    rw [h v (List.mem_cons_self ..), ih fun w hw => h w (List.mem_cons_of_mem _ hw)]

theorem dumpPairs_asLists (a : Bool) (ind : Json.Layout) (d : List (Str × PyVal)) (level : Nat)
    (h : ∀ kv ∈ d, ∀ level, Json.dump a ind level (asLists kv.2) = Json.dump a ind level kv.2) :
    Json.dumpPairs a ind level (valuesAsLists d) = Json.dumpPairs a ind level d := by
  induction d with
  | nil => rfl
  | cons kv d ih =>
    obtain ⟨k, v⟩ := kv
    simp only [valuesAsLists, Json.dumpPairs]
    rw [h (k, v) (List.mem_cons_self ..), ih fun w hw => h w (List.mem_cons_of_mem _ hw)]

theorem dump_asLists (a : Bool) (ind : Json.Layout) {v : PyVal} (hw : WellKeyed v) (level : Nat) :
    Json.dump a ind level (asLists v) = Json.dump a ind level v := by
  induction hw generalizing level with
  | none => rfl
  | bool b => rfl
  | int i => rfl
  | str s => rfl
  | list l _ ih =>
    cases l with
    | nil => rfl
    | cons v l =>
      simp only [asLists, allAsLists, Json.dump]
      rw [ih v (List.mem_cons_self ..), dumpItems_asLists a ind l _ fun w hw => ih w (List.mem_cons_of_mem _ hw)]
  | tuple l _ ih =>
    cases l with
    | nil => rfl
    | cons v l =>
      simp only [asLists, allAsLists, Json.dump]
      rw [ih v (List.mem_cons_self ..), dumpItems_asLists a ind l _ fun w hw => ih w (List.mem_cons_of_mem _ hw)]
  | dict d _ _ ih =>
    cases d with
    | nil => rfl
    | cons kv d =>
      obtain ⟨k, v⟩ := kv
      simp only [asLists, valuesAsLists, Json.dump]
      rw [ih (k, v) (List.mem_cons_self ..), dumpPairs_asLists a ind d _ fun w hw => ih w (List.mem_cons_of_mem _ hw)]

/-- C78: every value is written as a text that stands for it with lists for its tuples. -/
theorem C78_dumps_tuples (a : Bool) (ind : Json.Layout) (v : PyVal) (hw : WellKeyed v) :
    IsJson (Json.dumps a ind v) (asLists v) := by
  have h := C78_dumps a ind (asLists v) (asLists_plain hw)
  unfold Json.dumps at h ⊢
  rwa [dump_asLists a ind hw] at h

/-- C78: an operator is written as JSON for an object with its class name and its arguments. -/
theorem C78_operator_written (op : Op) (hk : (op.configs.map Prod.fst).Nodup) (hw : ∀ kv ∈ op.configs, WellKeyed kv.2) :
    IsJson op.serialize (.dict [("op_name".toList, .str op.cls.name),
      ("op_kwargs".toList, .dict (op.configs.map fun kv => (kv.1, asLists kv.2)))]) := by
  have h := C78_dumps_tuples false (some 2) op.toDict (.dict _ (by simp) (by
    intro kv hkv
    simp only [List.mem_cons, List.not_mem_nil, or_false] at hkv
    rcases hkv with rfl | rfl
    · exact .str _
    · exact .dict _ hk hw))
  rw [← valuesAsLists_eq]
  exact h

/-- C78: a pipe is written as JSON for an object with the texts of its steps and its checkpoints. -/
theorem C78_pipe_written (p : Pipe) (hk : (p.checkpoints.map Prod.fst).Nodup) :
    IsJson p.serialize (.dict [("steps".toList, .list (p.steps.map fun op => .str op.serialize)),
      ("checkpoints".toList, .dict (p.checkpoints.map fun kv => (kv.1, .int kv.2)))]) := by
  refine C78_dumps _ _ _ (.dict _ (by simp) ?_)
  intro kv hkv
  simp only [List.mem_cons, List.not_mem_nil, or_false] at hkv
  rcases hkv with rfl | rfl
  · refine .list _ fun v hv => ?_
    obtain ⟨op, _, rfl⟩ := List.mem_map.mp hv
    exact .str _
  · refine .dict _ (by rw [List.map_map]; exact hk) fun kv hkv => ?_
    obtain ⟨c, _, rfl⟩ := List.mem_map.mp hkv
    exact .int _

/-! ### Examples -/

/-- `[ -10, "a\né" ,{"k":1,"j":null,"k":[]} ]`: white space, a negative number, escapes, a repeated key. -/
def exJson : Str := "[ -10, \"a\\n\\u00e9\" ,{\"k\":1,\"j\":null,\"k\":[]} ]\n".toList

theorem exJson_isJson : IsJson exJson (.list [.int (-10), .str ['a', '\n', 'é'],
    .dict [("k".toList, .list []), ("j".toList, .none)]]) := by
  have d1 : Digits "10".toList 10 := by
    have := Digits.snoc (Digits.snoc .nil (c := '1') (k := 1) rfl) (c := '0') (k := 0) rfl
    exact this
  have d2 : Digits "1".toList 1 := Digits.snoc .nil (c := '1') (k := 1) rfl
  have n1 : Text "-10".toList (.value (.int (-10))) := .int (.neg (c := '1') (by decide) d1)
  have n2 : Text "1".toList (.value (.int 1)) := .int (.pos (c := '1') (by decide) d2)
  have b1 : Body "a\\n\\u00e9".toList ['a', '\n', 'é'] := by
    have hx : Hex4 "00e9".toList 233 := ⟨'0', '0', 'e', '9', 0, 0, 14, 9, rfl, Or.inl rfl, Or.inl rfl, Or.inl rfl, Or.inl rfl, rfl⟩
    exact .plain 'a' (by decide) (by decide) (by decide) (.short 'n' '\n' (by decide) (.unit "00e9".toList 233 hx (by decide) .nil))
  have hj : Body "j".toList "j".toList := .plain 'j' (by decide) (by decide) (by decide) .nil
  have hk : Body "k".toList "k".toList := .plain 'k' (by decide) (by decide) (by decide) .nil
  have w0 : Ws [] := by intro c h; cases h
  have w1 : Ws [' '] := by intro c h; rw [List.mem_singleton.mp h]; decide
  have w2 : Ws ['\n'] := by intro c h; rw [List.mem_singleton.mp h]; decide
  have s1 := Text.str b1
  have hd := Json.dictOf_foldl [("k".toList, .int 1), ("j".toList, .none), ("k".toList, .list [])]
  have o1 := Text.dict w0 (.pair hk w0 w0 n2 w0 w0 (.pair hj w0 w0 .null w0 w0 (.lastPair hk w0 w0 (.emptyList w0) w0))) hd
  exact ⟨[], _, ['\n'], w0, w2, .list w1 (.item n1 w0 w1 (.item s1 w1 w0 (.lastItem o1 w1))), rfl⟩

example := C78_json exJson _ |>.mpr exJson_isJson

/-- A tuple argument is written as a list. -/
example : IsJson (Json.dumps false (some 2) (.tuple [.int 1, .tuple []])) (.list [.int 1, .list []]) :=
  C78_dumps_tuples _ _ _ (.tuple _ (by
    intro v hv
    simp only [List.mem_cons, List.not_mem_nil, or_false] at hv
    rcases hv with rfl | rfl
    · exact .int 1
    · exact .tuple _ (by intro v hv; cases hv)))

/-- The stored form of `Pad(3)`. -/
example := C78_operator_written exPadOp (by decide) (by
  intro kv hkv
  simp only [exPadOp, List.mem_cons, List.not_mem_nil, or_false] at hkv
  rcases hkv with rfl | rfl
  · exact .int 3
  · exact .str _)

example := C78_pipe_written ⟨[exPadOp], [("a".toList, 1)]⟩ (by decide)

end Uttut
