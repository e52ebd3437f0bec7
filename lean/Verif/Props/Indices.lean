import Verif.Props.Equality

/-! C84: with which exception a dict of indices with other values than numbers is refused. -/

namespace Uttut

open Spec

/-- A text. -/
def IsText (v : PyVal) : Prop := ∃ s, v = .str s

/-- Two keys have equal values. -/
def TwoEqual (d : List (Str × PyVal)) : Prop := ∃ k v k' v', (k, v) ∈ d ∧ (k', v') ∈ d ∧ k ≠ k' ∧ Equal v v'

theorem isStr_iff (v : PyVal) : v.isStr = true ↔ IsText v := by
  cases v with
  | str s => exact ⟨fun _ => ⟨s, rfl⟩, fun _ => rfl⟩
  | _ => exact ⟨fun h => (by cases h), fun ⟨_, h⟩ => (by cases h)⟩

theorem indexFault_cases (d : List (Str × PyVal)) (hd : (d.map Prod.fst).Nodup) (hw : ∀ kv ∈ d, WellKeyed kv.2) :
    ((∃ kv ∈ d, Unhashable kv.2) → PyVal.indexFault (d.map Prod.snd) = .typeError) ∧
    ((∀ kv ∈ d, ¬ Unhashable kv.2) →
      (TwoEqual d ∨ d.length = 1 ∨ (∀ kv ∈ d, IsText kv.2) → PyVal.indexFault (d.map Prod.snd) = .valueError) ∧
      (¬ TwoEqual d → d.length ≠ 1 → ¬ (∀ kv ∈ d, IsText kv.2) →
        PyVal.indexFault (d.map Prod.snd) = .typeError)) := by
  have hhash : ∀ v : PyVal, v.hashable = true ↔ ¬ Unhashable v := fun v => by
    rw [← unhashable_iff]
    simp
  have hall : (d.map Prod.snd).all PyVal.hashable = true ↔ ∀ kv ∈ d, ¬ Unhashable kv.2 := by
    simp only [List.all_map, List.all_eq_true, Function.comp]
    exact forall₂_congr fun kv _ => hhash kv.2
  have hstr : (d.map Prod.snd).all PyVal.isStr = true ↔ ∀ kv ∈ d, IsText kv.2 := by
    simp only [List.all_map, List.all_eq_true, Function.comp]
    exact forall₂_congr fun kv _ => isStr_iff kv.2
  have hrep := repeated_iff hd hw
  refine ⟨fun ⟨kv, hkv, hu⟩ => ?_, fun hno => ⟨fun h => ?_, fun h1 h2 h3 => ?_⟩⟩
  · have : (d.map Prod.snd).all PyVal.hashable = false := by
      rw [← Bool.not_eq_true, hall]
      exact fun h => h kv hkv hu
    unfold PyVal.indexFault
    rw [if_pos this]
  · have h0 := hall.mpr hno
    unfold PyVal.indexFault
    rw [if_neg (by rw [h0]; decide)]
    by_cases hr : PyVal.repeated (d.map Prod.snd) = true
    · rw [if_pos hr]
    · rw [if_neg hr, if_pos]
      rcases h with h | h | h
      · exact absurd (hrep.mpr h) hr
      · simp [h]
      · rw [hstr.mpr h, Bool.or_true]
  · have h0 := hall.mpr hno
    unfold PyVal.indexFault
    rw [if_neg (by rw [h0]; decide), if_neg (fun h => h1 (hrep.mp h)), if_neg]
    intro h
    rw [Bool.or_eq_true] at h
    rcases h with h | h
    · exact h2 (by simpa using h)
    · exact h3 (hstr.mp h)

/-- C84: a dict of indices with a value that is no number (tuples apart) is refused: with TypeError if a value cannot be
hashed; otherwise with ValueError if two values are equal, if it is the only value, or if all values are texts; and with
TypeError in all other cases. -/
theorem C84_no_number (env : Env) (args : List PyVal) (kwargs : List (Str × PyVal)) (d : List (Str × PyVal))
    (hd : (d.map Prod.fst).Nodup) (hw : ∀ kv ∈ d, WellKeyed kv.2) (hn : ∃ kv ∈ d, ¬ ∃ i, IsNumber kv.2 i)
    (_ht : ∀ kv ∈ d, ∀ l, kv.2 ≠ .tuple l) (name : String)
    (hb : (name = "Token2Index" ∧ ∃ u, bound token2indexParams args kwargs = some [.dict d, u]) ∨
      (name = "Token2IndexwithHash" ∧ bound token2indexHashParams args kwargs = some [.dict d])) :
    ((∃ kv ∈ d, Unhashable kv.2) → create env name args kwargs = .error .typeError) ∧
    ((∀ kv ∈ d, ¬ Unhashable kv.2) →
      (TwoEqual d ∨ d.length = 1 ∨ (∀ kv ∈ d, IsText kv.2) → create env name args kwargs = .error .valueError) ∧
      (¬ TwoEqual d → d.length ≠ 1 → ¬ (∀ kv ∈ d, IsText kv.2) →
        create env name args kwargs = .error .typeError)) := by
  have key : create env name args kwargs = .error (PyVal.indexFault (d.map Prod.snd)) := by
    rcases hb with ⟨rfl, u, hb⟩ | ⟨rfl, hb⟩
    · obtain ⟨_, h2, _⟩ := create_eq (env := env) (name := "Token2Index") (c := Builtin.token2index env) rfl
        token2indexParams rfl rfl (by decide) args kwargs
      refine h2 _ _ hb ?_
      show ((PyVal.dict d).asIndex >>= _) = _
      rw [asIndex_refused hn]
      rfl
    · obtain ⟨_, h2, _⟩ := create_eq (env := env) (name := "Token2IndexwithHash")
        (c := Builtin.token2indexHash env) rfl token2indexHashParams rfl rfl (by decide) args kwargs
      refine h2 _ _ hb ?_
      show ((PyVal.dict d).asIndex >>= _) = _
      rw [asIndex_refused hn]
      rfl
  rw [key]
  obtain ⟨h1, h2⟩ := indexFault_cases d hd hw
  refine ⟨fun h => by rw [h1 h], fun h => ⟨fun g => by rw [(h2 h).1 g], fun a b c => by rw [(h2 h).2 a b c]⟩⟩

/-- The hypotheses are met: a text beside a number is a TypeError, texts alone, equal values and a single value are a
ValueError, a list is a TypeError. -/
example (env : Env) :
    create env "Token2IndexwithHash" [.dict [(['a'], .int 0), (['b'], .str ['1'])]] [] = .error .typeError ∧
    create env "Token2IndexwithHash" [.dict [(['a'], .str ['0']), (['b'], .str ['1'])]] [] = .error .valueError ∧
    create env "Token2IndexwithHash" [.dict [(['a'], .none), (['b'], .none)]] [] = .error .valueError ∧
    create env "Token2IndexwithHash" [.dict [(['a'], .none)]] [] = .error .valueError ∧
    create env "Token2IndexwithHash" [.dict [(['a'], .int 0), (['b'], .list [])]] [] = .error .typeError := by
  have hno : ¬ ∃ i, IsNumber .none i := fun ⟨_, h⟩ => nomatch h
  have hst : ∀ s, ¬ ∃ i, IsNumber (.str s) i := fun _ ⟨_, h⟩ => nomatch h
  have hli : ∀ s, ¬ ∃ i, IsNumber (.list s) i := fun _ ⟨_, h⟩ => nomatch h
  have w : ∀ {x y : Str × PyVal} {P : PyVal → Prop}, P x.2 → P y.2 → ∀ kv ∈ [x, y], P kv.2 := by
    intro x y P h1 h2 kv hkv
    rcases List.mem_cons.mp hkv with rfl | hkv
    · exact h1
    · rcases List.mem_cons.mp hkv with rfl | hkv
      · exact h2
      · cases hkv
  refine ⟨?_, ?_, ?_, ?_, ?_⟩
  · refine ((C84_no_number env _ [] _ (by decide) (w (.int _) (.str _)) ⟨_, List.mem_cons_of_mem _ List.mem_cons_self,
      hst _⟩ (w (P := fun v => ∀ l, v ≠ .tuple l) (by rintro _ ⟨⟩) (by rintro _ ⟨⟩)) _ (.inr ⟨rfl, rfl⟩)).2
      (w (P := fun v => ¬ Unhashable v) (by rintro ⟨⟩) (by rintro ⟨⟩))).2 ?_ (by decide) fun h => ?_
    · rintro ⟨k, v, k', v', h1, h2, h3, h4⟩
      simp only [List.mem_cons, List.not_mem_nil, or_false, Prod.mk.injEq] at h1 h2
      rcases h1 with ⟨rfl, rfl⟩ | ⟨rfl, rfl⟩ <;> rcases h2 with ⟨rfl, rfl⟩ | ⟨rfl, rfl⟩
      · exact h3 rfl
      · cases h4 with | number _ _ _ _ h => cases h
      · cases h4 with | number _ _ _ h => cases h
      · exact h3 rfl
    · obtain ⟨_, h⟩ := h _ List.mem_cons_self
      cases h
  · exact ((C84_no_number env _ [] _ (by decide) (w (.str _) (.str _)) ⟨_, List.mem_cons_self, hst _⟩
      (w (P := fun v => ∀ l, v ≠ .tuple l) (by rintro _ ⟨⟩) (by rintro _ ⟨⟩)) _ (.inr ⟨rfl, rfl⟩)).2
      (w (P := fun v => ¬ Unhashable v) (by rintro ⟨⟩) (by rintro ⟨⟩))).1 (.inr (.inr (w ⟨_, rfl⟩ ⟨_, rfl⟩)))
  · exact ((C84_no_number env _ [] _ (by decide) (w .none .none) ⟨_, List.mem_cons_self, hno⟩
      (w (P := fun v => ∀ l, v ≠ .tuple l) (by rintro _ ⟨⟩) (by rintro _ ⟨⟩)) _ (.inr ⟨rfl, rfl⟩)).2
      (w (P := fun v => ¬ Unhashable v) (by rintro ⟨⟩) (by rintro ⟨⟩))).1
      (.inl ⟨['a'], .none, ['b'], .none, List.mem_cons_self, List.mem_cons_of_mem _ List.mem_cons_self, by decide, .none⟩)
  · exact ((C84_no_number env _ [] [(['a'], .none)] (by decide) (fun kv h => List.mem_singleton.mp h ▸ .none)
      ⟨_, List.mem_cons_self, hno⟩ (fun kv h => by rw [List.mem_singleton.mp h]; rintro _ ⟨⟩) _ (.inr ⟨rfl, rfl⟩)).2
      (fun kv h => by rw [List.mem_singleton.mp h]; rintro ⟨⟩)).1 (.inr (.inl rfl))
  · exact (C84_no_number env _ [] _ (by decide) (w (.int _) (.list _ (by rintro _ ⟨⟩))) ⟨_, List.mem_cons_of_mem _
      List.mem_cons_self, hli _⟩ (w (P := fun v => ∀ l, v ≠ .tuple l) (by rintro _ ⟨⟩) (by rintro _ ⟨⟩)) _
      (.inr ⟨rfl, rfl⟩)).1 ⟨_, List.mem_cons_of_mem _ List.mem_cons_self, .list _⟩

end Uttut
