import Verif.Spec.LoadLabels
import Verif.Props.Load
import Verif.Props.Ordinal

/-! C56: which texts load as a label transformer, and what they load as. -/

namespace Uttut
open Spec Spec.JsonText OrdinalLabel

theorem number?_iff {v : PyVal} {i : Int} : number? v = some i ↔ EqualsInt v i := by
  constructor
  · intro h
    unfold number? at h
    split at h
    · cases h; exact .int _
    · rename_i b
      cases b <;> (cases h; constructor)
    · cases h
  · rintro (_ | _ | _) <;> rfl

theorem numbers_ok {vs : List PyVal} {is : List Int} : numbers vs = .ok is ↔ vs.mapM number? = some is := by
  unfold numbers
  cases vs.mapM number? with
  | some js => simp
  | none =>
    simp only
    split <;> simp

theorem mappingOf_iff {d : List (Str × PyVal)} {m : List (Str × Int)} : mappingOf d = .ok m ↔ Numbers d m := by
  have key : ∀ (d : List (Str × PyVal)) (is : List Int), (d.map Prod.snd).mapM number? = some is →
      Numbers d ((d.map Prod.fst).zip is) := by
    intro d
    induction d with
    | nil => intro is h; cases h; exact .nil
    | cons kv d ih =>
      intro is h
      rw [List.map_cons, List.mapM_cons] at h
      cases h1 : number? kv.2 with
      | none => rw [h1] at h; cases h
      | some i =>
        cases h2 : (d.map Prod.snd).mapM number? with
        | none => rw [h1, h2] at h; cases h
        | some is' =>
          rw [h1, h2] at h
          cases h
          exact .cons kv.1 (number?_iff.mp h1) (ih _ h2)
  constructor
  · intro h
    obtain ⟨is, h1, h⟩ := bind_eq_ok h
    cases h
    exact key d is (numbers_ok.mp h1)
  · intro h
    have : (d.map Prod.snd).mapM number? = some (m.map Prod.snd) ∧ (d.map Prod.fst).zip (m.map Prod.snd) = m := by
      induction h with
      | nil => exact ⟨rfl, rfl⟩
      | cons name h hs ih =>
        rw [List.map_cons, List.mapM_cons, number?_iff.mpr h, ih.1]
        exact ⟨rfl, by simpa using ih.2⟩
    unfold mappingOf
    rw [numbers_ok.mpr this.1]
    show Except.ok _ = _
    rw [this.2]

theorem numbers_set {d : List (Str × PyVal)} {m : List (Str × Int)} (k : Str) {v : PyVal} {i : Int} (h : Numbers d m)
    (hv : EqualsInt v i) : Numbers (dictSet d k v) (dictSet m k i) := by
  induction h with
  | nil => exact .cons k hv .nil
  | cons name h hs ih =>
    simp only [dictSet]
    split
    · exact .cons k hv hs
    · exact .cons name h ih

theorem set_perm (m : List (Str × Int)) (i : Int) :
    ((dictSet m notEntityName i).map Prod.snd).Perm (i :: (unreserved m).map Prod.snd) := by
  induction m with
  | nil => exact .refl _
  | cons kv m ih =>
    unfold unreserved
    by_cases h : kv.1 = notEntityName
    · rw [dictSet, if_pos h, List.eraseP_cons_of_pos (by exact decide_eq_true h)]
      exact .refl _
    · rw [dictSet, if_neg h, List.eraseP_cons_of_neg (by exact fun e => h (of_decide_eq_true e))]
      exact (List.Perm.cons _ ih).trans (.swap ..)

theorem new_iff (i2x e2x : List (Str × Int)) (ne : Int) (t : OrdinalLabel) :
    OrdinalLabel.new i2x e2x ne = .ok t ↔ t = ⟨i2x, e2x, ne⟩ ∧ Accepted t := by
  constructor
  · intro h
    obtain ⟨rfl, h1, h2⟩ := new_cases h
    exact ⟨rfl, h1, (numbering_perm (set_perm _ _)).mp h2⟩
  · rintro ⟨rfl, h1, h2⟩
    exact (new_ok _ _ _).1 ⟨(isValidMapping_iff _).mpr h1, (isValidMapping_iff _).mpr ((numbering_perm (set_perm _ _)).mpr h2)⟩

/-- C56: a text loads as a transformer exactly if it is JSON for an object that stores it and the constructor accepts
its mappings. -/
theorem C56_loads (text : Str) (t : OrdinalLabel) :
    OrdinalLabel.deserialize text = .ok t ↔ ∃ v, IsJson text v ∧ StoresLabels v t ∧ Accepted t := by
  constructor
  · intro h
    unfold OrdinalLabel.deserialize at h
    obtain ⟨v, h0, h⟩ := bind_eq_ok h
    obtain ⟨i, h1, h⟩ := bind_eq_ok h
    obtain ⟨e, h2, h⟩ := bind_eq_ok h
    obtain ⟨n, h3, h⟩ := bind_eq_ok h
    obtain ⟨d, h4, h⟩ := bind_eq_ok h
    obtain ⟨i2x, h5, h⟩ := bind_eq_ok h
    split at h
    · obtain ⟨d', h6, h⟩ := bind_eq_ok h
      obtain ⟨_, _, h⟩ := bind_eq_ok h
      obtain ⟨e2x, h7, h⟩ := bind_eq_ok h
      split at h
      · rename_i k hk
        obtain ⟨rfl, ha⟩ := (new_iff _ _ _ _).mp h
        cases i <;> cases h4
        cases e <;> cases h6
        exact ⟨v, (C78_json _ _).mp h0, ⟨_, _, n, getItem_iff.mp h1, getItem_iff.mp h2, getItem_iff.mp h3, mappingOf_iff.mp h5,
          mappingOf_iff.mp h7, number?_iff.mp hk⟩, ha⟩
      · cases h
    · cases h
  · rintro ⟨v, h0, ⟨d, e, n, h1, h2, h3, h4, h5, h6⟩, ha⟩
    unfold OrdinalLabel.deserialize
    rw [(C78_json _ _).mpr h0, Except.bind_ok, getItem_iff.mpr h1, Except.bind_ok, getItem_iff.mpr h2, Except.bind_ok,
      getItem_iff.mpr h3, Except.bind_ok]
    show (mappingOf d >>= _) = _
    rw [mappingOf_iff.mpr h4, Except.bind_ok, if_pos ((isValidMapping_iff _).mpr ha.1)]
    show (mappingOf (dictSet e notEntityName n) >>= _) = _
    rw [mappingOf_iff.mpr (numbers_set _ h5 h6), Except.bind_ok, mappingOf_iff.mpr h5, Except.bind_ok, number?_iff.mpr h6]
    exact (new_iff _ _ _ _).mpr ⟨rfl, ha⟩

theorem mappingOf_unsortable {d : List (Str × PyVal)} (h : Unsortable (d.map Prod.snd)) : mappingOf d = .error .typeError := by
  obtain ⟨h1, v, hv, w, hw, h2⟩ := h
  unfold mappingOf numbers
  cases hm : (d.map Prod.snd).mapM number? with
  | some is =>
    exfalso
    have : Numbers d ((d.map Prod.fst).zip is) := by
      refine mappingOf_iff.mp ?_
      unfold mappingOf numbers
      rw [hm]
      rfl
    have : ∀ v ∈ d.map Prod.snd, ∃ i, EqualsInt v i := by
      clear hm hv hw h1
      generalize (d.map Prod.fst).zip is = m at this
      induction this with
      | nil => simp
      | cons name h hs ih =>
        intro v hv
        rcases List.mem_cons.mp hv with rfl | hv
        · exact ⟨_, h⟩
        · exact ih v hv
    obtain ⟨i, hi⟩ := this v hv
    obtain ⟨j, hj⟩ := this w hw
    exact h2 (Or.inl ⟨i, j, hi, hj⟩)
  | none =>
    dsimp only
    rw [if_neg]
    · rfl
    · rintro (h | h)
      · omega
      · have hs : ∀ v ∈ d.map Prod.snd, ∃ s, v = .str s := by
          intro v hv
          have := List.all_eq_true.mp h v hv
          split at this
          · exact ⟨_, rfl⟩
          · cases this
        obtain ⟨s, rfl⟩ := hs v hv
        obtain ⟨t, rfl⟩ := hs w hw
        exact h2 (Or.inr (Or.inl ⟨s, t, rfl, rfl⟩))

/-- C56: the exceptions of loading a transformer. -/
theorem C56_load_errors (text : Str) :
    ((¬ ∃ v, IsJson text v) → OrdinalLabel.deserialize text = .error .valueError) ∧
    ∀ v, IsJson text v →
      (NotObject v → OrdinalLabel.deserialize text = .error .typeError) ∧
      (Lacks v "intent2index" ∨ Lacks v "entity2index" ∨ Lacks v "not_entity_index" →
        OrdinalLabel.deserialize text = .error .keyError) ∧
      ∀ i e n, Entry v "intent2index" i → Entry v "entity2index" e → Entry v "not_entity_index" n →
        (NotObject i → OrdinalLabel.deserialize text = .error .attributeError) ∧
        (∀ d, i = .dict d → Unsortable (d.map Prod.snd) → OrdinalLabel.deserialize text = .error .typeError) ∧
        (∀ d m, i = .dict d → Numbers d m → ¬ IsNumbering (m.map Prod.snd) →
          OrdinalLabel.deserialize text = .error .valueError) ∧
        ∀ d m, i = .dict d → Numbers d m → IsNumbering (m.map Prod.snd) →
          (NotObject e → OrdinalLabel.deserialize text = .error .typeError) ∧
          (∀ d', e = .dict d' → Unsortable ((dictSet d' "__NOT_ENTITY__".toList n).map Prod.snd) →
            OrdinalLabel.deserialize text = .error .typeError) ∧
          (∀ d' m' k, e = .dict d' → Numbers d' m' → EqualsInt n k →
            ¬ IsNumbering (k :: (unreserved m').map Prod.snd) → OrdinalLabel.deserialize text = .error .valueError) := by
  refine ⟨fun h => ?_, fun v hv => ?_⟩
  · unfold OrdinalLabel.deserialize
    rw [(C78_not_json text).mpr h]
    rfl
  unfold OrdinalLabel.deserialize
  rw [(C78_json text v).mpr hv, Except.bind_ok]
  refine ⟨fun h => ?_, fun h => ?_, fun i e n h1 h2 h3 => ?_⟩
  · rw [getItem_notObject h]; rfl
  · obtain ⟨d, hd⟩ : ∃ d, v = .dict d := by
      rcases h with ⟨d, h, _⟩ | ⟨d, h, _⟩ | ⟨d, h, _⟩ <;> exact ⟨d, h⟩
    have hc : ∀ key : String, (∃ w, v.getItem key.toList = .ok w) ∨ v.getItem key.toList = .error .keyError := by
      intro key
      subst hd
      unfold PyVal.getItem
      dsimp only
      cases dictGet d key.toList with
      | none => exact Or.inr rfl
      | some w => exact Or.inl ⟨w, rfl⟩
    rcases h with h | h | h
    · rw [getItem_lacks h]; rfl
    · rcases hc "intent2index" with ⟨w, hw⟩ | hw
      · rw [hw, Except.bind_ok, getItem_lacks h]; rfl
      · rw [hw]; rfl
    · rcases hc "intent2index" with ⟨w, hw⟩ | hw
      · rcases hc "entity2index" with ⟨w', hw'⟩ | hw'
        · rw [hw, Except.bind_ok, hw', Except.bind_ok, getItem_lacks h]; rfl
        · rw [hw, Except.bind_ok, hw']; rfl
      · rw [hw]; rfl
  · rw [getItem_entry h1, Except.bind_ok, getItem_entry h2, Except.bind_ok, getItem_entry h3, Except.bind_ok]
    refine ⟨fun h => ?_, ?_, ?_, ?_⟩
    · cases i with
      | dict d => exact absurd rfl (h d)
      | _ => rfl
    · rintro d rfl h
      show (mappingOf d >>= _) = _
      rw [mappingOf_unsortable h]
      rfl
    · rintro d m rfl hm h
      show (mappingOf d >>= _) = _
      rw [mappingOf_iff.mpr hm, Except.bind_ok, if_neg (fun hv => h ((isValidMapping_iff _).mp hv))]
    · rintro d m rfl hm h
      show _ ∧ _ ∧ _
      have e0 : ∀ F : List (Str × Int) → Res OrdinalLabel, ((valuesOf (.dict d) >>= fun x => mappingOf x >>= F)) = F m := by
        intro F
        show (mappingOf d >>= _) = _
        rw [mappingOf_iff.mpr hm]
        rfl
      rw [e0, if_pos ((isValidMapping_iff _).mpr h)]
      refine ⟨fun h => ?_, ?_, ?_⟩
      · cases e with
        | dict d => exact absurd rfl (h d)
        | _ => rfl
      · rintro d' rfl hu
        show (mappingOf (dictSet d' notEntityName n) >>= _) = _
        have := mappingOf_unsortable hu
        change mappingOf (dictSet d' notEntityName n) = _ at this
        rw [this]
        rfl
      · rintro d' m' k rfl hm' hk hn
        show (mappingOf (dictSet d' notEntityName n) >>= _) = _
        rw [mappingOf_iff.mpr (numbers_set _ hm' hk), Except.bind_ok, mappingOf_iff.mpr hm', Except.bind_ok,
          number?_iff.mpr hk]
        refine (new_ok _ _ _).2 fun hv => hn ?_
        exact (numbering_perm (set_perm _ _)).mp ((isValidMapping_iff _).mp hv.2)

theorem mappingOf_noNumbers {d : List (Str × PyVal)} (h : SortableNoNumbers (d.map Prod.snd)) :
    mappingOf d = .error .valueError := by
  unfold mappingOf
  have : numbers (d.map Prod.snd) = .error .valueError := by
    unfold numbers
    rcases h with ⟨v, h1, h2⟩ | ⟨h1, h2⟩
    · rw [h1]
      have : number? v = none := by
        cases hv : number? v with
        | none => rfl
        | some i => exact absurd (number?_iff.mp hv) (h2 i)
      have hm : [v].mapM number? = none := by
        rw [List.mapM_cons, this]
        rfl
      rw [hm]
      rfl
    · have hm : (d.map Prod.snd).mapM number? = none := by
        cases hd : d.map Prod.snd with
        | nil => exact absurd hd h1
        | cons v vs =>
          obtain ⟨s, rfl⟩ := h2 v (by rw [hd]; simp)
          rw [List.mapM_cons]
          rfl
      rw [hm]
      refine if_pos (.inr (List.all_eq_true.mpr fun v hv => ?_))
      obtain ⟨s, rfl⟩ := h2 v hv
      rfl
  rw [this]
  rfl

/-- C56: stored labels that are no numbers but can be sorted raise ValueError: one label alone, or texts. -/
theorem C56_load_no_numbers (text : Str) (v i e n : PyVal) (hv : IsJson text v) (h1 : Entry v "intent2index" i)
    (h2 : Entry v "entity2index" e) (h3 : Entry v "not_entity_index" n) :
    (∀ d, i = .dict d → SortableNoNumbers (d.map Prod.snd) → OrdinalLabel.deserialize text = .error .valueError) ∧
    ∀ d m d', i = .dict d → Numbers d m → IsNumbering (m.map Prod.snd) → e = .dict d' →
      SortableNoNumbers ((dictSet d' "__NOT_ENTITY__".toList n).map Prod.snd) →
      OrdinalLabel.deserialize text = .error .valueError := by
  unfold OrdinalLabel.deserialize
  rw [(C78_json text v).mpr hv, Except.bind_ok, getItem_entry h1, Except.bind_ok, getItem_entry h2, Except.bind_ok,
    getItem_entry h3, Except.bind_ok]
  constructor
  · rintro d rfl h
    show (mappingOf d >>= _) = _
    rw [mappingOf_noNumbers h]
    rfl
  · rintro d m d' rfl hm hn rfl h
    show (mappingOf d >>= _) = _
    rw [mappingOf_iff.mpr hm, Except.bind_ok, if_pos ((isValidMapping_iff _).mpr hn)]
    show (mappingOf (dictSet d' notEntityName n) >>= _) = _
    have := mappingOf_noNumbers h
    change mappingOf (dictSet d' notEntityName n) = _ at this
    rw [this]
    rfl

/-! ### Cases -/

/-- Stored labels, `false` and `true` for `0` and `1`. -/
def exLabels (i e n : PyVal) : PyVal :=
  .dict [("intent2index".toList, i), ("entity2index".toList, e), ("not_entity_index".toList, n)]

theorem exLabels_json {i e n : PyVal} (hi : Plain i) (he : Plain e) (hn : Plain n) :
    IsJson (Json.dumps true none (exLabels i e n)) (exLabels i e n) := by
  refine (C78_json _ _).mp (Json.loads_dumps _ _ _ (Plain.dict _ (by simp only [List.map_cons, List.map_nil]; decide) ?_))
  intro kv hkv
  simp only [List.mem_cons, List.not_mem_nil, or_false] at hkv
  rcases hkv with rfl | rfl | rfl
  · exact hi
  · exact he
  · exact hn

theorem exLabels_entries (i e n : PyVal) : Entry (exLabels i e n) "intent2index" i ∧
    Entry (exLabels i e n) "entity2index" e ∧ Entry (exLabels i e n) "not_entity_index" n :=
  ⟨⟨[], _, rfl, by simp⟩, ⟨[_], _, rfl, by simp⟩, ⟨[_, _], [], rfl, by simp⟩⟩

/-- A concrete case of `C56_loads`. -/
example : OrdinalLabel.deserialize (Json.dumps true none (exLabels (.dict [("a".toList, .bool false)])
    (.dict [("b".toList, .int 0)]) (.bool true))) = .ok ⟨[("a".toList, 0)], [("b".toList, 0)], 1⟩ := by
  refine (C56_loads _ _).mpr ⟨_, exLabels_json ?_ ?_ (.bool _), ⟨_, _, _, (exLabels_entries _ _ _).1, (exLabels_entries _ _ _).2.1,
    (exLabels_entries _ _ _).2.2, .cons _ .no .nil, .cons _ (.int 0) .nil, .yes⟩, ?_, ?_⟩
  · exact .dict _ (by decide) (by simp; exact .bool _)
  · exact .dict _ (by decide) (by simp; exact .int _)
  · refine ⟨by decide, fun v => ?_⟩
    simp
    omega
  · have : unreserved [("b".toList, (0 : Int))] = [("b".toList, 0)] := by decide
    dsimp only
    rw [this]
    refine ⟨by decide, fun v => ?_⟩
    simp
    omega

/-- A concrete case of `C56_load_errors`: numbers and texts cannot be sorted. -/
example : OrdinalLabel.deserialize (Json.dumps true none (exLabels (.dict [("a".toList, .int 0), ("b".toList, .str [])])
    (.dict []) (.int 0))) = .error .typeError := by
  refine ((((C56_load_errors _).2 _ (exLabels_json ?_ (.dict _ (by decide) (by simp)) (.int _))).2.2 _ _ _ (exLabels_entries _ _ _).1
    (exLabels_entries _ _ _).2.1 (exLabels_entries _ _ _).2.2).2.1 _ rfl ?_)
  · refine .dict _ (by decide) ?_
    simp only [List.mem_cons, List.not_mem_nil, or_false]
    rintro kv (rfl | rfl)
    · exact .int _
    · exact .str _
  · refine ⟨by decide, .int 0, by simp, .str [], by simp, ?_⟩
    rintro (⟨i, j, _, h⟩ | ⟨s, t, h, _⟩ | ⟨l, m, h, _⟩) <;> cases h

/-- A concrete case of `C56_load_no_numbers`: a single label `null`. -/
example : OrdinalLabel.deserialize (Json.dumps true none (exLabels (.dict [("a".toList, .none)]) (.dict []) (.int 0))) =
    .error .valueError := by
  refine (C56_load_no_numbers _ _ _ _ _ (exLabels_json ?_ (.dict _ (by decide) (by simp)) (.int _))
    (exLabels_entries _ _ _).1 (exLabels_entries _ _ _).2.1 (exLabels_entries _ _ _).2.2).1 _ rfl ?_
  · refine .dict _ (by decide) ?_
    simp only [List.mem_cons, List.not_mem_nil, or_false]
    rintro kv rfl
    exact .none
  · exact .inl ⟨.none, rfl, fun i h => by cases h⟩

end Uttut
