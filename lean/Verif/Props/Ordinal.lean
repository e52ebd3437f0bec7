import Verif.Lemmas.Dict
import Verif.Spec.Ordinal
import Verif.Props.Data
import Verif.Props.Edit
import Verif.Props.Tokenwise
import Verif.Lemmas.Mode
import Verif.Lemmas.Json
import Verif.Lemmas.Honest

/-! Properties C53-C56: the label transformer. -/

namespace Uttut

open Spec OrdinalLabel

/-! ### C53 mappings -/

theorem isValidMapping_iff (m : List (Str × Int)) : isValidMapping m = true ↔ IsNumbering (m.map Prod.snd) := by
  unfold isValidMapping IsNumbering
  generalize m.map Prod.snd = vs
  dsimp only
  rw [decide_eq_true_eq]
  have hp := pySorted_perm (fun i : Int => i) vs
  rw [hp.length_eq]
  have hr : ∀ v : Int, v ∈ (List.range vs.length).map (fun i : Nat => (i : Int)) ↔ 0 ≤ v ∧ v < vs.length := by
    intro v
    simp only [List.mem_map, List.mem_range]
    exact ⟨by rintro ⟨a, h, rfl⟩; omega, fun h => ⟨v.toNat, by omega, by omega⟩⟩
  have hn : ((List.range vs.length).map (fun i : Nat => (i : Int))).Nodup := by
    refine List.Pairwise.map _ (fun a b h => ?_) List.nodup_range
    omega
  constructor
  · intro h
    rw [h] at hp
    exact ⟨hp.nodup_iff.mp hn, fun v => (hp.mem_iff.symm.trans (hr v))⟩
  · rintro ⟨h1, h2⟩
    have hp2 : vs.Perm ((List.range vs.length).map (fun i : Nat => (i : Int))) :=
      (List.perm_ext_iff_of_nodup h1 hn).mpr (fun v => (h2 v).trans (hr v).symm)
    refine (hp.trans hp2).eq_of_pairwise (le := fun a b : Int => a ≤ b) ?_ (pySorted_pairwise _ _) ?_
    · intro a b _ _ h1 h2
      omega
    · refine List.Pairwise.map _ (fun a b h => ?_) (List.pairwise_lt_range)
      omega

theorem new_ok (i2x e2x : List (Str × Int)) (ne : Int) :
    (isValidMapping i2x = true ∧ isValidMapping (dictSet e2x notEntityName ne) = true →
      OrdinalLabel.new i2x e2x ne = .ok ⟨i2x, e2x, ne⟩) ∧
    (¬ (isValidMapping i2x = true ∧ isValidMapping (dictSet e2x notEntityName ne) = true) →
      OrdinalLabel.new i2x e2x ne = .error .valueError) := by
  unfold OrdinalLabel.new
  constructor
  · rintro ⟨h1, h2⟩
    rw [if_pos h1, if_pos h2]
  · intro h
    by_cases h1 : isValidMapping i2x = true
    · rw [if_pos h1, if_neg (fun h2 => h ⟨h1, h2⟩)]
    · rw [if_neg h1]

theorem numbering_perm {a b : List Int} (h : a.Perm b) : IsNumbering a ↔ IsNumbering b := by
  unfold IsNumbering
  rw [h.nodup_iff, h.length_eq]
  simp only [h.mem_iff]

/-- C53: the constructor accepts the mappings iff the intent indices are exactly `0 ... n-1` and the entity
indices together with `not_entity_index` are exactly `0 ... m`; otherwise it raises ValueError. (No entity
is called `__NOT_ENTITY__`; see `C53_reserved_name`.) -/
theorem C53_new (i2x e2x : List (Str × Int)) (ne : Int) (hr : "__NOT_ENTITY__".toList ∉ e2x.map Prod.fst) :
    (IsNumbering (i2x.map Prod.snd) ∧ IsNumbering (ne :: e2x.map Prod.snd) →
      OrdinalLabel.new i2x e2x ne = .ok ⟨i2x, e2x, ne⟩) ∧
    (¬ (IsNumbering (i2x.map Prod.snd) ∧ IsNumbering (ne :: e2x.map Prod.snd)) →
      OrdinalLabel.new i2x e2x ne = .error .valueError) := by
  change notEntityName ∉ _ at hr
  have h : (isValidMapping i2x = true ∧ isValidMapping (dictSet e2x notEntityName ne) = true) ↔
      (IsNumbering (i2x.map Prod.snd) ∧ IsNumbering (ne :: e2x.map Prod.snd)) := by
    rw [isValidMapping_iff, isValidMapping_iff, dictSet_not_mem _ _ _ hr, List.map_append]
    rw [numbering_perm (a := e2x.map Prod.snd ++ [(notEntityName, ne)].map Prod.snd)
      (b := ne :: e2x.map Prod.snd) (List.perm_append_singleton _ _)]
  rw [← h]
  exact new_ok i2x e2x ne

/-- C53: if an entity is called `__NOT_ENTITY__`, its own index is not checked: `not_entity_index` takes its
place. -/
theorem C53_reserved_name (i2x pre post : List (Str × Int)) (v ne : Int)
    (hr : "__NOT_ENTITY__".toList ∉ pre.map Prod.fst) :
    (IsNumbering (i2x.map Prod.snd) ∧ IsNumbering (ne :: (pre ++ post).map Prod.snd) →
      OrdinalLabel.new i2x (pre ++ ("__NOT_ENTITY__".toList, v) :: post) ne =
        .ok ⟨i2x, pre ++ ("__NOT_ENTITY__".toList, v) :: post, ne⟩) ∧
    (¬ (IsNumbering (i2x.map Prod.snd) ∧ IsNumbering (ne :: (pre ++ post).map Prod.snd)) →
      OrdinalLabel.new i2x (pre ++ ("__NOT_ENTITY__".toList, v) :: post) ne = .error .valueError) := by
  change notEntityName ∉ _ at hr
  show (_ → OrdinalLabel.new i2x (pre ++ (notEntityName, v) :: post) ne = .ok ⟨i2x, pre ++ (notEntityName, v) :: post, ne⟩) ∧
    (_ → OrdinalLabel.new i2x (pre ++ (notEntityName, v) :: post) ne = _)
  have hset : dictSet (pre ++ (notEntityName, v) :: post) notEntityName ne = pre ++ (notEntityName, ne) :: post := by
    clear i2x
    induction pre with
    | nil => simp [dictSet]
    | cons p pre ih =>
      obtain ⟨a, b⟩ := p
      simp only [List.map_cons, List.mem_cons, not_or] at hr
      simp only [List.cons_append, dictSet, if_neg (Ne.symm hr.1), ih hr.2]
  have h : (isValidMapping i2x = true ∧
        isValidMapping (dictSet (pre ++ (notEntityName, v) :: post) notEntityName ne) = true) ↔
      (IsNumbering (i2x.map Prod.snd) ∧ IsNumbering (ne :: (pre ++ post).map Prod.snd)) := by
    rw [isValidMapping_iff, isValidMapping_iff, hset, List.map_append, List.map_append, List.map_cons]
    rw [numbering_perm (a := pre.map Prod.snd ++ ne :: post.map Prod.snd)
      (b := ne :: (pre.map Prod.snd ++ post.map Prod.snd)) List.perm_middle]
  exact ⟨fun hc => (new_ok _ _ _).1 (h.mpr hc), fun hc => (new_ok _ _ _).2 (fun hn => hc (h.mp hn))⟩

theorem findIndex_ok {m : List (Str × Int)} {i : Int} {s : Str} (h : findIndex m i = .ok s) : (s, i) ∈ m := by
  induction m with
  | nil => cases h
  | cons p m ih =>
    obtain ⟨n, c⟩ := p
    unfold findIndex at h
    by_cases hc : i = c
    · rw [if_pos hc] at h
      injection h with h
      subst h hc
      simp
    · rw [if_neg hc] at h
      exact List.mem_cons_of_mem _ (ih h)

theorem findIndex_error {m : List (Str × Int)} {i : Int} (h : i ∉ m.map Prod.snd) :
    findIndex m i = .error .keyError := by
  induction m with
  | nil => rfl
  | cons p m ih =>
    obtain ⟨n, c⟩ := p
    simp only [List.map_cons, List.mem_cons, not_or] at h
    unfold findIndex
    rw [if_neg h.1, ih h.2]

theorem findIndex_of_mem {m : List (Str × Int)} {i : Int} {s : Str} (hn : (m.map Prod.snd).Nodup)
    (h : (s, i) ∈ m) : findIndex m i = .ok s := by
  induction m with
  | nil => cases h
  | cons p m ih =>
    obtain ⟨n, c⟩ := p
    simp only [List.map_cons, List.nodup_cons] at hn
    unfold findIndex
    rcases List.mem_cons.mp h with h' | h'
    · injection h' with h1 h2
      rw [if_pos h2, h1]
    · have : i ≠ c := by
        intro hc
        exact hn.1 (List.mem_map.mpr ⟨(s, i), h', hc⟩)
      rw [if_neg this, ih hn.2 h']

theorem lookup_of_mem {m : List (Str × Int)} (hd : IsDict m) {s : Str} {i : Int} (h : (s, i) ∈ m) :
    lookup m s = .ok i := by
  unfold lookup
  rw [dictGet_of_mem m s i hd h]

theorem mem_of_lookup {m : List (Str × Int)} {s : Str} {i : Int} (h : lookup m s = .ok i) : (s, i) ∈ m := by
  unfold lookup at h
  split at h
  · rename_i j hj
    injection h with h
    subst h
    exact dictGet_mem m s _ hj
  · cases h

theorem new_cases {i2x e2x : List (Str × Int)} {ne : Int} {t : OrdinalLabel}
    (h : OrdinalLabel.new i2x e2x ne = .ok t) :
    t = ⟨i2x, e2x, ne⟩ ∧ IsNumbering (i2x.map Prod.snd) ∧
      IsNumbering ((dictSet e2x notEntityName ne).map Prod.snd) := by
  by_cases hc : isValidMapping i2x = true ∧ isValidMapping (dictSet e2x notEntityName ne) = true
  · rw [(new_ok _ _ _).1 hc] at h
    injection h with h
    exact ⟨h.symm, (isValidMapping_iff _).mp hc.1, (isValidMapping_iff _).mp hc.2⟩
  · rw [(new_ok _ _ _).2 hc] at h; cases h

/-- C53: in a constructed transformer `index2intent` and `index2entity` invert the two mappings and raise
KeyError for every other index, in particular for `not_entity_index`. -/
theorem C53_inverse (i2x e2x : List (Str × Int)) (ne : Int) (t : OrdinalLabel) (hr : notEntityName ∉ e2x.map Prod.fst)
    (h : OrdinalLabel.new i2x e2x ne = .ok t) :
    (∀ i s, t.index2intent i = .ok s ↔ (s, i) ∈ i2x) ∧
      (∀ i, i ∉ i2x.map Prod.snd → t.index2intent i = .error .keyError) ∧
      (∀ i s, t.index2entity i = .ok s ↔ (s, i) ∈ e2x) ∧
      (∀ i, i ∉ e2x.map Prod.snd → t.index2entity i = .error .keyError) ∧
      t.index2entity ne = .error .keyError := by
  obtain ⟨rfl, h1, h2⟩ := new_cases h
  rw [dictSet_not_mem _ _ _ hr, List.map_append] at h2
  have h2' := h2.1
  rw [List.nodup_append] at h2'
  refine ⟨fun i s => ⟨fun h => findIndex_ok h, fun h => findIndex_of_mem h1.1 h⟩,
    fun i h => findIndex_error h,
    fun i s => ⟨fun h => findIndex_ok h, fun h => findIndex_of_mem h2'.1 h⟩,
    fun i h => findIndex_error h, findIndex_error fun hm => ?_⟩
  exact h2'.2.2 ne hm ne (by simp) rfl

/-- C53: `index2intent` and `index2entity` of any transformer (also one with an entity called `__NOT_ENTITY__`, whose
index may be that of another) give the first name in the mapping with that index. -/
theorem C53_first (t : OrdinalLabel) (i : Int) (s : Str) :
    (t.index2intent i = .ok s ↔ ∃ pre post, t.intent2index = pre ++ (s, i) :: post ∧ i ∉ pre.map Prod.snd) ∧
      (t.index2entity i = .ok s ↔ ∃ pre post, t.entity2index = pre ++ (s, i) :: post ∧ i ∉ pre.map Prod.snd) := by
  have key : ∀ m : List (Str × Int), findIndex m i = .ok s ↔
      ∃ pre post, m = pre ++ (s, i) :: post ∧ i ∉ pre.map Prod.snd := by
    intro m
    induction m with
    | nil =>
      constructor
      · intro h; cases h
      · rintro ⟨pre, post, h, _⟩
        cases pre <;> cases h
    | cons p m ih =>
      obtain ⟨n, c⟩ := p
      unfold findIndex
      by_cases hc : i = c
      · rw [if_pos hc]
        subst hc
        constructor
        · intro h
          injection h with h
          subst h
          exact ⟨[], m, rfl, by simp⟩
        · rintro ⟨pre, post, h, hn⟩
          cases pre with
          | nil =>
            injection h with h _
            injection h with h _
            rw [h]
          | cons x pre =>
            injection h with h _
            subst h
            simp at hn
      · rw [if_neg hc, ih]
        constructor
        · rintro ⟨pre, post, rfl, hn⟩
          exact ⟨(n, c) :: pre, post, rfl, by simp only [List.map_cons, List.mem_cons, not_or]; exact ⟨hc, hn⟩⟩
        · rintro ⟨pre, post, h, hn⟩
          cases pre with
          | nil =>
            injection h with h _
            injection h with _ h
            exact absurd h.symm hc
          | cons x pre =>
            injection h with _ h
            refine ⟨pre, post, h, ?_⟩
            simp only [List.map_cons, List.mem_cons, not_or] at hn
            exact hn.2
  exact ⟨key _, key _⟩

/-- Two names with one index; the second one is lost on the way. -/
example : ∃ t, OrdinalLabel.new [] [("x".toList, 1), ("__NOT_ENTITY__".toList, 1)] 0 = .ok t ∧
    t.index2entity 1 = .ok "x".toList := by
  refine ⟨_, ((C53_reserved_name [] [("x".toList, 1)] [] 1 0 (by decide)).1
    ⟨⟨by simp, by simp⟩, ⟨by decide, fun v => by simp; omega⟩⟩), ?_⟩
  exact (C53_first _ _ _).2.mpr ⟨[], _, rfl, by simp⟩

example : OrdinalLabel.new [("a".toList, 1), ("b".toList, 0)] [("x".toList, 2), ("y".toList, 0)] 1 =
    .ok ⟨[("a".toList, 1), ("b".toList, 0)], [("x".toList, 2), ("y".toList, 0)], 1⟩ := by decide

example : OrdinalLabel.new [] [("x".toList, 2), ("y".toList, 0)] 2 = .error .valueError := by decide

example : notEntityName ∉ [("x".toList, (2 : Int)), ("y".toList, 0)].map Prod.fst := by decide

/-! ### C54 from_raw_dictionary -/

theorem firstOccurrences_pyDedup (names : List Str) : FirstOccurrences names (pyDedup names) :=
  ⟨nodup_pyDedup _, fun _ => mem_pyDedup, pyDedup_pairwise_idxOf _⟩

theorem numbered_append (f : Nat → Int) (l : List Str) (x : Str) :
    numbered f (l ++ [x]) = numbered f l ++ [(x, f l.length)] := by
  simp [numbered, List.zipIdx_append]

theorem numbered_keys (f : Nat → Int) (l : List Str) : (numbered f l).map Prod.fst = l := by
  unfold numbered
  rw [List.map_map]
  show List.map Prod.fst l.zipIdx = l
  simp

theorem numbered_values (f : Nat → Int) (l : List Str) :
    (numbered f l).map Prod.snd = (List.range l.length).map f := by
  unfold numbered
  rw [List.map_map]
  show l.zipIdx.map (f ∘ Prod.snd) = _
  rw [← List.map_map]
  simp [List.range_eq_range']

theorem numberIntents_spec (ns pre : List Str) :
    numberIntents ns (numbered (fun k => (k : Int)) (pyDedup pre)) ((pyDedup pre).length : Int) =
      numbered (fun k => (k : Int)) (pyDedup (pre ++ ns)) := by
  induction ns generalizing pre with
  | nil => simp [numberIntents]
  | cons n ns ih =>
    unfold numberIntents
    rw [show pre ++ n :: ns = (pre ++ [n]) ++ ns by simp, ← ih (pre ++ [n]), pyDedup_concat]
    by_cases h : n ∈ pre
    · have h1 : (dictGet (numbered (fun k : Nat => (k : Int)) (pyDedup pre)) n).isNone = false := by
        cases hg : dictGet (numbered (fun k : Nat => (k : Int)) (pyDedup pre)) n with
        | none =>
          rw [dictGet_none, numbered_keys, mem_pyDedup] at hg
          exact absurd h hg
        | some _ => rfl
      rw [h1, if_neg (by decide), if_pos h]
    · have h0 : n ∉ (numbered (fun k : Nat => (k : Int)) (pyDedup pre)).map Prod.fst := by
        rw [numbered_keys, mem_pyDedup]; exact h
      rw [(dictGet_none _ _).mpr h0, if_pos (show (none : Option Int).isNone = true from rfl), if_neg h, dictSet_not_mem _ _ _ h0, numbered_append]
      simp

/-- The next number while numbering the entities. -/
def nextIdx (ne : Int) (n : Nat) : Int := if 0 ≤ ne ∧ ne < n then n + 1 else n

theorem numberEntities_spec (ne : Int) (ns pre : List Str) :
    numberEntities ne ns (numbered (fun k => if 0 ≤ ne ∧ ne ≤ k then (k : Int) + 1 else k) (pyDedup pre))
        (nextIdx ne (pyDedup pre).length) =
      numbered (fun k => if 0 ≤ ne ∧ ne ≤ k then (k : Int) + 1 else k) (pyDedup (pre ++ ns)) := by
  induction ns generalizing pre with
  | nil => simp [numberEntities]
  | cons n ns ih =>
    unfold numberEntities
    rw [show pre ++ n :: ns = (pre ++ [n]) ++ ns by simp, ← ih (pre ++ [n]), pyDedup_concat]
    by_cases h : n ∈ pre
    · have h1 : (dictGet (numbered (fun k : Nat => if 0 ≤ ne ∧ ne ≤ k then (k : Int) + 1 else k) (pyDedup pre))
          n).isNone = false := by
        cases hg : dictGet (numbered (fun k : Nat => if 0 ≤ ne ∧ ne ≤ k then (k : Int) + 1 else k) (pyDedup pre)) n with
        | none =>
          rw [dictGet_none, numbered_keys, mem_pyDedup] at hg
          exact absurd h hg
        | some _ => rfl
      rw [h1, if_neg (by decide), if_pos h]
    · have h0 : n ∉ (numbered (fun k : Nat => if 0 ≤ ne ∧ ne ≤ k then (k : Int) + 1 else k)
          (pyDedup pre)).map Prod.fst := by
        rw [numbered_keys, mem_pyDedup]; exact h
      rw [(dictGet_none _ _).mpr h0, if_pos (show (none : Option Int).isNone = true from rfl), if_neg h]
      dsimp only
      rw [dictSet_not_mem _ _ _ h0, numbered_append]
      have e1 : (if nextIdx ne (pyDedup pre).length = ne then nextIdx ne (pyDedup pre).length + 1
          else nextIdx ne (pyDedup pre).length) =
          if 0 ≤ ne ∧ ne ≤ ((pyDedup pre).length : Int) then ((pyDedup pre).length : Int) + 1
          else (pyDedup pre).length := by
        unfold nextIdx
        split <;> split <;> split <;> omega
      have e2 : (if 0 ≤ ne ∧ ne ≤ ((pyDedup pre).length : Int) then ((pyDedup pre).length : Int) + 1
          else (pyDedup pre).length) + 1 = nextIdx ne (pyDedup pre ++ [n]).length := by
        unfold nextIdx
        rw [List.length_append, List.length_singleton]
        split <;> split <;> omega
      rw [e1, e2]

theorem numbering_range (n : Nat) : IsNumbering ((List.range n).map (fun k : Nat => (k : Int))) := by
  refine ⟨List.Pairwise.map _ (fun a b h => by omega) List.nodup_range, fun v => ?_⟩
  simp only [List.mem_map, List.mem_range, List.length_map, List.length_range]
  exact ⟨by rintro ⟨a, h, rfl⟩; omega, fun h => ⟨v.toNat, by omega, by omega⟩⟩

theorem numbering_skip (ne : Int) (n : Nat) :
    IsNumbering (ne :: (List.range n).map (fun k : Nat => if 0 ≤ ne ∧ ne ≤ (k : Int) then (k : Int) + 1 else k)) ↔
      0 ≤ ne ∧ ne ≤ n := by
  constructor
  · rintro ⟨_, h⟩
    have := (h ne).mp (by simp)
    simp only [List.length_cons, List.length_map, List.length_range] at this
    omega
  · intro hne
    constructor
    · rw [List.nodup_cons]
      constructor
      · simp only [List.mem_map, List.mem_range, not_exists, not_and]
        intro k hk
        split <;> omega
      · refine List.Pairwise.map _ (fun a b h => ?_) List.nodup_range
        split <;> split <;> omega
    · intro v
      simp only [List.mem_cons, List.mem_map, List.mem_range, List.length_cons, List.length_map, List.length_range]
      constructor
      · rintro (h | ⟨k, hk, h⟩)
        · omega
        · split at h <;> omega
      · intro hv
        rcases Int.lt_trichotomy v ne with h | h | h
        · exact .inr ⟨v.toNat, by omega, by rw [if_neg (by omega)]; omega⟩
        · exact .inl h
        · exact .inr ⟨(v - 1).toNat, by omega, by rw [if_pos (by omega)]; omega⟩

theorem fromRaw_eq (data : List RawDatum) (ne : Int) (is es : List Str)
    (hi : is = data.flatMap fun d => d.names)
    (he : es = data.flatMap fun d => (d.entities.getD []).map fun e => e.name) :
    fromRawDictionary data ne = OrdinalLabel.new (numbered (fun k => (k : Int)) (pyDedup is))
      (numbered (fun k => if 0 ≤ ne ∧ ne ≤ (k : Int) then (k : Int) + 1 else k) (pyDedup es)) ne := by
  unfold fromRawDictionary
  dsimp only
  rw [← hi, ← he]
  have h1 := numberIntents_spec is []
  have h2 := numberEntities_spec ne es []
  simp only [List.nil_append] at h1 h2
  rw [← h1, ← h2]
  have : nextIdx ne (pyDedup ([] : List Str)).length = 0 := by
    have h0 : (pyDedup ([] : List Str)).length = 0 := rfl
    unfold nextIdx
    rw [h0, if_neg (by omega)]
    rfl
  rw [this]
  rfl

/-- C54: `from_raw_dictionary` numbers the distinct intent names from 0 in the order of their first
occurrence, and the distinct entity names likewise, leaving out `not_entity_index`. It succeeds iff
`0 <= not_entity_index <= number of distinct entity names`, and raises ValueError otherwise. (No entity is
called `__NOT_ENTITY__`.) -/
theorem C54_from_raw (data : List RawDatum) (ne : Int) (is es : List Str)
    (hi : is = data.flatMap fun d => d.names)
    (he : es = data.flatMap fun d => (d.entities.getD []).map fun e => e.name)
    (hr : notEntityName ∉ es) :
    ∃ I E, FirstOccurrences is I ∧ FirstOccurrences es E ∧
      (0 ≤ ne ∧ ne ≤ E.length → fromRawDictionary data ne =
        .ok ⟨numbered (fun k => (k : Int)) I, numbered (skipping ne) E, ne⟩) ∧
      (¬ (0 ≤ ne ∧ ne ≤ E.length) → fromRawDictionary data ne = .error .valueError) := by
  refine ⟨pyDedup is, pyDedup es, firstOccurrences_pyDedup _, firstOccurrences_pyDedup _, ?_⟩
  have e1 := fromRaw_eq data ne is es hi he
  have hk : notEntityName ∉ (numbered (fun k => if 0 ≤ ne ∧ ne ≤ (k : Int) then (k : Int) + 1 else k)
      (pyDedup es)).map Prod.fst := by
    rw [numbered_keys, mem_pyDedup]; exact hr
  obtain ⟨h1, h2⟩ := C53_new (numbered (fun k => (k : Int)) (pyDedup is)) _ ne hk
  rw [numbered_values, numbered_values, numbering_skip] at h1 h2
  rw [e1]
  constructor
  · intro hne
    rw [h1 ⟨numbering_range _, hne⟩]
    congr 2
    unfold numbered skipping
    apply List.map_congr_left
    intro p _
    dsimp only
    by_cases hlt : (p.2 : Int) < ne
    · rw [if_neg (by omega), if_pos hlt]
    · rw [if_pos (by omega), if_neg hlt]
  · intro hne
    exact h2 (fun h => hne h.2)

theorem skipping_eq (ne : Int) (k : Nat) (h0 : 0 ≤ ne) :
    (if 0 ≤ ne ∧ ne ≤ (k : Int) then (k : Int) + 1 else k) = skipping ne k := by
  unfold skipping
  by_cases hlt : (k : Int) < ne
  · rw [if_neg (by omega), if_pos hlt]
  · rw [if_pos (by omega), if_neg hlt]

/-- C54: data with an entity called `__NOT_ENTITY__` are refused, unless it is the last entity name to occur for the
first time and `0 <= not_entity_index < number of distinct entity names`. -/
theorem C54_reserved (data : List RawDatum) (ne : Int) (is es : List Str)
    (hi : is = data.flatMap fun d => d.names)
    (he : es = data.flatMap fun d => (d.entities.getD []).map fun e => e.name)
    (hr : notEntityName ∈ es) :
    ∃ I E, FirstOccurrences is I ∧ FirstOccurrences es E ∧
      (E.getLast? = some notEntityName ∧ 0 ≤ ne ∧ ne < E.length → fromRawDictionary data ne =
        .ok ⟨numbered (fun k => (k : Int)) I, numbered (skipping ne) E, ne⟩) ∧
      (¬ (E.getLast? = some notEntityName ∧ 0 ≤ ne ∧ ne < E.length) → fromRawDictionary data ne = .error .valueError) := by
  refine ⟨pyDedup is, pyDedup es, firstOccurrences_pyDedup _, firstOccurrences_pyDedup _, ?_⟩
  obtain ⟨pre, post, hsplit⟩ := List.append_of_mem (mem_pyDedup.mpr hr)
  have hnd := nodup_pyDedup es
  rw [hsplit] at hnd
  have hpre : notEntityName ∉ pre := fun h => (List.nodup_append.mp hnd).2.2 _ h _ (by simp) rfl
  rw [fromRaw_eq data ne is es hi he, hsplit]
  have hnum : numbered (fun k : Nat => if 0 ≤ ne ∧ ne ≤ (k : Int) then (k : Int) + 1 else k) (pre ++ notEntityName :: post) =
      numbered (fun k : Nat => if 0 ≤ ne ∧ ne ≤ (k : Int) then (k : Int) + 1 else k) pre ++
      (notEntityName, if 0 ≤ ne ∧ ne ≤ (pre.length : Int) then (pre.length : Int) + 1 else pre.length) ::
      numbered (fun k : Nat => if 0 ≤ ne ∧ ne ≤ ((k + (pre.length + 1) : Nat) : Int)
        then ((k + (pre.length + 1) : Nat) : Int) + 1 else ((k + (pre.length + 1) : Nat) : Int)) post := by
    unfold numbered
    rw [List.zipIdx_append, List.map_append, List.zipIdx_cons, List.map_cons, Nat.zero_add]
    congr 2
    rw [List.zipIdx_eq_map_add, List.map_map]
    apply List.map_congr_left
    intro p _
    show (p.1, if 0 ≤ ne ∧ ne ≤ ((pre.length + 1 + p.2 : Nat) : Int) then ((pre.length + 1 + p.2 : Nat) : Int) + 1
      else ((pre.length + 1 + p.2 : Nat) : Int)) = _
    rw [Nat.add_comm (pre.length + 1) p.2]
  obtain ⟨h1, h2⟩ := C53_reserved_name (numbered (fun k => (k : Int)) (pyDedup is))
    (numbered (fun k : Nat => if 0 ≤ ne ∧ ne ≤ (k : Int) then (k : Int) + 1 else k) pre)
    (numbered (fun k : Nat => if 0 ≤ ne ∧ ne ≤ ((k + (pre.length + 1) : Nat) : Int)
        then ((k + (pre.length + 1) : Nat) : Int) + 1 else ((k + (pre.length + 1) : Nat) : Int)) post)
    (if 0 ≤ ne ∧ ne ≤ (pre.length : Int) then (pre.length : Int) + 1 else pre.length) ne
    (by rw [numbered_keys]; exact hpre)
  change _ → OrdinalLabel.new _ (_ ++ (notEntityName, _) :: _) ne = _ at h1
  change _ → OrdinalLabel.new _ (_ ++ (notEntityName, _) :: _) ne = _ at h2
  rw [← hnum] at h1 h2
  rw [numbered_values, List.map_append, numbered_values, numbered_values] at h1 h2
  have hlast : (pre ++ notEntityName :: post).getLast? = some notEntityName ↔ post = [] := by
    constructor
    · intro h
      cases hp : post.getLast? with
      | none => exact List.getLast?_eq_none_iff.mp hp
      | some x =>
        rw [List.getLast?_append, List.getLast?_cons, hp] at h
        simp only [Option.getD_some, Option.some_or, Option.some.injEq] at h
        have hm : x ∈ post := List.mem_of_getLast? hp
        rw [h] at hm
        exact absurd hm (List.nodup_cons.mp (List.nodup_append.mp hnd).2.1).1
    · rintro rfl
      simp
  have hiff : IsNumbering (ne :: ((List.range pre.length).map (fun k : Nat => if 0 ≤ ne ∧ ne ≤ (k : Int) then (k : Int) + 1 else k) ++
      (List.range post.length).map (fun k : Nat => if 0 ≤ ne ∧ ne ≤ ((k + (pre.length + 1) : Nat) : Int)
        then ((k + (pre.length + 1) : Nat) : Int) + 1 else ((k + (pre.length + 1) : Nat) : Int)))) ↔
      post = [] ∧ 0 ≤ ne ∧ ne < ((pre ++ notEntityName :: post).length : Int) := by
    have hpost : post = [] ↔ post.length = 0 := List.length_eq_zero_iff.symm
    rw [hpost, List.length_append, List.length_cons]
    constructor
    · rintro ⟨hn, h⟩
      have hlen : (ne :: ((List.range pre.length).map (fun k : Nat => if 0 ≤ ne ∧ ne ≤ (k : Int) then (k : Int) + 1 else k) ++
        (List.range post.length).map (fun k : Nat => if 0 ≤ ne ∧ ne ≤ ((k + (pre.length + 1) : Nat) : Int)
        then ((k + (pre.length + 1) : Nat) : Int) + 1 else ((k + (pre.length + 1) : Nat) : Int)))).length =
          pre.length + post.length + 1 := by simp
      have h0 := (h ne).mp (by simp)
      rw [hlen] at h0
      refine ⟨?_, by omega, by omega⟩
      rcases Nat.eq_zero_or_pos post.length with hz | hz
      · exact hz
      · exfalso
        have hm := (h (((post.length - 1) + (pre.length + 1) : Nat) + 1 : Int)).mp (by
          rw [List.mem_cons, List.mem_append]
          refine .inr (.inr (List.mem_map.mpr ⟨post.length - 1, by rw [List.mem_range]; omega, ?_⟩))
          rw [if_pos (by omega)])
        rw [hlen] at hm
        omega
    · rintro ⟨hz, h0, h1⟩
      have : List.range post.length = [] := by rw [hz]; rfl
      rw [this, List.map_nil, List.append_nil]
      exact (numbering_skip ne pre.length).mpr ⟨h0, by omega⟩
  rw [hiff] at h1 h2
  rw [hlast]
  constructor
  · rintro ⟨hp, h0, h3⟩
    have h4 := h1 ⟨numbering_range _, hp, h0, h3⟩
    change OrdinalLabel.new _ _ _ = .ok ⟨_, _ ++ (notEntityName, _) :: _, _⟩ at h4
    rw [← hnum] at h4
    rw [h4]
    congr 2
    unfold numbered
    apply List.map_congr_left
    intro p _
    dsimp only
    rw [skipping_eq ne _ h0]
  · intro hne
    exact h2 (fun h => hne h.2)

example : fromRawDictionary [⟨"ab".toList, [], some [⟨"x".toList, 0, 1, none⟩, ⟨"__NOT_ENTITY__".toList, 1, 2, none⟩]⟩] 0 =
    .ok ⟨[], [("x".toList, 1), ("__NOT_ENTITY__".toList, 2)], 0⟩ := by decide

example : fromRawDictionary [⟨"ab".toList, [], some [⟨"__NOT_ENTITY__".toList, 0, 1, none⟩, ⟨"x".toList, 1, 2, none⟩]⟩] 0 =
    .error .valueError := by decide

example : fromRawDictionary [⟨"ab".toList, ["i".toList, "j".toList], some [⟨"x".toList, 0, 1, none⟩, ⟨"y".toList, 1, 2, none⟩]⟩,
      ⟨"b".toList, ["j".toList], some [⟨"z".toList, 0, 1, none⟩, ⟨"x".toList, 0, 1, none⟩]⟩] 1 =
    .ok ⟨[("i".toList, 0), ("j".toList, 1)], [("x".toList, 0), ("y".toList, 2), ("z".toList, 3)], 1⟩ := by decide

example : fromRawDictionary [⟨"ab".toList, [], some [⟨"x".toList, 0, 1, none⟩]⟩] 2 = .error .valueError := by decide

/-! ### C55 humanize and machanize -/

theorem mapM_inverse {α β γ : Type} (f : α → Res β) (g : β → Res γ) (h : α → γ) (l : List α)
    (hf : ∀ x ∈ l, ∃ y, f x = .ok y ∧ g y = .ok (h x)) :
    ∃ ys, l.mapM f = .ok ys ∧ ys.mapM g = .ok (l.map h) := by
  induction l with
  | nil => exact ⟨[], rfl, rfl⟩
  | cons x l ih =>
    obtain ⟨y, h1, h2⟩ := hf x (by simp)
    obtain ⟨ys, h3, h4⟩ := ih (fun z hz => hf z (by simp [hz]))
    refine ⟨y :: ys, ?_, ?_⟩
    · rw [List.mapM_cons, h1, h3]; rfl
    · rw [List.mapM_cons, h2, h4]; rfl

theorem mapM_ok_forall {α β : Type} (f : α → Res β) (l : List α) (ys : List β) (h : l.mapM f = .ok ys) :
    ∀ x ∈ l, ∃ y ∈ ys, f x = .ok y := by
  induction l generalizing ys with
  | nil => simp
  | cons x l ih =>
    rw [List.mapM_cons] at h
    cases h1 : f x with
    | error e => rw [h1] at h; cases h
    | ok y =>
      rw [h1] at h
      cases h2 : l.mapM f with
      | error e => rw [h2] at h; cases h
      | ok zs =>
        rw [h2] at h
        have h' : ys = y :: zs := by
          have : Except.ok (y :: zs) = (Except.ok ys : Res (List β)) := h
          injection this with this
          exact this.symm
        subst h'
        intro z hz
        rcases List.mem_cons.mp hz with rfl | hz
        · exact ⟨y, by simp, h1⟩
        · obtain ⟨w, hw, hw'⟩ := ih zs h2 z hz
          exact ⟨w, by simp [hw], hw'⟩

/-- A transformer built by the constructor from dicts, none of whose entities has the reserved name. -/
structure IsTransformer (t : OrdinalLabel) : Prop where
  constructed : OrdinalLabel.new t.intent2index t.entity2index t.notEntityIndex = .ok t
  intents : IsDict t.intent2index
  entities : IsDict t.entity2index
  reserved : notEntityName ∉ t.entity2index.map Prod.fst

/-- The data the transformer knows: constructed, with known labels in the range of the C type. -/
structure Known (t : OrdinalLabel) (d : Datum) : Prop where
  isDatum : IsDatum d
  intentLabels : ∀ i ∈ d.intents, i.label ∈ t.intent2index.map Prod.snd ∧ IsInt32 i.label
  entityLabels : ∀ e ∈ d.entities, e.label ∈ t.entity2index.map Prod.snd
  ints : ∀ e ∈ d.entities, IsInt32 e.label ∧ IsInt32 e.start ∧ IsInt32 e.stop

/-- C55: `machanize(humanize(datum)) == datum` for every datum with known labels, whatever the iteration
order of the sets of replacements. -/
theorem C55_humanize_machanize (σ : SetOrder) (t : OrdinalLabel) (ht : IsTransformer t) (d : Datum)
    (hk : Known t d) :
    ∃ r d', t.humanize σ d = .ok r ∧ t.machanize r = .ok d' ∧ d'.eq d = true := by
  obtain ⟨c1, c2, c3, c4, _⟩ := C53_inverse _ _ _ t ht.reserved ht.constructed
  obtain ⟨names, n1, n2⟩ := mapM_inverse (fun i : Intent => t.index2intent i.label)
    (fun name => do let i ← lookup t.intent2index name; Intent.new i) (fun i => i) d.intents (by
      intro i hi
      obtain ⟨h1, h2⟩ := hk.intentLabels i hi
      obtain ⟨⟨s, l⟩, hm, hl⟩ := List.mem_map.mp h1
      dsimp only at hl
      subst hl
      refine ⟨s, (c1 _ _).mpr hm, ?_⟩
      rw [lookup_of_mem ht.intents hm]
      show Intent.new i.label = _
      unfold Intent.new
      rw [toInt32_ok h2]
      rfl)
  rw [List.map_id'] at n2
  obtain ⟨raws, r1, r2⟩ := mapM_inverse (t.humanizeEntity σ) (t.machanizeEntity d.utterance)
    (fun e => { e with replacements := pyDedup (if e.noReplacements then [] else σ.listSet e.replacements) })
    d.entities (by
      intro e he
      obtain ⟨⟨s, l⟩, hm, hl⟩ := List.mem_map.mp (hk.entityLabels e he)
      dsimp only at hl
      subst hl
      have hi := hk.ints e he
      refine ⟨⟨s, e.start, e.stop, if e.noReplacements then none else some (σ.listSet e.replacements)⟩, ?_, ?_⟩
      · unfold humanizeEntity
        rw [(c3 _ _).mpr hm]
        rfl
      · unfold machanizeEntity
        dsimp only
        rw [lookup_of_mem ht.entities hm]
        show Entity.new e.label _ e.start e.stop _ = _
        rw [entity_new_ok _ _ hi.1 hi.2.1 hi.2.2]
        have hv := hk.isDatum.values e he
        unfold ValueAt at hv
        rw [← hv]
        congr 2
        split <;> rfl)
  have hes : (d.entities.map (fun e => { e with replacements := pyDedup (if e.noReplacements then [] else σ.listSet e.replacements) } : Entity → Entity)).Pairwise
      (fun a b => a.start ≤ b.start) := List.Pairwise.map _ (fun _ _ h => h) hk.isDatum.sorted
  have hbe : (d.entities.map (fun e => { e with replacements := pyDedup (if e.noReplacements then [] else σ.listSet e.replacements) } : Entity → Entity)).Pairwise
      Before := List.Pairwise.map _ (fun _ _ h => h) hk.isDatum.before
  have hnew : Datum.new d.utterance (some d.intents) (some (d.entities.map
      (fun e => { e with replacements := pyDedup (if e.noReplacements then [] else σ.listSet e.replacements) }))) =
      .ok ⟨d.utterance, d.intents, d.entities.map
        (fun e => { e with replacements := pyDedup (if e.noReplacements then [] else σ.listSet e.replacements) })⟩ := by
    rw [datum_new_ok _ _ _ _ (by rw [pySorted_of_pairwise _ _ hes]; exact pairwise_neighbours hbe)]
    · rw [pySorted_of_pairwise _ _ hes, pySorted_of_pairwise _ _ hk.isDatum.intents]
    · intro e he
      obtain ⟨f, hf, rfl⟩ := List.mem_map.mp he
      exact hk.isDatum.values f hf
  have heq : Datum.eq ⟨d.utterance, d.intents, d.entities.map
        (fun e => { e with replacements := pyDedup (if e.noReplacements then [] else σ.listSet e.replacements) })⟩ d = true := by
    rw [C47_datum_eq]
    refine ⟨rfl, fun _ => Iff.rfl, by simp, fun n x y hx hy => ?_⟩
    rw [List.getElem?_map, hy] at hx
    injection hx with hx
    subst hx
    rw [C47_entity_eq]
    refine ⟨rfl, rfl, rfl, rfl, fun r => ?_⟩
    dsimp only
    rw [mem_pyDedup]
    unfold Entity.noReplacements
    split
    · rename_i h0
      have : y.replacements = [] := by simpa using h0
      simp [this]
    · rw [mem_listSet]
  by_cases hh : d.hasEntities = true
  · refine ⟨⟨d.utterance, names, some raws⟩, _, ?_, ?_, heq⟩
    · unfold humanize
      rw [n1]
      simp only [Except.bind_ok]
      rw [if_pos hh, r1]
      rfl
    · unfold machanize
      dsimp only [Option.getD_some]
      rw [n2, r2]
      exact hnew
  · have h0 : d.entities = [] := by
      unfold Datum.hasEntities at hh
      have : ¬ 0 < d.entities.length := by simpa using hh
      exact List.eq_nil_of_length_eq_zero (by omega)
    refine ⟨⟨d.utterance, names, none⟩, _, ?_, ?_, heq⟩
    · unfold humanize
      rw [n1]
      simp only [Except.bind_ok]
      rw [if_neg hh]
      rfl
    · unfold machanize
      dsimp only [Option.getD_none]
      rw [n2, h0]
      rw [h0] at hnew
      exact hnew

theorem mapM_error_of {α β : Type} (f : α → Res β) (k : Exc) (l : List α)
    (h : ∀ x ∈ l, (∃ y, f x = .ok y) ∨ f x = .error k) (he : ∃ x ∈ l, f x = .error k) :
    l.mapM f = .error k := by
  induction l with
  | nil => obtain ⟨x, hx, _⟩ := he; cases hx
  | cons x l ih =>
    rw [List.mapM_cons]
    rcases h x (by simp) with ⟨y, h1⟩ | h1
    · have : l.mapM f = .error k := by
        refine ih (fun z hz => h z (by simp [hz])) ?_
        obtain ⟨z, hz, hz'⟩ := he
        rcases List.mem_cons.mp hz with rfl | hz
        · rw [h1] at hz'; cases hz'
        · exact ⟨z, hz, hz'⟩
      rw [h1, this]
      rfl
    · rw [h1]
      rfl

theorem findIndex_cases (m : List (Str × Int)) (i : Int) :
    (∃ s, findIndex m i = .ok s) ∨ findIndex m i = .error .keyError := by
  cases h : findIndex m i with
  | ok s => exact .inl ⟨s, rfl⟩
  | error e =>
    refine .inr ?_
    by_cases hi : i ∈ m.map Prod.snd
    · exfalso
      induction m with
      | nil => cases hi
      | cons p m ih =>
        obtain ⟨n, c⟩ := p
        unfold findIndex at h
        by_cases hc : i = c
        · rw [if_pos hc] at h; cases h
        · rw [if_neg hc] at h
          simp only [List.map_cons, List.mem_cons, hc, false_or] at hi
          exact ih h hi
    · rw [findIndex_error hi] at h
      exact h.symm

/-- C55: labels that are not in the mappings make `humanize` raise KeyError. -/
theorem C55_unknown_label (σ : SetOrder) (t : OrdinalLabel) (d : Datum)
    (h : (∃ i ∈ d.intents, i.label ∉ t.intent2index.map Prod.snd) ∨
      (∃ e ∈ d.entities, e.label ∉ t.entity2index.map Prod.snd)) : t.humanize σ d = .error .keyError := by
  unfold humanize
  by_cases h1 : ∃ i ∈ d.intents, i.label ∉ t.intent2index.map Prod.snd
  · rw [mapM_error_of (fun i : Intent => t.index2intent i.label) .keyError d.intents
      (fun i _ => findIndex_cases _ _) (by obtain ⟨i, hi, hn⟩ := h1; exact ⟨i, hi, findIndex_error hn⟩)]
    rfl
  · have h2 := h.resolve_left h1
    obtain ⟨ns, hns⟩ : ∃ ns, d.intents.mapM (fun i : Intent => t.index2intent i.label) = .ok ns := by
      obtain ⟨ns, hns, _⟩ := mapM_inverse (fun i : Intent => t.index2intent i.label)
        (fun _ => (.ok () : Res Unit)) (fun _ => ()) d.intents (by
          intro i hi
          rcases findIndex_cases t.intent2index i.label with ⟨s, hs⟩ | hs
          · exact ⟨s, hs, rfl⟩
          · exfalso
            refine h1 ⟨i, hi, fun hm => ?_⟩
            obtain ⟨⟨s, l⟩, hm, hl⟩ := List.mem_map.mp hm
            have : ∀ (m : List (Str × Int)), (s, l) ∈ m → findIndex m l ≠ .error .keyError := by
              intro m
              induction m with
              | nil => intro h; cases h
              | cons p m ih =>
                obtain ⟨n, c⟩ := p
                intro h
                unfold findIndex
                by_cases hc : l = c
                · rw [if_pos hc]; intro h; cases h
                · rw [if_neg hc]
                  rcases List.mem_cons.mp h with h | h
                  · injection h with _ h; exact absurd h hc
                  · exact ih h
            dsimp only at hl
            rw [← hl] at hs
            exact this _ hm hs)
      exact ⟨ns, hns⟩
    rw [hns]
    simp only [Except.bind_ok]
    have hh : d.hasEntities = true := by
      unfold Datum.hasEntities
      obtain ⟨e, he, _⟩ := h2
      have := List.length_pos_of_mem he
      simpa using this
    rw [if_pos hh, mapM_error_of (t.humanizeEntity σ) .keyError d.entities]
    · rfl
    · intro e _
      unfold humanizeEntity
      rcases findIndex_cases t.entity2index e.label with ⟨s, hs⟩ | hs
      · exact .inl ⟨_, by unfold index2entity; rw [hs]; rfl⟩
      · exact .inr (by unfold index2entity; rw [hs]; rfl)
    · obtain ⟨e, he, hn⟩ := h2
      refine ⟨e, he, ?_⟩
      unfold humanizeEntity index2entity
      rw [findIndex_error hn]
      rfl

theorem lookup_cases (m : List (Str × Int)) (n : Str) :
    (∃ i, lookup m n = .ok i ∧ i ∈ m.map Prod.snd) ∨ (lookup m n = .error .keyError) := by
  unfold lookup
  cases h : dictGet m n with
  | none => exact .inr rfl
  | some i => exact .inl ⟨i, rfl, List.mem_map.mpr ⟨(n, i), dictGet_mem m n i h, rfl⟩⟩

theorem lookup_error {m : List (Str × Int)} {n : Str} (h : n ∉ m.map Prod.fst) : lookup m n = .error .keyError := by
  unfold lookup
  rw [(dictGet_none m n).mpr h]

/-- C55: names that are not in the mappings make `machanize` raise KeyError (all numbers being C `int`s). -/
theorem C55_unknown_name (t : OrdinalLabel) (r : RawDatum)
    (hi : ∀ v ∈ t.intent2index.map Prod.snd, IsInt32 v) (he : ∀ v ∈ t.entity2index.map Prod.snd, IsInt32 v)
    (hp : ∀ e ∈ r.entities.getD [], IsInt32 e.start ∧ IsInt32 e.stop)
    (h : (∃ n ∈ r.names, n ∉ t.intent2index.map Prod.fst) ∨
      (∃ e ∈ r.entities.getD [], e.name ∉ t.entity2index.map Prod.fst)) :
    t.machanize r = .error .keyError := by
  unfold machanize
  have hcase : ∀ n, (∃ y, (do let i ← lookup t.intent2index n; Intent.new i) = .ok y) ∨
      (do let i ← lookup t.intent2index n; Intent.new i) = .error .keyError := by
    intro n
    rcases lookup_cases t.intent2index n with ⟨i, h1, h2⟩ | h1
    · refine .inl ⟨⟨i⟩, ?_⟩
      rw [h1]
      show Intent.new i = _
      unfold Intent.new
      rw [toInt32_ok (hi i h2)]
      rfl
    · exact .inr (by rw [h1]; rfl)
  by_cases h1 : ∃ n ∈ r.names, n ∉ t.intent2index.map Prod.fst
  · rw [mapM_error_of (fun name => do let i ← lookup t.intent2index name; Intent.new i) .keyError r.names
      (fun n _ => hcase n) (by
        obtain ⟨n, hn, hn'⟩ := h1
        exact ⟨n, hn, by rw [lookup_error hn']; rfl⟩)]
    rfl
  · have h2 := h.resolve_left h1
    have h3 : (r.entities.getD []).mapM (t.machanizeEntity r.utterance) = .error .keyError := by
      refine mapM_error_of _ _ _ (fun e hm => ?_) ?_
      · unfold machanizeEntity
        rcases lookup_cases t.entity2index e.name with ⟨i, h1, h2⟩ | h1
        · exact .inl ⟨_, (bind_of_ok h1 _).trans (entity_new_ok _ _ (he i h2) (hp e hm).1 (hp e hm).2)⟩
        · exact .inr (by rw [h1]; rfl)
      · obtain ⟨e, hm, hn⟩ := h2
        exact ⟨e, hm, by unfold machanizeEntity; rw [lookup_error hn]; rfl⟩
    cases hns : r.names.mapM (fun name => do let i ← lookup t.intent2index name; Intent.new i) with
    | error e =>
      have : e = .keyError := by
        by_cases hk : ∃ n ∈ r.names, (do let i ← lookup t.intent2index n; Intent.new i) = .error .keyError
        · rw [mapM_error_of _ .keyError r.names (fun n _ => hcase n) hk] at hns
          injection hns with hns
          exact hns.symm
        · exfalso
          obtain ⟨ys, hy, _⟩ := mapM_inverse (fun name => do let i ← lookup t.intent2index name; Intent.new i)
            (fun _ => (.ok () : Res Unit)) (fun _ => ()) r.names (by
              intro n hn
              rcases hcase n with ⟨y, hy⟩ | hy
              · exact ⟨y, hy, rfl⟩
              · exact absurd ⟨n, hn, hy⟩ hk)
          rw [hy] at hns
          cases hns
      rw [this]
      rfl
    | ok is =>
      simp only [Except.bind_ok]
      rw [h3]
      rfl

theorem pySorted_map {α β : Type} (k : α → β) (key : β → Int) (l : List α) :
    pySorted key (l.map k) = (pySorted (fun a => key (k a)) l).map k := by
  refine stableSort_unique_int key _ _ (pySorted_pairwise _ _)
    (List.Pairwise.map _ (fun _ _ h => h) (pySorted_pairwise _ _)) fun v => ?_
  rw [(pySorted_stable_int key (l.map k)).2 v, List.filter_map, List.filter_map,
    show (fun a => decide (key a = v)) ∘ k = fun a => decide (key (k a) = v) from rfl,
    (pySorted_stable_int (fun a => key (k a)) l).2 v]

theorem mapM_ok_map {α β : Type} (f : α → Res β) (g : α → β) (l : List α) (h : ∀ x ∈ l, f x = .ok (g x)) :
    l.mapM f = .ok (l.map g) := by
  induction l with
  | nil => rfl
  | cons x l ih =>
    rw [List.mapM_cons, h x (by simp), ih (fun y hy => h y (by simp [hy]))]
    rfl

theorem mapM_ok_mem {α β : Type} (f : α → Res β) (l : List α) (ys : List β) (h : l.mapM f = .ok ys) :
    ∀ y ∈ ys, ∃ x ∈ l, f x = .ok y := by
  induction l generalizing ys with
  | nil =>
    have : Except.ok [] = (Except.ok ys : Res (List β)) := h
    injection this with this
    subst this
    simp
  | cons x l ih =>
    rw [List.mapM_cons] at h
    cases h1 : f x with
    | error e => rw [h1] at h; cases h
    | ok y =>
      rw [h1] at h
      cases h2 : l.mapM f with
      | error e => rw [h2] at h; cases h
      | ok zs =>
        rw [h2] at h
        have h' : Except.ok (y :: zs) = (Except.ok ys : Res (List β)) := h
        injection h' with h'
        subst h'
        intro z hz
        rcases List.mem_cons.mp hz with rfl | hz
        · exact ⟨x, by simp, h1⟩
        · obtain ⟨w, hw, hw'⟩ := ih zs h2 z hz
          exact ⟨w, by simp [hw], hw'⟩

/-- The raw form of an entity read from `x`. -/
def rawOf (σ : SetOrder) (x : RawEntity) : RawEntity :=
  ⟨x.name, x.start, x.stop, if ((⟨0, [], 0, 0, pyDedup (x.replacements.getD [])⟩ : Entity)).noReplacements then none
    else some (σ.listSet (pyDedup (x.replacements.getD [])))⟩

theorem rawOf_same (σ : SetOrder) (x : RawEntity) : SameRaw (rawOf σ x) x := by
  refine ⟨rfl, rfl, rfl, fun s => ?_⟩
  unfold rawOf Entity.noReplacements
  dsimp only
  split
  · rename_i h0
    have : pyDedup (x.replacements.getD []) = [] := by simpa using h0
    have h1 : ¬ s ∈ x.replacements.getD [] := by
      rw [← mem_pyDedup, this]; simp
    simp [h1]
  · rw [Option.getD_some, mem_listSet, mem_pyDedup]

theorem mapM_map_inverse {α β γ : Type} (f : α → Res β) (k : β → γ) (h : α → γ) (l : List α) (ys : List β)
    (hl : l.mapM f = .ok ys) (hf : ∀ x ∈ l, ∀ y, f x = .ok y → k y = h x) : ys.map k = l.map h := by
  induction l generalizing ys with
  | nil =>
    have : Except.ok [] = (Except.ok ys : Res (List β)) := hl
    injection this with this
    subst this
    rfl
  | cons x l ih =>
    rw [List.mapM_cons] at hl
    cases h1 : f x with
    | error e => rw [h1] at hl; cases hl
    | ok y =>
      rw [h1] at hl
      cases h2 : l.mapM f with
      | error e => rw [h2] at hl; cases hl
      | ok zs =>
        rw [h2] at hl
        have h' : Except.ok (y :: zs) = (Except.ok ys : Res (List β)) := hl
        injection h' with h'
        subst h'
        rw [List.map_cons, List.map_cons, hf x (by simp) y h1, ih zs h2 (fun z hz => hf z (by simp [hz]))]

/-- C55: for every raw dictionary that `machanize` accepts, `humanize(machanize(raw))` has the same
utterance, the same intent names up to order, and the same entities (as sets of replacements) stably sorted
by start; the key `entities` is missing when there are none. -/
theorem C55_machanize_humanize (σ : SetOrder) (t : OrdinalLabel) (ht : IsTransformer t) (r : RawDatum)
    (d : Datum) (h : t.machanize r = .ok d) :
    ∃ r' es, t.humanize σ d = .ok r' ∧ r'.utterance = r.utterance ∧ r'.names.Perm r.names ∧
      IsStableSort (fun e : RawEntity => e.start) (r.entities.getD []) es ∧
      (r'.entities = none ↔ es = []) ∧ (r'.entities.getD []).length = es.length ∧
      ∀ (n : Nat) (a b : RawEntity), (r'.entities.getD [])[n]? = some a → es[n]? = some b → SameRaw a b := by
  obtain ⟨c1, c2, c3, c4, _⟩ := C53_inverse _ _ _ t ht.reserved ht.constructed
  unfold machanize at h
  cases hn : r.names.mapM (fun name => do let i ← lookup t.intent2index name; Intent.new i) with
  | error e => rw [hn] at h; cases h
  | ok is =>
    rw [hn] at h
    simp only [Except.bind_ok] at h
    cases hr : (r.entities.getD []).mapM (t.machanizeEntity r.utterance) with
    | error e => rw [hr] at h; cases h
    | ok es =>
      rw [hr] at h
      simp only [Except.bind_ok] at h
      obtain ⟨rfl, _, _⟩ := datum_new_cases _ _ _ _ h
      -- the name of an intent
      have hI : ∀ (n : Str) (i : Intent), (do let j ← lookup t.intent2index n; Intent.new j) = .ok i →
          t.index2intent i.label = .ok n := by
        intro n i hi
        cases hl : lookup t.intent2index n with
        | error e => rw [hl] at hi; cases hi
        | ok j =>
          rw [hl] at hi
          have hi' : Intent.new j = .ok i := hi
          unfold Intent.new at hi'
          cases hj : toInt32 j with
          | error e => rw [hj] at hi'; cases hi'
          | ok j' =>
            have hjj : j' = j := by
              unfold toInt32 at hj
              split at hj
              · injection hj with hj; exact hj.symm
              · cases hj
            rw [hj] at hi'
            injection hi' with hi'
            subst hi'
            subst hjj
            exact (c1 _ _).mpr (mem_of_lookup hl)
      -- the raw form of an entity
      have hE : ∀ (x : RawEntity) (e : Entity), t.machanizeEntity r.utterance x = .ok e →
          e.start = x.start ∧ t.humanizeEntity σ e = .ok (rawOf σ x) := by
        intro x e hx
        unfold machanizeEntity at hx
        cases hl : lookup t.entity2index x.name with
        | error _ => rw [hl] at hx; cases hx
        | ok j =>
          rw [hl] at hx
          have hx' : Entity.new j (pySlice r.utterance x.start x.stop) x.start x.stop x.replacements = .ok e := hx
          by_cases hi : IsInt32 j ∧ IsInt32 x.start ∧ IsInt32 x.stop
          · rw [entity_new_ok _ _ hi.1 hi.2.1 hi.2.2] at hx'
            injection hx' with hx'
            subst hx'
            refine ⟨rfl, ?_⟩
            unfold humanizeEntity
            dsimp only
            rw [(c3 _ _).mpr (mem_of_lookup hl)]
            rfl
          · rw [entity_new_error _ _ hi] at hx'; cases hx'
      have hIm : ∀ i ∈ is, ∃ n, t.index2intent i.label = .ok n := by
        intro i hi
        obtain ⟨n, _, hn'⟩ := mapM_ok_mem _ _ _ hn i hi
        exact ⟨n, hI n i hn'⟩
      have hEm : ∀ e ∈ es, ∃ x, t.humanizeEntity σ e = .ok x := by
        intro e he
        obtain ⟨x, _, hx⟩ := mapM_ok_mem _ _ _ hr e he
        exact ⟨_, (hE x e hx).2⟩
      let kI : Intent → Str := fun i => match t.index2intent i.label with | .ok n => n | .error _ => []
      let kE : Entity → RawEntity := fun e =>
        match t.humanizeEntity σ e with | .ok x => x | .error _ => ⟨[], e.start, 0, none⟩
      have hks : ∀ e, (kE e).start = e.start := by
        intro e
        show (match t.humanizeEntity σ e with | .ok x => x | .error _ => ⟨[], e.start, 0, none⟩ : RawEntity).start = _
        unfold humanizeEntity
        cases t.index2entity e.label <;> rfl
      have hnames : is.map kI = r.names.map (fun n => n) := by
        refine mapM_map_inverse _ kI (fun n => n) _ _ hn fun n _ i hi => ?_
        show (match t.index2intent i.label with | .ok n => n | .error _ => []) = n
        rw [hI n i hi]
      have hents : es.map kE = (r.entities.getD []).map (rawOf σ) := by
        refine mapM_map_inverse _ kE (rawOf σ) _ _ hr fun x _ e he => ?_
        show (match t.humanizeEntity σ e with | .ok x => x | .error _ => ⟨[], e.start, 0, none⟩) = _
        rw [(hE x e he).2]
      have hm1 : (pySorted Intent.hash is).mapM (fun i : Intent => t.index2intent i.label) =
          .ok ((pySorted Intent.hash is).map kI) := by
        refine mapM_ok_map _ _ _ fun i hi => ?_
        obtain ⟨n, hn'⟩ := hIm i (mem_pySorted.mp hi)
        show t.index2intent i.label = .ok (match t.index2intent i.label with | .ok n => n | .error _ => [])
        rw [hn']
      have hm2 : (pySorted Entity.start es).mapM (t.humanizeEntity σ) =
          .ok ((pySorted Entity.start es).map kE) := by
        refine mapM_ok_map _ _ _ fun e he => ?_
        obtain ⟨x, hx⟩ := hEm e (mem_pySorted.mp he)
        show t.humanizeEntity σ e =
          .ok (match t.humanizeEntity σ e with | .ok x => x | .error _ => ⟨[], e.start, 0, none⟩)
        rw [hx]
      have hsorted : (pySorted Entity.start es).map kE =
          (pySorted (fun x : RawEntity => x.start) (r.entities.getD [])).map (rawOf σ) := by
        have e1 := pySorted_map kE (fun x : RawEntity => x.start) es
        have e2 := pySorted_map (rawOf σ) (fun x : RawEntity => x.start) (r.entities.getD [])
        rw [show (fun e => (kE e).start) = Entity.start from funext hks] at e1
        rw [← e1, hents, e2]
        rfl
      have hperm : ((pySorted Intent.hash is).map kI).Perm r.names := by
        have := (pySorted_perm Intent.hash is).map kI
        rw [hnames, List.map_id'] at this
        exact this
      have hlen : es.length = (r.entities.getD []).length := by
        have := congrArg List.length hents
        simpa using this
      have hsame : ∀ (n : Nat) (a b : RawEntity),
          ((pySorted (fun x : RawEntity => x.start) (r.entities.getD [])).map (rawOf σ))[n]? = some a →
          (pySorted (fun x : RawEntity => x.start) (r.entities.getD []))[n]? = some b → SameRaw a b := by
        intro n a b ha hb
        rw [List.getElem?_map, hb] at ha
        injection ha with ha
        subst ha
        exact rawOf_same σ b
      by_cases hh : es = []
      · subst hh
        have h0 : r.entities.getD [] = [] := List.eq_nil_of_length_eq_zero (by simpa using hlen.symm)
        refine ⟨⟨r.utterance, (pySorted Intent.hash is).map kI, none⟩, [], ?_, rfl, hperm, ?_, by simp, rfl, ?_⟩
        · unfold humanize
          dsimp only
          rw [hm1]
          rfl
        · rw [h0]
          exact ⟨.nil, fun _ => rfl⟩
        · intro n a b ha
          simp at ha
      · refine ⟨⟨r.utterance, (pySorted Intent.hash is).map kI, some ((pySorted Entity.start es).map kE)⟩,
          pySorted (fun x : RawEntity => x.start) (r.entities.getD []), ?_, rfl, hperm,
          pySorted_stable_int _ _, ?_, ?_, ?_⟩
        · unfold humanize
          dsimp only
          rw [hm1]
          simp only [Except.bind_ok]
          rw [if_pos, hm2]
          · rfl
          · unfold Datum.hasEntities
            have := List.length_pos_iff.mpr hh
            simpa [length_pySorted] using this
        · constructor
          · intro h; cases h
          · intro h
            exfalso
            have h1 := congrArg List.length h
            rw [length_pySorted, ← hlen] at h1
            exact hh (List.eq_nil_of_length_eq_zero h1)
        · rw [Option.getD_some, hsorted, List.length_map]
        · rw [Option.getD_some, hsorted]
          exact hsame

example : (do
    let t ← OrdinalLabel.new [("i".toList, 1), ("j".toList, 0)] [("x".toList, 0), ("y".toList, 2)] 1
    let d ← t.machanize ⟨"abc".toList, ["i".toList, "j".toList],
      some [⟨"y".toList, 2, 3, some ["q".toList]⟩, ⟨"x".toList, 0, 1, none⟩]⟩
    t.humanize SetOrder.id d) =
    .ok ⟨"abc".toList, ["j".toList, "i".toList],
      some [⟨"x".toList, 0, 1, none⟩, ⟨"y".toList, 2, 3, some ["q".toList]⟩]⟩ := by decide

example : IsTransformer ⟨[("i".toList, 1), ("j".toList, 0)], [("x".toList, 0), ("y".toList, 2)], 1⟩ :=
  ⟨by decide, by unfold IsDict; decide, by unfold IsDict; decide, by decide⟩

example : Known ⟨[("i".toList, 1), ("j".toList, 0)], [("x".toList, 0), ("y".toList, 2)], 1⟩
    ⟨"abc".toList, [⟨0⟩, ⟨1⟩], [⟨2, "b".toList, 1, 2, ["q".toList]⟩]⟩ := by
  refine ⟨isDatum_of_new (u := "abc".toList) (is := [⟨0⟩, ⟨1⟩]) (es := [⟨2, "b".toList, 1, 2, ["q".toList]⟩])
    (by decide), ?_, by decide, ?_⟩
  · unfold IsInt32; decide
  · unfold IsInt32; decide

/-! ### C56 serialization -/

theorem numbers_ints (is : List Int) : numbers (is.map PyVal.int) = .ok is := by
  have : (is.map PyVal.int).mapM number? = some is := by
    induction is with
    | nil => rfl
    | cons i is ih => rw [List.map_cons, List.mapM_cons, ih]; rfl
  unfold numbers
  rw [this]

theorem mappingOf_val (m : List (Str × Int)) : mappingOf (m.map fun kv => (kv.1, .int kv.2)) = .ok m := by
  unfold mappingOf
  have e : (m.map fun kv => (kv.1, PyVal.int kv.2)).map Prod.snd = (m.map Prod.snd).map PyVal.int := by simp
  rw [e, numbers_ints]
  show Except.ok _ = _
  congr 1
  clear e
  induction m with
  | nil => rfl
  | cons kv m ih => simpa using ih

theorem dictSet_mapVal {α β : Type} (f : α → β) (m : List (Str × α)) (k : Str) (v : α) :
    dictSet (m.map fun kv => (kv.1, f kv.2)) k (f v) = (dictSet m k v).map fun kv => (kv.1, f kv.2) := by
  induction m with
  | nil => rfl
  | cons kv m ih =>
    simp only [List.map_cons, dictSet]
    split
    · rfl
    · rw [ih]; rfl

theorem mappingVal_plain {m : List (Str × Int)} (h : IsDict m) : Plain (mappingVal m) := by
  refine Plain.dict _ ?_ ?_
  · rw [List.map_map]
    exact h
  · intro kv hkv
    obtain ⟨x, _, rfl⟩ := List.mem_map.mp hkv
    exact Plain.int _

/-- C56: a transformer is restored from its serialized text, whatever names it uses: same mappings in the same
order, same `not_entity_index`. -/
theorem C56_round_trip (i2x e2x : List (Str × Int)) (ne : Int) (h1 : IsDict i2x) (h2 : IsDict e2x)
    (t : OrdinalLabel) (hn : OrdinalLabel.new i2x e2x ne = .ok t) :
    OrdinalLabel.deserialize t.serialize = .ok t := by
  have ht : t = ⟨i2x, e2x, ne⟩ := by
    unfold OrdinalLabel.new at hn
    split at hn
    · split at hn
      · injection hn with hn
        exact hn.symm
      · cases hn
    · cases hn
  have hp : Plain t.toDict := by
    subst ht
    refine Plain.dict _ (by simp only [List.map_cons, List.map_nil]; decide) ?_
    intro kv hkv
    simp only [List.mem_cons, List.not_mem_nil, or_false] at hkv
    rcases hkv with rfl | rfl | rfl
    · exact mappingVal_plain h1
    · exact mappingVal_plain h2
    · exact Plain.int _
  unfold OrdinalLabel.deserialize OrdinalLabel.serialize
  rw [Json.loads_dumps _ _ _ hp]
  have e1 : PyVal.getItem t.toDict "intent2index".toList = .ok (mappingVal t.intent2index) := by
    unfold PyVal.getItem OrdinalLabel.toDict
    simp [dictGet]
  have e2 : PyVal.getItem t.toDict "entity2index".toList = .ok (mappingVal t.entity2index) := by
    unfold PyVal.getItem OrdinalLabel.toDict
    simp [dictGet]
  have e3 : PyVal.getItem t.toDict "not_entity_index".toList = .ok (.int t.notEntityIndex) := by
    unfold PyVal.getItem OrdinalLabel.toDict
    simp [dictGet]
  simp only [Except.bind_ok, e1, e2, e3]
  show (valuesOf (.dict _) >>= _) = _
  simp only [valuesOf, Except.bind_ok, mappingOf_val]
  have hv : isValidMapping t.intent2index = true := by
    subst ht
    exact (isValidMapping_iff _).mpr (new_cases hn).2.1
  rw [if_pos hv]
  simp only [mappingVal, unpackOf, Except.bind_ok, mappingOf_val, dictSet_mapVal PyVal.int, number?]
  subst ht
  exact hn

example : OrdinalLabel.deserialize (OrdinalLabel.serialize ⟨[("a".toList, 0)], [("é\"\n".toList, 1)], 0⟩) =
    .ok ⟨[("a".toList, 0)], [("é\"\n".toList, 1)], 0⟩ :=
  C56_round_trip [("a".toList, 0)] [("é\"\n".toList, 1)] 0 (by unfold IsDict; decide) (by unfold IsDict; decide) _ rfl

/-- C56: a text whose mappings are not valid numberings is refused like by the constructor: loading never yields a
transformer the constructor would refuse. -/
theorem C56_checked (text : Str) (t : OrdinalLabel) (h : OrdinalLabel.deserialize text = .ok t) :
    OrdinalLabel.new t.intent2index t.entity2index t.notEntityIndex = .ok t := by
  unfold OrdinalLabel.deserialize at h
  obtain ⟨v, _, h⟩ := bind_eq_ok h
  obtain ⟨i, _, h⟩ := bind_eq_ok h
  obtain ⟨e, _, h⟩ := bind_eq_ok h
  obtain ⟨n, _, h⟩ := bind_eq_ok h
  obtain ⟨d, _, h⟩ := bind_eq_ok h
  obtain ⟨i2x, _, h⟩ := bind_eq_ok h
  split at h
  · obtain ⟨d', _, h⟩ := bind_eq_ok h
    obtain ⟨_, _, h⟩ := bind_eq_ok h
    obtain ⟨e2x, _, h⟩ := bind_eq_ok h
    split at h
    · have := (new_cases h).1
      subst this
      exact h
    · cases h
  · cases h

example : OrdinalLabel.deserialize (Json.dumps true none (OrdinalLabel.toDict ⟨[("a".toList, 1)], [], 0⟩)) =
    .error .valueError := by
  unfold OrdinalLabel.deserialize
  rw [Json.loads_dumps]
  · rfl
  · refine Plain.dict _ (by simp only [List.map_cons, List.map_nil]; decide) ?_
    intro kv hkv
    simp only [List.mem_cons, List.not_mem_nil, or_false] at hkv
    rcases hkv with rfl | rfl | rfl
    · exact mappingVal_plain (m := [("a".toList, 1)]) (by unfold IsDict; decide)
    · exact mappingVal_plain (m := []) (by unfold IsDict; decide)
    · exact Plain.int _

end Uttut
