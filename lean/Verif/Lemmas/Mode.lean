import Verif.Lemmas.Sort
import Verif.Spec.Edit

/-! Lemmas about the counters of `Model/Label.lean`. -/

namespace Uttut

open Spec

theorem pyDedup_concat {α : Type} [DecidableEq α] (l : List α) (x : α) :
    pyDedup (l ++ [x]) = if x ∈ l then pyDedup l else pyDedup l ++ [x] := by
  induction l with
  | nil => simp [pyDedup]
  | cons y ys ih =>
    simp only [List.cons_append, pyDedup, ih]
    by_cases h1 : x ∈ ys
    · simp [h1]
    · by_cases h2 : x = y
      · subst h2; simp [h1]
      · simp [h1, h2]

theorem dictGet_map {ν : Type} (ks : List Int) (f : Int → ν) (x : Int) :
    dictGet (ks.map fun k => (k, f k)) x = if x ∈ ks then some (f x) else none := by
  induction ks with
  | nil => rfl
  | cons k ks ih =>
    simp only [List.map_cons, dictGet]
    by_cases h : k = x
    · subst h; simp
    · have h' : ¬ x = k := fun e => h e.symm
      simp [h, h', ih]

theorem dictSet_map_mem {ν : Type} (ks : List Int) (f : Int → ν) (x : Int) (v : ν) (hnd : ks.Nodup)
    (hx : x ∈ ks) :
    dictSet (ks.map fun k => (k, f k)) x v = ks.map fun k => (k, if k = x then v else f k) := by
  induction ks with
  | nil => simp at hx
  | cons k ks ih =>
    rw [List.nodup_cons] at hnd
    simp only [List.map_cons, dictSet]
    by_cases h : k = x
    · subst h
      rw [if_pos rfl]
      simp only [if_true, List.cons.injEq, true_and]
      refine List.map_congr_left fun a ha => ?_
      have : a ≠ k := fun e => hnd.1 (e ▸ ha)
      simp [this]
    · have hx' : x ∈ ks := by
        rcases List.mem_cons.mp hx with e | e
        · exact absurd e.symm h
        · exact e
      rw [if_neg h, ih hnd.2 hx']
      simp [h]

theorem dictSet_map_not_mem {ν : Type} (ks : List Int) (f : Int → ν) (x : Int) (v : ν)
    (hx : x ∉ ks) :
    dictSet (ks.map fun k => (k, f k)) x v = (ks.map fun k => (k, f k)) ++ [(x, v)] := by
  induction ks with
  | nil => rfl
  | cons k ks ih =>
    simp only [List.mem_cons, not_or] at hx
    simp only [List.map_cons, dictSet]
    rw [if_neg (fun e => hx.1 e.symm), ih hx.2]
    rfl

theorem counterOf_concat (l : List Int) (x : Int) : counterOf (l ++ [x]) = countInto (counterOf l) x := by
  simp [counterOf, List.foldl_append]

/-- The counter lists the distinct labels in order of first occurrence with their counts. -/
theorem counterOf_eq (l : List Int) : counterOf l = (pyDedup l).map fun k => (k, l.count k) := by
  suffices h : ∀ n (l : List Int), l.length = n →
      counterOf l = (pyDedup l).map fun k => (k, l.count k) from h _ l rfl
  intro n
  induction n with
  | zero => intro l hl; cases l with
    | nil => rfl
    | cons _ _ => simp at hl
  | succ n ih =>
    intro l hl
    rcases List.eq_nil_or_concat l with rfl | ⟨ys, x, rfl⟩
    · simp at hl
    · simp only [List.concat_eq_append] at *
      have hys : ys.length = n := by simpa using hl
      rw [counterOf_concat, ih ys hys, countInto, dictGet_map, pyDedup_concat]
      by_cases hx : x ∈ ys
      · simp only [mem_pyDedup, hx, if_true]
        rw [dictSet_map_mem _ _ _ _ (nodup_pyDedup ys) (mem_pyDedup.mpr hx)]
        refine List.map_congr_left fun a _ => ?_
        by_cases e : a = x
        · subst e; simp
        · have : ¬ x = a := fun h => e h.symm
          simp [e, this]
      · simp only [mem_pyDedup, hx, if_false]
        rw [dictSet_map_not_mem _ _ _ _ (fun h => hx (mem_pyDedup.mp h))]
        simp only [List.map_append, List.map_cons, List.map_nil]
        congr 1
        · refine List.map_congr_left fun a ha => ?_
          have e : ¬ x = a := fun h => hx (h ▸ mem_pyDedup.mp ha)
          simp [e]
        · simp [List.count_eq_zero.mpr hx]

theorem idxOf_cons_of_ne {α : Type} [BEq α] [LawfulBEq α] {x y : α} (l : List α) (h : x ≠ y) : (x :: l).idxOf y = l.idxOf y + 1 := by
  rw [List.idxOf_cons]
  have : (x == y) = false := by simpa using h
  rw [this]; rfl

theorem pyDedup_pairwise_idxOf {α : Type} [DecidableEq α] [BEq α] [LawfulBEq α] (l : List α) :
    (pyDedup l).Pairwise (fun a b => l.idxOf a < l.idxOf b) := by
  induction l with
  | nil => simp [pyDedup]
  | cons x xs ih =>
    simp only [pyDedup, List.pairwise_cons, List.mem_filter]
    refine ⟨fun a ha => ?_, ?_⟩
    · have : a ≠ x := by simpa using ha.2
      rw [List.idxOf_cons_self, idxOf_cons_of_ne _ (Ne.symm this)]
      omega
    · refine List.Pairwise.imp_of_mem (fun {a b} ha hb hab => ?_) (ih.filter _)
      have h1 : a ≠ x := by simpa using (List.mem_filter.mp ha).2
      have h2 : b ≠ x := by simpa using (List.mem_filter.mp hb).2
      rw [idxOf_cons_of_ne _ (Ne.symm h1), idxOf_cons_of_ne _ (Ne.symm h2)]
      omega

theorem isFirstMode_unique {l : List Int} {x y : Int} (hx : IsFirstMode l x) (hy : IsFirstMode l y) :
    x = y := by
  have h1 := hx.2.1 y hy.1
  have h2 := hy.2.1 x hx.1
  have h3 := hx.2.2 y hy.1 (by omega)
  have h4 := hy.2.2 x hx.1 (by omega)
  have h5 : l.idxOf x = l.idxOf y := by omega
  have h6 := List.idxOf_lt_length_of_mem hx.1
  have e1 : l[l.idxOf x] = x := List.getElem_idxOf h6
  have h7 := List.idxOf_lt_length_of_mem hy.1
  have e2 : l[l.idxOf y] = y := List.getElem_idxOf h7
  rw [← e1, ← e2]
  simp [h5]

/-- What `scanMax` finds: the first element with the largest count above `m`. -/
theorem scanMax_spec (ks : List Int) (c : Int → Nat) (k0 : Int) (m : Nat) :
    (scanMax (ks.map fun k => (k, c k)) k0 m = k0 ∧ ∀ k ∈ ks, c k ≤ m) ∨
    ∃ pre r post, ks = pre ++ r :: post ∧ scanMax (ks.map fun k => (k, c k)) k0 m = r ∧ m < c r ∧
      (∀ x ∈ pre, c x < c r) ∧ (∀ x ∈ post, c x ≤ c r) := by
  induction ks generalizing k0 m with
  | nil => exact Or.inl ⟨rfl, by simp⟩
  | cons k ks ih =>
    simp only [List.map_cons, scanMax]
    by_cases h : c k > m
    · rw [if_pos h]
      rcases ih k (c k) with ⟨h1, h2⟩ | ⟨pre, r, post, h1, h2, h3, h4, h5⟩
      · exact Or.inr ⟨[], k, ks, rfl, h1, h, by simp, h2⟩
      · refine Or.inr ⟨k :: pre, r, post, by simp [h1], h2, by omega, ?_, h5⟩
        intro x hx
        rcases List.mem_cons.mp hx with rfl | hx
        · exact h3
        · exact h4 x hx
    · rw [if_neg h]
      rcases ih k0 m with ⟨h1, h2⟩ | ⟨pre, r, post, h1, h2, h3, h4, h5⟩
      · refine Or.inl ⟨h1, ?_⟩
        intro x hx
        rcases List.mem_cons.mp hx with rfl | hx
        · omega
        · exact h2 x hx
      · refine Or.inr ⟨k :: pre, r, post, by simp [h1], h2, h3, ?_, h5⟩
        intro x hx
        rcases List.mem_cons.mp hx with rfl | hx
        · omega
        · exact h4 x hx

/-- The first most common key of the dedup list is the first mode. -/
theorem isFirstMode_of_split (l : List Int) (pre post : List Int) (r : Int)
    (h : pyDedup l = pre ++ r :: post) (h1 : ∀ x ∈ pre, l.count x < l.count r)
    (h2 : ∀ x ∈ post, l.count x ≤ l.count r) : IsFirstMode l r := by
  have hmem : ∀ y, y ∈ l → y ∈ pre ∨ y = r ∨ y ∈ post := by
    intro y hy
    have := mem_pyDedup.mpr hy
    rw [h] at this
    simpa using this
  have hpw := pyDedup_pairwise_idxOf l
  rw [h, List.pairwise_append, List.pairwise_cons] at hpw
  refine ⟨mem_pyDedup.mp (by rw [h]; simp), ?_, ?_⟩
  · intro y hy
    rcases hmem y hy with e | e | e
    · have := h1 y e; omega
    · subst e; omega
    · exact h2 y e
  · intro y hy hc
    rcases hmem y hy with e | e | e
    · have := h1 y e; omega
    · subst e; omega
    · have := hpw.2.1.1 y e; omega

theorem scanMax_firstMode (l : List Int) (hne : l ≠ []) : IsFirstMode l (scanMax (counterOf l) 0 0) := by
  rw [counterOf_eq]
  rcases scanMax_spec (pyDedup l) (fun k => l.count k) 0 0 with ⟨_, h⟩ | ⟨pre, r, post, h1, h2, _, h4, h5⟩
  · exfalso
    obtain ⟨x, xs, rfl⟩ := List.exists_cons_of_ne_nil hne
    have := h x (mem_pyDedup.mpr (by simp))
    simp at this
  · rw [h2]
    exact isFirstMode_of_split l pre post r h1 h4 h5

theorem mostCommonItems_firstMode (l : List Int) (hne : l ≠ []) :
    ∃ k n rest, Transduce.mostCommonItems l = (k, n) :: rest ∧ IsFirstMode l k := by
  have hperm := pySorted_perm (fun kv : Int × Nat => -(kv.2 : Int)) (counterOf l)
  have hpw := pySorted_pairwise_lex (fun kv : Int × Nat => -(kv.2 : Int))
    (fun a b => l.idxOf a.1 < l.idxOf b.1) (counterOf l) (by
      rw [counterOf_eq, List.pairwise_map]; exact pyDedup_pairwise_idxOf l)
  have hmem : ∀ kv, kv ∈ Transduce.mostCommonItems l ↔ ∃ y ∈ l, kv = (y, l.count y) := by
    intro kv
    unfold Transduce.mostCommonItems
    rw [hperm.mem_iff, counterOf_eq]
    simp only [List.mem_map, mem_pyDedup]
    constructor
    · rintro ⟨a, ha, rfl⟩; exact ⟨a, ha, rfl⟩
    · rintro ⟨a, ha, rfl⟩; exact ⟨a, ha, rfl⟩
  have hpw : (Transduce.mostCommonItems l).Pairwise _ := hpw
  cases hm : Transduce.mostCommonItems l with
  | nil =>
    exfalso
    obtain ⟨x, xs, rfl⟩ := List.exists_cons_of_ne_nil hne
    have := (hmem (x, _)).mpr ⟨x, by simp, rfl⟩
    rw [hm] at this; simp at this
  | cons kv rest =>
    obtain ⟨k, n⟩ := kv
    refine ⟨k, n, rest, rfl, ?_⟩
    rw [hm, List.pairwise_cons] at hpw
    rw [hm] at hmem
    obtain ⟨y0, hy0, e0⟩ := (hmem (k, n)).mp (by simp)
    injection e0 with e1 e2
    subst e1; subst e2
    refine ⟨hy0, ?_, ?_⟩
    · intro y hy
      rcases List.mem_cons.mp ((hmem (y, _)).mpr ⟨y, hy, rfl⟩) with e | e
      · injection e with e _; subst e; omega
      · rcases hpw.1 _ e with h | h <;> dsimp only at h <;> omega
    · intro y hy hc
      rcases List.mem_cons.mp ((hmem (y, _)).mpr ⟨y, hy, rfl⟩) with e | e
      · injection e with e _; subst e; omega
      · rcases hpw.1 _ e with h | h <;> dsimp only at h <;> omega

theorem mapM_toUInt_ok (l : List Int) (h : ∀ x ∈ l, 0 ≤ x ∧ x < 2 ^ 32) :
    ∃ r, l.mapM toUInt = .ok r := by
  induction l with
  | nil => exact ⟨[], rfl⟩
  | cons x xs ih =>
    obtain ⟨r, hr⟩ := ih (fun y hy => h y (by simp [hy]))
    have hx : toUInt x = .ok x.toNat := by
      unfold toUInt
      rw [if_pos]
      exact h x (by simp)
    exact ⟨x.toNat :: r, by rw [List.mapM_cons, hx, hr]; rfl⟩

theorem mapM_toUInt_error (l : List Int) (h : ∃ x ∈ l, x < 0 ∨ 2 ^ 32 ≤ x) :
    ∃ e, l.mapM toUInt = .error e := by
  induction l with
  | nil => simp at h
  | cons x xs ih =>
    rw [List.mapM_cons]
    cases hx : toUInt x with
    | error e => exact ⟨e, rfl⟩
    | ok n =>
      obtain ⟨y, hy, hb⟩ := h
      rcases List.mem_cons.mp hy with rfl | hy
      · exfalso
        unfold toUInt at hx
        have e : (uintBound : Int) = 2 ^ 32 := by decide
        split at hx
        · omega
        · simp at hx
      · obtain ⟨e, he⟩ := ih ⟨y, hy, hb⟩
        rw [he]
        exact ⟨e, rfl⟩

end Uttut
