import Verif.Spec.Data
import Verif.Lemmas.Sort

/-! Lemmas about sorting by an integer key, `Datum` construction, painting and packing labels. -/

namespace Uttut

open Spec

/-! ### stable sort by an integer key -/

theorem bind_of_ok {α β : Type} {x : Res α} {a : α} (h : x = .ok a) (f : α → Res β) : (x >>= f) = f a := by
  rw [h]
  rfl

theorem insertByKey_filter_int {α : Type} (key : α → Int) (x : α) (l : List α) (k : Int) :
    (insertByKey key x l).filter (fun a => key a = k) = (x :: l).filter (fun a => key a = k) := by
  induction l with
  | nil => rfl
  | cons y ys ih =>
    unfold insertByKey
    split
    · rfl
    · rename_i hgt
      rw [List.filter_cons, ih]
      simp only [List.filter_cons]
      by_cases hx : key x = k <;> by_cases hy : key y = k
      · exfalso; omega
      · simp [hx, hy]
      · simp [hx, hy]
      · simp [hx, hy]

theorem pySorted_stable_int {α : Type} (key : α → Int) (l : List α) :
    IsStableSort key l (pySorted key l) := by
  refine ⟨pySorted_pairwise _ l, fun k => ?_⟩
  induction l with
  | nil => rfl
  | cons x xs ih =>
    rw [pySorted, insertByKey_filter_int, List.filter_cons, List.filter_cons, ih]

theorem stableSort_unique_int {α : Type} (key : α → Int) (l1 l2 : List α)
    (h1 : l1.Pairwise (fun a b => key a ≤ key b)) (h2 : l2.Pairwise (fun a b => key a ≤ key b))
    (h : ∀ k, l1.filter (fun a => key a = k) = l2.filter (fun a => key a = k)) : l1 = l2 := by
  induction l1 generalizing l2 with
  | nil =>
    cases l2 with
    | nil => rfl
    | cons b bs =>
      have := h (key b)
      simp at this
  | cons a as ih =>
    cases l2 with
    | nil =>
      have := h (key a)
      simp at this
    | cons b bs =>
      rw [List.pairwise_cons] at h1 h2
      have hab : key a = key b := by
        have ha : a ∈ (b :: bs).filter (fun c => key c = key a) := by rw [← h (key a)]; simp
        have hb : b ∈ (a :: as).filter (fun c => key c = key b) := by rw [h (key b)]; simp
        have ha' := (List.mem_filter.mp ha).1
        have hb' := (List.mem_filter.mp hb).1
        have e1 : key b ≤ key a := by
          rcases List.mem_cons.mp ha' with e | e
          · rw [e]; exact Int.le_refl _
          · exact h2.1 _ e
        have e2 : key a ≤ key b := by
          rcases List.mem_cons.mp hb' with e | e
          · rw [e]; exact Int.le_refl _
          · exact h1.1 _ e
        omega
      have hk := h (key a)
      rw [List.filter_cons, List.filter_cons] at hk
      simp only [decide_true, if_true, hab] at hk
      injection hk with e _
      subst e
      congr 1
      refine ih bs h1.2 h2.2 fun k => ?_
      have hk := h k
      rw [List.filter_cons, List.filter_cons] at hk
      split at hk
      · injection hk
      · exact hk

theorem isStableSort_int_iff {α : Type} (key : α → Int) (l l' : List α) :
    IsStableSort key l l' ↔ l' = pySorted key l := by
  constructor
  · intro h
    have hs := pySorted_stable_int key l
    exact stableSort_unique_int key _ _ h.1 hs.1 (fun k => by rw [h.2 k, hs.2 k])
  · rintro rfl; exact pySorted_stable_int key l

/-! ### Datum construction -/

theorem neighbours_pairwise {α : Type} {R : α → α → Prop} (ht : ∀ a b c, R a b → R b c → R a c)
    {l : List α} (h : Neighbours R l) : l.Pairwise R := by
  induction l with
  | nil => exact .nil
  | cons a l ih =>
    cases l with
    | nil => simp
    | cons b l =>
      obtain ⟨h1, h2⟩ := h
      have := ih h2
      refine List.pairwise_cons.mpr ⟨fun x hx => ?_, this⟩
      rcases List.mem_cons.mp hx with rfl | hx
      · exact h1
      · exact ht _ _ _ h1 (List.rel_of_pairwise_cons this hx)

theorem pairwise_neighbours {α : Type} {R : α → α → Prop} {l : List α} (h : l.Pairwise R) :
    Neighbours R l := by
  induction l with
  | nil => trivial
  | cons a l ih =>
    cases l with
    | nil => trivial
    | cons b l =>
      rw [List.pairwise_cons] at h
      exact ⟨h.1 b (by simp), ih h.2⟩

theorem pairwise_or {α : Type} {R : α → α → Prop} {l : List α} (h : l.Pairwise R) {a b : α} (ha : a ∈ l)
    (hb : b ∈ l) (hne : a ≠ b) : R a b ∨ R b a := by
  induction l with
  | nil => cases ha
  | cons c l ih =>
    rw [List.pairwise_cons] at h
    rcases List.mem_cons.mp ha with rfl | ha'
    · rcases List.mem_cons.mp hb with rfl | hb'
      · exact absurd rfl hne
      · exact .inl (h.1 b hb')
    · rcases List.mem_cons.mp hb with rfl | hb'
      · exact .inr (h.1 a ha')
      · exact ih h.2 ha' hb'

theorem checkPositions_ok (u : Str) (es : List Entity) :
    checkPositions u es = .ok () ↔ ∀ e ∈ es, ValueAt u e := by
  induction es with
  | nil => simp [checkPositions]
  | cons e es ih =>
    unfold checkPositions entityPositionCorrect
    by_cases h : e.value = pySlice u e.start e.stop
    · simp only [h, if_true, Bool.true_eq_false, if_false, List.forall_mem_cons, ih, ValueAt, true_and]
    · simp [h, ValueAt]

theorem checkPositions_cases (u : Str) (es : List Entity) :
    checkPositions u es = .ok () ∨ checkPositions u es = .error .entityPositionError := by
  induction es with
  | nil => exact .inl rfl
  | cons e es ih =>
    unfold checkPositions
    by_cases h : entityPositionCorrect u e = false
    · rw [if_pos h]; exact .inr rfl
    · rw [if_neg h]; exact ih

theorem checkOverlaps_ok (es : List Entity) :
    checkOverlaps es = .ok () ↔ Neighbours Before es := by
  induction es with
  | nil => simp [checkOverlaps, Neighbours]
  | cons e es ih =>
    cases es with
    | nil => simp [checkOverlaps, Neighbours]
    | cons f es =>
      unfold checkOverlaps overlap Neighbours Before
      by_cases h : e.stop > f.start
      · simp only [h, decide_true, if_true]
        constructor
        · intro h'; cases h'
        · intro h'; omega
      · simp only [h, decide_false, Bool.false_eq_true, if_false, ih]
        constructor
        · exact fun h' => ⟨by omega, h'⟩
        · exact fun h' => h'.2

theorem checkOverlaps_cases (es : List Entity) :
    checkOverlaps es = .ok () ∨ checkOverlaps es = .error .entityOverlapping := by
  induction es with
  | nil => exact .inl rfl
  | cons e es ih =>
    cases es with
    | nil => exact .inl rfl
    | cons f es =>
      unfold checkOverlaps
      by_cases h : overlap e f = true
      · rw [if_pos h]; exact .inr rfl
      · rw [if_neg h]; exact ih

/-- Neighbours of a start-sorted list that are `Before` each other: so are all pairs. -/
theorem before_pairwise {es : List Entity} (hs : es.Pairwise (fun a b => a.start ≤ b.start))
    (h : Neighbours Before es) : es.Pairwise Before := by
  induction es with
  | nil => exact .nil
  | cons e es ih =>
    cases es with
    | nil => simp
    | cons f es =>
      obtain ⟨h1, h2⟩ := h
      rw [List.pairwise_cons] at hs
      have hp := ih hs.2 h2
      refine List.pairwise_cons.mpr ⟨fun x hx => ?_, hp⟩
      rcases List.mem_cons.mp hx with rfl | hx
      · exact h1
      · have := List.rel_of_pairwise_cons hs.2 hx
        unfold Before at h1 ⊢
        omega

theorem datum_new_ok (u : Str) (is : List Intent) (es : List Entity)
    (h1 : ∀ e ∈ es, ValueAt u e) (h2 : Neighbours Before (pySorted Entity.start es)) :
    Datum.new u (some is) (some es) = .ok ⟨u, pySorted Intent.hash is, pySorted Entity.start es⟩ := by
  unfold Datum.new
  have e1 := (checkPositions_ok u (pySorted Entity.start es)).mpr (fun e he => h1 e (mem_pySorted.mp he))
  have e2 := (checkOverlaps_ok (pySorted Entity.start es)).mpr h2
  simp only [e1, e2, Except.bind_ok]
  rfl

theorem datum_new_position (u : Str) (is : List Intent) (es : List Entity)
    (h1 : ¬ ∀ e ∈ es, ValueAt u e) :
    Datum.new u (some is) (some es) = .error .entityPositionError := by
  unfold Datum.new
  have e1 : checkPositions u (pySorted Entity.start es) = .error .entityPositionError := by
    rcases checkPositions_cases u (pySorted Entity.start es) with h | h
    · exact absurd (fun e he => (checkPositions_ok u _).mp h e (mem_pySorted.mpr he)) h1
    · exact h
  simp only [e1]
  rfl

theorem datum_new_overlap (u : Str) (is : List Intent) (es : List Entity)
    (h1 : ∀ e ∈ es, ValueAt u e) (h2 : ¬ Neighbours Before (pySorted Entity.start es)) :
    Datum.new u (some is) (some es) = .error .entityOverlapping := by
  unfold Datum.new
  have e1 := (checkPositions_ok u (pySorted Entity.start es)).mpr (fun e he => h1 e (mem_pySorted.mp he))
  have e2 : checkOverlaps (pySorted Entity.start es) = .error .entityOverlapping := by
    rcases checkOverlaps_cases (pySorted Entity.start es) with h | h
    · exact absurd ((checkOverlaps_ok _).mp h) h2
    · exact h
  simp only [e1, e2, Except.bind_ok]
  rfl

/-- What a constructed datum satisfies. -/
structure IsDatum (d : Datum) : Prop where
  values : ∀ e ∈ d.entities, ValueAt d.utterance e
  sorted : d.entities.Pairwise (fun a b => a.start ≤ b.start)
  before : d.entities.Pairwise Before
  intents : d.intents.Pairwise (fun a b => a.hash ≤ b.hash)

theorem datum_new_cases (u : Str) (is : List Intent) (es : List Entity) (d : Datum)
    (h : Datum.new u (some is) (some es) = .ok d) :
    d = ⟨u, pySorted Intent.hash is, pySorted Entity.start es⟩ ∧ (∀ e ∈ es, ValueAt u e) ∧
      Neighbours Before (pySorted Entity.start es) := by
  by_cases h1 : ∀ e ∈ es, ValueAt u e
  · by_cases h2 : Neighbours Before (pySorted Entity.start es)
    · rw [datum_new_ok u is es h1 h2] at h
      injection h with h
      exact ⟨h.symm, h1, h2⟩
    · rw [datum_new_overlap u is es h1 h2] at h; cases h
  · rw [datum_new_position u is es h1] at h; cases h

theorem isDatum_of_new {u : Str} {is : List Intent} {es : List Entity} {d : Datum}
    (h : Datum.new u (some is) (some es) = .ok d) : IsDatum d := by
  obtain ⟨rfl, h1, h2⟩ := datum_new_cases u is es d h
  exact ⟨fun e he => h1 e (mem_pySorted.mp he), pySorted_pairwise _ _,
    before_pairwise (pySorted_pairwise _ _) h2, pySorted_pairwise _ _⟩

/-- Rebuilding a datum from its own parts gives the same datum. -/
theorem datum_new_self {d : Datum} (h : IsDatum d) :
    Datum.new d.utterance (some d.intents) (some d.entities) = .ok d := by
  have e1 := pySorted_of_pairwise Entity.start d.entities h.sorted
  have e2 := pySorted_of_pairwise Intent.hash d.intents h.intents
  rw [datum_new_ok _ _ _ h.values (by rw [e1]; exact pairwise_neighbours h.before), e1, e2]

/-! ### painting labels -/

theorem pyIndex?_lt {n : Nat} {i : Int} {j : Nat} (h : pyIndex? n i = some j) : j < n := by
  unfold pyIndex? at h
  split at h <;> split at h <;> simp at h <;> omega

theorem paint_spec (label : Int) (n : Nat) (i : Int) (ls : List Int)
    (h : n = 0 ∨ (-(ls.length : Int) ≤ i ∧ i + n ≤ ls.length)) :
    ∃ r, paint label n i ls = .ok r ∧ r.length = ls.length ∧
      ∀ j, j < ls.length → r[j]? =
        if (i ≤ j ∧ (j : Int) < i + n) ∨ (i ≤ (j : Int) - ls.length ∧ (j : Int) - ls.length < i + n)
        then some label else ls[j]? := by
  induction n generalizing i ls with
  | zero =>
    refine ⟨ls, rfl, rfl, fun j _ => ?_⟩
    rw [if_neg (by omega)]
  | succ n ih =>
    have hb : -(ls.length : Int) ≤ i ∧ i + (n + 1 : Nat) ≤ ls.length := by omega
    obtain ⟨k, hk⟩ : ∃ k, pyIndex? ls.length i = some k ∧ ((k : Int) = i ∨ (k : Int) = i + ls.length) := by
      unfold pyIndex?
      by_cases h0 : 0 ≤ i
      · rw [if_pos h0, if_pos (by omega)]; exact ⟨_, rfl, by omega⟩
      · rw [if_neg h0, if_pos (by omega)]; exact ⟨_, rfl, by omega⟩
    have hkl := pyIndex?_lt hk.1
    obtain ⟨r, h1, h2, h3⟩ := ih (i + 1) (ls.set k label) (by simp; omega)
    refine ⟨r, ?_, by simpa using h2, fun j hj => ?_⟩
    · unfold paint setLabel
      rw [hk.1]
      exact h1
    · have h3' := h3 j (by simpa using hj)
      rw [List.length_set] at h3'
      rw [h3', List.getElem?_set]
      have : k = j ∨ k ≠ j := by omega
      rcases this with rfl | hne
      · by_cases hc : (i + 1 ≤ (k : Int) ∧ (k : Int) < i + 1 + n) ∨
          (i + 1 ≤ (k : Int) - ls.length ∧ (k : Int) - ls.length < i + 1 + n)
        · rw [if_pos hc, if_pos (by omega)]
        · rw [if_neg hc, if_pos rfl, if_pos hkl, if_pos (by omega)]
      · rw [if_neg hne]
        by_cases hc : (i + 1 ≤ (j : Int) ∧ (j : Int) < i + 1 + n) ∨
          (i + 1 ≤ (j : Int) - ls.length ∧ (j : Int) - ls.length < i + 1 + n)
        · rw [if_pos hc, if_pos (by omega)]
        · rw [if_neg hc, if_neg (by omega)]

theorem paint_error (label : Int) (n : Nat) (i : Int) (ls : List Int) (hn : 0 < n)
    (h : i < -(ls.length : Int) ∨ (ls.length : Int) < i + n) :
    paint label n i ls = .error .indexError := by
  induction n generalizing i ls with
  | zero => omega
  | succ n ih =>
    unfold paint setLabel
    cases hk : pyIndex? ls.length i with
    | none => rfl
    | some k =>
      have : -(ls.length : Int) ≤ i ∧ i < ls.length := by
        unfold pyIndex? at hk
        split at hk <;> split at hk <;> simp at hk <;> omega
      exact ih (i + 1) (ls.set k label) (by omega) (by simp; omega)

/-- Labels of the position `j`: that of the last covering entity. -/
theorem paintAll_spec (n : Nat) (es : List Entity) (ls : List Int) (hl : ls.length = n)
    (h : ∀ e ∈ es, e.start < e.stop → -(n : Int) ≤ e.start ∧ e.stop ≤ n) :
    ∃ r, paintAll es ls = .ok r ∧ r.length = n ∧
      ∀ j, j < n → r[j]? = match (es.filter (fun e => decide (Covers n e j))).getLast? with
        | some e => some e.label
        | none => ls[j]? := by
  induction es generalizing ls with
  | nil => exact ⟨ls, rfl, hl, fun j _ => rfl⟩
  | cons e es ih =>
    have he := h e (by simp)
    obtain ⟨r, h1, h2, h3⟩ := paint_spec e.label (e.stop - e.start).toNat e.start ls (by omega)
    obtain ⟨r', h1', h2', h3'⟩ := ih r (by omega) (fun e he => h e (by simp [he]))
    refine ⟨r', ?_, h2', fun j hj => ?_⟩
    · unfold paintAll
      rw [h1]
      exact h1'
    · rw [h3' j hj, List.filter_cons]
      by_cases hc : Covers n e j
      · rw [if_pos (by simpa using hc), List.getLast?_cons]
        cases hg : (es.filter (fun e => decide (Covers n e j))).getLast? with
        | some f => simp
        | none =>
          simp only [Option.getD_none]
          rw [h3 j (by omega), if_pos (by unfold Covers at hc; omega)]
      · rw [if_neg (by simpa using hc)]
        cases hg : (es.filter (fun e => decide (Covers n e j))).getLast? with
        | some f => rfl
        | none =>
          dsimp only
          rw [h3 j (by omega), if_neg (by unfold Covers at hc; omega)]

theorem paintAll_error (n : Nat) (es : List Entity) (ls : List Int) (hl : ls.length = n)
    (h : ∃ e ∈ es, e.start < e.stop ∧ (e.start < -(n : Int) ∨ (n : Int) < e.stop)) :
    paintAll es ls = .error .indexError := by
  induction es generalizing ls with
  | nil => simp at h
  | cons e es ih =>
    unfold paintAll
    by_cases hb : e.start < e.stop ∧ (e.start < -(n : Int) ∨ (n : Int) < e.stop)
    · rw [paint_error _ _ _ _ (by omega) (by omega)]
      rfl
    · obtain ⟨r, h1, h2, _⟩ := paint_spec e.label (e.stop - e.start).toNat e.start ls (by omega)
      rw [h1]
      refine ih r (by omega) ?_
      obtain ⟨f, hf, hf'⟩ := h
      rcases List.mem_cons.mp hf with rfl | hf
      · exact absurd hf' hb
      · exact ⟨f, hf, hf'⟩

end Uttut
