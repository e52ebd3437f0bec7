import Verif.Model.Edit

/-! Lemmas about `pySorted`, `pyDedup`, `SetOrder.listSet`. -/

namespace Uttut

theorem Except.bind_ok {ε α γ : Type} (a : α) (f : α → Except ε γ) : (Except.ok a >>= f) = f a := rfl

variable {α : Type}

theorem insertByKey_perm (key : α → Int) (x : α) (l : List α) :
    (insertByKey key x l).Perm (x :: l) := by
  induction l with
  | nil => exact .refl _
  | cons y ys ih =>
    unfold insertByKey
    split
    · exact .refl _
    · exact (List.Perm.cons y ih).trans (List.Perm.swap x y ys)

theorem pySorted_perm (key : α → Int) (l : List α) : (pySorted key l).Perm l := by
  induction l with
  | nil => exact .refl _
  | cons x xs ih => exact (insertByKey_perm key x _).trans (List.Perm.cons x ih)

theorem mem_pySorted {key : α → Int} {l : List α} {x : α} : x ∈ pySorted key l ↔ x ∈ l :=
  (pySorted_perm key l).mem_iff

theorem length_pySorted (key : α → Int) (l : List α) : (pySorted key l).length = l.length :=
  (pySorted_perm key l).length_eq

/-- Ordering after a stable sort: by key, then by any relation that held along the input. -/
def LexKey (key : α → Int) (R : α → α → Prop) (a b : α) : Prop :=
  key a < key b ∨ (key a = key b ∧ R a b)

theorem insertByKey_pairwise (key : α → Int) (R : α → α → Prop) (x : α) (l : List α)
    (hx : ∀ y ∈ l, R x y) (hl : l.Pairwise (LexKey key R)) :
    (insertByKey key x l).Pairwise (LexKey key R) := by
  induction l with
  | nil => simp [insertByKey]
  | cons y ys ih =>
    rw [List.pairwise_cons] at hl
    unfold insertByKey
    split
    · rename_i hle
      rw [List.pairwise_cons]
      refine ⟨fun z hz => ?_, List.pairwise_cons.mpr hl⟩
      have hRz := hx z hz
      have hkey : key x ≤ key z := by
        rcases List.mem_cons.mp hz with rfl | hz
        · exact hle
        · rcases hl.1 z hz with h | h <;> omega
      unfold LexKey
      by_cases h : key x < key z
      · exact Or.inl h
      · exact Or.inr ⟨by omega, hRz⟩
    · rename_i hgt
      rw [List.pairwise_cons]
      refine ⟨fun z hz => ?_, ih (fun z hz => hx z (List.mem_cons_of_mem _ hz)) hl.2⟩
      rcases List.mem_cons.mp ((insertByKey_perm key x ys).mem_iff.mp hz) with rfl | hz
      · exact Or.inl (by omega)
      · exact hl.1 z hz

/-- Stability of `sorted`. -/
theorem pySorted_pairwise_lex (key : α → Int) (R : α → α → Prop) (l : List α) (h : l.Pairwise R) :
    (pySorted key l).Pairwise (LexKey key R) := by
  induction l with
  | nil => exact List.Pairwise.nil
  | cons x xs ih =>
    rw [List.pairwise_cons] at h
    exact insertByKey_pairwise key R x _ (fun y hy => h.1 y (mem_pySorted.mp hy)) (ih h.2)

theorem pySorted_pairwise (key : α → Int) (l : List α) :
    (pySorted key l).Pairwise (fun a b => key a ≤ key b) := by
  have h := pySorted_pairwise_lex key (fun _ _ => True) l (List.pairwise_iff_forall_sublist.mpr (by simp))
  exact h.imp (fun {a b} hab => by rcases hab with h | h <;> omega)

theorem insertByKey_eq_cons (key : α → Int) (x : α) (l : List α) (h : ∀ y ∈ l, key x ≤ key y) :
    insertByKey key x l = x :: l := by
  cases l with
  | nil => rfl
  | cons y ys => simp [insertByKey, h y (by simp)]

/-- A sorted list is left alone. -/
theorem pySorted_of_pairwise (key : α → Int) (l : List α)
    (h : l.Pairwise (fun a b => key a ≤ key b)) : pySorted key l = l := by
  induction l with
  | nil => rfl
  | cons x xs ih =>
    rw [List.pairwise_cons] at h
    rw [pySorted, ih h.2, insertByKey_eq_cons key x xs h.1]

section dedup
variable [DecidableEq α]

theorem mem_pyDedup {l : List α} {x : α} : x ∈ pyDedup l ↔ x ∈ l := by
  induction l with
  | nil => simp [pyDedup]
  | cons y ys ih =>
    simp only [pyDedup, List.mem_cons, List.mem_filter, ih]
    by_cases h : x = y <;> simp [h]

theorem nodup_pyDedup (l : List α) : (pyDedup l).Nodup := by
  induction l with
  | nil => simp [pyDedup]
  | cons y ys ih =>
    simp only [pyDedup, List.nodup_cons, List.mem_filter]
    exact ⟨by simp, ih.sublist List.filter_sublist⟩

theorem pyDedup_of_nodup {l : List α} (h : l.Nodup) : pyDedup l = l := by
  induction l with
  | nil => rfl
  | cons y ys ih =>
    rw [List.nodup_cons] at h
    rw [pyDedup, ih h.2]
    congr 1
    rw [List.filter_eq_self]
    intro z hz
    simp only [ne_eq, decide_not, Bool.not_eq_eq_eq_not, Bool.not_true, decide_eq_false_iff_not]
    rintro rfl
    exact h.1 hz

theorem listSet_perm (σ : SetOrder) (l : List α) : (σ.listSet l).Perm (pyDedup l) := σ.perm _ _

theorem mem_listSet {σ : SetOrder} {l : List α} {x : α} : x ∈ σ.listSet l ↔ x ∈ l :=
  (listSet_perm σ l).mem_iff.trans mem_pyDedup

theorem nodup_listSet (σ : SetOrder) (l : List α) : (σ.listSet l).Nodup :=
  (listSet_perm σ l).nodup_iff.mpr (nodup_pyDedup l)

theorem listSet_nil (σ : SetOrder) : σ.listSet ([] : List α) = [] :=
  List.Perm.eq_nil (listSet_perm σ [])

end dedup

end Uttut
