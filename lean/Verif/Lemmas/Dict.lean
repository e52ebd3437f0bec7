import Verif.Model.Py

/-! Association lists as Python dicts. -/

namespace Uttut

theorem dictGet_mem {κ ν : Type} [DecidableEq κ] (d : List (κ × ν)) (k : κ) (v : ν)
    (h : dictGet d k = some v) : (k, v) ∈ d := by
  induction d with
  | nil => simp [dictGet] at h
  | cons p d ih =>
    obtain ⟨k', v'⟩ := p
    simp only [dictGet] at h
    split at h
    · rename_i hk; injection h with h; subst hk; subst h; simp
    · exact List.mem_cons_of_mem _ (ih h)

theorem dictGet_none {κ ν : Type} [DecidableEq κ] (d : List (κ × ν)) (k : κ) :
    dictGet d k = none ↔ k ∉ d.map Prod.fst := by
  induction d with
  | nil => simp [dictGet]
  | cons p d ih =>
    obtain ⟨k', v'⟩ := p
    simp only [dictGet, List.map_cons, List.mem_cons, not_or]
    split
    · rename_i hk; simp [hk]
    · rename_i hk
      rw [ih]
      exact ⟨fun h => ⟨fun e => hk e.symm, h⟩, fun h => h.2⟩

theorem dictGet_of_mem {κ ν : Type} [DecidableEq κ] (d : List (κ × ν)) (k : κ) (v : ν)
    (hd : (d.map Prod.fst).Nodup) (h : (k, v) ∈ d) : dictGet d k = some v := by
  induction d with
  | nil => simp at h
  | cons p d ih =>
    obtain ⟨k', v'⟩ := p
    simp only [List.map_cons, List.nodup_cons] at hd
    simp only [dictGet]
    rcases List.mem_cons.mp h with h | h
    · injection h with h1 h2; subst h1; subst h2; simp
    · rw [if_neg, ih hd.2 h]
      rintro rfl
      exact hd.1 (List.mem_map_of_mem (f := Prod.fst) h)

theorem dictGet_dictSet {κ ν : Type} [DecidableEq κ] (d : List (κ × ν)) (k k' : κ) (v : ν) :
    dictGet (dictSet d k v) k' = if k = k' then some v else dictGet d k' := by
  induction d with
  | nil => simp [dictSet, dictGet]
  | cons p d ih =>
    obtain ⟨a, b⟩ := p
    by_cases h : a = k
    · subst h
      simp only [dictSet, if_true, dictGet]
      split <;> rfl
    · simp only [dictSet, if_neg h, dictGet, ih]
      by_cases h2 : a = k'
      · subst h2
        simp [Ne.symm h]
      · simp [h2]

theorem dictSet_not_mem {κ ν : Type} [DecidableEq κ] (m : List (κ × ν)) (k : κ) (v : ν) (h : k ∉ m.map Prod.fst) :
    dictSet m k v = m ++ [(k, v)] := by
  induction m with
  | nil => rfl
  | cons p m ih =>
    obtain ⟨a, b⟩ := p
    simp only [List.map_cons, List.mem_cons, not_or] at h
    simp only [dictSet, if_neg (Ne.symm h.1), ih h.2, List.cons_append]

theorem foldl_dictSet_nodup {κ ν : Type} [DecidableEq κ] (d acc : List (κ × ν))
    (h : ((acc ++ d).map Prod.fst).Nodup) :
    d.foldl (fun e (kv : κ × ν) => dictSet e kv.1 kv.2) acc = acc ++ d := by
  induction d generalizing acc with
  | nil => simp
  | cons p d ih =>
    obtain ⟨k, v⟩ := p
    rw [List.foldl_cons]
    dsimp only
    have hk : k ∉ acc.map Prod.fst := by
      rw [List.map_append, List.nodup_append] at h
      intro hm
      exact h.2.2 k hm k (by simp) rfl
    rw [dictSet_not_mem acc k v hk, ih]
    · simp
    · simpa using h

end Uttut
