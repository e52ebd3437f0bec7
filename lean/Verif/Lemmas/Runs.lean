import Verif.Spec.Ops

/-! Maximal runs of characters. -/

namespace Uttut

open Spec

/-- Every character of the run has the same value of `p`. -/
def Uniform (p : Char → Bool) (b : Bool) (r : Str) : Prop := ∀ c ∈ r, p c = b

/-- Non-empty uniform runs with alternating values of `p`; `b` is the value of the first run. -/
def IsRuns (p : Char → Bool) : Bool → List Str → Prop
  | _, [] => True
  | b, r :: rs => r ≠ [] ∧ Uniform p b r ∧ IsRuns p (!b) rs

theorem runs_flatten (p : Char → Bool) (s : Str) : (runs p s).flatten = s := by
  induction s with
  | nil => rfl
  | cons c cs ih =>
    simp only [runs]
    cases h : runs p cs with
    | nil => rw [h] at ih; simp at ih; simp [ih]
    | cons r rs =>
      rw [h] at ih
      dsimp only
      split <;> simp_all

theorem runs_isRuns (p : Char → Bool) (s : Str) : ∃ b, (∀ c ∈ s.head?, p c = b) ∧ IsRuns p b (runs p s) := by
  induction s with
  | nil => exact ⟨true, by simp, trivial⟩
  | cons c cs ih =>
    obtain ⟨b, hb, hr⟩ := ih
    have hf := runs_flatten p cs
    simp only [runs]
    cases h : runs p cs with
    | nil =>
      refine ⟨p c, by simp, ?_⟩
      dsimp only
      exact ⟨by simp, fun d hd => by simp at hd; rw [hd], trivial⟩
    | cons r rs =>
      rw [h] at hr hf
      obtain ⟨h1, h2, h3⟩ := hr
      obtain ⟨d, r', rfl⟩ := List.exists_cons_of_ne_nil h1
      have hd : p d = b := h2 d (by simp)
      dsimp only
      refine ⟨p c, by simp, ?_⟩
      by_cases hc : p d = p c
      · rw [if_pos (by simp [hc])]
        rw [← hc, hd]
        refine ⟨by simp, ?_, h3⟩
        intro e he
        rcases List.mem_cons.mp he with rfl | he
        · rw [← hc, hd]
        · exact h2 e he
      · rw [if_neg (by simpa using hc)]
        have hb' : (!p c) = b := by rw [← hd]; revert hc; cases p c <;> cases p d <;> simp
        refine ⟨by simp, fun e he => by simp at he; rw [he], ?_⟩
        rw [hb']
        exact ⟨by simp, h2, h3⟩

theorem isRuns_unique (p : Char → Bool) (b : Bool) (rs : List Str) (h : IsRuns p b rs) :
    runs p rs.flatten = rs := by
  induction rs generalizing b with
  | nil => rfl
  | cons r rs ih =>
    obtain ⟨h1, h2, h3⟩ := h
    have ih := ih _ h3
    -- peel the run character by character
    have key : ∀ r : Str, r ≠ [] → Uniform p b r → runs p (r ++ rs.flatten) = r :: rs := by
      intro r
      induction r with
      | nil => intro h; exact absurd rfl h
      | cons c r ihr =>
        intro _ hu
        cases hr : r with
        | nil =>
          simp only [List.cons_append, List.nil_append, runs]
          rw [ih]
          cases rs with
          | nil => rfl
          | cons r' rs' =>
            dsimp only
            obtain ⟨g1, g2, _⟩ := h3
            obtain ⟨d, r'', rfl⟩ := List.exists_cons_of_ne_nil g1
            rw [if_neg]
            have e1 : p d = !b := g2 d (by simp)
            have e2 : p c = b := hu c (by simp)
            simp [e1, e2]
        | cons d r' =>
          rw [← hr]
          simp only [List.cons_append, runs]
          rw [ihr (by simp [hr]) (fun e he => hu e (by simp [he]))]
          dsimp only
          rw [if_pos]
          rw [hr]
          have e1 : p d = b := hu d (by simp [hr])
          have e2 : p c = b := hu c (by simp)
          simp [e1, e2]
    simp only [List.flatten_cons]
    exact key r h1 h2

theorem IsRuns.mem {p : Char → Bool} {b : Bool} {rs : List Str} (h : IsRuns p b rs) :
    ∀ r ∈ rs, r ≠ [] ∧ ∃ b, Uniform p b r := by
  induction rs generalizing b with
  | nil => simp
  | cons r rs ih =>
    intro r' hr'
    rcases List.mem_cons.mp hr' with rfl | hr'
    · exact ⟨h.1, b, h.2.1⟩
    · exact ih h.2.2 r' hr'

theorem isRunOf_uniform {p : Char → Bool} {b : Bool} {r : Str} (h1 : r ≠ []) (h2 : Uniform p b r) :
    isRunOf p r = b := by
  obtain ⟨c, r', rfl⟩ := List.exists_cons_of_ne_nil h1
  simp [isRunOf, h2 c (by simp)]

theorem mem_runs (p : Char → Bool) (s : Str) (r : Str) (h : r ∈ runs p s) :
    r ≠ [] ∧ Uniform p (isRunOf p r) r := by
  obtain ⟨b, _, hr⟩ := runs_isRuns p s
  obtain ⟨h1, b', h2⟩ := hr.mem r h
  exact ⟨h1, by rw [isRunOf_uniform h1 h2]; exact h2⟩

/-- Head of the text after a run. -/
theorem IsRuns.head_flatten {p : Char → Bool} {b : Bool} {rs : List Str} (h : IsRuns p b rs) :
    ∀ c ∈ rs.flatten.head?, p c = b := by
  cases rs with
  | nil => simp
  | cons r rs =>
    obtain ⟨h1, h2, _⟩ := h
    obtain ⟨d, r', rfl⟩ := List.exists_cons_of_ne_nil h1
    intro c hc
    simp at hc
    rw [← hc]
    exact h2 d (by simp)

/-! ### a character-by-character version of `mapRuns` -/

/-- `cur` is the part of the current run read so far. -/
def mapRunsAux (p : Char → Bool) (g : Str → Str) : (cur : Str) → Str → Str
  | cur, [] => if cur.isEmpty then [] else g cur
  | cur, c :: cs =>
    if p c then mapRunsAux p g (cur ++ [c]) cs
    else (if cur.isEmpty then [] else g cur) ++ c :: mapRunsAux p g [] cs

theorem mapRunsAux_run (p : Char → Bool) (g : Str → Str) (cur r rest : Str) (h : Uniform p true r) :
    mapRunsAux p g cur (r ++ rest) = mapRunsAux p g (cur ++ r) rest := by
  induction r generalizing cur with
  | nil => simp
  | cons c r ih =>
    simp only [List.cons_append, mapRunsAux]
    rw [if_pos (h c (by simp)), ih _ (fun d hd => h d (by simp [hd]))]
    simp

theorem mapRunsAux_off (p : Char → Bool) (g : Str → Str) (r rest : Str) (h : Uniform p false r) :
    mapRunsAux p g [] (r ++ rest) = r ++ mapRunsAux p g [] rest := by
  induction r with
  | nil => simp
  | cons c r ih =>
    simp only [List.cons_append, mapRunsAux]
    have : p c = false := h c (by simp)
    rw [if_neg (by simp [this]), ih (fun d hd => h d (by simp [hd]))]
    simp

theorem mapRunsAux_flush (p : Char → Bool) (g : Str → Str) (cur rest : Str) (hc : cur ≠ [])
    (h : ∀ c ∈ rest.head?, p c = false) :
    mapRunsAux p g cur rest = g cur ++ mapRunsAux p g [] rest := by
  have he : cur.isEmpty = false := by cases cur <;> simp_all
  cases rest with
  | nil => simp [mapRunsAux, he]
  | cons c rest =>
    have : p c = false := h c (by simp)
    simp [mapRunsAux, this, he]

theorem mapRuns_isRuns (p : Char → Bool) (g : Str → Str) (b : Bool) (rs : List Str) (h : IsRuns p b rs) :
    (rs.flatMap fun r => if isRunOf p r then g r else r) = mapRunsAux p g [] rs.flatten := by
  induction rs generalizing b with
  | nil => rfl
  | cons r rs ih =>
    obtain ⟨h1, h2, h3⟩ := h
    simp only [List.flatMap_cons, List.flatten_cons]
    rw [ih _ h3, isRunOf_uniform h1 h2]
    cases b with
    | true =>
      rw [mapRunsAux_run p g [] r _ h2, List.nil_append, mapRunsAux_flush p g r _ h1 h3.head_flatten]
      rfl
    | false =>
      rw [mapRunsAux_off p g r _ h2]
      rfl

theorem mapRuns_eq (p : Char → Bool) (g : Str → Str) (s : Str) : mapRuns p g s = mapRunsAux p g [] s := by
  obtain ⟨b, _, h⟩ := runs_isRuns p s
  unfold mapRuns
  rw [mapRuns_isRuns p g b _ h, runs_flatten]

theorem mapRuns_off (p : Char → Bool) (g : Str → Str) (r rest : Str) (h : Uniform p false r) :
    mapRuns p g (r ++ rest) = r ++ mapRuns p g rest := by
  rw [mapRuns_eq, mapRuns_eq, mapRunsAux_off p g r rest h]

theorem mapRuns_run (p : Char → Bool) (g : Str → Str) (r rest : Str) (hr : r ≠ []) (h : Uniform p true r)
    (hrest : ∀ c ∈ rest.head?, p c = false) :
    mapRuns p g (r ++ rest) = g r ++ mapRuns p g rest := by
  rw [mapRuns_eq, mapRuns_eq, mapRunsAux_run p g [] r rest h, List.nil_append,
    mapRunsAux_flush p g r rest hr hrest]

theorem mapRuns_nil (p : Char → Bool) (g : Str → Str) : mapRuns p g [] = [] := rfl

/-- The text after rewriting the runs starts with a `p`-character only if the input did and its first
run was kept. -/
theorem head_mapRuns_off (p : Char → Bool) (g : Str → Str) (s : Str) (h : ∀ c ∈ s.head?, p c = false) :
    ∀ c ∈ (mapRuns p g s).head?, p c = false := by
  cases s with
  | nil => simp [mapRuns_nil]
  | cons d s =>
    have hd : p d = false := h d (by simp)
    have := mapRuns_off p g [d] s (fun c hc => by simp at hc; rw [hc]; exact hd)
    simp only [List.cons_append, List.nil_append] at this
    rw [this]
    intro c hc
    simp at hc
    rw [← hc]
    exact hd

/-- Composition of two run rewritings: if the first keeps a run or replaces it by a text without
`p`-characters, the two can be done at once. -/
theorem mapRuns_comp (p : Char → Bool) (g₁ g₂ : Str → Str)
    (h : ∀ r, r ≠ [] → Uniform p true r → g₁ r = r ∨ Uniform p false (g₁ r)) (s : Str) :
    mapRuns p g₂ (mapRuns p g₁ s) = mapRuns p (fun r => if g₁ r = r then g₂ r else g₁ r) s := by
  obtain ⟨b, _, hr⟩ := runs_isRuns p s
  have hf := runs_flatten p s
  generalize runs p s = rs at hr hf
  subst hf
  induction rs generalizing b with
  | nil => rfl
  | cons r rs ih =>
    obtain ⟨h1, h2, h3⟩ := hr
    have ih := ih _ h3 h3.head_flatten
    simp only [List.flatten_cons]
    cases b with
    | false =>
      rw [mapRuns_off p _ r _ h2, mapRuns_off p _ r _ h2, mapRuns_off p _ r _ h2, ih]
    | true =>
      have hh := h3.head_flatten
      rw [mapRuns_run p _ r _ h1 h2 hh, mapRuns_run p _ r _ h1 h2 hh]
      by_cases hg : g₁ r = r
      · rw [if_pos hg, hg, mapRuns_run p _ r _ h1 h2 (head_mapRuns_off p _ _ hh), ih]
      · rw [if_neg hg]
        rcases h r h1 h2 with e | e
        · exact absurd e hg
        · rw [mapRuns_off p _ _ _ e, ih]

theorem flatMap_congr_mem {α β : Type} {l : List α} {f g : α → List β} (h : ∀ x ∈ l, f x = g x) :
    l.flatMap f = l.flatMap g := by
  induction l with
  | nil => rfl
  | cons x xs ih =>
    simp only [List.flatMap_cons]
    rw [h x (by simp), ih fun y hy => h y (by simp [hy])]

theorem mapRuns_congr (p : Char → Bool) (g₁ g₂ : Str → Str)
    (h : ∀ r, r ≠ [] → Uniform p true r → g₁ r = g₂ r) (s : Str) : mapRuns p g₁ s = mapRuns p g₂ s := by
  unfold mapRuns
  apply flatMap_congr_mem
  intro r hr
  obtain ⟨h1, h2⟩ := mem_runs p s r hr
  cases hb : isRunOf p r with
  | false => rfl
  | true => rw [hb] at h2; simp [h r h1 h2]

theorem mapRuns_id (p : Char → Bool) (s : Str) : mapRuns p id s = s := by
  unfold mapRuns
  simp only [id, ite_self]
  exact (List.flatten_eq_flatMap (L := runs p s)).symm.trans (runs_flatten p s)

end Uttut
