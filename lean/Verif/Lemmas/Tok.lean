import Verif.Lemmas.Spans
import Verif.Model.Base

/-! Lemmas about `gen_span_group`, `gen_replacement_group` and the tokenizer base class. -/

namespace Uttut

open Spec Piece

/-! ### `str.find` -/

section find
variable {α : Type} [DecidableEq α]

theorem startsWith_iff (t s : List α) : startsWith t s = true ↔ ∃ post, s = t ++ post := by
  induction t generalizing s with
  | nil => simp [startsWith]
  | cons a t ih =>
    cases s with
    | nil => simp [startsWith]
    | cons b s =>
      simp only [startsWith]
      by_cases h : a = b
      · subst h
        rw [if_pos rfl, ih]
        simp
      · rw [if_neg h]
        simp only [Bool.false_eq_true, List.cons_append, List.cons.injEq, false_iff, not_exists]
        intro post hc
        exact h hc.1.symm

theorem findAux_some {t s : List α} {i j : Nat} (h : findAux t s i = some j) :
    ∃ gap post, s = gap ++ t ++ post ∧ j = i + gap.length ∧
      ∀ gap' post', s = gap' ++ t ++ post' → gap.length ≤ gap'.length := by
  induction s generalizing i with
  | nil =>
    simp only [findAux] at h
    split at h
    · rename_i hs
      obtain ⟨post, hp⟩ := (startsWith_iff _ _).mp hs
      injection h with h
      exact ⟨[], post, by simpa using hp, by simp [h], by simp⟩
    · simp at h
  | cons c s ih =>
    simp only [findAux] at h
    split at h
    · rename_i hs
      obtain ⟨post, hp⟩ := (startsWith_iff _ _).mp hs
      injection h with h
      exact ⟨[], post, by simpa using hp, by simp [h], by simp⟩
    · rename_i hs
      obtain ⟨gap, post, h1, h2, h3⟩ := ih h
      refine ⟨c :: gap, post, by simp [h1], by simp [h2]; omega, ?_⟩
      intro gap' post' he
      cases gap' with
      | nil =>
        exfalso
        exact hs ((startsWith_iff _ _).mpr ⟨post', by simpa using he⟩)
      | cons d gap' =>
        simp only [List.cons_append, List.cons.injEq] at he
        have := h3 gap' post' he.2
        simp; omega

theorem findAux_none {t s : List α} {i : Nat} (h : findAux t s i = none) :
    ∀ gap post, s ≠ gap ++ t ++ post := by
  induction s generalizing i with
  | nil =>
    intro gap post he
    simp only [findAux] at h
    split at h
    · simp at h
    · rename_i hs
      have : gap = [] ∧ t = [] := by
        have := congrArg List.length he
        simp at this
        exact ⟨List.length_eq_zero_iff.mp (by omega), List.length_eq_zero_iff.mp (by omega)⟩
      exact hs (by rw [this.2]; rfl)
  | cons c s ih =>
    intro gap post he
    simp only [findAux] at h
    split at h
    · simp at h
    · rename_i hs
      cases gap with
      | nil => exact hs ((startsWith_iff _ _).mpr ⟨post, by simpa using he⟩)
      | cons d gap =>
        simp only [List.cons_append, List.cons.injEq] at he
        exact ih h gap post he.2

theorem findAux_prefix (t post : List α) (i : Nat) : findAux t (t ++ post) i = some i := by
  cases h : t ++ post with
  | nil =>
    have : t = [] := by simp at h; exact h.1
    simp [findAux, this, startsWith]
  | cons c s =>
    simp only [findAux]
    rw [if_pos ((startsWith_iff _ _).mpr ⟨post, h.symm⟩)]

theorem pyFind_eq (pre rest t : List α) :
    pyFind (pre ++ rest) t pre.length = findAux t rest pre.length := by
  unfold pyFind
  rw [if_pos (by simp), List.drop_left]

/-- A text whose first element does not occur in `gap` is found right after `gap`. -/
theorem findAux_gap (gap t post : List α) (i : Nat)
    (h : gap = [] ∨ ∃ c t', t = c :: t' ∧ c ∉ gap) :
    findAux t (gap ++ t ++ post) i = some (i + gap.length) := by
  rcases h with rfl | ⟨c, t', rfl, hc⟩
  · simp [findAux_prefix]
  · induction gap generalizing i with
    | nil => simpa using findAux_prefix (c :: t') post i
    | cons d gap ih =>
      simp only [List.mem_cons, not_or] at hc
      have hs : ¬ startsWith (c :: t') (d :: (gap ++ c :: t' ++ post)) = true := by
        simp [startsWith, hc.1]
      rw [List.cons_append, List.cons_append, findAux, if_neg hs, ih (i + 1) hc.2,
        List.length_cons]
      congr 1; omega

end find

/-! ### gaps and tokens -/

/-- The text of gaps and tokens in alternation. -/
def joinPairs (ps : List (Str × Str)) (tail : Str) : Str :=
  (ps.flatMap fun p => p.1 ++ p.2) ++ tail

/-- A gap is deleted (nothing is recorded for an empty gap). -/
def gapPiece (g : Str) : Piece Char Char := if g = [] then keep [] else sub g []

def pairPieces (ps : List (Str × Str)) : List (Piece Char Char) :=
  ps.flatMap fun p => [gapPiece p.1, keep p.2]

def tokPieces (ps : List (Str × Str)) (tail : Str) : List (Piece Char Char) :=
  pairPieces ps ++ [gapPiece tail]

/-- The pair is what `str.find` finds first. -/
def FirstFit (p : Str × Str) : Prop := p.1 = [] ∨ ∃ c t', p.2 = c :: t' ∧ c ∉ p.1

/-- An empty token never follows a gap. -/
def Solid (ps : List (Str × Str)) : Prop := ∀ p ∈ ps, p.2 = [] → p.1 = []

theorem solid_of_firstFit {ps : List (Str × Str)} (h : ∀ p ∈ ps, FirstFit p) : Solid ps := by
  intro p hp he
  rcases h p hp with h | ⟨c, t', h, _⟩
  · exact h
  · rw [h] at he; simp at he

@[simp] theorem src_gapPiece (g : Str) : (gapPiece g).src = g := by
  unfold gapPiece; split <;> simp_all [src]

@[simp] theorem dst_gapPiece (g : Str) : (gapPiece g).dst = [] := by
  unfold gapPiece; split <;> simp [dst]

theorem srcOf_pairPieces (ps : List (Str × Str)) :
    srcOf (pairPieces ps) = ps.flatMap fun p => p.1 ++ p.2 := by
  induction ps with
  | nil => rfl
  | cons p ps ih =>
    simp only [srcOf, pairPieces] at ih
    rw [show src = @src Char Char from rfl] at ih
    simp only [pairPieces, srcOf, List.flatMap_cons, List.cons_append, List.nil_append, src_gapPiece, ih]
    simp [src]

theorem dstOf_pairPieces (ps : List (Str × Str)) :
    dstOf (pairPieces ps) = (ps.map Prod.snd).flatten := by
  induction ps with
  | nil => rfl
  | cons p ps ih =>
    simp only [dstOf, pairPieces] at ih
    simp only [pairPieces, dstOf, List.flatMap_cons, List.cons_append, List.nil_append, dst_gapPiece, ih]
    simp [dst]

theorem srcOf_tokPieces (ps : List (Str × Str)) (tail : Str) :
    srcOf (tokPieces ps tail) = joinPairs ps tail := by
  rw [tokPieces, srcOf_append, srcOf_pairPieces]
  simp [joinPairs, srcOf]

theorem dstOf_tokPieces (ps : List (Str × Str)) (tail : Str) :
    dstOf (tokPieces ps tail) = (ps.map Prod.snd).flatten := by
  rw [tokPieces, dstOf_append, dstOf_pairPieces]
  simp [dstOf]

theorem groupOf_gap (off : Nat) (g : Str) (ps : List (Piece Char Char)) :
    groupOf off (gapPiece g :: ps) =
      (if g = [] then [] else [⟨off, off + g.length, []⟩]) ++ groupOf (off + g.length) ps := by
  unfold gapPiece
  split
  · rename_i h; simp [groupOf, h]
  · simp [groupOf]

theorem groupOf_pairPieces_cons (off : Nat) (p : Str × Str) (ps : List (Str × Str)) :
    groupOf off (pairPieces (p :: ps)) =
      (if p.1 = [] then [] else [⟨off, off + p.1.length, []⟩]) ++
        groupOf (off + p.1.length + p.2.length) (pairPieces ps) := by
  simp only [pairPieces, List.flatMap_cons, List.cons_append, List.nil_append]
  rw [groupOf_gap]
  rfl

theorem separated_tokPieces (ps : List (Str × Str)) (tail : Str) (b : Bool) :
    Separated b (tokPieces ps tail) := by
  refine separated_of_nonempty _ (fun o n hm => ?_) b
  have : ∀ g : Str, sub o n = gapPiece g → o ≠ [] := by
    intro g hg
    unfold gapPiece at hg
    split at hg
    · simp at hg
    · rename_i h; injection hg with h1 _; rw [h1]; exact h
  simp only [tokPieces, pairPieces, List.mem_append, List.mem_flatMap, List.mem_cons,
    List.not_mem_nil, or_false] at hm
  rcases hm with ⟨p, _, hm | hm⟩ | hm
  · exact this _ hm
  · simp at hm
  · exact this _ hm

theorem separated_swap_tokPieces (ps : List (Str × Str)) (tail : Str) (h : Solid ps) :
    Separated false ((tokPieces ps tail).map swap) := by
  induction ps with
  | nil =>
    simp only [tokPieces, pairPieces, List.flatMap_nil, List.nil_append, List.map_cons, List.map_nil]
    unfold gapPiece
    split <;> simp [swap, Separated]
  | cons p ps ih =>
    have ih := ih (fun q hq => h q (by simp [hq]))
    obtain ⟨g, t⟩ := p
    simp only [tokPieces, pairPieces, List.flatMap_cons, List.cons_append, List.nil_append,
      List.map_cons] at ih ⊢
    unfold gapPiece
    by_cases hg : g = []
    · simp only [hg, if_true, swap, Separated, Bool.false_and]
      exact ih
    · have ht : t.isEmpty = false := by
        cases t with
        | nil => exact absurd (h (g, []) (by simp) rfl) hg
        | cons _ _ => rfl
      simp only [hg, if_false, swap, Separated, ht, Bool.and_false]
      simp only [List.isEmpty_nil, if_true, true_and]
      exact ih

/-! ### `gen_replacement_group` -/

theorem slice_mid (pre gap rest : Str) :
    slice (pre ++ (gap ++ rest)) pre.length (pre.length + gap.length) = gap := by
  have e : pre.length + gap.length = (pre ++ gap).length := by rw [List.length_append]
  unfold slice
  rw [← List.append_assoc, e, List.take_left, List.drop_left]

theorem genRepLoop_step (pre gap t post : Str) (ts : List Str) (g : ReplacementGroup Str)
    (hfind : findAux t (gap ++ t ++ post) pre.length = some (pre.length + gap.length)) :
    Str2Lst.genRepLoop (pre ++ (gap ++ t ++ post)) (t :: ts) pre.length g =
      Str2Lst.genRepLoop ((pre ++ gap ++ t) ++ post) ts (pre ++ gap ++ t).length
        ⟨g.reps ++ (if gap = [] then [] else [⟨pre.length, pre.length + gap.length, []⟩]), g.isDone⟩ := by
  rw [Str2Lst.genRepLoop, pyFind_eq, hfind]
  have hs : slice (pre ++ (gap ++ t ++ post)) pre.length (pre.length + gap.length) = gap := by
    rw [List.append_assoc]; exact slice_mid pre gap (t ++ post)
  have e1 : pre ++ (gap ++ t ++ post) = pre ++ gap ++ t ++ post := by simp
  have e2 : pre.length + gap.length + t.length = (pre ++ gap ++ t).length := by
    rw [List.length_append, List.length_append]
  dsimp only
  rw [hs, e1, e2]
  by_cases hg : gap = []
  · rw [if_neg (by simpa using hg), if_pos hg, List.append_nil]
  · rw [if_pos hg, if_neg hg, ReplacementGroup.add_of_le g (Nat.le_add_right _ _)]

theorem genRepLoop_ok (pre rest : Str) (ts : List Str) (g g' : ReplacementGroup Str) (sh : Nat)
    (h : Str2Lst.genRepLoop (pre ++ rest) ts pre.length g = .ok (sh, g')) :
    ∃ ps tail, rest = joinPairs ps tail ∧ ps.map Prod.snd = ts ∧ Solid ps ∧
      sh + tail.length = (pre ++ rest).length ∧
      g' = ⟨g.reps ++ groupOf pre.length (pairPieces ps), g.isDone⟩ := by
  induction ts generalizing pre rest g with
  | nil =>
    simp only [Str2Lst.genRepLoop] at h
    injection h with h
    injection h with h1 h2
    refine ⟨[], rest, by simp [joinPairs], rfl, by simp [Solid], by simp [← h1], ?_⟩
    simp [pairPieces, groupOf, ← h2]
  | cons t ts ih =>
    have h0 := h
    rw [Str2Lst.genRepLoop, pyFind_eq] at h
    cases hf : findAux t rest pre.length with
    | none => rw [hf] at h; simp at h
    | some start =>
      obtain ⟨gap, post, h1, h2, h3⟩ := findAux_some hf
      subst h2
      rw [h1] at hf h0
      rw [genRepLoop_step pre gap t post ts g hf] at h0
      obtain ⟨ps, tail, e1, e2, e3, e4, e5⟩ := ih _ _ _ h0
      refine ⟨(gap, t) :: ps, tail, ?_, by simp [e2], ?_, ?_, ?_⟩
      · rw [h1, e1]; simp [joinPairs]
      · intro p hp he
        rcases List.mem_cons.mp hp with rfl | hp
        · have he : t = [] := he
          have := h3 [] rest (by simp [he])
          simpa using this
        · exact e3 p hp he
      · rw [e4, h1]; simp
      · rw [e5, groupOf_pairPieces_cons]; simp [Nat.add_assoc]

theorem occurs_append (x s : Str) (ts : List Str) (h : OccursInOrder s ts) :
    OccursInOrder (x ++ s) ts := by
  cases ts with
  | nil => trivial
  | cons t ts =>
    obtain ⟨pre, post, h1, h2⟩ := h
    exact ⟨x ++ pre, post, by simp [h1], h2⟩

theorem genRepLoop_complete (pre rest : Str) (ts : List Str) (g : ReplacementGroup Str) :
    (OccursInOrder rest ts → ∃ r, Str2Lst.genRepLoop (pre ++ rest) ts pre.length g = .ok r) ∧
    (¬ OccursInOrder rest ts → Str2Lst.genRepLoop (pre ++ rest) ts pre.length g = .error .valueError) := by
  induction ts generalizing pre rest g with
  | nil => exact ⟨fun _ => ⟨_, rfl⟩, fun h => absurd trivial h⟩
  | cons t ts ih =>
    cases hf : findAux t rest pre.length with
    | none =>
      have hno := findAux_none hf
      constructor
      · rintro ⟨gap, post, h1, _⟩
        exact absurd h1 (hno gap post)
      · intro _
        rw [Str2Lst.genRepLoop, pyFind_eq, hf]
    | some start =>
      obtain ⟨gap, post, h1, h2, h3⟩ := findAux_some hf
      subst h2
      subst h1
      rw [genRepLoop_step pre gap t post ts g hf]
      obtain ⟨ih1, ih2⟩ := ih (pre ++ gap ++ t) post
        ⟨g.reps ++ (if gap = [] then [] else [⟨pre.length, pre.length + gap.length, []⟩]), g.isDone⟩
      have hiff : OccursInOrder (gap ++ t ++ post) (t :: ts) ↔ OccursInOrder post ts := by
        constructor
        · rintro ⟨gap', post', he, ho⟩
          have hle := h3 gap' post' he
          -- `post` is at least as long a suffix as `post'`
          have hsuf : ∃ x, post = x ++ post' := by
            have hl := congrArg List.length he
            simp only [List.length_append] at hl
            have hd := congrArg (List.drop (gap.length + t.length)) he
            rw [show gap ++ t ++ post = (gap ++ t) ++ post from rfl,
              List.drop_append_of_le_length (by simp), List.drop_of_length_le (by simp),
              List.nil_append] at hd
            refine ⟨(gap' ++ t).drop (gap.length + t.length), ?_⟩
            rw [hd, List.drop_append_of_le_length (by simp; omega)]
          obtain ⟨x, hx⟩ := hsuf
          rw [hx]
          exact occurs_append x post' ts ho
        · intro ho; exact ⟨gap, post, rfl, ho⟩
      exact ⟨fun h => ih1 (hiff.mp h), fun h => ih2 (fun h' => h (hiff.mpr h'))⟩

theorem genRepLoop_pairs (pre : Str) (ps : List (Str × Str)) (tail : Str) (g : ReplacementGroup Str)
    (h : ∀ p ∈ ps, FirstFit p) :
    Str2Lst.genRepLoop (pre ++ joinPairs ps tail) (ps.map Prod.snd) pre.length g =
      .ok (pre.length + (ps.flatMap fun p => p.1 ++ p.2).length,
        ⟨g.reps ++ groupOf pre.length (pairPieces ps), g.isDone⟩) := by
  induction ps generalizing pre g with
  | nil => simp [Str2Lst.genRepLoop, joinPairs, pairPieces, groupOf]
  | cons p ps ih =>
    obtain ⟨gap, t⟩ := p
    have e : joinPairs ((gap, t) :: ps) tail = gap ++ t ++ joinPairs ps tail := by simp [joinPairs]
    rw [e, List.map_cons, genRepLoop_step pre gap t _ _ g (findAux_gap gap t _ _ (h (gap, t) (by simp))),
      ih _ _ (fun q hq => h q (by simp [hq])), groupOf_pairPieces_cons]
    simp [Nat.add_assoc]

theorem finishGroup (σ : SetOrder) (ps : List (Str × Str)) (tail : Str) (s : Str)
    (hs : s = joinPairs ps tail) (sh : Nat) (hsh : sh + tail.length = s.length) :
    (if sh ≠ s.length then (⟨groupOf 0 (pairPieces ps), false⟩ : ReplacementGroup Str).add sh s.length []
      else ⟨groupOf 0 (pairPieces ps), false⟩).done σ = .ok ⟨groupOf 0 (tokPieces ps tail), true⟩ := by
  have hlen : sh = (srcOf (pairPieces ps)).length := by
    rw [srcOf_pairPieces]
    have := congrArg List.length hs
    simp only [joinPairs, List.length_append] at this
    omega
  have hg : (if sh ≠ s.length then (⟨groupOf 0 (pairPieces ps), false⟩ : ReplacementGroup Str).add sh s.length []
      else ⟨groupOf 0 (pairPieces ps), false⟩) = ⟨groupOf 0 (tokPieces ps tail), false⟩ := by
    rw [tokPieces, groupOf_append, Nat.zero_add, ← hlen, groupOf_gap]
    by_cases ht : tail = []
    · have : sh = s.length := by rw [← hsh, ht]; simp
      rw [if_neg (by simp [this])]
      simp [ht, groupOf]
    · have : sh ≠ s.length := by
        have := List.length_pos_iff.mpr ht
        omega
      rw [if_pos this, ReplacementGroup.add_of_le _ (by omega)]
      simp [ht, groupOf, hsh]
  rw [hg]
  exact done_groupOf (β := Char) σ 0 (tokPieces ps tail) false false (separated_tokPieces ps tail false)

/-- `gen_replacement_group` on a known decomposition. -/
theorem genReplacementGroup_pairs (σ : SetOrder) (ps : List (Str × Str)) (tail : Str)
    (h : ∀ p ∈ ps, FirstFit p) :
    Str2Lst.genReplacementGroup σ (joinPairs ps tail) (ps.map Prod.snd) =
      .ok ⟨groupOf 0 (tokPieces ps tail), true⟩ := by
  have h1 := genRepLoop_pairs [] ps tail ReplacementGroup.empty h
  simp only [List.nil_append, List.length_nil, Nat.zero_add, ReplacementGroup.empty] at h1
  unfold Str2Lst.genReplacementGroup
  simp only [ReplacementGroup.empty]
  rw [h1]
  simp only [Except.bind_ok]
  exact finishGroup σ ps tail _ rfl _ (by simp [joinPairs])

theorem genReplacementGroup_ok (σ : SetOrder) (s : Str) (ts : List Str) (g : ReplacementGroup Str)
    (h : Str2Lst.genReplacementGroup σ s ts = .ok g) :
    ∃ ps tail, s = joinPairs ps tail ∧ ps.map Prod.snd = ts ∧ Solid ps ∧
      g = ⟨groupOf 0 (tokPieces ps tail), true⟩ := by
  unfold Str2Lst.genReplacementGroup at h
  cases hl : Str2Lst.genRepLoop s ts 0 ReplacementGroup.empty with
  | error e => rw [hl] at h; simp [bind, Except.bind] at h
  | ok r =>
    obtain ⟨sh, g0⟩ := r
    have hl' : Str2Lst.genRepLoop ([] ++ s) ts ([] : Str).length ReplacementGroup.empty = .ok (sh, g0) := hl
    obtain ⟨ps, tail, h1, h2, h3, h4, h5⟩ := genRepLoop_ok [] s ts _ _ _ hl'
    rw [hl] at h
    simp only [Except.bind_ok] at h
    have h5 : g0 = ⟨groupOf 0 (pairPieces ps), false⟩ := by
      rw [h5]; simp [ReplacementGroup.empty]
    rw [h5, finishGroup σ ps tail s h1 sh h4] at h
    injection h with h
    exact ⟨ps, tail, h1, h2, h3, h.symm⟩

theorem genReplacementGroup_complete (σ : SetOrder) (s : Str) (ts : List Str) :
    (OccursInOrder s ts → ∃ g, Str2Lst.genReplacementGroup σ s ts = .ok g) ∧
    (¬ OccursInOrder s ts → Str2Lst.genReplacementGroup σ s ts = .error .valueError) := by
  obtain ⟨h1, h2⟩ := genRepLoop_complete [] s ts ReplacementGroup.empty
  simp only [List.nil_append, List.length_nil] at h1 h2
  constructor
  · intro ho
    obtain ⟨⟨sh, g0⟩, hl⟩ := h1 ho
    obtain ⟨ps, tail, e1, e2, e3, e4, e5⟩ := genRepLoop_ok [] s ts _ _ _ hl
    have e5 : g0 = ⟨groupOf 0 (pairPieces ps), false⟩ := by
      rw [e5]; simp [ReplacementGroup.empty]
    unfold Str2Lst.genReplacementGroup
    rw [hl]
    simp only [Except.bind_ok]
    rw [e5, finishGroup σ ps tail s e1 sh e4]
    exact ⟨_, rfl⟩
  · intro ho
    unfold Str2Lst.genReplacementGroup
    rw [h2 ho]
    rfl

/-! ### `gen_span_group` -/

theorem tiles_consecutive (off : Nat) (ns : List Nat) : Tiles off (consecutive off ns) := by
  induction ns generalizing off with
  | nil => trivial
  | cons n ns ih => exact ⟨rfl, Nat.le_add_right _ _, ih _⟩

theorem length_consecutive (off : Nat) (ns : List Nat) : (consecutive off ns).length = ns.length := by
  induction ns generalizing off with
  | nil => rfl
  | cons n ns ih => simp [consecutive, ih]

theorem endOf_consecutive (off : Nat) (ns : List Nat) : endOf off (consecutive off ns) = off + ns.sum := by
  induction ns generalizing off with
  | nil => rfl
  | cons n ns ih => simp [consecutive, endOf, ih]; omega

theorem genSpanLoop_eq (pre : Str) (ts : List Str) (g : SpanGroup) :
    Str2Lst.genSpanLoop (pre ++ ts.flatten) ts pre.length g =
      .ok ⟨g.spans ++ consecutive pre.length (ts.map List.length), g.isDone⟩ := by
  induction ts generalizing pre g with
  | nil => simp [Str2Lst.genSpanLoop, consecutive]
  | cons t ts ih =>
    rw [Str2Lst.genSpanLoop, pyFind_eq]
    simp only [List.flatten_cons]
    rw [findAux_prefix]
    have e : pre ++ (t ++ ts.flatten) = (pre ++ t) ++ ts.flatten := by simp
    have e2 : pre.length + t.length = (pre ++ t).length := by simp
    have hab : ¬ pre.length > pre.length + t.length := by omega
    simp only [SpanGroup.add, Span.new, validateStartEnd, if_neg hab]
    rw [e, e2]
    refine (ih (pre ++ t) _).trans ?_
    simp [pure, Except.pure, consecutive, bind, Except.bind]

theorem genSpanGroup_eq (ts : List Str) :
    Str2Lst.genSpanGroup ts.flatten ts = .ok ⟨consecutive 0 (ts.map List.length), true⟩ := by
  unfold Str2Lst.genSpanGroup
  rw [if_neg (by simp)]
  have h := genSpanLoop_eq [] ts SpanGroup.empty
  simp only [List.nil_append, List.length_nil, SpanGroup.empty] at h
  rw [show SpanGroup.empty = ⟨[], false⟩ from rfl, h]
  simp only [Except.bind_ok]
  have ht := tiles_consecutive 0 (ts.map List.length)
  have hd := (spanDone_spec (consecutive 0 (ts.map List.length)) false (fun s hs => (tiles_mem ht s hs).2)).1
  rw [sortSpans_of_tiles ht] at hd
  rw [hd ht]
  simp only [Except.bind_ok, length_consecutive, List.length_map, if_true]
  rfl

theorem genSpanGroup_error (s : Str) (ts : List Str) (h : ts.flatten ≠ s) :
    Str2Lst.genSpanGroup s ts = .error .valueError := by
  unfold Str2Lst.genSpanGroup
  rw [if_pos (fun e => h e.symm)]

end Uttut
