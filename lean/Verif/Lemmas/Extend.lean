import Verif.Props.Tokenizers
import Verif.Props.Pattern
import Verif.Lemmas.Honest

/-! Lemmas for operators written by users. -/

namespace Uttut

open Spec Piece

/-! ### leftmost placement -/

theorem findAux_leftmost (gap t post : Str) (i : Nat)
    (h : ∀ gap' post', gap ++ t ++ post = gap' ++ t ++ post' → gap.length ≤ gap'.length) :
    findAux t (gap ++ t ++ post) i = some (i + gap.length) := by
  cases hf : findAux t (gap ++ t ++ post) i with
  | none => exact absurd rfl (findAux_none hf gap post)
  | some j =>
    obtain ⟨gap', post', h1, h2, h3⟩ := findAux_some hf
    have a := h gap' post' h1
    have b := h3 gap post rfl
    rw [h2]
    congr 2
    omega

theorem layout_cons (p : Str × Str) (ps : List (Str × Str)) (tail : Str) :
    layout (p :: ps) tail = p.1 ++ p.2 ++ layout ps tail := by simp [layout]

theorem solid_of_leftmost {ps : List (Str × Str)} {tail : Str} (h : Leftmost ps tail) : Solid ps := by
  induction ps with
  | nil => intro p hp; cases hp
  | cons q ps ih =>
    intro p hp he
    rcases List.mem_cons.mp hp with rfl | hp
    · have := h.1 [] (layout (p :: ps) tail) (by rw [he]; rfl)
      exact List.length_eq_zero_iff.mp (by simpa using this)
    · exact ih h.2 p hp he

theorem genRepLoop_leftmost (pre : Str) (ps : List (Str × Str)) (tail : Str) (g : ReplacementGroup Str)
    (h : Leftmost ps tail) :
    Str2Lst.genRepLoop (pre ++ layout ps tail) (ps.map Prod.snd) pre.length g =
      .ok (pre.length + (ps.flatMap fun p => p.1 ++ p.2).length,
        ⟨g.reps ++ groupOf pre.length (pairPieces ps), g.isDone⟩) := by
  induction ps generalizing pre g with
  | nil => simp [Str2Lst.genRepLoop, layout, pairPieces, groupOf]
  | cons p ps ih =>
    obtain ⟨gap, t⟩ := p
    have e := layout_cons (gap, t) ps tail
    have h1 := h.1
    rw [e] at h1 ⊢
    rw [List.map_cons, genRepLoop_step pre gap t _ _ g (findAux_leftmost gap t _ _ h1), ih _ _ h.2,
      groupOf_pairPieces_cons]
    simp [Nat.add_assoc]

theorem genReplacementGroup_leftmost (σ : SetOrder) (ps : List (Str × Str)) (tail : Str) (h : Leftmost ps tail) :
    Str2Lst.genReplacementGroup σ (layout ps tail) (ps.map Prod.snd) =
      .ok ⟨groupOf 0 (tokPieces ps tail), true⟩ := by
  have h1 := genRepLoop_leftmost [] ps tail ReplacementGroup.empty h
  simp only [List.nil_append, List.length_nil, Nat.zero_add, ReplacementGroup.empty] at h1
  unfold Str2Lst.genReplacementGroup
  simp only [ReplacementGroup.empty]
  rw [h1]
  simp only [Except.bind_ok]
  exact finishGroup σ ps tail _ rfl _ (by simp [joinPairs])

/-- Among the decompositions of a text by one token there is one with the shortest gap. -/
theorem exists_least_gap {s t : Str} (h : ∃ pre post, s = pre ++ t ++ post) :
    ∃ gap post, s = gap ++ t ++ post ∧ ∀ gap' post', s = gap' ++ t ++ post' → gap.length ≤ gap'.length := by
  obtain ⟨pre, post, hs⟩ := h
  cases hf : findAux t s 0 with
  | none => exact absurd hs (findAux_none hf pre post)
  | some j =>
    obtain ⟨gap, post', h1, _, h3⟩ := findAux_some hf
    exact ⟨gap, post', h1, h3⟩

theorem occurs_after_least {gap t post gap' post' : Str} {ts : List Str} (he : gap ++ t ++ post = gap' ++ t ++ post')
    (hle : gap.length ≤ gap'.length) (ho : OccursInOrder post' ts) : OccursInOrder post ts := by
  have hd := congrArg (List.drop (gap.length + t.length)) he
  rw [show gap ++ t ++ post = (gap ++ t) ++ post from rfl, List.drop_append_of_le_length (by simp),
    List.drop_of_length_le (by simp), List.nil_append] at hd
  rw [hd, List.drop_append_of_le_length (by simp; omega)]
  exact occurs_append _ post' ts ho

/-- Tokens that occur in order have a leftmost placement. -/
theorem exists_leftmost (s : Str) (toks : List Str) (h : OccursInOrder s toks) :
    ∃ ps tail, s = layout ps tail ∧ ps.map Prod.snd = toks ∧ Leftmost ps tail := by
  induction toks generalizing s with
  | nil => exact ⟨[], s, by simp [layout], rfl, trivial⟩
  | cons t ts ih =>
    obtain ⟨pre, post, h1, h2⟩ := h
    obtain ⟨gap, post', h3, h4⟩ := exists_least_gap ⟨pre, post, h1⟩
    obtain ⟨ps, tail, e1, e2, e3⟩ := ih post' (occurs_after_least (h3.symm.trans h1) (h4 pre post h1) h2)
    refine ⟨(gap, t) :: ps, tail, ?_, by simp [e2], ?_, e3⟩
    · rw [layout_cons, h3, e1]
    · rw [layout_cons, ← e1, ← h3]
      exact h4

theorem occurs_of_layout (ps : List (Str × Str)) (tail : Str) :
    OccursInOrder (layout ps tail) (ps.map Prod.snd) := by
  induction ps with
  | nil => trivial
  | cons p ps ih => exact ⟨p.1, layout ps tail, layout_cons p ps tail, ih⟩

/-- There is only one leftmost placement. -/
theorem leftmost_unique {ps ps' : List (Str × Str)} {tail tail' : Str} (h : Leftmost ps tail) (h' : Leftmost ps' tail')
    (hs : layout ps tail = layout ps' tail') (ht : ps.map Prod.snd = ps'.map Prod.snd) : ps = ps' ∧ tail = tail' := by
  induction ps generalizing ps' with
  | nil =>
    cases ps' with
    | nil => exact ⟨rfl, by simpa [layout] using hs⟩
    | cons => simp at ht
  | cons p ps ih =>
    cases ps' with
    | nil => simp at ht
    | cons p' ps' =>
      obtain ⟨g, t⟩ := p
      obtain ⟨g', t'⟩ := p'
      simp only [List.map_cons, List.cons.injEq] at ht
      obtain ⟨rfl, ht⟩ := ht
      have e1 := layout_cons (g, t) ps tail
      have e2 := layout_cons (g', t) ps' tail'
      have a := h.1 g' (layout ps' tail') (by rw [hs, e2])
      have b := h'.1 g (layout ps tail) (by rw [← hs, e1])
      rw [e1, e2] at hs
      dsimp only at hs a b
      have hl : g.length = g'.length := by omega
      rw [List.append_assoc, List.append_assoc] at hs
      obtain ⟨rfl, hs2⟩ := List.append_inj hs hl
      obtain ⟨rfl, rfl⟩ := ih h.2 h'.2 (List.append_cancel_left hs2) ht
      exact ⟨rfl, rfl⟩

/-- Tokens whose first character does not occur in the text dropped before them lie leftmost. -/
theorem leftmost_of_firstFit {ps : List (Str × Str)} {tail : Str}
    (h : ∀ p ∈ ps, p.1 = [] ∨ ∃ c t, p.2 = c :: t ∧ c ∉ p.1) : Leftmost ps tail := by
  induction ps with
  | nil => trivial
  | cons p ps ih =>
    refine ⟨fun gap post he => ?_, ih fun q hq => h q (by simp [hq])⟩
    have := findAux_gap p.1 p.2 (layout ps tail) 0 (h p (by simp))
    obtain ⟨gap', post', h1, h2, h3⟩ := findAux_some this
    rw [layout_cons] at he
    have h3 := h3 gap post he
    omega

/-! ### pattern recognizers with any label functions -/

theorem labelsWith_cut_by (F : List Int → Nat → List Int) (s v : Str) (pos : Nat) (ms : List (Nat × Nat))
    (ls : List Int) (hl : ls.length = s.length)
    (hfit : Fits s.length pos (ms.map fun x => (⟨x.1, x.2, v⟩ : Rep Str))) :
    labelsWith F (cut s pos (ms.map fun x => (⟨x.1, x.2, v⟩ : Rep Str))) (ls.drop pos) =
      replaceLabelsBy F ls v.length pos ms := by
  induction ms generalizing pos with
  | nil =>
    simp only [List.map_nil, cut, labelsWith, replaceLabelsBy, List.append_nil]
    rw [List.take_of_length_le (by simp only [List.length_drop]; omega)]
  | cons x ms ih =>
    obtain ⟨h1, h2, h3⟩ := hfit
    have h4 := h3.le
    dsimp only at h1 h2 h3 h4
    simp only [List.map_cons, cut, labelsWith, replaceLabelsBy]
    rw [length_slice s (by omega : x.1 ≤ s.length), length_slice s h4, List.drop_drop, List.drop_drop,
      show pos + (x.1 - pos) = x.1 by omega, show x.1 + (x.2 - x.1) = x.2 by omega, ih _ h3, ← List.append_assoc]
    congr 1
    unfold slice
    rw [← List.drop_take, ← List.drop_take]

theorem labelsWith_cut_swap_by (B : List Int → Nat → List Int) (s v : Str) (pos : Nat) (ms : List (Nat × Nat))
    (ys : List Int) (hfit : Fits s.length pos (ms.map fun x => (⟨x.1, x.2, v⟩ : Rep Str)))
    (hl : ys.length = (replaceMatches s v pos ms).length) :
    labelsWith B ((cut s pos (ms.map fun x => (⟨x.1, x.2, v⟩ : Rep Str))).map swap) ys =
      restoreLabelsBy B v.length pos ms ys := by
  induction ms generalizing pos ys with
  | nil =>
    simp only [replaceMatches] at hl
    simp only [List.map_nil, cut, List.map_cons, swap, labelsWith, restoreLabelsBy, List.append_nil]
    rw [List.take_of_length_le (by omega)]
  | cons x ms ih =>
    obtain ⟨h1, h2, h3⟩ := hfit
    have h4 := h3.le
    dsimp only at h1 h2 h3 h4
    simp only [replaceMatches, List.length_append] at hl
    rw [length_slice s (by omega : x.1 ≤ s.length)] at hl
    simp only [List.map_cons, cut, swap, labelsWith, restoreLabelsBy]
    rw [length_slice s (by omega : x.1 ≤ s.length), length_slice s h4,
      ih _ _ h3 (by simp only [List.length_drop]; omega), ← List.append_assoc]

theorem respects_sized {α β : Type} {F : List Int → Nat → List Int} (h : Sized F) (ps : List (Piece α β)) :
    Respects (fun x n => .ok (F x n)) ps := by
  intro o n _ x y _ hy
  injection hy with hy
  rw [← hy]
  exact h _ _

theorem mem_sub_cut {s v : Str} {pos : Nat} {ms : List (Nat × Nat)} {o n : Str}
    (h : sub o n ∈ cut s pos (ms.map fun x => (⟨x.1, x.2, v⟩ : Rep Str))) : n = v := by
  induction ms generalizing pos with
  | nil => simp [cut] at h
  | cons x ms ih =>
    simp only [List.map_cons, cut, List.mem_cons] at h
    rcases h with h | h | h
    · cases h
    · injection h
    · exact ih h

/-- A pattern recognizer with any label functions. -/
theorem recognizer_op (σ : SetOrder) (m : Matcher) (v : Str) (F B : List Int → Nat → List Int) (hF : Sized F)
    (hB : Sized B) (s : Str) (hs : SoundMatcher m s) (ms : List (Nat × Nat)) (hscan : Scan m s 0 ms) :
    ∃ a, patternTransform σ m v (fun x n => .ok (F x n)) (fun x n => .ok (B x n)) s =
        .ok (replaceMatches s v 0 ms, a) ∧
      a.inputLength = s.length ∧ a.outputLength = (replaceMatches s v 0 ms).length ∧
      (∀ ls, ls.length = s.length → a.transform ls = .ok (replaceLabelsBy F ls v.length 0 ms)) ∧
      (v ≠ [] ∨ DistinctMatches s ms ∧ (∃ z, ∀ n, B [] n = List.replicate n z) →
        ∀ ys, ys.length = (replaceMatches s v 0 ms).length →
          a.inverseTransform ys = .ok (restoreLabelsBy B v.length 0 ms ys)) ∧
      (v = [] → ¬ DistinctMatches s ms → ∀ ys, ys.length = (replaceMatches s v 0 ms).length →
          a.inverseTransform ys = .error .assertionError) := by
  have hfit := hscan.fits hs (by omega) v
  have hsrc : srcOf (cut s 0 (ms.map fun x => (⟨x.1, x.2, v⟩ : Rep Str))) = s := by
    rw [srcOf_cut s 0 _ hfit]; simp
  have hdst := dstOf_cut_matches s v 0 ms
  have hT := patternTransform_of_scan σ m v (fun x n => .ok (F x n)) (fun x n => .ok (B x n)) s hs ms hscan _
    (groupOf_cut s 0 _ hfit) (scan_separated hs v (by omega) hscan _) hsrc
  rw [hdst] at hT
  refine ⟨_, hT, rfl, rfl, ?_, ?_, ?_⟩
  · intro ls hl
    have hrel : relabel (fun x n => .ok (F x n))
        (withLabels (cut s 0 (ms.map fun x => (⟨x.1, x.2, v⟩ : Rep Str))) ls) =
          .ok (replaceLabelsBy F ls v.length 0 ms) := by
      rw [relabel_labelsWith _ F _ (fun _ _ _ _ _ => rfl) ls (by rw [hsrc]; exact hl)]
      have := labelsWith_cut_by F s v 0 ms ls hl hfit
      rw [List.drop_zero] at this
      rw [this]
    have ht := strAligner_transform σ (cut s 0 (ms.map fun x => (⟨x.1, x.2, v⟩ : Rep Str)))
      (fun x n => .ok (F x n)) (fun x n => .ok (B x n)) (respects_sized hF _) ls
      (replaceLabelsBy F ls v.length 0 ms)
    rw [hsrc, hdst] at ht
    exact ht hl hrel
  · intro hc ys hl
    have hrel : relabel (fun x n => .ok (B x n))
        (withLabels ((cut s 0 (ms.map fun x => (⟨x.1, x.2, v⟩ : Rep Str))).map swap) ys) =
          .ok (restoreLabelsBy B v.length 0 ms ys) := by
      rw [relabel_labelsWith _ B _ (fun _ _ _ _ _ => rfl) ys (by rw [srcOf_swap, hdst]; exact hl),
        labelsWith_cut_swap_by B s v 0 ms ys hfit hl]
    by_cases hv : v = []
    · obtain ⟨hd, z, hz⟩ := hc.resolve_left fun h => h hv
      have hnd := (nodup_groupOf_swap_cut s 0 0 _ hfit).mpr (distinct_of_ne s v ms (Or.inr hd))
      have hl' : ys.length = (dstOf (cut s 0 (ms.map fun x => (⟨x.1, x.2, v⟩ : Rep Str)))).length := by
        rw [hdst]; exact hl
      have hb := editInverse_labels σ _ hnd (fun x n => .ok (B x n)) z (fun n => by rw [hz n])
        (fun x n y h => by injection h with h; rw [← h]; exact hB x n) ys hl'
      rw [hrel, hsrc] at hb
      refine Aligner.inverse_of_bwd _ ys _ hl hb ?_
      have h2 : ys.length = (srcOf ((cut s 0 (ms.map fun x => (⟨x.1, x.2, v⟩ : Rep Str))).map swap)).length := by
        rw [srcOf_swap]; exact hl'
      rw [relabel_length _ _ ((respects_sized hB _).withLabels h2) _ hrel, outLenOf_withLabels _ ys h2, outLenOf_eq,
        dstOf_swap, hsrc]
      rfl
    · have hb := strAligner_inverse σ (cut s 0 (ms.map fun x => (⟨x.1, x.2, v⟩ : Rep Str)))
        (fun x n => .ok (F x n)) (fun x n => .ok (B x n))
        (separated_swap_of_nonempty _ (fun o n hm => by rw [mem_sub_cut hm]; exact hv) false)
        (respects_sized hB _) ys (restoreLabelsBy B v.length 0 ms ys)
      rw [hsrc, hdst] at hb
      exact hb hl hrel
  · intro hv hd ys hl
    subst hv
    have hdup := editInverse_dup (β := Char) σ (cut s 0 (ms.map
      fun x => (⟨x.1, x.2, []⟩ : Rep Str))) fun h => hd ((nodup_groupOf_swap_cut s 0 0 _ hfit).mp h)
    rw [hsrc] at hdup
    unfold Aligner.inverseTransform Aligner.validateOutput Aligner.ofStrEdit
    dsimp only
    rw [if_neg (by simpa using hl)]
    simp only [Except.bind_ok]
    have : Str2Str.inverse σ s ⟨groupOf 0 (cut s 0 (ms.map
      fun x => (⟨x.1, x.2, []⟩ : Rep Str))), true⟩ = .error .assertionError := hdup
    rw [this]
    rfl

theorem frugal_modest {F : List Int → Nat → List Int} (h : Modest F) : Frugal (fun x n => .ok (F x n)) := by
  intro x n y hy
  injection hy with hy
  subst hy
  exact h x n

end Uttut
