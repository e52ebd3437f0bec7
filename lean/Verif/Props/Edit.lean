import Verif.Lemmas.Inverse

/-!
Properties C01-C07: applying, inverting and propagating through replacement groups.
-/

namespace Uttut

open Spec Piece

variable {β V : Type}

/-- A set order that enumerates in insertion order, and one that enumerates backwards (witnesses). -/
def SetOrder.id : SetOrder := ⟨fun _ l => l, fun _ _ => .refl _⟩
def SetOrder.rev : SetOrder := ⟨fun _ l => l.reverse, fun _ l => List.reverse_perm l⟩

/-! ### C01 -/

/-- C01 (lists): applying a group made by `add_all` is slice assignment from right to left. The starts
must lie within the sequence (`start = len` appends). -/
theorem C01_lst_apply_eq_slice_assignment [DecidableEq β] (σ : SetOrder)
    (ts : List (Int × Int × List β)) (g : ReplacementGroup (List β))
    (hg : ReplacementGroup.addAll σ ts = .ok g) (l : List β) (hin : ∀ r ∈ g.reps, r.start ≤ l.length) :
    Lst2Lst.apply l g = .ok (editFromRight l g.reps) := by
  obtain ⟨h1, h2, h3⟩ := addAll_chain σ ts g hg
  rw [group_eta h1, lstApply_eq, editFromRight_eq l g.reps 0
    (fun r hr => ⟨by omega, h2 r hr, hin r hr⟩) h3]
  simp

/-- C01 (strings). -/
theorem C01_str_apply_eq_slice_assignment (σ : SetOrder) (ts : List (Int × Int × Str))
    (g : ReplacementGroup Str) (hg : ReplacementGroup.addAll σ ts = .ok g) (s : Str)
    (hin : ∀ r ∈ g.reps, r.start ≤ s.length) :
    Str2Str.apply s g = .ok (editFromRight s g.reps) := by
  obtain ⟨h1, h2, h3⟩ := addAll_chain σ ts g hg
  rw [group_eta h1, strApply_eq, editFromRight_eq s g.reps 0
    (fun r hr => ⟨by omega, h2 r hr, hin r hr⟩) h3]
  simp

/-- C01, second part: on a finalised group, in bounds or not, `apply` never raises. -/
theorem C01_apply_never_raises (g : ReplacementGroup Str) (g' : ReplacementGroup (List β))
    (h : g.isDone = true) (h' : g'.isDone = true) (s : Str) (l : List β) :
    (∃ out, Str2Str.apply s g = .ok out) ∧ (∃ out, Lst2Lst.apply l g' = .ok out) := by
  rw [group_eta h, group_eta h', strApply_eq, lstApply_eq]
  exact ⟨⟨_, rfl⟩, ⟨_, rfl⟩⟩

/-- The bound on the starts is needed: two insertions beyond the end come out in the other order. -/
theorem C01_out_of_bounds_differs :
    Lst2Lst.apply [1, 2] ⟨[⟨5, 6, [7]⟩, ⟨8, 9, [8]⟩], true⟩ = .ok [1, 2, 7, 8] ∧
    editFromRight [1, 2] [⟨5, 6, [7]⟩, ⟨8, 9, [8]⟩] = [1, 2, 8, 7] := by decide

-- a group meeting the hypotheses of C01
example : ReplacementGroup.addAll SetOrder.rev [(3, 5, "XYZ".toList), (0, 1, "".toList)]
      = .ok ⟨[⟨0, 1, []⟩, ⟨3, 5, "XYZ".toList⟩], true⟩ ∧
    Str2Str.apply "abcdef".toList ⟨[⟨0, 1, []⟩, ⟨3, 5, "XYZ".toList⟩], true⟩
      = .ok "bcXYZf".toList := by decide

/-! ### C02 -/

theorem inverse_restores [DecidableEq β] [NewValue (List β)] [UniformKind (List β)] (σ : SetOrder)
    (rs : List (Rep (List β))) (xs : List β) (hwf : ∀ r ∈ rs, r.start ≤ r.stop)
    (hb : rs.Pairwise Rep.Before) (hin : InBounds xs.length rs) (hnt : NoTouchingDeletions rs) :
    ∃ inv, editInverse σ xs ⟨rs, true⟩ = .ok inv ∧ inv.isDone = true ∧
      inv.reps.length = rs.length ∧ applySimple (applySimple xs 0 rs) 0 inv.reps = xs := by
  have hfit := Rep.cut_src rfl hwf hb hin
  have hsrc : srcOf (cut xs 0 rs) = xs := by rw [srcOf_cut xs 0 rs hfit]; simp
  have hgrp := groupOf_cut xs 0 rs hfit
  have hsep := separated_cut xs 0 rs hfit false (by simp) hnt
  have hinv := editInverse_pieces σ (cut xs 0 rs) hsep
  rw [hsrc, hgrp] at hinv
  refine ⟨_, hinv, rfl, ?_, ?_⟩
  · rw [groupOf_length_swap 0 0, hgrp]
  · have h1 := applySimple_groupOf [] (cut xs 0 rs)
    have h2 := applySimple_groupOf [] ((cut xs 0 rs).map swap)
    simp only [List.nil_append, List.length_nil, hsrc, hgrp] at h1
    simp only [List.nil_append, List.length_nil, srcOf_swap, dstOf_swap, hsrc] at h2
    rw [h1, h2]

/-- C02 (lists): without touching deletions the inverse edit exists, has as many replacements, and
restores the original list; for every set order used when building the group and the inverse. -/
theorem C02_lst_inverse_restores [DecidableEq β] (σ σ' : SetOrder) (ts : List (Int × Int × List β))
    (g : ReplacementGroup (List β)) (hg : ReplacementGroup.addAll σ ts = .ok g) (l out : List β)
    (hin : InBounds l.length g.reps) (hnt : NoTouchingDeletions g.reps)
    (hout : Lst2Lst.apply l g = .ok out) :
    ∃ inv, Lst2Lst.inverse σ' l g = .ok inv ∧ inv.reps.length = g.reps.length ∧
      Lst2Lst.apply out inv = .ok l := by
  obtain ⟨h1, h2, h3⟩ := addAll_chain σ ts g hg
  obtain ⟨inv, h4, h5, h6, h7⟩ := inverse_restores (β := β) σ' g.reps l h2 h3 hin hnt
  rw [group_eta h1, lstApply_eq] at hout
  injection hout with hout
  refine ⟨inv, ?_, h6, ?_⟩
  · rw [group_eta h1]; exact h4
  · rw [group_eta h5, lstApply_eq, ← hout, h7]

/-- C02 (strings). -/
theorem C02_str_inverse_restores (σ σ' : SetOrder) (ts : List (Int × Int × Str))
    (g : ReplacementGroup Str) (hg : ReplacementGroup.addAll σ ts = .ok g) (s out : Str)
    (hin : InBounds s.length g.reps) (hnt : NoTouchingDeletions g.reps)
    (hout : Str2Str.apply s g = .ok out) :
    ∃ inv, Str2Str.inverse σ' s g = .ok inv ∧ inv.reps.length = g.reps.length ∧
      Str2Str.apply out inv = .ok s := by
  obtain ⟨h1, h2, h3⟩ := addAll_chain σ ts g hg
  obtain ⟨inv, h4, h5, h6, h7⟩ := inverse_restores (β := Char) σ' g.reps s h2 h3 hin hnt
  rw [group_eta h1, strApply_eq] at hout
  injection hout with hout
  refine ⟨inv, ?_, h6, ?_⟩
  · rw [group_eta h1]; exact h4
  · rw [group_eta h5, strApply_eq, ← hout, h7]

-- hypotheses of C02 are satisfiable by a non-trivial edit (an insertion, a deletion, a replacement)
example : ReplacementGroup.addAll SetOrder.rev [(3, 5, "XYZ".toList), (2, 3, []), (0, 0, ">".toList)]
      = .ok ⟨[⟨0, 0, ">".toList⟩, ⟨2, 3, []⟩, ⟨3, 5, "XYZ".toList⟩], true⟩ ∧
    NoTouchingDeletions [⟨0, 0, ">".toList⟩, ⟨2, 3, []⟩, (⟨3, 5, "XYZ".toList⟩ : Rep Str)] ∧
    Str2Str.inverse SetOrder.rev "abcdef".toList
      ⟨[⟨0, 0, ">".toList⟩, ⟨2, 3, []⟩, ⟨3, 5, "XYZ".toList⟩], true⟩
      = .ok ⟨[⟨0, 1, []⟩, ⟨3, 3, "c".toList⟩, ⟨3, 6, "de".toList⟩], true⟩ := by decide

/-! ### C03 -/

theorem pyDedup_length_le {α : Type} [DecidableEq α] (l : List α) : (pyDedup l).length ≤ l.length := by
  induction l with
  | nil => simp [pyDedup]
  | cons x xs ih =>
    have := List.length_filter_le (fun y => decide (y ≠ x)) (pyDedup xs)
    simp only [pyDedup, List.length_cons]
    omega

theorem pyDedup_length_lt {α : Type} [DecidableEq α] (l : List α) (h : ¬ l.Nodup) :
    (pyDedup l).length < l.length := by
  induction l with
  | nil => simp at h
  | cons x xs ih =>
    have hle := pyDedup_length_le xs
    simp only [pyDedup, List.length_cons]
    by_cases hx : x ∈ xs
    · have : ((pyDedup xs).filter fun y => decide (y ≠ x)).length < (pyDedup xs).length := by
        rw [List.length_filter_lt_length_iff_exists]
        exact ⟨x, mem_pyDedup.mpr hx, by simp⟩
      omega
    · have hn : ¬ xs.Nodup := fun h' => h (List.nodup_cons.mpr ⟨hx, h'⟩)
      have := ih hn
      have := List.length_filter_le (fun y => decide (y ≠ x)) (pyDedup xs)
      omega

theorem editInverse_dup [DecidableEq β] [NewValue (List β)] [UniformKind (List β)] (σ : SetOrder)
    (ps : List (Piece β β)) (h : ¬ (groupOf 0 (ps.map swap)).Nodup) :
    editInverse σ (srcOf ps) ⟨groupOf 0 ps, true⟩ = .error .assertionError := by
  unfold editInverse
  rw [genInverse_pieces]
  have hwf := groupOf_wf 0 (ps.map swap)
  have hbef := groupOf_before 0 (ps.map swap)
  have hdisj : ∀ (l : List (Rep (List β))), l.Pairwise Rep.Before →
      ∀ a ∈ l, ∀ b ∈ l, a ≠ b → a.stop ≤ b.start ∨ b.stop ≤ a.start := by
    intro l hl
    induction l with
    | nil => simp
    | cons r rs ih =>
      rw [List.pairwise_cons] at hl
      intro a ha b hb hab
      rcases List.mem_cons.mp ha with rfl | ha' <;> rcases List.mem_cons.mp hb with rfl | hb'
      · exact absurd rfl hab
      · exact Or.inl (hl.1 b hb')
      · exact Or.inr (hl.1 a ha')
      · exact ih hl.2 a ha' b hb' hab
  rw [(ReplacementGroup.done_spec σ (⟨groupOf 0 (ps.map swap), false⟩ : ReplacementGroup (List β))
    hwf).1 (fun a _ b _ => UniformKind.const _ _) (hdisj _ hbef)]
  simp only [bind, Except.bind]
  rw [if_neg]
  rw [(ReplacementGroup.sortReps_perm _).length_eq, (listSet_perm σ _).length_eq]
  have := pyDedup_length_lt _ h
  rw [groupOf_length_swap 0 0] at this
  omega

/-- Two touching deletions of equal text give the same inverse replacement twice. -/
theorem groupOf_cut_dup (xs : List β) (cur o : Nat) (pre : List (Rep (List β))) (a b : Rep (List β))
    (post : List (Rep (List β))) (ha : a.val = []) (hb : b.val = []) (htouch : a.stop = b.start)
    (heq : slice xs a.start a.stop = slice xs b.start b.stop) :
    ¬ (groupOf o ((cut xs cur (pre ++ a :: b :: post)).map swap)).Nodup := by
  induction pre generalizing cur o with
  | nil =>
    have hs : slice xs a.stop b.start = [] := by simp [slice, htouch]
    simp only [List.nil_append, cut, List.map_cons, swap, groupOf, ha, hb, hs, List.length_nil,
      Nat.add_zero, heq]
    simp
  | cons r rs ih =>
    intro hnd
    simp only [List.cons_append, cut, List.map_cons, swap, groupOf, List.nodup_cons] at hnd
    exact ih _ _ hnd.2

/-- C03 (lists): if two neighbouring replacements touch, both delete, and delete equal text, `inverse`
raises AssertionError whatever the set order. -/
theorem C03_lst_touching_equal_deletions [DecidableEq β] (σ σ' : SetOrder)
    (ts : List (Int × Int × List β)) (g : ReplacementGroup (List β))
    (hg : ReplacementGroup.addAll σ ts = .ok g) (l : List β) (hin : InBounds l.length g.reps)
    (pre post : List (Rep (List β))) (a b : Rep (List β)) (hsplit : g.reps = pre ++ a :: b :: post)
    (ha : a.val = []) (hb : b.val = []) (htouch : a.stop = b.start)
    (heq : (l.take a.stop).drop a.start = (l.take b.stop).drop b.start) :
    Lst2Lst.inverse σ' l g = .error .assertionError := by
  obtain ⟨h1, h2, h3⟩ := addAll_chain σ ts g hg
  have hfit := Rep.cut_src rfl h2 h3 hin
  have hsrc : srcOf (cut l 0 g.reps) = l := by rw [srcOf_cut l 0 g.reps hfit]; simp
  have hgrp := groupOf_cut l 0 g.reps hfit
  have h := editInverse_dup (β := β) σ' (cut l 0 g.reps) (by
    rw [hsplit]; exact groupOf_cut_dup l 0 0 pre a b post ha hb htouch heq)
  rw [hsrc, hgrp] at h
  rw [group_eta h1]
  exact h

/-- C03 (strings). -/
theorem C03_str_touching_equal_deletions (σ σ' : SetOrder) (ts : List (Int × Int × Str))
    (g : ReplacementGroup Str) (hg : ReplacementGroup.addAll σ ts = .ok g) (s : Str)
    (hin : InBounds s.length g.reps) (pre post : List (Rep Str)) (a b : Rep Str)
    (hsplit : g.reps = pre ++ a :: b :: post) (ha : a.val = []) (hb : b.val = [])
    (htouch : a.stop = b.start)
    (heq : (s.take a.stop).drop a.start = (s.take b.stop).drop b.start) :
    Str2Str.inverse σ' s g = .error .assertionError := by
  obtain ⟨h1, h2, h3⟩ := addAll_chain σ ts g hg
  have hfit := Rep.cut_src rfl h2 h3 hin
  have hsrc : srcOf (cut s 0 g.reps) = s := by rw [srcOf_cut s 0 g.reps hfit]; simp
  have hgrp := groupOf_cut s 0 g.reps hfit
  have h := editInverse_dup (β := Char) σ' (cut s 0 g.reps) (by
    rw [hsplit]; exact groupOf_cut_dup s 0 0 pre a b post ha hb htouch heq)
  rw [hsrc, hgrp] at h
  rw [group_eta h1]
  exact h

-- hypotheses of C03: deleting "a" twice from "xaay"
example : ReplacementGroup.addAll SetOrder.id [(1, 2, ([] : Str)), (2, 3, [])]
      = .ok ⟨[⟨1, 2, []⟩, ⟨2, 3, []⟩], true⟩ ∧
    Str2Str.inverse SetOrder.rev "xaay".toList ⟨[⟨1, 2, []⟩, ⟨2, 3, []⟩], true⟩
      = .error .assertionError := by decide

theorem inverse_exact [DecidableEq β] [NewValue (List β)] [UniformKind (List β)] (σ : SetOrder)
    (rs : List (Rep (List β))) (xs : List β) (hwf : ∀ r ∈ rs, r.start ≤ r.stop)
    (hb : rs.Pairwise Rep.Before) (hin : InBounds xs.length rs) :
    (DistinctDeletions xs rs → ∃ inv, editInverse σ xs ⟨rs, true⟩ = .ok inv ∧ inv.isDone = true ∧
      inv.reps.length = rs.length ∧ (applySimple (applySimple xs 0 rs) 0 inv.reps).Perm xs) ∧
    (¬ DistinctDeletions xs rs → editInverse σ xs ⟨rs, true⟩ = .error .assertionError) := by
  have hfit := Rep.cut_src rfl hwf hb hin
  have hsrc : srcOf (cut xs 0 rs) = xs := by rw [srcOf_cut xs 0 rs hfit]; simp
  have hgrp := groupOf_cut xs 0 rs hfit
  have hiff := nodup_groupOf_swap_cut xs 0 0 rs hfit
  constructor
  · intro hd
    have hnd := hiff.mpr hd
    obtain ⟨M, h1, h2, h3⟩ := editInverse_nodup σ (cut xs 0 rs) hnd
    rw [hsrc, hgrp] at h1
    refine ⟨_, h1, rfl, ?_, ?_⟩
    · rw [← h2.length_eq, groupOf_length_swap 0 0, hgrp]
    · have a1 := applySimple_groupOf [] (cut xs 0 rs)
      have a2 := applySimple_groupOf [] ((cut xs 0 rs).map swap)
      simp only [List.nil_append, List.length_nil, hsrc, hgrp] at a1
      simp only [List.nil_append, List.length_nil, srcOf_swap, dstOf_swap, hsrc] at a2
      have hbef := groupOf_before 0 ((cut xs 0 rs).map swap)
      have hw := groupOf_wf 0 ((cut xs 0 rs).map swap)
      have hfitL : Fits (dstOf (cut xs 0 rs)).length 0 (groupOf 0 ((cut xs 0 rs).map swap)) := by
        rw [fits_iff]
        refine ⟨by omega, fun r hr => ⟨by omega, hw r hr, ?_⟩, hbef⟩
        have := groupOf_stop_le 0 ((cut xs 0 rs).map swap) r hr
        rw [srcOf_swap] at this
        omega
      have hbefM : M.Pairwise Rep.Before :=
        (ReplacementGroup.pairwise_before_iff M (fun r hr => hw r (h2.mem_iff.mpr hr)) h3
          (h2.nodup_iff.mp hnd)).mpr fun a ha b hb =>
            before_disjoint hbef a (h2.mem_iff.mpr ha) b (h2.mem_iff.mpr hb)
      have hfitM : Fits (dstOf (cut xs 0 rs)).length 0 M := by
        rw [fits_iff] at hfitL ⊢
        exact ⟨by omega, fun r hr => hfitL.2.1 r (h2.mem_iff.mpr hr), hbefM⟩
      have := applySimple_reorder _ _ M h2 hfitL hfitM
      rw [a2] at this
      rw [a1]
      exact this
  · intro hd
    have h := editInverse_dup (β := β) σ (cut xs 0 rs) fun h => hd (hiff.mp h)
    rw [hsrc, hgrp] at h
    exact h

/-- C03 (lists), exact: `inverse` raises AssertionError precisely when one run of touching deletions deletes the same
text twice. Otherwise it succeeds, and what it restores is the original up to the order of its elements. -/
theorem C03_lst_inverse_exact [DecidableEq β] (σ σ' : SetOrder) (ts : List (Int × Int × List β))
    (g : ReplacementGroup (List β)) (hg : ReplacementGroup.addAll σ ts = .ok g) (l out : List β)
    (hin : InBounds l.length g.reps) (hout : Lst2Lst.apply l g = .ok out) :
    (DistinctDeletions l g.reps → ∃ inv back, Lst2Lst.inverse σ' l g = .ok inv ∧
      inv.reps.length = g.reps.length ∧ Lst2Lst.apply out inv = .ok back ∧ back.Perm l) ∧
    (¬ DistinctDeletions l g.reps → Lst2Lst.inverse σ' l g = .error .assertionError) := by
  obtain ⟨h1, h2, h3⟩ := addAll_chain σ ts g hg
  obtain ⟨hA, hB⟩ := inverse_exact (β := β) σ' g.reps l h2 h3 hin
  rw [group_eta h1, lstApply_eq] at hout
  injection hout with hout
  refine ⟨fun hd => ?_, fun hd => ?_⟩
  · obtain ⟨inv, h4, h5, h6, h7⟩ := hA hd
    refine ⟨inv, _, ?_, h6, ?_, h7⟩
    · rw [group_eta h1]; exact h4
    · rw [group_eta h5, lstApply_eq, ← hout]
  · rw [group_eta h1]; exact hB hd

/-- C03 (strings), exact. -/
theorem C03_str_inverse_exact (σ σ' : SetOrder) (ts : List (Int × Int × Str))
    (g : ReplacementGroup Str) (hg : ReplacementGroup.addAll σ ts = .ok g) (s out : Str)
    (hin : InBounds s.length g.reps) (hout : Str2Str.apply s g = .ok out) :
    (DistinctDeletions s g.reps → ∃ inv back, Str2Str.inverse σ' s g = .ok inv ∧
      inv.reps.length = g.reps.length ∧ Str2Str.apply out inv = .ok back ∧ back.Perm s) ∧
    (¬ DistinctDeletions s g.reps → Str2Str.inverse σ' s g = .error .assertionError) := by
  obtain ⟨h1, h2, h3⟩ := addAll_chain σ ts g hg
  obtain ⟨hA, hB⟩ := inverse_exact (β := Char) σ' g.reps s h2 h3 hin
  rw [group_eta h1, strApply_eq] at hout
  injection hout with hout
  refine ⟨fun hd => ?_, fun hd => ?_⟩
  · obtain ⟨inv, h4, h5, h6, h7⟩ := hA hd
    refine ⟨inv, _, ?_, h6, ?_, h7⟩
    · rw [group_eta h1]; exact h4
    · rw [group_eta h5, strApply_eq, ← hout]
  · rw [group_eta h1]; exact hB hd

-- both sides of C03 exact: deleting "a", "b", "a" in touching pieces of "xabay", and "a", "ba" in touching pieces
example : ¬ DistinctDeletions "xabay".toList [⟨1, 2, []⟩, ⟨2, 3, []⟩, ⟨3, 4, []⟩] ∧
    DistinctDeletions "xabay".toList [⟨1, 2, []⟩, ⟨2, 4, []⟩] ∧
    DistinctDeletions "xabay".toList [⟨1, 2, []⟩, ⟨2, 3, "c".toList⟩, ⟨3, 4, []⟩] ∧
    Str2Str.inverse SetOrder.rev "xabay".toList ⟨[⟨1, 2, []⟩, ⟨2, 3, []⟩, ⟨3, 4, []⟩], true⟩
      = .error .assertionError ∧
    Str2Str.inverse SetOrder.rev "xabay".toList ⟨[⟨1, 2, []⟩, ⟨2, 4, []⟩], true⟩
      = .ok ⟨[⟨1, 1, "ba".toList⟩, ⟨1, 1, "a".toList⟩], true⟩ := by decide

/-- C03, second part: with different texts the inverse depends on the set order. Deleting `x` and `y`
from `pre ++ x ++ y ++ post`, one set order restores the sequence, the other one swaps the two texts. -/
theorem C03_touching_deletions_order_dependent [DecidableEq β] (pre x y post : List β) (hxy : x ≠ y) :
    let l := pre ++ x ++ y ++ post
    let i := pre.length; let j := i + x.length; let k := j + y.length
    let g : ReplacementGroup (List β) := ⟨[⟨i, j, []⟩, ⟨j, k, []⟩], true⟩
    (do let inv ← Lst2Lst.inverse SetOrder.id l g
        Lst2Lst.apply (pre ++ post) inv) = .ok (pre ++ x ++ y ++ post) ∧
    (do let inv ← Lst2Lst.inverse SetOrder.rev l g
        Lst2Lst.apply (pre ++ post) inv) = .ok (pre ++ y ++ x ++ post) := by
  intro l i j k g
  have hyx : ¬ y = x := fun h => hxy h.symm
  have hpieces : g = ⟨groupOf 0 [keep pre, sub x [], sub y [], keep post], true⟩ := by
    simp [g, groupOf, i, j, k]
  have hl : l = srcOf [keep pre, sub x [], sub y ([] : List β), keep post] := by simp [l]
  have hinv : ∀ σ, Lst2Lst.inverse σ l g =
      (do let inv ← (⟨[⟨i, i, x⟩, ⟨i, i, y⟩], false⟩ : ReplacementGroup (List β)).done σ
          if inv.reps.length = 2 then return inv else .error .assertionError) := by
    intro σ
    show editInverse σ l g = _
    unfold editInverse
    rw [hpieces, hl, genInverse_pieces]
    simp [groupOf, swap, i]
  have key : ∀ u v : List β, applySimple (pre ++ post) 0 [⟨i, i, u⟩, ⟨i, i, v⟩]
      = pre ++ u ++ v ++ post := by
    intro u v
    simp [applySimple, slice, i]
  have d1 : (⟨[⟨i, i, x⟩, ⟨i, i, y⟩], false⟩ : ReplacementGroup (List β)).done SetOrder.id
      = .ok ⟨[⟨i, i, x⟩, ⟨i, i, y⟩], true⟩ := by
    simp [ReplacementGroup.done, SetOrder.listSet, SetOrder.id, pyDedup, hyx,
      ReplacementGroup.validateNewValues, ReplacementGroup.sortReps, pySorted, insertByKey,
      ReplacementGroup.validateDisjoint, ReplacementGroup.validateDisjoint.go, NewValue.kind,
      bind, Except.bind, pure, Except.pure]
  have d2 : (⟨[⟨i, i, x⟩, ⟨i, i, y⟩], false⟩ : ReplacementGroup (List β)).done SetOrder.rev
      = .ok ⟨[⟨i, i, y⟩, ⟨i, i, x⟩], true⟩ := by
    simp [ReplacementGroup.done, SetOrder.listSet, SetOrder.rev, pyDedup, hyx,
      ReplacementGroup.validateNewValues, ReplacementGroup.sortReps, pySorted, insertByKey,
      ReplacementGroup.validateDisjoint, ReplacementGroup.validateDisjoint.go, NewValue.kind,
      bind, Except.bind, pure, Except.pure]
  constructor
  · rw [hinv, d1]
    simp only [bind, Except.bind, pure, Except.pure, List.length_cons, List.length_nil]
    simp only [if_true]
    rw [lstApply_eq, key]
  · rw [hinv, d2]
    simp only [bind, Except.bind, pure, Except.pure, List.length_cons, List.length_nil]
    simp only [if_true]
    rw [lstApply_eq, key]

example : ([1, 2] : List Nat) ≠ [3] ∧ (([0] ++ [1, 2] ++ [3] ++ [4] : List Nat) ≠ [0] ++ [3] ++ [1, 2] ++ [4]) := by
  decide

/-! ### C04 -/

/-- C04: which lists of replacements `add_all` accepts, and what it raises on the others. -/
theorem C04_addAll_acceptance [DecidableEq V] [NewValue V] (σ : SetOrder) (rs : List (Rep V))
    (hwf : ∀ r ∈ rs, r.start ≤ r.stop ∧ r.stop < 2 ^ 32) :
    ((∃ g, ReplacementGroup.addAll σ (rs.map Rep.triple) = .ok g) ↔
      SameKind rs ∧ PairwiseDisjoint rs) ∧
    (¬ SameKind rs → ReplacementGroup.addAll σ (rs.map Rep.triple) = .error .typeError) ∧
    (SameKind rs → ¬ PairwiseDisjoint rs →
      ReplacementGroup.addAll σ (rs.map Rep.triple) = .error .valueError) := by
  rw [addAll_eq_done σ rs hwf]
  obtain ⟨h1, h2, h3⟩ := ReplacementGroup.done_spec σ (⟨rs, false⟩ : ReplacementGroup V)
    (fun r hr => (hwf r hr).1)
  refine ⟨⟨?_, fun ⟨ha, hb⟩ => ⟨_, h1 ha hb⟩⟩, h2, h3⟩
  rintro ⟨g, hg⟩
  by_cases hk : SameKind rs
  · by_cases hd : PairwiseDisjoint rs
    · exact ⟨hk, hd⟩
    · rw [h3 hk hd] at hg; simp at hg
  · rw [h2 hk] at hg; simp at hg

/-- C04, arbitrary integers: a bound outside `unsigned int` makes `add_all` raise OverflowError. -/
theorem C04_addAll_overflow [DecidableEq V] [NewValue V] (σ : SetOrder) (ts : List (Int × Int × V))
    (h : ∃ t ∈ ts, t.1 < 0 ∨ 2 ^ 32 ≤ t.1 ∨ t.2.1 < 0 ∨ 2 ^ 32 ≤ t.2.1) :
    ReplacementGroup.addAll σ ts = .error .overflowError := by
  have key : ∀ g : ReplacementGroup V,
      ts.foldlM (fun g (r : Int × Int × V) => g.addPy r.1 r.2.1 r.2.2) g
        = .error .overflowError := by
    induction ts with
    | nil => simp at h
    | cons t ts ih =>
      intro g
      simp only [List.foldlM_cons, ReplacementGroup.addPy]
      rcases toUInt_cases t.1 with h1 | ⟨a, h1, h1', h1''⟩
      · rw [h1]; rfl
      · rcases toUInt_cases t.2.1 with h2 | ⟨b, h2, h2', h2''⟩
        · rw [h1, h2]; rfl
        · rw [h1, h2]
          simp only [bind, Except.bind, pure, Except.pure]
          refine ih ?_ _
          obtain ⟨t', ht', hb⟩ := h
          rcases List.mem_cons.mp ht' with rfl | ht'
          · exfalso
            have e : (uintBound : Int) = 2 ^ 32 := by decide
            omega
          · exact ⟨t', ht', hb⟩
  unfold ReplacementGroup.addAll
  rw [key]; rfl

/-- New values of mixed Python types, for the examples. -/
instance : NewValue (Str ⊕ List Nat) := ⟨fun v => match v with | .inl _ => .str | .inr _ => .list⟩

-- touching replacements and insertions at a border are accepted, overlaps and mixed types are not
example : (ReplacementGroup.addAll SetOrder.rev [(2, 4, "x".toList), (0, 2, "y".toList), (2, 2, "z".toList)]
      = .ok ⟨[⟨0, 2, "y".toList⟩, ⟨2, 2, "z".toList⟩, ⟨2, 4, "x".toList⟩], true⟩) ∧
    (ReplacementGroup.addAll SetOrder.id [(0, 2, "x".toList), (1, 3, "y".toList)] = .error .valueError) ∧
    (ReplacementGroup.addAll SetOrder.id [(0, 2, (.inl "x".toList : Str ⊕ List Nat)), (2, 3, .inr [1])]
      = .error .typeError) := by decide

/-! ### C05 -/

/-- C05: the finalised group contains exactly the given replacements, once each, sorted by start and
then by end. -/
theorem C05_group_sorted [DecidableEq V] [NewValue V] (σ : SetOrder) (rs : List (Rep V))
    (hwf : ∀ r ∈ rs, r.start ≤ r.stop ∧ r.stop < 2 ^ 32) (g : ReplacementGroup V)
    (h : ReplacementGroup.addAll σ (rs.map Rep.triple) = .ok g) :
    (∀ r, r ∈ g.reps ↔ r ∈ rs) ∧ g.reps.Nodup ∧
    g.reps.Pairwise (fun a b => a.start < b.start ∨ (a.start = b.start ∧ a.stop ≤ b.stop)) := by
  have hacc := (C04_addAll_acceptance σ rs hwf).1.mp ⟨g, h⟩
  rw [addAll_eq_done σ rs hwf] at h
  rw [(ReplacementGroup.done_spec σ (⟨rs, false⟩ : ReplacementGroup V)
    (fun r hr => (hwf r hr).1)).1 hacc.1 hacc.2] at h
  injection h with h
  subst h
  exact ⟨fun r => (ReplacementGroup.sortReps_perm _).mem_iff.trans mem_listSet,
    (ReplacementGroup.sortReps_perm _).nodup_iff.mpr (nodup_listSet σ rs),
    ReplacementGroup.sortReps_lex _⟩

/-- C05: order of addition, repetitions and the set order do not matter, provided no two different
replacements share their span. -/
theorem C05_group_canonical [DecidableEq V] [NewValue V] (σ σ' : SetOrder) (rs rs' : List (Rep V))
    (hwf : ∀ r ∈ rs, r.start ≤ r.stop ∧ r.stop < 2 ^ 32) (hsame : ∀ r, r ∈ rs ↔ r ∈ rs')
    (hspan : ∀ a ∈ rs, ∀ b ∈ rs, a.start = b.start → a.stop = b.stop → a = b) :
    ReplacementGroup.addAll σ (rs.map Rep.triple) = ReplacementGroup.addAll σ' (rs'.map Rep.triple) := by
  have hwf' : ∀ r ∈ rs', r.start ≤ r.stop ∧ r.stop < 2 ^ 32 := fun r hr => hwf r ((hsame r).mpr hr)
  have hk : SameKind rs ↔ SameKind rs' := by
    unfold SameKind; simp only [hsame]
  have hd : PairwiseDisjoint rs ↔ PairwiseDisjoint rs' := by
    unfold PairwiseDisjoint; simp only [hsame]
  rw [addAll_eq_done σ rs hwf, addAll_eq_done σ' rs' hwf']
  obtain ⟨h1, h2, h3⟩ := ReplacementGroup.done_spec σ (⟨rs, false⟩ : ReplacementGroup V)
    (fun r hr => (hwf r hr).1)
  obtain ⟨h1', h2', h3'⟩ := ReplacementGroup.done_spec σ' (⟨rs', false⟩ : ReplacementGroup V)
    (fun r hr => (hwf' r hr).1)
  by_cases hk1 : SameKind rs
  · by_cases hd1 : PairwiseDisjoint rs
    · rw [h1 hk1 hd1, h1' (hk.mp hk1) (hd.mp hd1)]
      congr 2
      refine ReplacementGroup.sortReps_listSet_unique σ rs _ (fun r => ?_) ?_
        (ReplacementGroup.sortReps_lex _) ?_
      · rw [(ReplacementGroup.sortReps_perm _).mem_iff, mem_listSet]; exact hsame r
      · exact (ReplacementGroup.sortReps_perm _).nodup_iff.mpr (nodup_listSet σ' rs')
      · intro a ha b hb
        rw [(ReplacementGroup.sortReps_perm _).mem_iff, mem_listSet] at ha hb
        exact hspan a ((hsame a).mpr ha) b ((hsame b).mpr hb)
    · rw [h3 hk1 hd1, h3' (hk.mp hk1) (fun h => hd1 (hd.mpr h))]
  · rw [h2 hk1, h2' (fun h => hk1 (hk.mpr h))]

/-- C05: groups are `==` exactly if they were given the same replacements, whatever their order, repetitions and the set
orders. -/
theorem C05_equality [DecidableEq V] [NewValue V] (σ σ' : SetOrder) (rs rs' : List (Rep V))
    (hwf : ∀ r ∈ rs, r.start ≤ r.stop ∧ r.stop < 2 ^ 32) (hwf' : ∀ r ∈ rs', r.start ≤ r.stop ∧ r.stop < 2 ^ 32)
    (g g' : ReplacementGroup V) (h : ReplacementGroup.addAll σ (rs.map Rep.triple) = .ok g)
    (h' : ReplacementGroup.addAll σ' (rs'.map Rep.triple) = .ok g') :
    ∃ b, g.eq g' = .ok b ∧ (b = true ↔ ∀ r, r ∈ rs ↔ r ∈ rs') := by
  obtain ⟨m, nd, _⟩ := C05_group_sorted σ rs hwf g h
  obtain ⟨m', nd', _⟩ := C05_group_sorted σ' rs' hwf' g' h'
  have hdone : g'.isDone = true := by
    have hacc := (C04_addAll_acceptance σ' rs' hwf').1.mp ⟨g', h'⟩
    rw [addAll_eq_done σ' rs' hwf', (ReplacementGroup.done_spec σ' (⟨rs', false⟩ : ReplacementGroup V)
      (fun r hr => (hwf' r hr).1)).1 hacc.1 hacc.2] at h'
    injection h' with h'
    subst h'
    rfl
  refine ⟨_, by unfold ReplacementGroup.eq ReplacementGroup.items; rw [if_pos hdone]; rfl, ?_⟩
  simp only [Bool.and_eq_true, List.all_eq_true, decide_eq_true_eq, beq_iff_eq]
  constructor
  · intro hall r
    rw [← m r, ← m' r]
    constructor
    · intro hr
      have : g.reps ⊆ g'.reps := by grind
      exact this hr
    · intro hr
      have : g'.reps ⊆ g.reps := by grind
      exact this hr
  · intro hall
    have hmem : ∀ r, r ∈ g.reps ↔ r ∈ g'.reps := fun r => by rw [m r, m' r, hall r]
    have hp := ((List.perm_ext_iff_of_nodup nd nd').mpr hmem).length_eq
    grind

/-- C05: comparing with a group that is not finalised raises RuntimeError. -/
theorem C05_equality_not_done [DecidableEq V] (g g' : ReplacementGroup V) (h : g'.isDone = false) :
    g.eq g' = .error .runtimeError := by
  unfold ReplacementGroup.eq ReplacementGroup.items
  rw [h]; rfl

-- equal and different groups
example : ∃ g g' g'' : ReplacementGroup Str,
    ReplacementGroup.addAll SetOrder.id [(3, 4, []), (0, 2, "x".toList)] = .ok g ∧
    ReplacementGroup.addAll SetOrder.rev [(0, 2, "x".toList), (3, 4, []), (0, 2, "x".toList)] = .ok g' ∧
    ReplacementGroup.addAll SetOrder.id [(0, 2, "x".toList), (3, 4, []), (4, 4, [])] = .ok g'' ∧
    g.eq g' = .ok true ∧ g.eq g'' = .ok false :=
  ⟨⟨[⟨0, 2, "x".toList⟩, ⟨3, 4, []⟩], true⟩, ⟨[⟨0, 2, "x".toList⟩, ⟨3, 4, []⟩], true⟩,
    ⟨[⟨0, 2, "x".toList⟩, ⟨3, 4, []⟩, ⟨4, 4, []⟩], true⟩, by decide⟩

-- without the span condition the order of two insertions at one point depends on the set order
example : ReplacementGroup.addAll SetOrder.id [(1, 1, "a".toList), (1, 1, "b".toList)]
      = .ok ⟨[⟨1, 1, "a".toList⟩, ⟨1, 1, "b".toList⟩], true⟩ ∧
    ReplacementGroup.addAll SetOrder.rev [(1, 1, "a".toList), (1, 1, "b".toList)]
      = .ok ⟨[⟨1, 1, "b".toList⟩, ⟨1, 1, "a".toList⟩], true⟩ := by decide

-- hypotheses of C05_group_canonical: three replacements, permuted and with repetition
example : let rs : List (Rep Str) := [⟨3, 4, []⟩, ⟨0, 2, "x".toList⟩, ⟨0, 0, "y".toList⟩]
    let rs' : List (Rep Str) := [⟨0, 0, "y".toList⟩, ⟨3, 4, []⟩, ⟨0, 0, "y".toList⟩, ⟨0, 2, "x".toList⟩]
    (∀ a ∈ rs, ∀ b ∈ rs, a.start = b.start → a.stop = b.stop → a = b) ∧
    ReplacementGroup.addAll SetOrder.rev (rs.map Rep.triple)
      = ReplacementGroup.addAll SetOrder.id (rs'.map Rep.triple) := by decide

/-! ### C06 -/

theorem toUInt_of_lt {n m : Nat} (h : n ≤ m) (hm : m < 2 ^ 32) : toUInt (n : Int) = .ok n :=
  toUInt_nat (Nat.lt_of_le_of_lt h hm)

/-- C06: `add` with `start > end` raises nothing and changes nothing; the constructor raises. -/
theorem C06_bad_order_dropped (g : ReplacementGroup V) (sg : SpanGroup) (v : V) (a b : Nat)
    (h : b < a) (ha : a < 2 ^ 32) :
    g.addPy a b v = .ok g ∧ sg.addPy a b = .ok sg ∧
    Rep.newPy (V := V) a b v = .error .valueError ∧ Span.newPy a b = .error .valueError := by
  have h1 : toUInt (a : Int) = .ok a := toUInt_of_lt (Nat.le_refl a) ha
  have h2 : toUInt (b : Int) = .ok b := toUInt_of_lt (Nat.le_of_lt h) ha
  have hab : a > b := h
  unfold ReplacementGroup.addPy SpanGroup.addPy Rep.newPy Span.newPy
  rw [h1, h2]
  simp only [Except.bind_ok, ReplacementGroup.add, SpanGroup.add, Rep.new, Span.new,
    validateStartEnd, if_pos hab]
  exact ⟨rfl, rfl, rfl, rfl⟩

/-- C06: well-ordered bounds are recorded, at the end of the group. -/
theorem C06_good_order_recorded (g : ReplacementGroup V) (sg : SpanGroup) (v : V) (a b : Nat)
    (h : a ≤ b) (hb : b < 2 ^ 32) :
    g.addPy a b v = .ok ⟨g.reps ++ [⟨a, b, v⟩], g.isDone⟩ ∧
    sg.addPy a b = .ok ⟨sg.spans ++ [⟨a, b⟩], sg.isDone⟩ := by
  have h1 : toUInt (a : Int) = .ok a := toUInt_of_lt h hb
  have h2 : toUInt (b : Int) = .ok b := toUInt_of_lt (Nat.le_refl b) hb
  have hab : ¬ a > b := by omega
  unfold ReplacementGroup.addPy SpanGroup.addPy
  rw [h1, h2]
  simp only [Except.bind_ok, ReplacementGroup.add, SpanGroup.add, Rep.new, Span.new,
    validateStartEnd, if_neg hab]
  exact ⟨rfl, rfl⟩

/-- C06: bounds outside `unsigned int` raise OverflowError everywhere. -/
theorem C06_out_of_range (g : ReplacementGroup V) (sg : SpanGroup) (v : V) (a b : Int)
    (h : a < 0 ∨ 2 ^ 32 ≤ a ∨ b < 0 ∨ 2 ^ 32 ≤ b) :
    g.addPy a b v = .error .overflowError ∧ sg.addPy a b = .error .overflowError ∧
    Rep.newPy (V := V) a b v = .error .overflowError ∧ Span.newPy a b = .error .overflowError := by
  have e : (uintBound : Int) = 2 ^ 32 := by decide
  unfold ReplacementGroup.addPy SpanGroup.addPy Rep.newPy Span.newPy
  rcases toUInt_cases a with h1 | ⟨x, h1, h1', h1''⟩
  · rw [h1]; exact ⟨rfl, rfl, rfl, rfl⟩
  · rcases toUInt_cases b with h2 | ⟨y, h2, h2', h2''⟩
    · rw [h1, h2]; exact ⟨rfl, rfl, rfl, rfl⟩
    · exfalso; omega

example : (⟨[⟨0, 1, "x".toList⟩], false⟩ : ReplacementGroup Str).addPy 5 3 [] =
    .ok ⟨[⟨0, 1, "x".toList⟩], false⟩ := by decide

/-! ### C07 -/

/-- C07: label propagation is the same right-to-left slice assignment, with the transducer applied to
the replaced labels, for every transducer that returns as many labels as asked for. -/
theorem C07_propagate_eq_slice_assignment [DecidableEq β] [NewValue (List β)] (σ : SetOrder)
    (ts : List (Int × Int × List β)) (g : ReplacementGroup (List β))
    (hg : ReplacementGroup.addAll σ ts = .ok g) (labels : List Int)
    (hin : InBounds labels.length g.reps) (f : List Int → Nat → List Int)
    (hf : ∀ x n, (f x n).length = n) :
    propagate labels g (fun x n => .ok (f x n)) = .ok (relabelFromRight f labels g.reps) := by
  obtain ⟨h1, h2, h3⟩ := addAll_chain σ ts g hg
  have hfit := Rep.cut_src rfl h2 h3 hin
  have hsrc : srcOf (cut labels 0 g.reps) = labels := by rw [srcOf_cut labels 0 g.reps hfit]; simp
  have hgrp := groupOf_cut labels 0 g.reps hfit
  have h := propagate_pieces (fun x n => .ok (f x n)) (cut labels 0 g.reps) (by
    intro o n _ x y _ hy
    injection hy with hy
    rw [← hy]; exact hf _ _)
  rw [hsrc, hgrp, relabel_total] at h
  have h' := relabelFromRight_eq f (cut labels 0 g.reps) []
  simp only [List.nil_append, List.length_nil, hsrc, hgrp] at h'
  rw [group_eta h1, h, h']

/-- C07: the resulting labels are as long as the edited sequence. -/
theorem C07_propagate_length [DecidableEq β] (σ : SetOrder)
    (ts : List (Int × Int × List β)) (g : ReplacementGroup (List β))
    (hg : ReplacementGroup.addAll σ ts = .ok g) (seq out : List β) (labels : List Int)
    (hlen : labels.length = seq.length) (hin : InBounds seq.length g.reps)
    (hout : Lst2Lst.apply seq g = .ok out) (f : List Int → Nat → List Int)
    (hf : ∀ x n, (f x n).length = n) :
    ∃ y, propagate labels g (fun x n => .ok (f x n)) = .ok y ∧ y.length = out.length := by
  obtain ⟨h1, h2, h3⟩ := addAll_chain σ ts g hg
  have hfit := Rep.cut_src rfl h2 h3 hin
  have hsrc : srcOf (cut seq 0 g.reps) = seq := by rw [srcOf_cut seq 0 g.reps hfit]; simp
  have hgrp := groupOf_cut seq 0 g.reps hfit
  have hR : Respects (fun x n => .ok (f x n)) (cut seq 0 g.reps) := by
    intro o n _ x y _ hy
    injection hy with hy
    rw [← hy]; exact hf _ _
  have hl : labels.length = (srcOf (cut seq 0 g.reps)).length := by rw [hsrc]; exact hlen
  have h := propagate_withLabels _ (cut seq 0 g.reps) labels hR hl
  rw [hgrp, relabel_total] at h
  refine ⟨_, by rw [group_eta h1]; exact h, ?_⟩
  have h4 := relabel_length _ _ (hR.withLabels hl) _ (relabel_total f _)
  rw [h4, outLenOf_withLabels _ _ hl, outLenOf_eq]
  have h5 := lstApply_pieces (cut seq 0 g.reps)
  rw [hsrc, hgrp, ← group_eta h1, hout] at h5
  injection h5 with h5
  rw [h5]

-- an edit with insertion, deletion and replacement, and a transducer meeting the size hypothesis
example : propagate [1, 2, 3, 4, 5] (⟨[⟨0, 0, [7]⟩, ⟨1, 2, []⟩, ⟨3, 5, [8, 8, 8]⟩], true⟩ :
      ReplacementGroup (List Nat)) (fun x n => .ok (List.replicate n (x.headD 9)))
    = .ok [9, 1, 3, 4, 4, 4] := by decide

end Uttut
