import Verif.Lemmas.EditSpec

/-! Inverting edits whose deletions touch: the order of the inverse depends on the set order, the labels do not. -/

namespace Uttut

open Piece

variable {α β : Type}

theorem relabel_cut_congr (f : Transducer) (ls : List Int) (cur : Nat) (r : Rep (List β)) (rs rs' : List (Rep (List β)))
    (h : relabel f (cut ls r.stop rs) = relabel f (cut ls r.stop rs')) :
    relabel f (cut ls cur (r :: rs)) = relabel f (cut ls cur (r :: rs')) := by
  simp only [cut, relabel, h]

theorem relabel_cut_swap (f : Transducer) (z : Int) (hz : ∀ n, f [] n = .ok (List.replicate n z)) (ls : List Int)
    (cur : Nat) (a b : Rep (List β)) (rs : List (Rep (List β))) (ha : a.start = a.stop) (hb : b.start = b.stop)
    (hab : a.start = b.start) :
    relabel f (cut ls cur (a :: b :: rs)) = relabel f (cut ls cur (b :: a :: rs)) := by
  have e : ∀ p, slice ls p p = [] := fun p => by simp [slice]
  have h1 : b.start = a.stop := by omega
  have h2 : b.stop = a.stop := by omega
  simp only [cut, relabel, ha, h1, h2, e, hz]
  simp only [bind, Except.bind, Except.map, pure, Except.pure]
  cases relabel f (cut ls a.stop rs) with
  | error e => rfl
  | ok y =>
    have c : List.replicate a.val.length z ++ List.replicate b.val.length z =
        List.replicate b.val.length z ++ List.replicate a.val.length z := by
      rw [List.replicate_append_replicate, List.replicate_append_replicate, Nat.add_comm]
    simp only [List.nil_append]
    rw [← List.append_assoc (List.replicate a.val.length z), c, List.append_assoc]

theorem relabel_cut_front (f : Transducer) (z : Int) (hz : ∀ n, f [] n = .ok (List.replicate n z)) (ls : List Int)
    (cur : Nat) (a : Rep (List β)) (ms rs : List (Rep (List β))) (ha : a.start = a.stop)
    (hm : ∀ b ∈ ms, b.start = a.start ∧ b.stop = a.stop) :
    relabel f (cut ls cur (ms ++ a :: rs)) = relabel f (cut ls cur (a :: (ms ++ rs))) := by
  induction ms generalizing cur with
  | nil => rfl
  | cons b ms ih =>
    obtain ⟨h1, h2⟩ := hm b (by simp)
    have := ih b.stop fun c hc => hm c (by simp [hc])
    rw [List.cons_append, relabel_cut_congr f ls cur b _ _ this,
      relabel_cut_swap f z hz ls cur b a _ (by omega) ha h1]
    rfl

/-- Reordering replacements that insert at the same place does not change the labels. -/
theorem relabel_cut_perm (f : Transducer) (z : Int) (hz : ∀ n, f [] n = .ok (List.replicate n z)) (ls : List Int)
    (cur : Nat) (L M : List (Rep (List β))) (hp : L.Perm M) (hL : L.Pairwise Rep.LexLe) (hM : M.Pairwise Rep.LexLe)
    (hnd : L.Nodup) (hs : ∀ a ∈ L, ∀ b ∈ L, a ≠ b → a.start = b.start → a.stop = b.stop → a.start = a.stop) :
    relabel f (cut ls cur L) = relabel f (cut ls cur M) := by
  induction L generalizing cur M with
  | nil => rw [hp.nil_eq]
  | cons a L ih =>
    obtain ⟨P, N, rfl⟩ := List.append_of_mem (hp.mem_iff.mp (List.mem_cons_self ..))
    have hp' : L.Perm (P ++ N) := List.Perm.cons_inv (hp.trans List.perm_middle)
    rw [List.nodup_cons] at hnd
    rw [List.pairwise_cons] at hL
    have hM' : (P ++ N).Pairwise Rep.LexLe := hM.sublist (by simp)
    have hrec := ih a.stop (P ++ N) hp' hL.2 hM' hnd.2
      fun x hx y hy => hs x (List.mem_cons_of_mem _ hx) y (List.mem_cons_of_mem _ hy)
    rw [relabel_cut_congr f ls cur a _ _ hrec]
    have hspan : ∀ b ∈ P, b.start = a.start ∧ b.stop = a.stop := by
      intro b hb
      have h1 : Rep.LexLe b a := (List.pairwise_append.mp hM).2.2 b hb a (by simp)
      have h2 : Rep.LexLe a b := hL.1 b (hp'.mem_iff.mpr (List.mem_append_left _ hb))
      unfold Rep.LexLe at h1 h2
      omega
    cases hP : P with
    | nil => rfl
    | cons b P' =>
      rw [← hP]
      have hb : b ∈ P := by rw [hP]; simp
      have hbL : b ∈ L := hp'.mem_iff.mpr (List.mem_append_left _ hb)
      have hne : a ≠ b := fun e => hnd.1 (e ▸ hbL)
      obtain ⟨h1, h2⟩ := hspan b hb
      have ha := hs a (by simp) b (List.mem_cons_of_mem _ hbL) hne h1.symm h2.symm
      exact (relabel_cut_front f z hz ls cur a P N ha hspan).symm

theorem before_disjoint {l : List (Rep β)} (hl : l.Pairwise Rep.Before) :
    ∀ a ∈ l, ∀ b ∈ l, a ≠ b → a.stop ≤ b.start ∨ b.stop ≤ a.start := by
  induction l with
  | nil => simp
  | cons r rs ih =>
    rw [List.pairwise_cons] at hl
    intro a ha b hb hab
    rcases List.mem_cons.mp ha with rfl | ha' <;> rcases List.mem_cons.mp hb with rfl | hb'
    · exact absurd rfl hab
    · exact Or.inl (hl.1 b hb')
    · exact Or.inr (hl.1 a ha')
    · exact ih hl.2 a ha' b hb' hab

/-- The inverse of an edit whose inverse replacements are all different: these replacements, in an order that may
depend on the set order. -/
theorem editInverse_nodup [DecidableEq α] [NewValue (List α)] [UniformKind (List α)] (σ : SetOrder)
    (ps : List (Piece α α)) (h : (groupOf 0 (ps.map swap)).Nodup) :
    ∃ M, editInverse σ (srcOf ps) ⟨groupOf 0 ps, true⟩ = .ok ⟨M, true⟩ ∧ (groupOf 0 (ps.map swap)).Perm M ∧
      M.Pairwise Rep.LexLe := by
  have hbef := groupOf_before 0 (ps.map swap)
  refine ⟨ReplacementGroup.sortReps (σ.listSet (groupOf 0 (ps.map swap))), ?_, ?_, ReplacementGroup.sortReps_lex _⟩
  · unfold editInverse
    rw [genInverse_pieces, (ReplacementGroup.done_spec σ
      (⟨groupOf 0 (ps.map swap), false⟩ : ReplacementGroup (List α)) (groupOf_wf 0 (ps.map swap))).1
      (fun a _ b _ => UniformKind.const _ _) (before_disjoint hbef)]
    simp only [bind, Except.bind]
    rw [if_pos]
    · rfl
    · rw [(ReplacementGroup.sortReps_perm _).length_eq, (listSet_perm σ _).length_eq, pyDedup_of_nodup h,
        groupOf_length_swap 0 0]
  · have := (ReplacementGroup.sortReps_perm (σ.listSet (groupOf 0 (ps.map swap)))).trans (listSet_perm σ _)
    rw [pyDedup_of_nodup h] at this
    exact this.symm

/-- Labels through the inverse edit: as if the inverse replacements were in the order of the text. -/
theorem editInverse_labels [DecidableEq α] [NewValue (List α)] [UniformKind (List α)] (σ : SetOrder)
    (ps : List (Piece α α)) (h : (groupOf 0 (ps.map swap)).Nodup) (f : Transducer) (z : Int)
    (hz : ∀ n, f [] n = .ok (List.replicate n z)) (hf : ∀ x n y, f x n = .ok y → y.length = n)
    (ls : List Int) (hl : ls.length = (dstOf ps).length) :
    (do let inv ← editInverse σ (srcOf ps) ⟨groupOf 0 ps, true⟩
        propagate ls inv f) = relabel f (withLabels (ps.map swap) ls) := by
  obtain ⟨M, h1, h2, h3⟩ := editInverse_nodup σ ps h
  have hl' : ls.length = (srcOf (ps.map swap)).length := by rw [srcOf_swap]; exact hl
  have hbef := groupOf_before 0 (ps.map swap)
  have hwf := groupOf_wf 0 (ps.map swap)
  have resp : ∀ (qs : List (Piece Int α)), Respects f qs := fun qs o n _ x y _ hy => hf x _ y hy
  have resp' : ∀ (qs : List (Piece α α)), Respects f qs := fun qs o n _ x y _ hy => hf x _ y hy
  have hlexL : (groupOf 0 (ps.map swap)).Pairwise Rep.LexLe := by
    refine List.Pairwise.imp_of_mem (fun {a b} ha hb hab => ?_) hbef
    have := hwf a ha
    have := hwf b hb
    unfold Rep.Before at hab
    unfold Rep.LexLe
    omega
  have hspan : ∀ a ∈ groupOf 0 (ps.map swap), ∀ b ∈ groupOf 0 (ps.map swap), a ≠ b → a.start = b.start →
      a.stop = b.stop → a.start = a.stop := by
    intro a ha b hb hab e1 e2
    have := hwf a ha
    rcases before_disjoint hbef a ha b hb hab with h | h <;> omega
  have hfitL : Fits ls.length 0 (groupOf 0 (ps.map swap)) := by
    rw [fits_iff]
    refine ⟨by omega, fun r hr => ⟨by omega, hwf r hr, ?_⟩, hbef⟩
    have := groupOf_stop_le 0 (ps.map swap) r hr
    omega
  have hbefM : M.Pairwise Rep.Before := by
    have := (ReplacementGroup.pairwise_before_iff M (fun r hr => hwf r (h2.mem_iff.mpr hr)) h3
      (h2.nodup_iff.mp h)).mpr
    apply this
    intro a ha b hb
    exact before_disjoint hbef a (h2.mem_iff.mpr ha) b (h2.mem_iff.mpr hb)
  have hfitM : Fits ls.length 0 M := by
    rw [fits_iff] at hfitL ⊢
    exact ⟨by omega, fun r hr => hfitL.2.1 r (h2.mem_iff.mpr hr), hbefM⟩
  have prop : ∀ rs : List (Rep (List α)), Fits ls.length 0 rs →
      propagate ls ⟨rs, true⟩ f = relabel f (cut ls 0 rs) := by
    intro rs hfit
    have := propagate_pieces f (cut ls 0 rs) (resp _)
    rw [srcOf_cut ls 0 rs hfit, groupOf_cut ls 0 rs hfit, List.drop_zero] at this
    exact this
  rw [h1]
  simp only [Except.bind_ok]
  rw [prop M hfitM, ← relabel_cut_perm f z hz ls 0 _ M h2 hlexL h3 h hspan, ← prop _ hfitL]
  exact propagate_withLabels f (ps.map swap) ls (resp' _) hl'

/-! ### When the inverse replacements are different -/

theorem mem_groupOf_swap_cut (xs : List α) (e o : Nat) (rs : List (Rep (List α))) (hfit : Fits xs.length e rs)
    (t : List α) :
    (⟨o, o, t⟩ : Rep (List α)) ∈ groupOf o ((cut xs e rs).map swap) ↔ t ∈ Spec.touchingDeleted xs e rs := by
  induction rs generalizing e with
  | nil => simp [cut, swap, groupOf, Spec.touchingDeleted]
  | cons r rs ih =>
    obtain ⟨h1, h2, h3⟩ := hfit
    have h4 := h3.le
    have hgap : (slice xs e r.start).length = r.start - e := length_slice xs (by omega)
    simp only [cut, List.map_cons, swap, groupOf, Spec.touchingDeleted, hgap, List.mem_cons]
    have hge : ∀ p, ∀ q ∈ groupOf p ((cut xs r.stop rs).map swap), p ≤ q.start :=
      fun p q hq => groupOf_ge _ _ q hq
    by_cases hc : r.start = e ∧ r.val.length = 0
    · obtain ⟨c1, c2⟩ := hc
      rw [if_pos ⟨c1, c2⟩, c1, c2, Nat.sub_self, Nat.add_zero, ih r.stop h3, List.mem_cons]
      have : (⟨o, o, t⟩ : Rep (List α)) = ⟨o, o, slice xs e r.stop⟩ ↔ t = List.drop e (List.take r.stop xs) := by
        simp [slice]
      rw [this]
    · rw [if_neg hc]
      refine iff_of_false ?_ (by simp)
      rintro (h | h)
      · injection h with a1 a2 a3
        omega
      · have := hge _ _ h
        dsimp only at this
        omega

theorem nodup_groupOf_swap_cut (xs : List α) (e o : Nat) (rs : List (Rep (List α))) (hfit : Fits xs.length e rs) :
    (groupOf o ((cut xs e rs).map swap)).Nodup ↔ Spec.DistinctDeletions xs rs := by
  induction rs generalizing e o with
  | nil => simp [cut, swap, groupOf, Spec.DistinctDeletions]
  | cons r rs ih =>
    obtain ⟨h1, h2, h3⟩ := hfit
    simp only [cut, List.map_cons, swap, groupOf, Spec.DistinctDeletions, List.nodup_cons, ih _ _ h3]
    refine and_congr_left fun _ => ?_
    by_cases hv : r.val.length = 0
    · rw [hv, Nat.add_zero, mem_groupOf_swap_cut xs r.stop _ rs h3]
      simp [slice]
    · refine iff_of_true (fun h => ?_) (fun h => absurd h hv)
      have := groupOf_ge _ _ _ h
      dsimp only at this
      omega

/-! ### What the inverse restores -/

theorem applySimple_perm (xs : List α) (cur : Nat) (rs : List (Rep (List α))) (hfit : Fits xs.length cur rs) :
    (applySimple xs cur rs ++ rs.flatMap fun r => slice xs r.start r.stop).Perm
      (xs.drop cur ++ rs.flatMap fun r => r.val) := by
  induction rs generalizing cur with
  | nil => simp [applySimple]
  | cons r rs ih =>
    obtain ⟨h1, h2, h3⟩ := hfit
    have ih := ih r.stop h3
    have hsplit : xs.drop cur = slice xs cur r.start ++ (slice xs r.start r.stop ++ xs.drop r.stop) := by
      rw [slice_append_drop xs h2, slice_append_drop xs h1]
    rw [applySimple, List.flatMap_cons, List.flatMap_cons, hsplit]
    generalize slice xs cur r.start = A
    generalize slice xs r.start r.stop = B at *
    generalize applySimple xs r.stop rs = C at *
    generalize (rs.flatMap fun r => slice xs r.start r.stop) = D at *
    generalize xs.drop r.stop = E at *
    generalize (rs.flatMap fun r => r.val) = F at *
    generalize r.val = V
    -- A ++ V ++ C ++ (B ++ D) ~ A ++ (B ++ E) ++ (V ++ F)
    simp only [List.append_assoc]
    refine List.Perm.append_left A ?_
    refine (List.Perm.append_left V (show (C ++ (B ++ D)).Perm (B ++ (E ++ F)) from ?_)).trans ?_
    · refine (List.perm_append_comm_assoc C B D).trans ?_
      exact List.Perm.append_left B ih
    · refine (List.perm_append_comm_assoc V B (E ++ F)).trans ?_
      exact List.Perm.append_left B (List.perm_append_comm_assoc V E F)

/-- Reordering the replacements of an edit reorders what it makes. -/
theorem applySimple_reorder (xs : List α) (L M : List (Rep (List α))) (hp : L.Perm M) (hL : Fits xs.length 0 L)
    (hM : Fits xs.length 0 M) : (applySimple xs 0 M).Perm (applySimple xs 0 L) := by
  have h1 := applySimple_perm xs 0 L hL
  have h2 := applySimple_perm xs 0 M hM
  have h3 := hp.flatMap_right (fun r : Rep (List α) => slice xs r.start r.stop)
  have h4 := hp.flatMap_right (fun r : Rep (List α) => r.val)
  have := (h2.trans (List.Perm.append_left _ h4.symm)).trans h1.symm
  have := this.trans (List.Perm.append_left _ h3)
  exact (List.perm_append_right_iff _).mp this

end Uttut
