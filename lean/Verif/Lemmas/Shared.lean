import Verif.Model.Shared
import Verif.Lemmas.Inverse
import Verif.Lemmas.Seeds
import Verif.Props.Edit

/-!
The inverse of an edit computed from another sequence than the one the edit was made for.
-/

namespace Uttut

open Spec Piece

variable {α : Type}

/-- The pieces of the inverse edit when the old texts are read from `xs`. -/
def swapFrom (xs : List α) : Nat → List (Piece α α) → List (Piece α α)
  | _, [] => []
  | off, keep l :: ps => keep l :: swapFrom xs (off + l.length) ps
  | off, sub o n :: ps => sub n (slice xs off (off + o.length)) :: swapFrom xs (off + o.length) ps

theorem srcOf_swapFrom (xs : List α) (off : Nat) (ps : List (Piece α α)) :
    srcOf (swapFrom xs off ps) = dstOf ps := by
  induction ps generalizing off with
  | nil => rfl
  | cons p ps ih => cases p <;> simp [swapFrom, ih]

theorem swapFrom_self (xs : List α) (off : Nat) (ps : List (Piece α α)) (h : srcOf ps = xs.drop off) :
    swapFrom xs off ps = ps.map swap := by
  induction ps generalizing off with
  | nil => rfl
  | cons p ps ih =>
    cases p with
    | keep l =>
      have h1 : srcOf ps = xs.drop (off + l.length) := by
        have := congrArg (List.drop l.length) h
        simpa using this
      simp [swapFrom, swap, ih _ h1]
    | sub o n =>
      have h1 : srcOf ps = xs.drop (off + o.length) := by
        have := congrArg (List.drop o.length) h
        simpa using this
      have ho : slice xs off (off + o.length) = o := by
        unfold slice
        rw [List.drop_take, ← h]
        simp
      simp [swapFrom, swap, ih _ h1, ho]

theorem inverseLoop_from (xs : List α) (ps : List (Piece α α)) (off o : Nat) (d : Bool)
    (inv : List (Rep (List α))) :
    inverseLoop xs (groupOf off ps) (distances (groupOf off ps) ++ [0]) (o + lead ps) ⟨inv, d⟩
      = ⟨inv ++ groupOf o (swapFrom xs off ps), d⟩ := by
  induction ps generalizing off o inv with
  | nil => simp [groupOf, inverseLoop, swapFrom]
  | cons p ps ih =>
    cases p with
    | keep l =>
      simp only [groupOf, lead, swapFrom]
      rw [← ih (off + l.length) (o + l.length) inv]
      congr 1; omega
    | sub old new =>
      have ih' := ih (off + old.length) (o + new.length)
        (inv ++ [⟨o, o + new.length, slice xs off (off + old.length)⟩])
      simp only [groupOf, lead, swapFrom, Nat.add_zero]
      cases hg : groupOf (off + old.length) ps with
      | nil =>
        rw [hg] at ih'
        simp only [distances, List.nil_append, inverseLoop]
        rw [ReplacementGroup.add_of_le _ (Nat.le_add_right _ _)]
        simp only [inverseLoop] at ih'
        rw [ih']
        simp
      | cons r rs =>
        have hr := groupOf_head _ _ r rs hg
        rw [hg] at ih'
        simp only [distances, List.cons_append, inverseLoop]
        rw [ReplacementGroup.add_of_le _ (Nat.le_add_right _ _)]
        have e : o + (new.length + (r.start - (off + old.length))) = o + new.length + lead ps := by
          rw [hr]; omega
        rw [e, ih']
        simp

theorem groupOf_length_swapFrom (xs : List α) (a b off : Nat) (ps : List (Piece α α)) :
    (groupOf b (swapFrom xs off ps)).length = (groupOf a ps).length := by
  induction ps generalizing a b off with
  | nil => rfl
  | cons p ps ih =>
    cases p with
    | keep l => exact ih _ _ _
    | sub o n => simp [groupOf, swapFrom, ih (a + o.length)]

variable [DecidableEq α] [NewValue (List α)]

theorem genInverse_from (σ : SetOrder) (xs : List α) (ps : List (Piece α α)) :
    genInverse σ xs ⟨groupOf 0 ps, true⟩
      = (⟨groupOf 0 (swapFrom xs 0 ps), false⟩ : ReplacementGroup (List α)).done σ := by
  unfold genInverse
  cases hg : groupOf 0 ps with
  | nil =>
    have hl := groupOf_length_swapFrom xs 0 0 0 ps
    rw [hg] at hl
    simp only [ReplacementGroup.isEmpty, List.length_nil, BEq.rfl, if_true]
    rw [List.length_eq_zero_iff.mp hl]
    rfl
  | cons r rs =>
    have hr := groupOf_head _ _ r rs hg
    have := inverseLoop_from xs ps 0 0 false []
    rw [hg] at this
    have h0 : ReplacementGroup.getItem (⟨r :: rs, true⟩ : ReplacementGroup (List α)) 0 = .ok r := by
      simp [ReplacementGroup.getItem, pyIndex?]
    simp only [ReplacementGroup.isEmpty, List.length_cons, ReplacementGroup.items, h0]
    simp only [bind, Except.bind]
    rw [if_neg (by simp)]
    simp only [if_true]
    rw [hr]
    simp only [List.nil_append] at this
    unfold ReplacementGroup.empty
    rw [this]

variable [UniformKind (List α)]

/-- The inverse group of pieces whose replacements are all different, and the labels it gives. -/
theorem done_labels (σ : SetOrder) (qs : List (Piece α α)) (h : (groupOf 0 qs).Nodup) (f : Transducer)
    (hn : Neutral f) (ls : List Int) (hl : ls.length = (srcOf qs).length) :
    ∃ M, (⟨groupOf 0 qs, false⟩ : ReplacementGroup (List α)).done σ = .ok ⟨M, true⟩ ∧
      M.length = (groupOf 0 qs).length ∧ propagate ls ⟨M, true⟩ f = relabel f (withLabels qs ls) := by
  obtain ⟨⟨z, hz⟩, hf⟩ := hn
  have hbef := groupOf_before 0 qs
  have hwf := groupOf_wf 0 qs
  have h2 : (groupOf 0 qs).Perm (ReplacementGroup.sortReps (σ.listSet (groupOf 0 qs))) := by
    have := (ReplacementGroup.sortReps_perm (σ.listSet (groupOf 0 qs))).trans (listSet_perm σ _)
    rw [pyDedup_of_nodup h] at this
    exact this.symm
  have h3 := ReplacementGroup.sortReps_lex (σ.listSet (groupOf 0 qs))
  have h1 : (⟨groupOf 0 qs, false⟩ : ReplacementGroup (List α)).done σ =
      .ok ⟨ReplacementGroup.sortReps (σ.listSet (groupOf 0 qs)), true⟩ := by
    rw [(ReplacementGroup.done_spec σ (⟨groupOf 0 qs, false⟩ : ReplacementGroup (List α)) hwf).1
      (fun a _ b _ => UniformKind.const _ _) (before_disjoint hbef)]
  refine ⟨_, h1, h2.length_eq.symm, ?_⟩
  generalize ReplacementGroup.sortReps (σ.listSet (groupOf 0 qs)) = M at *
  have resp : ∀ (qs : List (Piece Int α)), Respects f qs := fun qs o n _ x y _ hy => hf x _ y hy
  have resp' : ∀ (qs : List (Piece α α)), Respects f qs := fun qs o n _ x y _ hy => hf x _ y hy
  have hlexL : (groupOf 0 qs).Pairwise Rep.LexLe := by
    refine List.Pairwise.imp_of_mem (fun {a b} ha hb hab => ?_) hbef
    have := hwf a ha
    have := hwf b hb
    unfold Rep.Before at hab
    unfold Rep.LexLe
    omega
  have hspan : ∀ a ∈ groupOf 0 qs, ∀ b ∈ groupOf 0 qs, a ≠ b → a.start = b.start →
      a.stop = b.stop → a.start = a.stop := by
    intro a ha b hb hab e1 e2
    have := hwf a ha
    rcases before_disjoint hbef a ha b hb hab with h | h <;> omega
  have hfitL : Fits ls.length 0 (groupOf 0 qs) := by
    rw [fits_iff]
    refine ⟨by omega, fun r hr => ⟨by omega, hwf r hr, ?_⟩, hbef⟩
    have := groupOf_stop_le 0 qs r hr
    omega
  have hbefM : M.Pairwise Rep.Before := by
    have := (ReplacementGroup.pairwise_before_iff M (fun r hr => hwf r (h2.mem_iff.mpr hr)) h3
      (h2.nodup_iff.mp h)).mpr
    apply this
    intro a ha b hb
    exact before_disjoint hbef a (h2.mem_iff.mpr ha) b (h2.mem_iff.mpr hb)
  have hfitM : Fits ls.length 0 M := by
    rw [fits_iff] at hfitL ⊢
    exact ⟨by omega, fun r hr => hfitL.2.1 r (h2.mem_iff.mpr hr), hbefM⟩
  have prop : ∀ rs : List (Rep (List α)), Fits ls.length 0 rs →
      propagate ls ⟨rs, true⟩ f = relabel f (cut ls 0 rs) := by
    intro rs hfit
    have := propagate_pieces f (cut ls 0 rs) (resp _)
    rw [srcOf_cut ls 0 rs hfit, groupOf_cut ls 0 rs hfit, List.drop_zero] at this
    exact this
  rw [prop M hfitM, ← relabel_cut_perm f z hz ls 0 _ M h2 hlexL h3 h hspan, ← prop _ hfitL]
  exact propagate_withLabels f qs ls (resp' _) hl

/-- Labels through the inverse edit read from `xs`: the pieces read from `xs`, or the AssertionError of equal
replacements. -/
theorem inverse_from (σ : SetOrder) (xs : List α) (ps : List (Piece α α)) (f : Transducer) (hn : Neutral f)
    (ls : List Int) (hl : ls.length = (dstOf ps).length) :
    (do let inv ← editInverse σ xs ⟨groupOf 0 ps, true⟩
        propagate ls inv f) =
      if (groupOf 0 (swapFrom xs 0 ps)).Nodup then relabel f (withLabels (swapFrom xs 0 ps) ls)
      else .error .assertionError := by
  have hlen := groupOf_length_swapFrom xs 0 0 0 ps
  unfold editInverse
  rw [genInverse_from]
  split
  · rename_i h
    obtain ⟨M, h1, h2, h3⟩ := done_labels σ (swapFrom xs 0 ps) h f hn ls (by rw [srcOf_swapFrom]; exact hl)
    rw [h1]
    simp only [Except.bind_ok]
    rw [if_pos (by rw [h2, hlen])]
    exact h3
  · rename_i h
    rw [(ReplacementGroup.done_spec σ (⟨groupOf 0 (swapFrom xs 0 ps), false⟩ : ReplacementGroup (List α))
      (groupOf_wf 0 _)).1 (fun a _ b _ => UniformKind.const _ _) (before_disjoint (groupOf_before 0 _))]
    simp only [Except.bind_ok]
    rw [if_neg]
    · rfl
    · rw [(ReplacementGroup.sortReps_perm _).length_eq, (listSet_perm σ _).length_eq]
      have := pyDedup_length_lt _ h
      omega

omit [DecidableEq α] [NewValue (List α)] [UniformKind (List α)] in
theorem separated_swapFrom (xs : List α) (off : Nat) (ps : List (Piece α α)) (pend : Bool) :
    Separated pend (swapFrom xs off ps) ↔ Separated pend (ps.map swap) := by
  induction ps generalizing off pend with
  | nil => exact Iff.rfl
  | cons p ps ih =>
    cases p with
    | keep l => exact ih _ _
    | sub o n =>
      simp only [swapFrom, List.map_cons, swap, Separated]
      split
      · rw [ih]
      · rw [ih]

omit [DecidableEq α] [NewValue (List α)] [UniformKind (List α)] in
theorem nodup_of_separated {β : Type} (off : Nat) (pend : Bool) (ps : List (Piece α β)) (h : Separated pend ps) :
    (groupOf off ps).Nodup := by
  refine (groupOf_sep off pend ps h).imp fun {a b} hab e => ?_
  subst e
  have := hab.1
  have := hab.2
  omega

omit [DecidableEq α] [NewValue (List α)] [UniformKind (List α)] in
theorem slice_add_length (xs : List α) (a k : Nat) : (slice xs a (a + k)).length = min k (xs.length - a) := by
  unfold slice
  simp
  omega

/-- All the replaced texts are still there. -/
def Covers (n : Nat) (rs : List (Rep (List α))) : Prop := ∀ r ∈ rs, r.start < r.stop → r.stop ≤ n

omit [DecidableEq α] [NewValue (List α)] [UniformKind (List α)] in
theorem outLen_swapFrom_le (xs : List α) (off : Nat) (ps : List (Piece α α)) :
    outLenOf (swapFrom xs off ps) ≤ (srcOf ps).length := by
  induction ps generalizing off with
  | nil => simp [swapFrom]
  | cons p ps ih =>
    cases p with
    | keep l =>
      have := ih (off + l.length)
      simp only [swapFrom, outLenOf_keep, srcOf_keep, List.length_append]
      omega
    | sub o n =>
      have := ih (off + o.length)
      simp only [swapFrom, outLenOf_sub, srcOf_sub, List.length_append, slice_add_length]
      omega

omit [DecidableEq α] [NewValue (List α)] [UniformKind (List α)] in
theorem outLen_swapFrom_iff (xs : List α) (off : Nat) (ps : List (Piece α α)) :
    outLenOf (swapFrom xs off ps) = (srcOf ps).length ↔ Covers xs.length (groupOf off ps) := by
  induction ps generalizing off with
  | nil => simp [swapFrom, groupOf, Covers]
  | cons p ps ih =>
    cases p with
    | keep l =>
      have := ih (off + l.length)
      simp only [swapFrom, outLenOf_keep, srcOf_keep, List.length_append, groupOf]
      rw [← this]
      omega
    | sub o n =>
      have h1 := ih (off + o.length)
      have h2 := outLen_swapFrom_le xs (off + o.length) ps
      simp only [swapFrom, outLenOf_sub, srcOf_sub, List.length_append, slice_add_length, groupOf]
      have : Covers xs.length (⟨off, off + o.length, n⟩ :: groupOf (off + o.length) ps) ↔
          (0 < o.length → off + o.length ≤ xs.length) ∧ Covers xs.length (groupOf (off + o.length) ps) := by
        unfold Covers
        simp only [List.mem_cons, forall_eq_or_imp]
        refine and_congr_left fun _ => ?_
        omega
      rw [this, ← h1]
      omega

omit [DecidableEq α] [NewValue (List α)] [UniformKind (List α)] in
theorem relabel_swapFrom (xs : List α) (off : Nat) (ps : List (Piece α α)) (f : Transducer) (ls : List Int)
    (h : Covers xs.length (groupOf off ps)) :
    relabel f (withLabels (swapFrom xs off ps) ls) = relabel f (withLabels (ps.map swap) ls) := by
  induction ps generalizing off ls with
  | nil => rfl
  | cons p ps ih =>
    cases p with
    | keep l =>
      simp only [swapFrom, List.map_cons, swap, withLabels, relabel]
      rw [ih _ _ h]
    | sub o n =>
      have h1 : Covers xs.length (groupOf (off + o.length) ps) := fun r hr => h r (by simp [groupOf, hr])
      have h2 := h ⟨off, off + o.length, n⟩ (by simp [groupOf])
      dsimp only at h2
      simp only [swapFrom, List.map_cons, swap, withLabels, relabel]
      rw [ih _ _ h1, slice_add_length]
      have : min o.length (xs.length - off) = o.length := by omega
      rw [this]

end Uttut

namespace Uttut

open Spec Piece

/-! ### The aligners of edits of lists -/

theorem separated_of_nodup {α : Type} (c : List α) (ps : List (Piece α α)) (hc : ∀ o, sub o [] ∈ ps → o = c)
    (off : Nat) (pend : Bool) (hp : pend = true → (⟨off, off, c⟩ : Rep (List α)) ∉ groupOf off (ps.map swap))
    (h : (groupOf off (ps.map swap)).Nodup) : Separated pend (ps.map swap) := by
  induction ps generalizing off pend with
  | nil => trivial
  | cons p ps ih =>
    have hc' : ∀ o, sub o [] ∈ ps → o = c := fun o ho => hc o (List.mem_cons_of_mem _ ho)
    cases p with
    | keep l =>
      simp only [List.map_cons, swap, Separated]
      refine ih hc' (off + l.length) _ (fun hpe => ?_) h
      cases l with
      | nil => exact hp (by simpa using hpe)
      | cons x xs => simp at hpe
    | sub o n =>
      simp only [List.map_cons, swap, groupOf, List.nodup_cons] at h hp
      simp only [List.map_cons, swap, Separated]
      cases n with
      | nil =>
        have e : o = c := hc o (by simp)
        subst e
        simp only [List.isEmpty_nil, if_true]
        refine ⟨?_, ih hc' off true (fun _ => by simpa using h.1) (by simpa using h.2)⟩
        cases pend with
        | false => rfl
        | true => exact absurd (by simp) (hp rfl)
      | cons x xs =>
        simp only [List.isEmpty_cons]
        exact ih hc' _ false (fun h => by cases h) h.2

theorem inverseTransform_wrong (a : Aligner) (ls : List Int) (h : ls.length ≠ a.outputLength) :
    a.inverseTransform ls = .error .valueError := by
  unfold Aligner.inverseTransform Aligner.validateOutput
  rw [if_pos h]
  rfl

theorem inverseTransform_error (a : Aligner) (ls : List Int) (h : ls.length = a.outputLength) (e : Exc)
    (hb : a.bwd ls = .error e) : a.inverseTransform ls = .error e := by
  unfold Aligner.inverseTransform Aligner.validateOutput
  rw [if_neg (by simp [h])]
  simp only [Except.bind_ok]
  rw [hb]
  rfl

theorem inverseTransform_length (a : Aligner) (ls y : List Int) (h : ls.length = a.outputLength)
    (hb : a.bwd ls = .ok y) (hy : y.length ≠ a.inputLength) : a.inverseTransform ls = .error .valueError := by
  unfold Aligner.inverseTransform Aligner.validateOutput Aligner.validateInput
  rw [if_neg (by simp [h])]
  simp only [Except.bind_ok]
  rw [hb]
  simp only [Except.bind_ok]
  rw [if_pos hy]
  rfl

/-- `inverse_transform` of the aligner of an edit given by pieces, when its input list is `xs`. -/
theorem live_inverse (σ : SetOrder) (xs : List Tok) (ps : List (Piece Tok Tok)) (f b : Transducer) (hn : Neutral b)
    (hok : ∀ x n, ∃ y, b x n = .ok y) (ls : List Int) :
    ((LiveAligner.ofEdit σ (srcOf ps).length ⟨groupOf 0 ps, true⟩ (dstOf ps).length f b).now
      (.list xs)).inverseTransform ls =
      if ls.length = (dstOf ps).length then
        if (groupOf 0 (swapFrom xs 0 ps)).Nodup then
          if outLenOf (swapFrom xs 0 ps) = (srcOf ps).length then relabel b (withLabels (ps.map swap) ls)
          else .error .valueError
        else .error .assertionError
      else .error .valueError := by
  by_cases hl : ls.length = (dstOf ps).length
  · rw [if_pos hl]
    have hb : ((LiveAligner.ofEdit σ (srcOf ps).length ⟨groupOf 0 ps, true⟩ (dstOf ps).length f b).now
        (.list xs)).bwd ls = _ := inverse_from σ xs ps b hn ls hl
    by_cases hd : (groupOf 0 (swapFrom xs 0 ps)).Nodup
    · rw [if_pos hd] at hb
      rw [if_pos hd]
      have hl' : ls.length = (srcOf (swapFrom xs 0 ps)).length := by rw [srcOf_swapFrom]; exact hl
      have hg : Good b (swapFrom xs 0 ps) := fun o n _ x _ => by
        obtain ⟨y, hy⟩ := hok x n.length
        exact ⟨y, hy, hn.2 _ _ _ hy⟩
      obtain ⟨y, hy⟩ := relabel_ok b _ (hg.withLabels hl')
      have hlen := relabel_length b _ (fun o n _ x y _ h => hn.2 _ _ _ h) y hy
      rw [outLenOf_withLabels _ _ hl'] at hlen
      rw [hy] at hb
      by_cases hc : outLenOf (swapFrom xs 0 ps) = (srcOf ps).length
      · rw [if_pos hc, ← relabel_swapFrom xs 0 ps b ls ((outLen_swapFrom_iff xs 0 ps).mp hc), hy]
        exact Aligner.inverse_of_bwd _ ls y hl hb (hlen.trans hc)
      · rw [if_neg hc]
        exact inverseTransform_length _ ls y hl hb (by rw [hlen]; exact hc)
    · rw [if_neg hd] at hb ⊢
      exact inverseTransform_error _ ls hl _ hb
  · rw [if_neg hl]
    exact inverseTransform_wrong _ ls hl

/-- Where the aligner worked with its own list, it gives the same with every list that has the replaced elements, and
raises with any other. -/
theorem live_same (σ : SetOrder) (ps : List (Piece Tok Tok)) (f b : Transducer) (hn : Neutral b)
    (hok : ∀ x n, ∃ y, b x n = .ok y) (c : List Tok) (hc : ∀ o, sub o [] ∈ ps → o = c) (ls y : List Int)
    (h : ((LiveAligner.ofEdit σ (srcOf ps).length ⟨groupOf 0 ps, true⟩ (dstOf ps).length f b).now
      (.list (srcOf ps))).inverseTransform ls = .ok y) (xs : List Tok) :
    (Covers xs.length (groupOf 0 ps) →
      ((LiveAligner.ofEdit σ (srcOf ps).length ⟨groupOf 0 ps, true⟩ (dstOf ps).length f b).now
        (.list xs)).inverseTransform ls = .ok y) ∧
    (¬ Covers xs.length (groupOf 0 ps) →
      ((LiveAligner.ofEdit σ (srcOf ps).length ⟨groupOf 0 ps, true⟩ (dstOf ps).length f b).now
        (.list xs)).inverseTransform ls = .error .valueError) := by
  rw [live_inverse σ _ ps f b hn hok, swapFrom_self _ 0 ps (by simp)] at h
  rw [live_inverse σ xs ps f b hn hok]
  by_cases hl : ls.length = (dstOf ps).length
  · rw [if_pos hl] at h ⊢
    by_cases hd : (groupOf 0 (ps.map swap)).Nodup
    · have hs := separated_of_nodup c ps hc 0 false (fun h => by cases h) hd
      have hd' := nodup_of_separated 0 false _ ((separated_swapFrom xs 0 ps false).mpr hs)
      rw [if_pos hd] at h
      rw [if_pos hd']
      have ho : outLenOf (ps.map swap) = (srcOf ps).length := by rw [outLenOf_eq, dstOf_swap]
      rw [if_pos ho] at h
      have hiff := outLen_swapFrom_iff xs 0 ps
      exact ⟨fun hc => by rw [if_pos (hiff.mpr hc), h], fun hc => by rw [if_neg fun e => hc (hiff.mp e)]⟩
    · rw [if_neg hd] at h
      cases h
  · rw [if_neg hl] at h
    cases h

end Uttut
