import Verif.Lemmas.Propagate
import Verif.Spec.Edit

/-! Link between pieces and the specifications of `Spec/Edit.lean`; facts about `addAll`. -/

namespace Uttut

open Piece Spec

variable {α β V : Type}

theorem take_append_slice (s : List α) {i j : Nat} (h : i ≤ j) : s.take i ++ slice s i j = s.take j := by
  have h1 : s.take i = (s.take j).take i := by rw [List.take_take, Nat.min_eq_left h]
  unfold slice
  rw [h1, List.take_append_drop]

theorem editFromRight_eq (s : List β) (rs : List (Rep (List β))) (cur : Nat)
    (h : ∀ r ∈ rs, cur ≤ r.start ∧ r.start ≤ r.stop ∧ r.start ≤ s.length)
    (hb : rs.Pairwise Rep.Before) :
    editFromRight s rs = s.take cur ++ applySimple s cur rs := by
  induction rs generalizing cur with
  | nil => simp [editFromRight, applySimple]
  | cons r rs ih =>
    obtain ⟨h1, h2, h3⟩ := h r (by simp)
    rw [List.pairwise_cons] at hb
    have ih' := ih r.stop (fun q hq => ⟨hb.1 q hq, (h q (by simp [hq])).2⟩) hb.2
    have e : editFromRight s (r :: rs) = assign (editFromRight s rs) r.start r.stop r.val := rfl
    rw [e, ih', applySimple]
    unfold assign
    have ht : (s.take r.stop ++ applySimple s r.stop rs).take r.start = s.take r.start := by
      rw [List.take_append_of_le_length (by simp; omega), List.take_take, Nat.min_eq_left h2]
    have hd : (s.take r.stop ++ applySimple s r.stop rs).drop r.stop = applySimple s r.stop rs := by
      by_cases hn : r.stop ≤ s.length
      · have : r.stop = (s.take r.stop).length := by simp; omega
        conv => lhs; arg 1; rw [this]
        rw [List.drop_left]
      · have hrs : rs = [] := by
          cases rs with
          | nil => rfl
          | cons q qs =>
            have := hb.1 q (by simp)
            have := (h q (by simp)).2.2
            unfold Rep.Before at *
            omega
        subst hrs
        simp [applySimple]
    rw [ht, hd, ← List.append_assoc, ← List.append_assoc, take_append_slice s h1]

/-- `relabel` for a transducer that never raises. -/
def relabelT (f : List Int → Nat → List Int) : List (Piece Int β) → List Int
  | [] => []
  | keep l :: ps => l ++ relabelT f ps
  | sub o n :: ps => f o n.length ++ relabelT f ps

theorem relabel_total (f : List Int → Nat → List Int) (ps : List (Piece Int β)) :
    relabel (fun x n => .ok (f x n)) ps = .ok (relabelT f ps) := by
  induction ps with
  | nil => rfl
  | cons p ps ih => cases p <;> simp [relabel, relabelT, ih, Except.map, bind, Except.bind, pure,
      Except.pure]

theorem relabelFromRight_eq (f : List Int → Nat → List Int) (ps : List (Piece Int β))
    (pre : List Int) :
    relabelFromRight f (pre ++ srcOf ps) (groupOf pre.length ps) = pre ++ relabelT f ps := by
  induction ps generalizing pre with
  | nil => simp [relabelFromRight, groupOf, relabelT]
  | cons p ps ih =>
    cases p with
    | keep l =>
      have := ih (pre ++ l)
      simp only [List.length_append, List.append_assoc] at this
      simpa [groupOf, relabelT] using this
    | sub o n =>
      have ih' := ih (pre ++ o)
      simp only [List.length_append] at ih'
      have e : relabelFromRight f (pre ++ srcOf (sub o n :: ps)) (groupOf pre.length (sub o n :: ps))
        = (fun acc => assign acc pre.length (pre.length + o.length)
            (f ((acc.drop pre.length).take (pre.length + o.length - pre.length)) n.length))
          (relabelFromRight f (pre ++ o ++ srcOf ps) (groupOf (pre.length + o.length) ps)) := by
        simp [relabelFromRight, groupOf]
      rw [e, ih']
      simp [assign, relabelT, List.drop_append]

theorem Rep.cut_src {n : Nat} {xs : List α} {rs : List (Rep (List β))} (hn : n = xs.length)
    (hwf : ∀ r ∈ rs, r.start ≤ r.stop) (hb : rs.Pairwise Rep.Before) (hin : InBounds n rs) :
    Fits xs.length 0 rs := by
  subst hn
  rw [fits_iff]
  exact ⟨by omega, fun r hr => ⟨by omega, hwf r hr, hin r hr⟩, hb⟩

/-! ### `addAll` -/

/-- A replacement as the tuple passed to `add_all`. -/
def Rep.triple (r : Rep V) : Int × Int × V := (r.start, r.stop, r.val)

theorem toUInt_nat {n : Nat} (h : n < uintBound) : toUInt (n : Int) = .ok n := by
  unfold toUInt
  rw [if_pos (by omega)]
  simp

theorem toUInt_ok {i : Int} {n : Nat} (h : toUInt i = .ok n) : i = n ∧ n < uintBound := by
  unfold toUInt at h
  split at h
  · injection h with h
    omega
  · simp at h

theorem toUInt_error {i : Int} (h : i < 0 ∨ (uintBound : Int) ≤ i) :
    toUInt i = .error .overflowError := by
  unfold toUInt
  rw [if_neg (by omega)]

theorem toUInt_cases (i : Int) :
    (toUInt i = .error .overflowError) ∨ ∃ n, toUInt i = .ok n ∧ i = n ∧ n < uintBound := by
  by_cases h : i < 0 ∨ (uintBound : Int) ≤ i
  · exact Or.inl (toUInt_error h)
  · right
    refine ⟨i.toNat, ?_, by omega, by omega⟩
    unfold toUInt
    rw [if_pos (by omega)]

theorem foldlM_addPy (rs : List (Rep V)) (h : ∀ r ∈ rs, r.start ≤ r.stop ∧ r.stop < uintBound)
    (g : ReplacementGroup V) :
    (rs.map Rep.triple).foldlM (fun g (r : Int × Int × V) => g.addPy r.1 r.2.1 r.2.2) g
      = .ok ⟨g.reps ++ rs, g.isDone⟩ := by
  induction rs generalizing g with
  | nil => simp [pure, Except.pure]
  | cons r rs ih =>
    obtain ⟨h1, h2⟩ := h r (by simp)
    have hadd : g.addPy r.triple.1 r.triple.2.1 r.triple.2.2 = .ok ⟨g.reps ++ [r], g.isDone⟩ := by
      unfold ReplacementGroup.addPy
      rw [Rep.triple, toUInt_nat (by omega : r.start < uintBound), toUInt_nat h2]
      simp only [bind, Except.bind, pure, Except.pure]
      rw [ReplacementGroup.add_of_le _ h1]
    simp only [List.map_cons, List.foldlM_cons, hadd]
    simp only [bind, Except.bind]
    rw [ih (fun q hq => h q (by simp [hq]))]
    simp

theorem addAll_eq_done [DecidableEq V] [NewValue V] (σ : SetOrder) (rs : List (Rep V))
    (h : ∀ r ∈ rs, r.start ≤ r.stop ∧ r.stop < uintBound) :
    ReplacementGroup.addAll σ (rs.map Rep.triple) = (⟨rs, false⟩ : ReplacementGroup V).done σ := by
  unfold ReplacementGroup.addAll
  rw [foldlM_addPy rs h]
  simp [bind, Except.bind, ReplacementGroup.empty]

/-- Whatever the tuples, the group collected by `add_all` has well-ordered bounds. -/
theorem foldlM_addPy_wf (ts : List (Int × Int × V)) (g g' : ReplacementGroup V)
    (hg : ∀ r ∈ g.reps, r.start ≤ r.stop)
    (h : ts.foldlM (fun g (r : Int × Int × V) => g.addPy r.1 r.2.1 r.2.2) g = .ok g') :
    ∀ r ∈ g'.reps, r.start ≤ r.stop := by
  induction ts generalizing g with
  | nil => simp [pure, Except.pure] at h; rw [← h]; exact hg
  | cons t ts ih =>
    simp only [List.foldlM_cons] at h
    unfold ReplacementGroup.addPy at h
    rcases toUInt_cases t.1 with h1 | ⟨a, h1, _, _⟩
    · rw [h1] at h; simp [bind, Except.bind] at h
    · rcases toUInt_cases t.2.1 with h2 | ⟨b, h2, _, _⟩
      · rw [h1, h2] at h; simp [bind, Except.bind] at h
      · rw [h1, h2] at h
        simp only [bind, Except.bind, pure, Except.pure] at h
        exact ih _ (ReplacementGroup.add_wf g hg a b t.2.2) h

theorem addAll_chain [DecidableEq V] [NewValue V] (σ : SetOrder) (ts : List (Int × Int × V))
    (g : ReplacementGroup V) (h : ReplacementGroup.addAll σ ts = .ok g) :
    g.isDone = true ∧ (∀ r ∈ g.reps, r.start ≤ r.stop) ∧ g.reps.Pairwise Rep.Before := by
  unfold ReplacementGroup.addAll at h
  cases hf : ts.foldlM (fun g (r : Int × Int × V) => g.addPy r.1 r.2.1 r.2.2)
      (ReplacementGroup.empty : ReplacementGroup V) with
  | error e => rw [hf] at h; simp [bind, Except.bind] at h
  | ok g0 =>
    rw [hf] at h
    simp only [bind, Except.bind] at h
    exact ReplacementGroup.done_chain σ g0 g
      (foldlM_addPy_wf ts _ g0 (by simp [ReplacementGroup.empty]) hf) h

theorem group_eta {g : ReplacementGroup V} (h : g.isDone = true) : g = ⟨g.reps, true⟩ := by
  cases g; simp at h; simp [h]

/-- Separation of the swapped pieces of a group without touching deletions. -/
theorem separated_cut (xs : List β) (cur : Nat) (rs : List (Rep (List β)))
    (hfit : Fits xs.length cur rs) (pend : Bool)
    (hp : pend = true → ∀ r rs', rs = r :: rs' → ¬(cur = r.start ∧ r.val = []))
    (h : NoTouchingDeletions rs) : Separated pend ((cut xs cur rs).map swap) := by
  induction rs generalizing cur pend with
  | nil => simp [cut, swap, Separated]
  | cons r rs ih =>
    obtain ⟨h1, h2, h3⟩ := hfit
    have h4 := h3.le
    simp only [cut, List.map_cons, swap, Separated]
    have hnt : NoTouchingDeletions rs := by
      cases rs with
      | nil => trivial
      | cons q qs => exact h.2
    split
    · rename_i hv
      have hv' : r.val = [] := by simpa using hv
      refine ⟨?_, ih r.stop h3 true (fun _ q qs hq hcon => ?_) hnt⟩
      · cases hpe : pend with
        | false => rfl
        | true =>
          have hh := hp hpe r rs rfl
          have hne : cur ≠ r.start := fun e => hh ⟨e, hv'⟩
          have hl : (slice xs cur r.start).length ≠ 0 := by
            rw [length_slice xs (by omega)]; omega
          cases hs : slice xs cur r.start with
          | nil => rw [hs] at hl; simp at hl
          | cons x t => rfl
      · subst hq
        exact h.1 ⟨hcon.1, hv', hcon.2⟩
    · exact ih r.stop h3 false (by simp) hnt

end Uttut
