import Verif.Lemmas.Group
import Verif.Model.Label

/-!
A finalised edit cuts its input into pieces: text that is kept and text that is replaced. All results
about `apply`, `inverse` and `propagate` are proved on pieces.
-/

namespace Uttut

/-- A piece of an input sequence: kept, or replaced. -/
inductive Piece (α β : Type)
  | keep (l : List α)
  | sub (old : List α) (new : List β)

namespace Piece

variable {α β γ : Type}

/-- Input text of a piece. -/
def src : Piece α β → List α
  | keep l => l
  | sub o _ => o

/-- Output text of a piece. -/
def dst : Piece α α → List α
  | keep l => l
  | sub _ n => n

/-- The piece of the inverse edit. -/
def swap : Piece α α → Piece α α
  | keep l => keep l
  | sub o n => sub n o

/-- Output length of a piece. -/
def outLen : Piece α β → Nat
  | keep l => l.length
  | sub _ n => n.length

end Piece

open Piece

variable {α β : Type}

def srcOf (ps : List (Piece α β)) : List α := ps.flatMap src
def dstOf (ps : List (Piece α α)) : List α := ps.flatMap dst

/-- The replacements of a list of pieces that starts at offset `off`. -/
def groupOf : Nat → List (Piece α β) → List (Rep (List β))
  | _, [] => []
  | off, keep l :: ps => groupOf (off + l.length) ps
  | off, sub o n :: ps => ⟨off, off + o.length, n⟩ :: groupOf (off + o.length) ps

@[simp] theorem srcOf_nil : srcOf ([] : List (Piece α β)) = [] := rfl
@[simp] theorem srcOf_keep (l : List α) (ps : List (Piece α β)) :
    srcOf (keep l :: ps) = l ++ srcOf ps := rfl
@[simp] theorem srcOf_sub (o : List α) (n : List β) (ps : List (Piece α β)) :
    srcOf (sub o n :: ps) = o ++ srcOf ps := rfl
@[simp] theorem dstOf_nil : dstOf ([] : List (Piece α α)) = [] := rfl
@[simp] theorem dstOf_keep (l : List α) (ps : List (Piece α α)) :
    dstOf (keep l :: ps) = l ++ dstOf ps := rfl
@[simp] theorem dstOf_sub (o n : List α) (ps : List (Piece α α)) :
    dstOf (sub o n :: ps) = n ++ dstOf ps := rfl
@[simp] theorem srcOf_append (ps qs : List (Piece α β)) :
    srcOf (ps ++ qs) = srcOf ps ++ srcOf qs := by simp [srcOf]
@[simp] theorem dstOf_append (ps qs : List (Piece α α)) :
    dstOf (ps ++ qs) = dstOf ps ++ dstOf qs := by simp [dstOf]

theorem srcOf_swap (ps : List (Piece α α)) : srcOf (ps.map swap) = dstOf ps := by
  induction ps with
  | nil => rfl
  | cons p ps ih => cases p <;> simp [swap, ih]

theorem dstOf_swap (ps : List (Piece α α)) : dstOf (ps.map swap) = srcOf ps := by
  induction ps with
  | nil => rfl
  | cons p ps ih => cases p <;> simp [swap, ih]

theorem groupOf_append (off : Nat) (ps qs : List (Piece α β)) :
    groupOf off (ps ++ qs) = groupOf off ps ++ groupOf (off + (srcOf ps).length) qs := by
  induction ps generalizing off with
  | nil => simp [groupOf]
  | cons p ps ih => cases p <;> simp [groupOf, ih, Nat.add_assoc]

theorem groupOf_wf (off : Nat) (ps : List (Piece α β)) : ∀ r ∈ groupOf off ps, r.start ≤ r.stop := by
  induction ps generalizing off with
  | nil => simp [groupOf]
  | cons p ps ih =>
    cases p with
    | keep l => exact ih _
    | sub o n =>
      intro r hr
      rcases List.mem_cons.mp hr with rfl | hr
      · simp
      · exact ih _ r hr

theorem groupOf_ge (off : Nat) (ps : List (Piece α β)) : ∀ r ∈ groupOf off ps, off ≤ r.start := by
  induction ps generalizing off with
  | nil => simp [groupOf]
  | cons p ps ih =>
    cases p with
    | keep l =>
      intro r hr
      have := ih (off + l.length) r hr
      omega
    | sub o n =>
      intro r hr
      rcases List.mem_cons.mp hr with rfl | hr
      · simp
      · have := ih _ r hr
        omega

theorem groupOf_before (off : Nat) (ps : List (Piece α β)) :
    (groupOf off ps).Pairwise Rep.Before := by
  induction ps generalizing off with
  | nil => simp [groupOf]
  | cons p ps ih =>
    cases p with
    | keep l => exact ih _
    | sub o n =>
      exact List.pairwise_cons.mpr ⟨fun r hr => groupOf_ge _ _ r hr, ih _⟩

theorem groupOf_stop_le (off : Nat) (ps : List (Piece α β)) :
    ∀ r ∈ groupOf off ps, r.stop ≤ off + (srcOf ps).length := by
  induction ps generalizing off with
  | nil => simp [groupOf]
  | cons p ps ih =>
    cases p with
    | keep l =>
      intro r hr
      have := ih (off + l.length) r hr
      simp; omega
    | sub o n =>
      intro r hr
      rcases List.mem_cons.mp hr with rfl | hr
      · simp
      · have := ih _ r hr
        simp; omega

/-! ### Separation: when `done` keeps a group of pieces as it is -/

/-- No two empty replaced texts at the same position; `pending` = one was just seen here. -/
def Separated : (pending : Bool) → List (Piece α β) → Prop
  | _, [] => True
  | pending, keep l :: ps => Separated (pending && l.isEmpty) ps
  | pending, sub o _ :: ps =>
    if o.isEmpty then pending = false ∧ Separated true ps else Separated false ps

theorem separated_false_of_true (ps : List (Piece α β)) (h : Separated true ps) :
    Separated false ps := by
  induction ps with
  | nil => trivial
  | cons p ps ih =>
    cases p with
    | keep l =>
      simp only [Separated, Bool.true_and, Bool.false_and] at h ⊢
      cases hl : l.isEmpty with
      | true => rw [hl] at h; exact ih h
      | false => rw [hl] at h; exact h
    | sub o n =>
      simp only [Separated] at h ⊢
      split at h
      · simp at h
      · rename_i ho; simp [ho]; exact h

/-- After a pending empty text at `off`, no replaced text has the empty span at `off`. -/
theorem groupOf_no_empty (off : Nat) (ps : List (Piece α β)) (h : Separated true ps) :
    ∀ r ∈ groupOf off ps, ¬ (r.start = off ∧ r.stop = off) := by
  induction ps generalizing off with
  | nil => simp [groupOf]
  | cons p ps ih =>
    cases p with
    | keep l =>
      simp only [Separated, Bool.true_and] at h
      intro r hr
      cases l with
      | nil => exact ih off (by simpa using h) r (by simpa [groupOf] using hr)
      | cons x xs =>
        have := groupOf_ge (off + (x :: xs).length) ps r hr
        rw [List.length_cons] at this; omega
    | sub o n =>
      simp only [Separated] at h
      cases o with
      | nil => simp at h
      | cons x xs =>
        intro r hr
        rcases List.mem_cons.mp hr with rfl | hr
        · simp
        · have := groupOf_ge _ _ r hr
          rw [List.length_cons] at this; omega

theorem groupOf_sep (off : Nat) (pend : Bool) (ps : List (Piece α β)) (h : Separated pend ps) :
    (groupOf off ps).Pairwise Rep.Sep := by
  induction ps generalizing off pend with
  | nil => simp [groupOf]
  | cons p ps ih =>
    cases p with
    | keep l => exact ih _ _ h
    | sub o n =>
      simp only [Separated] at h
      refine List.pairwise_cons.mpr ⟨fun r hr => ⟨groupOf_ge _ _ r hr, ?_⟩, ?_⟩
      · have hge := groupOf_ge _ _ r hr
        cases o with
        | nil =>
          have := groupOf_no_empty _ ps (by simpa using h.2) r hr
          simp at this ⊢
          omega
        | cons x xs => simp at hge ⊢; omega
      · split at h
        · exact ih _ _ h.2
        · exact ih _ _ h

/-- `done` on the group of separated pieces. -/
theorem done_groupOf [DecidableEq β] [NewValue (List β)] [UniformKind (List β)] (σ : SetOrder)
    (off : Nat) (ps : List (Piece α β)) (pend d : Bool) (h : Separated pend ps) :
    (⟨groupOf off ps, d⟩ : ReplacementGroup (List β)).done σ = .ok ⟨groupOf off ps, true⟩ :=
  ReplacementGroup.done_of_sep σ _ d (groupOf_wf off ps) (groupOf_sep off pend ps h)

/-- If no replaced text is empty the pieces are separated. -/
theorem separated_of_nonempty (ps : List (Piece α β)) (h : ∀ o n, sub o n ∈ ps → o ≠ []) (b : Bool) :
    Separated b ps := by
  induction ps generalizing b with
  | nil => trivial
  | cons p ps ih =>
    cases p with
    | keep l => exact ih (fun o n hm => h o n (List.mem_cons_of_mem _ hm)) _
    | sub o n =>
      have ho := h o n (by simp)
      have : o.isEmpty = false := by simpa using ho
      simp only [Separated, this]
      exact ih (fun o n hm => h o n (List.mem_cons_of_mem _ hm)) _

/-! ### Cutting a sequence along a group -/

/-- Cut `xs` (from position `cur` on) along a list of replacements. -/
def cut (xs : List α) : (cur : Nat) → List (Rep (List β)) → List (Piece α β)
  | cur, [] => [keep (xs.drop cur)]
  | cur, r :: rs =>
    keep (slice xs cur r.start) :: sub (slice xs r.start r.stop) r.val :: cut xs r.stop rs

/-- A group is a chain from `cur` within a sequence of length `n`. -/
def Fits (n : Nat) : (cur : Nat) → List (Rep (List β)) → Prop
  | cur, [] => cur ≤ n
  | cur, r :: rs => cur ≤ r.start ∧ r.start ≤ r.stop ∧ Fits n r.stop rs

theorem Fits.le {n : Nat} {cur : Nat} {rs : List (Rep (List β))} (h : Fits n cur rs) : cur ≤ n := by
  induction rs generalizing cur with
  | nil => exact h
  | cons r rs ih =>
    have := ih h.2.2
    have := h.1; have := h.2.1
    omega

theorem fits_iff (n : Nat) (cur : Nat) (rs : List (Rep (List β))) :
    Fits n cur rs ↔ cur ≤ n ∧ (∀ r ∈ rs, cur ≤ r.start ∧ r.start ≤ r.stop ∧ r.stop ≤ n) ∧
      rs.Pairwise Rep.Before := by
  induction rs generalizing cur with
  | nil => simp [Fits]
  | cons r rs ih =>
    simp only [Fits, ih, List.mem_cons, forall_eq_or_imp, List.pairwise_cons]
    constructor
    · rintro ⟨h1, h2, h3, h4, h5⟩
      refine ⟨by omega, ⟨⟨h1, h2, h3⟩, fun q hq => ?_⟩, fun q hq => (h4 q hq).1, h5⟩
      have := h4 q hq
      omega
    · rintro ⟨h1, ⟨⟨h2, h3, h4⟩, h5⟩, h6, h7⟩
      exact ⟨h2, h3, h4, fun q hq => ⟨h6 q hq, (h5 q hq).2⟩, h7⟩

theorem length_slice (xs : List α) {i j : Nat} (h : j ≤ xs.length) : (slice xs i j).length = j - i := by
  simp [slice]; omega

theorem slice_append_drop (xs : List α) {i j : Nat} (h : i ≤ j) :
    slice xs i j ++ xs.drop j = xs.drop i := by
  unfold slice
  rw [List.drop_take]
  have h2 : xs.drop j = (xs.drop i).drop (j - i) := by rw [List.drop_drop]; congr 1; omega
  rw [h2, List.take_append_drop]

theorem srcOf_cut (xs : List α) (cur : Nat) (rs : List (Rep (List β))) (h : Fits xs.length cur rs) :
    srcOf (cut xs cur rs) = xs.drop cur := by
  induction rs generalizing cur with
  | nil => simp [cut]
  | cons r rs ih =>
    simp only [cut, srcOf_keep, srcOf_sub, ih _ h.2.2]
    rw [slice_append_drop _ h.2.1, slice_append_drop _ h.1]

theorem groupOf_cut (xs : List α) (cur : Nat) (rs : List (Rep (List β)))
    (h : Fits xs.length cur rs) : groupOf cur (cut xs cur rs) = rs := by
  induction rs generalizing cur with
  | nil => simp [cut, groupOf]
  | cons r rs ih =>
    obtain ⟨h1, h2, h3⟩ := h
    have h4 := h3.le
    simp only [cut, groupOf]
    rw [length_slice xs (by omega : r.start ≤ xs.length), length_slice xs h4]
    have e1 : cur + (r.start - cur) = r.start := by omega
    have e2 : r.start + (r.stop - r.start) = r.stop := by omega
    rw [e1, e2, ih _ h3]

/-! ### `apply` -/

/-- `apply` without the output buffer. -/
def applySimple (xs : List α) : (cur : Nat) → List (Rep (List α)) → List α
  | cur, [] => xs.drop cur
  | cur, r :: rs => slice xs cur r.start ++ r.val ++ applySimple xs r.stop rs

theorem transformSequenceLoop_eq (xs : List α) (rs : List (Rep (List α))) (cur : Nat)
    (pre : List (List α)) :
    let res := transformSequenceLoop xs rs cur pre.length
      (pre ++ List.replicate (2 * rs.length + 1) [])
    ((res.2.set (res.2.length - 1) (xs.drop res.1)).flatten = pre.flatten ++ applySimple xs cur rs) := by
  induction rs generalizing cur pre with
  | nil =>
    simp [transformSequenceLoop, applySimple]
  | cons r rs ih =>
    simp only [transformSequenceLoop]
    have hset : ((pre ++ List.replicate (2 * (r :: rs).length + 1) []).set pre.length
        (slice xs cur r.start)).set (pre.length + 1) r.val
        = (pre ++ [slice xs cur r.start, r.val]) ++ List.replicate (2 * rs.length + 1) [] := by
      have : 2 * (r :: rs).length + 1 = (2 * rs.length + 1) + 1 + 1 := by simp; omega
      rw [this, List.replicate_succ, List.replicate_succ]
      simp
    rw [hset]
    have := ih r.stop (pre ++ [slice xs cur r.start, r.val])
    simp only [List.length_append, List.length_cons, List.length_nil] at this
    simp only [Nat.zero_add] at this
    rw [this]
    simp [applySimple]

theorem lstApply_eq (xs : List α) (rs : List (Rep (List α))) :
    Lst2Lst.apply xs ⟨rs, true⟩ = .ok (applySimple xs 0 rs) := by
  have h := transformSequenceLoop_eq xs rs 0 []
  simp only [List.length_nil, List.nil_append, List.flatten_nil] at h
  unfold Lst2Lst.apply transformSequence
  simp only [ReplacementGroup.items, if_true, bind, Except.bind, pure, Except.pure]
  rw [h]

theorem strApply_eq (s : Str) (rs : List (Rep Str)) :
    Str2Str.apply s ⟨rs, true⟩ = .ok (applySimple s 0 rs) := lstApply_eq s rs

theorem applySimple_groupOf (pre : List α) (ps : List (Piece α α)) :
    applySimple (pre ++ srcOf ps) pre.length (groupOf pre.length ps) = dstOf ps := by
  suffices H : ∀ (mid : List α), applySimple (pre ++ mid ++ srcOf ps) pre.length
      (groupOf (pre.length + mid.length) ps) = mid ++ dstOf ps by
    simpa using H []
  induction ps generalizing pre with
  | nil => intro mid; simp [groupOf, applySimple]
  | cons p ps ih =>
    intro mid
    cases p with
    | keep l =>
      have := ih pre (mid ++ l)
      simp only [List.length_append, ← List.append_assoc] at this
      simp only [groupOf, srcOf_keep, dstOf_keep, ← List.append_assoc, Nat.add_assoc]
      exact this
    | sub o n =>
      simp only [groupOf, srcOf_sub, dstOf_sub, applySimple]
      have := ih (pre ++ mid ++ o) []
      simp only [List.length_append, List.append_nil, List.length_nil, Nat.add_zero,
        List.nil_append] at this
      have e : pre ++ mid ++ (o ++ srcOf ps) = pre ++ mid ++ o ++ srcOf ps := by simp
      rw [e, this]
      have hs : slice (pre ++ mid ++ o ++ srcOf ps) pre.length (pre.length + mid.length) = mid := by
        have : pre.length + mid.length = (pre ++ mid).length := by simp
        unfold slice
        rw [this, List.append_assoc (pre ++ mid), List.take_left, List.drop_left]
      rw [hs]; simp

theorem lstApply_pieces (ps : List (Piece α α)) :
    Lst2Lst.apply (srcOf ps) ⟨groupOf 0 ps, true⟩ = .ok (dstOf ps) := by
  rw [lstApply_eq]
  have := applySimple_groupOf [] ps
  simp at this
  rw [this]

theorem strApply_pieces (ps : List (Piece Char Char)) :
    Str2Str.apply (srcOf ps) ⟨groupOf 0 ps, true⟩ = .ok (dstOf ps) := lstApply_pieces ps

/-! ### `inverse` -/

/-- Length of the kept text in front of the first replaced one. -/
def lead : List (Piece α β) → Nat
  | [] => 0
  | keep l :: ps => l.length + lead ps
  | sub _ _ :: _ => 0

theorem groupOf_head (off : Nat) (ps : List (Piece α β)) (r : Rep (List β))
    (rs : List (Rep (List β))) (h : groupOf off ps = r :: rs) : r.start = off + lead ps := by
  induction ps generalizing off with
  | nil => simp [groupOf] at h
  | cons p ps ih =>
    cases p with
    | keep l =>
      have := ih (off + l.length) (by simpa [groupOf] using h)
      simp [lead]; omega
    | sub o n =>
      simp only [groupOf, List.cons.injEq] at h
      rw [← h.1]; simp [lead]

theorem inverseLoop_pieces (xs : List α) (ps : List (Piece α α)) (off o : Nat) (d : Bool)
    (inv : List (Rep (List α))) (hsrc : srcOf ps = xs.drop off) (hoff : off ≤ xs.length) :
    inverseLoop xs (groupOf off ps) (distances (groupOf off ps) ++ [0]) (o + lead ps) ⟨inv, d⟩
      = ⟨inv ++ groupOf o (ps.map swap), d⟩ := by
  induction ps generalizing off o inv with
  | nil => simp [groupOf, inverseLoop]
  | cons p ps ih =>
    cases p with
    | keep l =>
      simp only [groupOf, lead, List.map_cons, swap]
      have hl : l.length ≤ xs.length - off := by
        have := congrArg List.length hsrc
        simp at this; omega
      have h1 : srcOf ps = xs.drop (off + l.length) := by
        have := congrArg (List.drop l.length) hsrc
        simpa using this
      have := ih (off + l.length) (o + l.length) inv h1 (by omega)
      rw [← this]
      congr 1; omega
    | sub old new =>
      have hl : old.length ≤ xs.length - off := by
        have := congrArg List.length hsrc
        simp at this; omega
      have h1 : srcOf ps = xs.drop (off + old.length) := by
        have := congrArg (List.drop old.length) hsrc
        simpa using this
      have hold : slice xs off (off + old.length) = old := by
        unfold slice
        rw [List.drop_take, ← hsrc]
        simp
      have ih' := ih (off + old.length) (o + new.length) (inv ++ [⟨o, o + new.length, old⟩]) h1 (by omega)
      simp only [groupOf, lead, List.map_cons, swap, Nat.add_zero]
      cases hg : groupOf (off + old.length) ps with
      | nil =>
        rw [hg] at ih'
        simp only [distances, List.nil_append, inverseLoop, hold]
        rw [ReplacementGroup.add_of_le _ (Nat.le_add_right _ _)]
        simp only [inverseLoop] at ih'
        rw [ih']
        simp
      | cons r rs =>
        have hr := groupOf_head _ _ r rs hg
        rw [hg] at ih'
        simp only [distances, List.cons_append, inverseLoop, hold]
        rw [ReplacementGroup.add_of_le _ (Nat.le_add_right _ _)]
        have e : o + (new.length + (r.start - (off + old.length))) = o + new.length + lead ps := by
          rw [hr]; omega
        rw [e, ih']
        simp

variable [DecidableEq α] [NewValue (List α)]

/-- The group built by `inverse` before it is finalised. -/
theorem genInverse_pieces (σ : SetOrder) (ps : List (Piece α α)) :
    genInverse σ (srcOf ps) ⟨groupOf 0 ps, true⟩
      = (⟨groupOf 0 (ps.map swap), false⟩ : ReplacementGroup (List α)).done σ := by
  have key : groupOf 0 ps = [] → groupOf 0 (ps.map swap) = [] := by
    suffices H : ∀ a b, groupOf a ps = [] → groupOf b (ps.map swap) = [] from H 0 0
    intro a b h
    induction ps generalizing a b with
    | nil => rfl
    | cons p ps ih =>
      cases p with
      | keep l => exact ih _ _ (by simpa [groupOf] using h)
      | sub o n => simp [groupOf] at h
  unfold genInverse
  cases hg : groupOf 0 ps with
  | nil =>
    simp only [ReplacementGroup.isEmpty, List.length_nil, BEq.rfl, if_true]
    rw [key hg]
    rfl
  | cons r rs =>
    have hr := groupOf_head _ _ r rs hg
    have := inverseLoop_pieces (srcOf ps) ps 0 0 false [] (by simp) (by omega)
    rw [hg] at this
    have h0 : ReplacementGroup.getItem (⟨r :: rs, true⟩ : ReplacementGroup (List α)) 0 = .ok r := by
      simp [ReplacementGroup.getItem, pyIndex?]
    simp only [ReplacementGroup.isEmpty, List.length_cons, ReplacementGroup.items, h0]
    simp only [bind, Except.bind]
    rw [if_neg (by simp)]
    simp only [if_true]
    rw [hr]
    simp only [List.nil_append] at this
    unfold ReplacementGroup.empty
    rw [this]

omit [DecidableEq α] [NewValue (List α)] in
theorem groupOf_length_swap (a b : Nat) (ps : List (Piece α α)) :
    (groupOf b (ps.map swap)).length = (groupOf a ps).length := by
  induction ps generalizing a b with
  | nil => rfl
  | cons p ps ih =>
    cases p with
    | keep l => exact ih _ _
    | sub o n => simp [groupOf, swap, ih (a + o.length)]

/-- `inverse` of the group of pieces is the group of the swapped pieces. -/
theorem editInverse_pieces [UniformKind (List α)] (σ : SetOrder) (ps : List (Piece α α))
    (h : Separated false (ps.map swap)) :
    editInverse σ (srcOf ps) ⟨groupOf 0 ps, true⟩ = .ok ⟨groupOf 0 (ps.map swap), true⟩ := by
  unfold editInverse
  rw [genInverse_pieces, done_groupOf σ 0 _ false false h]
  simp only [bind, Except.bind, pure, Except.pure]
  rw [if_pos (groupOf_length_swap 0 0 ps)]

end Uttut
