import Verif.Lemmas.Pieces
import Verif.Model.Base

/-! Label propagation on pieces. -/

namespace Uttut

open Piece

variable {α β : Type}

/-- Labels after the edit: kept labels are kept, replaced ones go through the transducer. -/
def relabel (f : Transducer) : List (Piece Int β) → Res (List Int)
  | [] => .ok []
  | keep l :: ps => (relabel f ps).map fun y => l ++ y
  | sub o n :: ps => do
    let x ← f o n.length
    let y ← relabel f ps
    return x ++ y

/-- Whenever the transducer answers, it returns as many labels as asked for. -/
def Respects (f : Transducer) (ps : List (Piece α β)) : Prop :=
  ∀ o n, sub o n ∈ ps → ∀ x y, x.length = o.length → f x n.length = .ok y → y.length = n.length

/-- The transducer always answers, with as many labels as asked for. -/
def Good (f : Transducer) (ps : List (Piece α β)) : Prop :=
  ∀ o n, sub o n ∈ ps → ∀ x, x.length = o.length → ∃ y, f x n.length = .ok y ∧ y.length = n.length

theorem Good.respects {f : Transducer} {ps : List (Piece α β)} (h : Good f ps) : Respects f ps := by
  intro o n hm x y hx hy
  obtain ⟨z, hz, hl⟩ := h o n hm x hx
  rw [hy] at hz
  injection hz with hz
  rw [hz]; exact hl

theorem Respects.tail {f : Transducer} {p : Piece α β} {ps : List (Piece α β)}
    (h : Respects f (p :: ps)) : Respects f ps :=
  fun o n hm => h o n (List.mem_cons_of_mem _ hm)

theorem Good.tail {f : Transducer} {p : Piece α β} {ps : List (Piece α β)}
    (h : Good f (p :: ps)) : Good f ps :=
  fun o n hm => h o n (List.mem_cons_of_mem _ hm)

theorem sliceAssign_junk {α : Type} (done junk new : List α) (k : Nat) :
    sliceAssign (done ++ junk) done.length (done.length + k) new = done ++ new ++ junk.drop k := by
  unfold sliceAssign
  rw [List.take_left, Nat.max_eq_right (Nat.le_add_right _ _)]
  simp [List.drop_append]

theorem sliceAssign_finish {α : Type} (done junk new : List α) :
    sliceAssign (done ++ junk) done.length (done ++ junk).length new = done ++ new := by
  unfold sliceAssign
  rw [List.take_left, Nat.max_eq_right (by simp)]
  simp

/-- The loop and the final assignment of `propagate_by_replacement_group`, on any buffer. -/
theorem propagateLoop_pieces (f : Transducer) (ps : List (Piece Int β)) (pre mid done junk : List Int)
    (hf : Respects f ps) :
    (do let (i, o, out) ← propagateLoop (pre ++ mid ++ srcOf ps) f
            (groupOf (pre.length + mid.length) ps) pre.length done.length (done ++ junk)
        return sliceAssign out o out.length ((pre ++ mid ++ srcOf ps).drop i))
      = (relabel f ps).map fun y => done ++ mid ++ y := by
  induction ps generalizing pre mid done junk with
  | nil =>
    simp only [groupOf, propagateLoop, bind, Except.bind, pure, Except.pure, relabel, Except.map]
    rw [sliceAssign_finish]
    simp
  | cons p ps ih =>
    cases p with
    | keep l =>
      have := ih pre (mid ++ l) done junk hf.tail
      simp only [groupOf, srcOf_keep, relabel]
      simp only [List.length_append] at this
      have e : pre ++ mid ++ (l ++ srcOf ps) = pre ++ (mid ++ l) ++ srcOf ps := by simp
      rw [e, Nat.add_assoc, this]
      cases relabel f ps with
      | error e => rfl
      | ok y => simp [Except.map]
    | sub o n =>
      simp only [groupOf, srcOf_sub, relabel, propagateLoop]
      have e : pre ++ mid ++ (o ++ srcOf ps) = pre ++ mid ++ o ++ srcOf ps := by simp
      have hs1 : slice (pre ++ mid ++ o ++ srcOf ps) pre.length (pre.length + mid.length) = mid := by
        have : pre.length + mid.length = (pre ++ mid).length := by simp
        unfold slice
        rw [this, List.append_assoc (pre ++ mid), List.take_left, List.drop_left]
      have hs2 : slice (pre ++ mid ++ o ++ srcOf ps) (pre.length + mid.length)
          (pre.length + mid.length + o.length) = o := by
        have h1 : pre.length + mid.length + o.length = (pre ++ mid ++ o).length := by
          simp [Nat.add_assoc]
        have h2 : pre.length + mid.length = (pre ++ mid).length := by simp
        unfold slice
        rw [h1, List.take_left, h2, List.drop_left]
      have hlen : pre.length + mid.length - pre.length = mid.length := by omega
      rw [e, hs1, hs2, hlen, sliceAssign_junk]
      cases hfo : f o n.length with
      | error e => rfl
      | ok x =>
        have hx := hf o n (by simp) o x rfl hfo
        have h3 : done.length + mid.length = (done ++ mid).length := by simp
        simp only [bind, Except.bind]
        rw [h3, sliceAssign_junk]
        have := ih (pre ++ mid ++ o) [] (done ++ mid ++ x) ((junk.drop mid.length).drop n.length) hf.tail
        simp only [List.append_nil, List.length_append, List.length_nil, Nat.add_zero, hx] at this
        simp only [bind, Except.bind] at this
        rw [List.length_append, this]
        cases relabel f ps with
        | error e => rfl
        | ok y => simp [Except.map, pure, Except.pure]

/-- `propagate_by_replacement_group` on the group of pieces. -/
theorem propagate_pieces (f : Transducer) (ps : List (Piece Int β)) (hf : Respects f ps) :
    propagate (srcOf ps) ⟨groupOf 0 ps, true⟩ f = relabel f ps := by
  have := propagateLoop_pieces f ps [] [] []
    (List.replicate (computeOutputLength (srcOf ps).length ⟨groupOf 0 ps, true⟩) notEntity) hf
  simp only [List.nil_append, List.length_nil, Nat.add_zero] at this
  unfold propagate
  simp only [ReplacementGroup.items, if_true, bind, Except.bind]
  simp only [bind, Except.bind] at this
  rw [this]
  cases relabel f ps <;> rfl

/-! ### Moving pieces of the text to pieces of its labels -/

/-- The pieces of a text, with the labels of the text in place of its characters. -/
def withLabels : List (Piece α β) → List Int → List (Piece Int β)
  | [], _ => []
  | keep l :: ps, ls => keep (ls.take l.length) :: withLabels ps (ls.drop l.length)
  | sub o n :: ps, ls => sub (ls.take o.length) n :: withLabels ps (ls.drop o.length)

theorem srcOf_withLabels (ps : List (Piece α β)) (ls : List Int)
    (h : ls.length = (srcOf ps).length) : srcOf (withLabels ps ls) = ls := by
  induction ps generalizing ls with
  | nil => simp at h; simp [withLabels, h]
  | cons p ps ih =>
    cases p with
    | keep l =>
      simp only [withLabels, srcOf_keep]
      rw [ih (ls.drop l.length) (by simp at h ⊢; omega), List.take_append_drop]
    | sub o n =>
      simp only [withLabels, srcOf_sub]
      rw [ih (ls.drop o.length) (by simp at h ⊢; omega), List.take_append_drop]

theorem groupOf_withLabels (ps : List (Piece α β)) (ls : List Int) (off : Nat)
    (h : ls.length = (srcOf ps).length) : groupOf off (withLabels ps ls) = groupOf off ps := by
  induction ps generalizing ls off with
  | nil => rfl
  | cons p ps ih =>
    cases p with
    | keep l =>
      simp only [withLabels, groupOf]
      simp at h
      rw [ih (ls.drop l.length) _ (by simp; omega)]
      congr 1; simp; omega
    | sub o n =>
      simp only [withLabels, groupOf]
      simp at h
      have e : (ls.take o.length).length = o.length := by simp; omega
      rw [ih (ls.drop o.length) _ (by simp; omega), e]

theorem mem_withLabels (ps : List (Piece α β)) (ls : List Int) (h : ls.length = (srcOf ps).length)
    (x : List Int) (n : List β) (hm : sub x n ∈ withLabels ps ls) :
    ∃ o, sub o n ∈ ps ∧ x.length = o.length := by
  induction ps generalizing ls with
  | nil => simp [withLabels] at hm
  | cons p ps ih =>
    cases p with
    | keep l =>
      simp only [withLabels, List.mem_cons, reduceCtorEq, false_or] at hm
      obtain ⟨o, h1, h2⟩ := ih (ls.drop l.length) (by simp at h ⊢; omega) hm
      exact ⟨o, by simp [h1], h2⟩
    | sub o n' =>
      simp only [withLabels, List.mem_cons] at hm
      rcases hm with hm | hm
      · injection hm with h1 h2
        exact ⟨o, by simp [h2], by rw [h1]; simp at h ⊢; omega⟩
      · obtain ⟨o, h1, h2⟩ := ih (ls.drop o.length) (by simp at h ⊢; omega) hm
        exact ⟨o, by simp [h1], h2⟩

theorem Respects.withLabels {f : Transducer} {ps : List (Piece α β)} {ls : List Int}
    (hf : Respects f ps) (h : ls.length = (srcOf ps).length) : Respects f (withLabels ps ls) := by
  intro x n hm y z hy hz
  obtain ⟨o, h1, h2⟩ := mem_withLabels ps ls h x n hm
  exact hf o n h1 y z (by omega) hz

theorem Good.withLabels {f : Transducer} {ps : List (Piece α β)} {ls : List Int}
    (hf : Good f ps) (h : ls.length = (srcOf ps).length) : Good f (withLabels ps ls) := by
  intro x n hm y hy
  obtain ⟨o, h1, h2⟩ := mem_withLabels ps ls h x n hm
  exact hf o n h1 y (by omega)

theorem propagate_withLabels (f : Transducer) (ps : List (Piece α β)) (ls : List Int)
    (hf : Respects f ps) (h : ls.length = (srcOf ps).length) :
    propagate ls ⟨groupOf 0 ps, true⟩ f = relabel f (withLabels ps ls) := by
  have := propagate_pieces f (withLabels ps ls) (hf.withLabels h)
  rw [srcOf_withLabels ps ls h, groupOf_withLabels ps ls 0 h] at this
  exact this

/-- Length of the output of a list of pieces. -/
def outLenOf (ps : List (Piece α β)) : Nat := (ps.map Piece.outLen).sum

@[simp] theorem outLenOf_nil : outLenOf ([] : List (Piece α β)) = 0 := rfl
@[simp] theorem outLenOf_keep (l : List α) (ps : List (Piece α β)) :
    outLenOf (keep l :: ps) = l.length + outLenOf ps := rfl
@[simp] theorem outLenOf_sub (o : List α) (n : List β) (ps : List (Piece α β)) :
    outLenOf (sub o n :: ps) = n.length + outLenOf ps := rfl

theorem outLenOf_eq (ps : List (Piece α α)) : outLenOf ps = (dstOf ps).length := by
  induction ps with
  | nil => rfl
  | cons p ps ih => cases p <;> simp [ih]

theorem outLenOf_withLabels (ps : List (Piece α β)) (ls : List Int)
    (h : ls.length = (srcOf ps).length) : outLenOf (withLabels ps ls) = outLenOf ps := by
  induction ps generalizing ls with
  | nil => rfl
  | cons p ps ih =>
    cases p with
    | keep l =>
      simp at h
      simp only [withLabels, outLenOf_keep]
      rw [ih (ls.drop l.length) (by simp; omega)]
      simp; omega
    | sub o n =>
      simp at h
      simp only [withLabels, outLenOf_sub]
      rw [ih (ls.drop o.length) (by simp; omega)]

theorem relabel_length (f : Transducer) (ps : List (Piece Int β)) (hf : Respects f ps) (y : List Int)
    (h : relabel f ps = .ok y) : y.length = outLenOf ps := by
  induction ps generalizing y with
  | nil => simp [relabel] at h; simp [h]
  | cons p ps ih =>
    cases p with
    | keep l =>
      simp only [relabel] at h
      cases hr : relabel f ps with
      | error e => rw [hr] at h; simp [Except.map] at h
      | ok z =>
        rw [hr] at h
        simp only [Except.map] at h
        injection h with h
        rw [← h]
        simp [ih hf.tail z hr]
    | sub o n =>
      simp only [relabel] at h
      cases hx : f o n.length with
      | error e => rw [hx] at h; simp [bind, Except.bind] at h
      | ok x =>
        cases hr : relabel f ps with
        | error e => rw [hx, hr] at h; simp [bind, Except.bind] at h
        | ok z =>
          rw [hx, hr] at h
          simp only [bind, Except.bind, pure, Except.pure] at h
          injection h with h
          rw [← h]
          simp [ih hf.tail z hr, hf o n (by simp) o x rfl hx]

theorem relabel_ok (f : Transducer) (ps : List (Piece Int β)) (hf : Good f ps) :
    ∃ y, relabel f ps = .ok y := by
  induction ps with
  | nil => exact ⟨[], rfl⟩
  | cons p ps ih =>
    obtain ⟨y, hy⟩ := ih hf.tail
    cases p with
    | keep l => exact ⟨l ++ y, by simp [relabel, hy, Except.map]⟩
    | sub o n =>
      obtain ⟨x, hx, _⟩ := hf o n (by simp) o rfl
      exact ⟨x ++ y, by simp [relabel, hx, hy, bind, Except.bind, pure, Except.pure]⟩

/-! ### Aligners made from pieces -/

/-- Backward direction of an aligner on pieces. -/
theorem swap_withLabels_length (ps : List (Piece α α)) :
    (srcOf (ps.map swap)).length = (dstOf ps).length := by rw [srcOf_swap]

theorem ofStrEdit_fwd (σ : SetOrder) (ps : List (Piece Char Char)) (n : Nat) (f b : Transducer)
    (hf : Respects f ps) (ls : List Int) (h : ls.length = (srcOf ps).length) :
    (Aligner.ofStrEdit σ (srcOf ps) ⟨groupOf 0 ps, true⟩ n f b).fwd ls
      = relabel f (withLabels ps ls) :=
  propagate_withLabels f ps ls hf h

theorem ofStrEdit_bwd (σ : SetOrder) (ps : List (Piece Char Char)) (n : Nat) (f b : Transducer)
    (hsep : Separated false (ps.map swap)) (hb : Respects b (ps.map swap)) (ls : List Int)
    (h : ls.length = (dstOf ps).length) :
    (Aligner.ofStrEdit σ (srcOf ps) ⟨groupOf 0 ps, true⟩ n f b).bwd ls
      = relabel b (withLabels (ps.map swap) ls) := by
  have h' : ls.length = (srcOf (ps.map swap)).length := by rw [srcOf_swap]; exact h
  simp only [Aligner.ofStrEdit, Str2Str.inverse]
  rw [editInverse_pieces σ ps hsep]
  exact propagate_withLabels b (ps.map swap) ls hb h'

theorem ofLstEdit_fwd (σ : SetOrder) (ps : List (Piece Tok Tok)) (n : Nat) (f b : Transducer)
    (hf : Respects f ps) (ls : List Int) (h : ls.length = (srcOf ps).length) :
    (Aligner.ofLstEdit σ (srcOf ps) ⟨groupOf 0 ps, true⟩ n f b).fwd ls
      = relabel f (withLabels ps ls) :=
  propagate_withLabels f ps ls hf h

theorem ofLstEdit_bwd (σ : SetOrder) (ps : List (Piece Tok Tok)) (n : Nat) (f b : Transducer)
    (hsep : Separated false (ps.map swap)) (hb : Respects b (ps.map swap)) (ls : List Int)
    (h : ls.length = (dstOf ps).length) :
    (Aligner.ofLstEdit σ (srcOf ps) ⟨groupOf 0 ps, true⟩ n f b).bwd ls
      = relabel b (withLabels (ps.map swap) ls) := by
  have h' : ls.length = (srcOf (ps.map swap)).length := by rw [srcOf_swap]; exact h
  simp only [Aligner.ofLstEdit, Lst2Lst.inverse]
  rw [editInverse_pieces σ ps hsep]
  exact propagate_withLabels b (ps.map swap) ls hb h'

end Uttut
