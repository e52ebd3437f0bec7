import Verif.Lemmas.Propagate
import Verif.Lemmas.Mode
import Verif.Model.Ops
import Verif.Spec.Ops

/-! Lemmas shared by all operators. -/

namespace Uttut

open Spec Piece

variable {α β : Type}

/-! ### relabel -/

theorem relabel_cons_keep (f : Transducer) (l : List Int) (ps : List (Piece Int β)) (y : List Int)
    (h : relabel f ps = .ok y) : relabel f (keep l :: ps) = .ok (l ++ y) := by
  simp [relabel, h, Except.map]

theorem relabel_cons_sub (f : Transducer) (o : List Int) (n : List β) (ps : List (Piece Int β))
    (x y : List Int) (hx : f o n.length = .ok x) (h : relabel f ps = .ok y) :
    relabel f (sub o n :: ps) = .ok (x ++ y) := by
  simp [relabel, h, hx, bind, Except.bind, pure, Except.pure]

theorem relabel_cons_sub_inv {f : Transducer} {o : List Int} {n : List β} {ps : List (Piece Int β)}
    {z : List Int} (h : relabel f (sub o n :: ps) = .ok z) :
    ∃ x y, f o n.length = .ok x ∧ relabel f ps = .ok y ∧ z = x ++ y := by
  simp only [relabel] at h
  cases hx : f o n.length with
  | error e => rw [hx] at h; simp [bind, Except.bind] at h
  | ok x =>
    cases hy : relabel f ps with
    | error e => rw [hx, hy] at h; simp [bind, Except.bind] at h
    | ok y =>
      rw [hx, hy] at h
      simp only [Except.bind_ok] at h
      injection h with h
      exact ⟨x, y, rfl, rfl, h.symm⟩

theorem relabel_cons_keep_inv {f : Transducer} {l : List Int} {ps : List (Piece Int β)}
    {z : List Int} (h : relabel f (keep l :: ps) = .ok z) :
    ∃ y, relabel f ps = .ok y ∧ z = l ++ y := by
  simp only [relabel] at h
  cases hy : relabel f ps with
  | error e => rw [hy] at h; simp [Except.map] at h
  | ok y =>
    rw [hy] at h
    simp only [Except.map] at h
    injection h with h
    exact ⟨y, rfl, h.symm⟩

/-- `b` undoes `f` on every replaced text. -/
def Undoes (f b : Transducer) (ps : List (Piece α α)) : Prop :=
  ∀ o n, sub o n ∈ ps → ∀ x, x.length = o.length →
    ∃ y, f x n.length = .ok y ∧ y.length = n.length ∧ b y o.length = .ok x

/-- Round trip of labels through an edit and its inverse. -/
theorem relabel_roundtrip (f b : Transducer) (ps : List (Piece α α)) (h : Undoes f b ps)
    (ls : List Int) (hl : ls.length = (srcOf ps).length) :
    ∃ y, relabel f (withLabels ps ls) = .ok y ∧ y.length = (dstOf ps).length ∧
      relabel b (withLabels (ps.map swap) y) = .ok ls := by
  induction ps generalizing ls with
  | nil =>
    have : ls = [] := by simpa using hl
    subst this
    exact ⟨[], rfl, rfl, rfl⟩
  | cons p ps ih =>
    have ht : Undoes f b ps := fun o n hm => h o n (List.mem_cons_of_mem _ hm)
    cases p with
    | keep l =>
      simp only [srcOf_keep, List.length_append] at hl
      obtain ⟨y, h1, h2, h3⟩ := ih ht (ls.drop l.length) (by rw [List.length_drop]; omega)
      have hlen : (ls.take l.length).length = l.length := by rw [List.length_take]; omega
      refine ⟨ls.take l.length ++ y, relabel_cons_keep f _ _ _ h1, ?_, ?_⟩
      · simp [h2, hlen]
      · simp only [List.map_cons, swap, withLabels]
        rw [List.take_append_of_le_length (by omega), List.take_of_length_le (by omega)]
        rw [show (ls.take l.length ++ y).drop l.length = y by
          rw [List.drop_append_of_le_length (by omega), List.drop_of_length_le (by omega)]; simp]
        rw [relabel_cons_keep b _ _ _ h3]
        simp
    | sub o n =>
      simp only [srcOf_sub, List.length_append] at hl
      obtain ⟨y, h1, h2, h3⟩ := ih ht (ls.drop o.length) (by rw [List.length_drop]; omega)
      have hlen : (ls.take o.length).length = o.length := by rw [List.length_take]; omega
      obtain ⟨x, hx1, hx2, hx3⟩ := h o n (by simp) (ls.take o.length) hlen
      refine ⟨x ++ y, relabel_cons_sub f _ _ _ _ _ hx1 h1, ?_, ?_⟩
      · simp [h2, hx2]
      · simp only [List.map_cons, swap, withLabels]
        rw [List.take_append_of_le_length (by omega), List.take_of_length_le (by omega)]
        rw [show (x ++ y).drop n.length = y by
          rw [List.drop_append_of_le_length (by omega), List.drop_of_length_le (by omega)]; simp]
        rw [relabel_cons_sub b x o _ _ _ hx3 h3]
        simp

theorem Undoes.good {f b : Transducer} {ps : List (Piece α α)} (h : Undoes f b ps) : Good f ps := by
  intro o n hm x hx
  obtain ⟨y, h1, h2, _⟩ := h o n hm x hx
  exact ⟨y, h1, h2⟩

/-! ### aligners -/

theorem Aligner.transform_of_fwd (a : Aligner) (ls y : List Int) (h1 : ls.length = a.inputLength)
    (h2 : a.fwd ls = .ok y) (h3 : y.length = a.outputLength) : a.transform ls = .ok y := by
  unfold Aligner.transform Aligner.validateInput Aligner.validateOutput
  rw [if_neg (by simp [h1]), h2]
  simp only [Except.bind_ok]
  rw [if_neg (by simp [h3])]
  rfl

theorem Aligner.inverse_of_bwd (a : Aligner) (ls y : List Int) (h1 : ls.length = a.outputLength)
    (h2 : a.bwd ls = .ok y) (h3 : y.length = a.inputLength) : a.inverseTransform ls = .ok y := by
  unfold Aligner.inverseTransform Aligner.validateInput Aligner.validateOutput
  rw [if_neg (by simp [h1]), h2]
  simp only [Except.bind_ok]
  rw [if_neg (by simp [h3])]
  rfl

/-- The aligner of a string edit given by pieces: forward. -/
theorem strAligner_transform (σ : SetOrder) (ps : List (Piece Char Char)) (f b : Transducer)
    (hf : Respects f ps) (ls y : List Int) (hl : ls.length = (srcOf ps).length)
    (hy : relabel f (withLabels ps ls) = .ok y) :
    (Aligner.ofStrEdit σ (srcOf ps) ⟨groupOf 0 ps, true⟩ (dstOf ps).length f b).transform ls = .ok y := by
  refine Aligner.transform_of_fwd _ ls y hl ?_ ?_
  · rw [ofStrEdit_fwd σ ps _ f b hf ls hl, hy]
  · rw [relabel_length f _ (hf.withLabels hl) y hy, outLenOf_withLabels ps ls hl, outLenOf_eq]
    rfl

theorem strAligner_inverse (σ : SetOrder) (ps : List (Piece Char Char)) (f b : Transducer)
    (hsep : Separated false (ps.map swap)) (hb : Respects b (ps.map swap)) (ls y : List Int)
    (hl : ls.length = (dstOf ps).length) (hy : relabel b (withLabels (ps.map swap) ls) = .ok y) :
    (Aligner.ofStrEdit σ (srcOf ps) ⟨groupOf 0 ps, true⟩ (dstOf ps).length f b).inverseTransform ls
      = .ok y := by
  have hl' : ls.length = (srcOf (ps.map swap)).length := by rw [srcOf_swap]; exact hl
  refine Aligner.inverse_of_bwd _ ls y hl ?_ ?_
  · rw [ofStrEdit_bwd σ ps _ f b hsep hb ls hl, hy]
  · rw [relabel_length b _ (hb.withLabels hl') y hy, outLenOf_withLabels _ ls hl', outLenOf_eq, dstOf_swap]
    rfl

theorem lstAligner_transform (σ : SetOrder) (ps : List (Piece Tok Tok)) (f b : Transducer)
    (hf : Respects f ps) (ls y : List Int) (hl : ls.length = (srcOf ps).length)
    (hy : relabel f (withLabels ps ls) = .ok y) :
    (Aligner.ofLstEdit σ (srcOf ps) ⟨groupOf 0 ps, true⟩ (dstOf ps).length f b).transform ls = .ok y := by
  refine Aligner.transform_of_fwd _ ls y hl ?_ ?_
  · rw [ofLstEdit_fwd σ ps _ f b hf ls hl, hy]
  · rw [relabel_length f _ (hf.withLabels hl) y hy, outLenOf_withLabels ps ls hl, outLenOf_eq]
    rfl

theorem lstAligner_inverse (σ : SetOrder) (ps : List (Piece Tok Tok)) (f b : Transducer)
    (hsep : Separated false (ps.map swap)) (hb : Respects b (ps.map swap)) (ls y : List Int)
    (hl : ls.length = (dstOf ps).length) (hy : relabel b (withLabels (ps.map swap) ls) = .ok y) :
    (Aligner.ofLstEdit σ (srcOf ps) ⟨groupOf 0 ps, true⟩ (dstOf ps).length f b).inverseTransform ls
      = .ok y := by
  have hl' : ls.length = (srcOf (ps.map swap)).length := by rw [srcOf_swap]; exact hl
  refine Aligner.inverse_of_bwd _ ls y hl ?_ ?_
  · rw [ofLstEdit_bwd σ ps _ f b hsep hb ls hl, hy]
  · rw [relabel_length b _ (hb.withLabels hl') y hy, outLenOf_withLabels _ ls hl', outLenOf_eq, dstOf_swap]
    rfl

theorem relabel_good {f : Transducer} {ps : List (Piece α β)} (hf : Good f ps) (ls : List Int)
    (hl : ls.length = (srcOf ps).length) :
    ∃ y, relabel f (withLabels ps ls) = .ok y ∧ y.length = outLenOf ps := by
  obtain ⟨y, hy⟩ := relabel_ok f _ (hf.withLabels hl)
  exact ⟨y, hy, by rw [relabel_length f _ (hf.respects.withLabels hl) y hy, outLenOf_withLabels ps ls hl]⟩

theorem strAligner_aligned (σ : SetOrder) (ps : List (Piece Char Char)) (f b : Transducer)
    (hf : Good f ps) (hb : Good b (ps.map swap)) (hsep : Separated false (ps.map swap)) :
    Aligned (Aligner.ofStrEdit σ (srcOf ps) ⟨groupOf 0 ps, true⟩ (dstOf ps).length f b)
      (srcOf ps).length (dstOf ps).length anyLabels where
  input := rfl
  output := rfl
  forward ls hl := by
    obtain ⟨y, hy, hlen⟩ := relabel_good hf ls hl
    exact ⟨y, strAligner_transform σ ps f b hf.respects ls y hl hy, by rw [hlen, outLenOf_eq]⟩
  backward ls hl _ := by
    obtain ⟨y, hy, hlen⟩ := relabel_good hb ls (by rw [srcOf_swap]; exact hl)
    exact ⟨y, strAligner_inverse σ ps f b hsep hb.respects ls y hl hy, by
      rw [hlen, outLenOf_eq, dstOf_swap]⟩

theorem lstAligner_aligned (σ : SetOrder) (ps : List (Piece Tok Tok)) (f b : Transducer)
    (hf : Good f ps) (hb : Good b (ps.map swap)) (hsep : Separated false (ps.map swap)) :
    Aligned (Aligner.ofLstEdit σ (srcOf ps) ⟨groupOf 0 ps, true⟩ (dstOf ps).length f b)
      (srcOf ps).length (dstOf ps).length anyLabels where
  input := rfl
  output := rfl
  forward ls hl := by
    obtain ⟨y, hy, hlen⟩ := relabel_good hf ls hl
    exact ⟨y, lstAligner_transform σ ps f b hf.respects ls y hl hy, by rw [hlen, outLenOf_eq]⟩
  backward ls hl _ := by
    obtain ⟨y, hy, hlen⟩ := relabel_good hb ls (by rw [srcOf_swap]; exact hl)
    exact ⟨y, lstAligner_inverse σ ps f b hsep hb.respects ls y hl hy, by
      rw [hlen, outLenOf_eq, dstOf_swap]⟩

theorem null_aligned (n : Nat) : Aligned (Aligner.null n n) n n anyLabels where
  input := rfl
  output := rfl
  forward ls hl := ⟨ls, Aligner.transform_of_fwd _ ls ls hl rfl hl, hl⟩
  backward ls hl _ := ⟨ls, Aligner.inverse_of_bwd _ ls ls hl rfl hl, hl⟩

theorem null_passThrough (n : Nat) : PassThrough (Aligner.null n n) n := fun ls hl =>
  ⟨Aligner.transform_of_fwd _ ls ls hl rfl hl, Aligner.inverse_of_bwd _ ls ls hl rfl hl⟩

/-! ### transducers -/

theorem getNotEntity_good (ps : List (Piece α β)) : Good Transduce.getNotEntity ps :=
  fun _ _ _ _ _ => ⟨_, rfl, by simp⟩

theorem getMostCommon_ok (l : List Int) (n : Nat) (h : l ≠ []) :
    ∃ x, IsFirstMode l x ∧ Transduce.getMostCommon l n = .ok (List.replicate n x) := by
  obtain ⟨k, m, rest, h1, h2⟩ := mostCommonItems_firstMode l h
  exact ⟨k, h2, by simp only [Transduce.getMostCommon, h1]⟩

theorem getMostCommonExcept_ok (l : List Int) (n : Nat) :
    ∃ x, Transduce.getMostCommonExceptNotEntity l n = .ok (List.replicate n x) ∧
      ((∀ y ∈ l, y = 0) → x = 0) ∧ ((∃ y ∈ l, y ≠ 0) → IsFirstMode (l.filter fun y => y ≠ 0) x) := by
  unfold Transduce.getMostCommonExceptNotEntity
  dsimp only
  by_cases h : (l.filter (fun y => decide (y ≠ notEntity))).length = 0
  · rw [if_pos h]
    have h' := List.length_eq_zero_iff.mp h
    rw [List.filter_eq_nil_iff] at h'
    refine ⟨0, rfl, fun _ => rfl, fun ⟨y, hy, h0⟩ => ?_⟩
    exact absurd (decide_eq_true h0) (h' y hy)
  · rw [if_neg h]
    have hne : l.filter (fun y => decide (y ≠ notEntity)) ≠ [] := fun e => h (by rw [e]; rfl)
    obtain ⟨x, hx, hg⟩ := getMostCommon_ok _ n hne
    refine ⟨x, hg, fun h0 => ?_, fun _ => hx⟩
    exfalso
    apply hne
    rw [List.filter_eq_nil_iff]
    intro y hy
    exact fun hd => of_decide_eq_true hd (h0 y hy)

theorem getMostCommonExcept_good (ps : List (Piece α β)) :
    Good Transduce.getMostCommonExceptNotEntity ps := by
  intro o n _ x _
  obtain ⟨y, hy, _⟩ := getMostCommonExcept_ok x n.length
  exact ⟨_, hy, by simp⟩

theorem getMostCommon_good (ps : List (Piece α β)) (h : ∀ o n, sub o n ∈ ps → o ≠ []) :
    Good Transduce.getMostCommon ps := by
  intro o n hm x hx
  have hne : x ≠ [] := by
    intro e
    rw [e] at hx
    exact h o n hm (List.length_eq_zero_iff.mp hx.symm)
  obtain ⟨y, _, hy⟩ := getMostCommon_ok x n.length hne
  exact ⟨_, hy, by simp⟩

theorem isFirstMode_firstMode (l : List Int) (h : l ≠ []) : IsFirstMode l (firstMode l) := by
  obtain ⟨x, hx, _⟩ := getMostCommon_ok l 0 h
  have hp : ∀ y, (l.all fun z => decide (l.count z ≤ l.count y)) = true ↔ ∀ z ∈ l, l.count z ≤ l.count y := by
    intro y; simp
  unfold firstMode
  cases hf : l.find? (fun x => l.all fun y => decide (l.count y ≤ l.count x)) with
  | none =>
    rw [List.find?_eq_none] at hf
    exact absurd ((hp x).mpr hx.2.1) (hf x hx.1)
  | some y =>
    simp only [Option.getD_some]
    obtain ⟨h1, pre, post, h2, h3⟩ := List.find?_eq_some_iff_append.mp hf
    have h1 := (hp y).mp h1
    have hyl : y ∈ l := by rw [h2]; simp
    refine ⟨hyl, h1, fun z hz hc => ?_⟩
    have hz' : z ∉ pre := by
      intro hm
      have := h3 z hm
      rw [Bool.not_eq_true', ← Bool.not_eq_true] at this
      exact this ((hp z).mpr fun w hw => by rw [hc]; exact h1 w hw)
    have hy' : y ∉ pre := by
      intro hm
      have := h3 y hm
      rw [Bool.not_eq_true', ← Bool.not_eq_true] at this
      exact this ((hp y).mpr h1)
    rw [h2, List.idxOf_append, List.idxOf_append, if_neg hz', if_neg hy']
    simp

theorem getMostCommon_firstMode (l : List Int) (n : Nat) (h : l ≠ []) :
    Transduce.getMostCommon l n = .ok (List.replicate n (firstMode l)) := by
  obtain ⟨x, hx, hg⟩ := getMostCommon_ok l n h
  rw [hg, isFirstMode_unique hx (isFirstMode_firstMode l h)]

theorem getMostCommonExcept_mode (l : List Int) (n : Nat) :
    Transduce.getMostCommonExceptNotEntity l n = .ok (List.replicate n (firstNonzeroMode l)) := by
  obtain ⟨x, h1, h2, h3⟩ := getMostCommonExcept_ok l n
  rw [h1]
  congr 2
  by_cases h : ∃ y ∈ l, y ≠ 0
  · have hx := h3 h
    have hne : (l.filter fun y => decide (y ≠ 0)) ≠ [] := List.ne_nil_of_mem hx.1
    exact isFirstMode_unique hx (isFirstMode_firstMode _ hne)
  · rw [h2 (fun y hy => Classical.byContradiction fun h0 => h ⟨y, hy, h0⟩)]
    unfold firstNonzeroMode
    have : (l.filter fun y => decide (y ≠ 0)) = [] := by
      rw [List.filter_eq_nil_iff]
      intro y hy hd
      exact h ⟨y, hy, of_decide_eq_true hd⟩
    rw [this]
    rfl

/-- On equal labels every reducer returns that label. -/
theorem getMostCommon_replicate (k n : Nat) (hk : 0 < k) (x : Int) :
    Transduce.getMostCommon (List.replicate k x) n = .ok (List.replicate n x) := by
  have hne : List.replicate k x ≠ [] := by
    intro e; have := congrArg List.length e; simp at this; omega
  obtain ⟨y, hy, h⟩ := getMostCommon_ok (List.replicate k x) n hne
  rw [h, List.eq_of_mem_replicate hy.1]

/-- If all labels different from 0 are `x`, and one is unless `x = 0`, the reducer returns `x`. -/
theorem getMostCommonExcept_const (l : List Int) (n : Nat) (x : Int)
    (h : ∀ y ∈ l, y = 0 ∨ y = x) (hx : x ≠ 0 → x ∈ l) :
    Transduce.getMostCommonExceptNotEntity l n = .ok (List.replicate n x) := by
  obtain ⟨y, h1, h2, h3⟩ := getMostCommonExcept_ok l n
  rw [h1]
  congr 2
  by_cases h0 : x = 0
  · subst h0
    exact h2 (fun y hy => by rcases h y hy with h | h <;> exact h)
  · have hm := (h3 ⟨x, hx h0, h0⟩).1
    rw [List.mem_filter] at hm
    rcases h y hm.1 with e | e
    · exfalso; simp [e] at hm
    · exact e

theorem separated_swap_of_nonempty (ps : List (Piece α α)) (h : ∀ o n, sub o n ∈ ps → n ≠ []) (b : Bool) :
    Separated b (ps.map swap) := by
  refine separated_of_nonempty _ (fun o n hm => ?_) b
  obtain ⟨p, hp, he⟩ := List.mem_map.mp hm
  cases p with
  | keep l => simp [swap] at he
  | sub o' n' =>
    simp only [swap] at he
    injection he with h1 h2
    exact h1 ▸ h o' n' hp

theorem mem_map_swap {ps : List (Piece α α)} {o n : List α} (h : sub o n ∈ ps.map swap) : sub n o ∈ ps := by
  obtain ⟨p, hp, he⟩ := List.mem_map.mp h
  cases p with
  | keep l => simp [swap] at he
  | sub o' n' =>
    simp only [swap] at he
    injection he with h1 h2
    subst h1; subst h2; exact hp

/-! ### element-wise operators -/

/-- Pieces of an element-wise edit: `pr x` is the element, `nv x` its new value (`none`: kept). -/
def elemPieces {ι : Type} (pr : ι → α) (nv : ι → Option (List β)) (xs : List ι) : List (Piece α β) :=
  xs.map fun x => match nv x with
    | some v => sub [pr x] v
    | none => keep [pr x]

theorem srcOf_elemPieces {ι : Type} (pr : ι → α) (nv : ι → Option (List β)) (xs : List ι) :
    srcOf (elemPieces pr nv xs) = xs.map pr := by
  induction xs with
  | nil => rfl
  | cons x xs ih =>
    simp only [elemPieces, List.map_cons] at ih ⊢
    cases h : nv x <;> simp [ih]

theorem dstOf_elemPieces {ι : Type} (pr : ι → α) (nv : ι → Option (List α)) (xs : List ι) :
    dstOf (elemPieces pr nv xs) = xs.flatMap fun x => (nv x).getD [pr x] := by
  induction xs with
  | nil => rfl
  | cons x xs ih =>
    simp only [elemPieces, List.map_cons, List.flatMap_cons] at ih ⊢
    cases h : nv x <;> simp [ih]

theorem mem_elemPieces {ι : Type} {pr : ι → α} {nv : ι → Option (List β)} {xs : List ι} {o : List α}
    {n : List β} (h : sub o n ∈ elemPieces pr nv xs) : ∃ x ∈ xs, o = [pr x] ∧ nv x = some n := by
  simp only [elemPieces, List.mem_map] at h
  obtain ⟨x, hx, he⟩ := h
  cases hn : nv x with
  | none => rw [hn] at he; simp at he
  | some v =>
    rw [hn] at he
    injection he with h1 h2
    exact ⟨x, hx, h1.symm, by rw [hn, h2]⟩

theorem enumAdd_pieces {ι : Type} (pr : ι → α) (nv : ι → Option (List β)) (xs : List ι) (i : Nat)
    (g : ReplacementGroup (List β)) :
    enumAdd (fun x => .ok (nv x)) xs i g =
      .ok ⟨g.reps ++ groupOf i (elemPieces pr nv xs), g.isDone⟩ := by
  induction xs generalizing i g with
  | nil => simp [enumAdd, elemPieces, groupOf]
  | cons x xs ih =>
    simp only [enumAdd, Except.bind_ok]
    cases h : nv x with
    | none =>
      simp only [ih, elemPieces, List.map_cons, h, groupOf]
      simp
    | some v =>
      simp only [elemPieces, List.map_cons, h, groupOf]
      rw [ReplacementGroup.add_of_le g (Nat.le_succ i)]
      exact (ih _ _).trans (by simp [elemPieces])

theorem separated_elemPieces {ι : Type} (pr : ι → α) (nv : ι → Option (List β)) (xs : List ι) (b : Bool) :
    Separated b (elemPieces pr nv xs) :=
  separated_of_nonempty _ (fun o n hm => by
    obtain ⟨x, _, h, _⟩ := mem_elemPieces hm
    rw [h]; simp) b

/-- `charwiseTransform` with a total new-value function. -/
theorem charwiseTransform_eq {ι : Type} (σ : SetOrder) (pr : ι → Char) (nv : ι → Option Str)
    (xs : List ι) (mk : ReplacementGroup Str → Nat → Aligner) :
    charwiseTransform σ (fun x => .ok (nv x)) xs (xs.map pr) mk =
      .ok (xs.flatMap fun x => (nv x).getD [pr x],
        mk ⟨groupOf 0 (elemPieces pr nv xs), true⟩ (xs.flatMap fun x => (nv x).getD [pr x]).length) := by
  unfold charwiseTransform
  rw [enumAdd_pieces (β := Char) pr nv xs 0 ReplacementGroup.empty]
  simp only [Except.bind_ok, ReplacementGroup.empty, List.nil_append]
  rw [done_groupOf (β := Char) σ 0 (elemPieces pr nv xs) false false (separated_elemPieces pr nv xs false)]
  simp only [Except.bind_ok]
  have := strApply_pieces (elemPieces pr nv xs)
  rw [srcOf_elemPieces, dstOf_elemPieces] at this
  rw [this]
  rfl

theorem tokenwiseTransform_eq (σ : SetOrder) (nv : Tok → Option (List Tok))
    (l : List Tok) (mk : ReplacementGroup (List Tok) → Nat → Aligner) :
    tokenwiseTransform σ (fun x => .ok (nv x)) l mk =
      .ok (l.flatMap fun x => (nv x).getD [x],
        mk ⟨groupOf 0 (elemPieces id nv l), true⟩ (l.flatMap fun x => (nv x).getD [x]).length) := by
  unfold tokenwiseTransform
  rw [enumAdd_pieces (β := Tok) id nv l 0 ReplacementGroup.empty]
  simp only [Except.bind_ok, ReplacementGroup.empty, List.nil_append]
  rw [done_groupOf (β := Tok) σ 0 (elemPieces id nv l) false false (separated_elemPieces id nv l false)]
  simp only [Except.bind_ok]
  have := lstApply_pieces (elemPieces id nv l)
  rw [srcOf_elemPieces, dstOf_elemPieces, List.map_id] at this
  rw [this]
  rfl

/-- `enumAdd` only looks at the new values of the elements present. -/
theorem enumAdd_congr {ι V : Type} (nv nv' : ι → Res (Option V)) (xs : List ι)
    (h : ∀ x ∈ xs, nv x = nv' x) (i : Nat) (g : ReplacementGroup V) :
    enumAdd nv xs i g = enumAdd nv' xs i g := by
  induction xs generalizing i g with
  | nil => rfl
  | cons x xs ih =>
    simp only [enumAdd, h x (by simp)]
    cases nv' x with
    | error e => rfl
    | ok o =>
      cases o <;> simp only [Except.bind_ok] <;> exact ih (fun y hy => h y (by simp [hy])) _ _

/-- The first failing element makes `enumAdd` fail. -/
theorem enumAdd_error {ι V : Type} (nv : ι → Res (Option V)) (xs : List ι) (e : Exc)
    (h : ∃ x ∈ xs, nv x = .error e) (h' : ∀ x ∈ xs, ∀ e', nv x = .error e' → e' = e) (i : Nat)
    (g : ReplacementGroup V) : enumAdd nv xs i g = .error e := by
  induction xs generalizing i g with
  | nil => simp at h
  | cons x xs ih =>
    simp only [enumAdd]
    cases hx : nv x with
    | error e' => rw [h' x (by simp) e' hx]; rfl
    | ok o =>
      have hxs : ∃ y ∈ xs, nv y = .error e := by
        obtain ⟨y, hy, he⟩ := h
        rcases List.mem_cons.mp hy with rfl | hy
        · rw [hx] at he; simp at he
        · exact ⟨y, hy, he⟩
      cases o <;> simp only [Except.bind_ok] <;> exact ih hxs (fun y hy => h' y (by simp [hy])) _ _

/-- Labels of an element-wise edit. -/
theorem relabel_elemPieces {ι : Type} (pr : ι → α) (nv : ι → Option (List β)) (f : Transducer)
    (F : ι → Int → List Int) (xs : List ι)
    (hf : ∀ x ∈ xs, ∀ n, nv x = some n → ∀ l, f [l] n.length = .ok (F x l)) (ls : List Int)
    (hl : ls.length = xs.length) :
    relabel f (withLabels (elemPieces pr nv xs) ls) =
      .ok ((xs.zip ls).flatMap fun p => match nv p.1 with | some _ => F p.1 p.2 | none => [p.2]) := by
  induction xs generalizing ls with
  | nil => rfl
  | cons x xs ih =>
    cases ls with
    | nil => simp at hl
    | cons l ls =>
      have ih := ih (fun y hy => hf y (by simp [hy])) ls (by simpa using hl)
      simp only [elemPieces, List.map_cons] at ih ⊢
      simp only [List.zip_cons_cons, List.flatMap_cons]
      cases hn : nv x with
      | none =>
        simp only [withLabels, List.length_cons, List.length_nil, Nat.zero_add, List.take_succ_cons,
          List.take_zero, List.drop_succ_cons, List.drop_zero]
        exact relabel_cons_keep f _ _ _ ih
      | some v =>
        simp only [withLabels, List.length_cons, List.length_nil, Nat.zero_add, List.take_succ_cons,
          List.take_zero, List.drop_succ_cons, List.drop_zero]
        exact relabel_cons_sub f _ _ _ _ _ (hf x (by simp) v hn l) ih

/-! ### everything about an operator given by pieces -/

theorem firstNonzeroMode_single (x : Int) : firstNonzeroMode [x] = x := by
  unfold firstNonzeroMode
  by_cases h : x = 0
  · subst h; rfl
  · simp [firstMode, h]

/-- Labels going back through an edit of single elements: the most common non-zero label of each replacement. -/
theorem relabel_elemPieces_back {ι : Type} (pr : ι → α) (nv : ι → Option (List α)) (xs : List ι) (ls : List Int)
    (hl : ls.length = (xs.flatMap fun x => (nv x).getD [pr x]).length) :
    relabel Transduce.getMostCommonExceptNotEntity (withLabels ((elemPieces pr nv xs).map swap) ls) =
      .ok ((segments (xs.map fun x => ((nv x).getD [pr x]).length) ls).map firstNonzeroMode) := by
  induction xs generalizing ls with
  | nil => rfl
  | cons x xs ih =>
    have hlen : ls.length = ((nv x).getD [pr x]).length + (xs.flatMap fun x => (nv x).getD [pr x]).length := by
      rw [hl, List.flatMap_cons, List.length_append]
    have ih' := ih (ls.drop ((nv x).getD [pr x]).length) (by rw [List.length_drop]; omega)
    simp only [elemPieces, List.map_cons, segments] at ih' ⊢
    cases hn : nv x with
    | none =>
      rw [hn] at ih' hlen
      simp only [Option.getD_none, List.length_cons, List.length_nil] at ih' hlen ⊢
      have : ∃ y, ls.take (0 + 1) = [y] := by
        cases ls with
        | nil => simp at hlen; omega
        | cons y ls => exact ⟨y, rfl⟩
      obtain ⟨y, hy⟩ := this
      have := relabel_cons_keep _ (ls.take (0 + 1)) _ _ ih'
      rw [hy] at this ⊢
      rw [firstNonzeroMode_single]
      simp only [swap, withLabels, List.length_cons, List.length_nil]
      rw [hy]
      exact this
    | some v =>
      rw [hn] at ih'
      simp only [Option.getD_some] at ih' ⊢
      simp only [swap, withLabels]
      exact relabel_cons_sub _ _ [pr x] _ _ _ (getMostCommonExcept_mode (ls.take v.length) 1) ih'

theorem strAligner_pack (σ : SetOrder) (ps : List (Piece Char Char)) (f b : Transducer) (s out : Str)
    (hsrc : srcOf ps = s) (hdst : dstOf ps = out) (hf : Good f ps) (hb : Good b (ps.map swap))
    (hsep : Separated false (ps.map swap)) :
    let a := Aligner.ofStrEdit σ s ⟨groupOf 0 ps, true⟩ out.length f b
    Aligned a s.length out.length anyLabels ∧
    (∀ ls y, ls.length = s.length → relabel f (withLabels ps ls) = .ok y → a.transform ls = .ok y) ∧
    (∀ ls y, ls.length = out.length → relabel b (withLabels (ps.map swap) ls) = .ok y →
      a.inverseTransform ls = .ok y) ∧
    (Undoes f b ps → ∀ ls y, a.transform ls = .ok y → a.inverseTransform y = .ok ls) := by
  subst hsrc; subst hdst
  have ht := fun ls y => strAligner_transform σ ps f b hf.respects ls y
  have hi := fun ls y => strAligner_inverse σ ps f b hsep hb.respects ls y
  refine ⟨strAligner_aligned σ ps f b hf hb hsep, ht, hi, fun hU ls y hy => ?_⟩
  have hlen : ls.length = (srcOf ps).length := by
    by_cases h : ls.length = (srcOf ps).length
    · exact h
    · unfold Aligner.transform Aligner.validateInput at hy
      rw [if_pos (by exact h)] at hy; cases hy
  obtain ⟨z, h1, h2, h3⟩ := relabel_roundtrip _ _ _ hU ls hlen
  rw [ht ls z hlen h1] at hy
  injection hy with hy
  subst hy
  exact hi z ls h2 h3

theorem lstAligner_pack (σ : SetOrder) (ps : List (Piece Tok Tok)) (f b : Transducer) (s out : List Tok)
    (hsrc : srcOf ps = s) (hdst : dstOf ps = out) (hf : Good f ps) (hb : Good b (ps.map swap))
    (hsep : Separated false (ps.map swap)) :
    let a := Aligner.ofLstEdit σ s ⟨groupOf 0 ps, true⟩ out.length f b
    Aligned a s.length out.length anyLabels ∧
    (∀ ls y, ls.length = s.length → relabel f (withLabels ps ls) = .ok y → a.transform ls = .ok y) ∧
    (∀ ls y, ls.length = out.length → relabel b (withLabels (ps.map swap) ls) = .ok y →
      a.inverseTransform ls = .ok y) ∧
    (Undoes f b ps → ∀ ls y, a.transform ls = .ok y → a.inverseTransform y = .ok ls) := by
  subst hsrc; subst hdst
  have ht := fun ls y => lstAligner_transform σ ps f b hf.respects ls y
  have hi := fun ls y => lstAligner_inverse σ ps f b hsep hb.respects ls y
  refine ⟨lstAligner_aligned σ ps f b hf hb hsep, ht, hi, fun hU ls y hy => ?_⟩
  have hlen : ls.length = (srcOf ps).length := by
    by_cases h : ls.length = (srcOf ps).length
    · exact h
    · unfold Aligner.transform Aligner.validateInput at hy
      rw [if_pos (by exact h)] at hy; cases hy
  obtain ⟨z, h1, h2, h3⟩ := relabel_roundtrip _ _ _ hU ls hlen
  rw [ht ls z hlen h1] at hy
  injection hy with hy
  subst hy
  exact hi z ls h2 h3

/-- Inverse of an edit replacing single elements by single elements. -/
theorem swap_elemPieces {ι : Type} (pr : ι → α) (nv : ι → Option α) (xs : List ι) :
    (elemPieces pr (fun x => (nv x).map fun v => [v]) xs).map swap =
      elemPieces (fun x => (nv x).getD (pr x)) (fun x => (nv x).map fun _ => [pr x]) xs := by
  induction xs with
  | nil => rfl
  | cons x xs ih =>
    simp only [elemPieces, List.map_cons] at ih ⊢
    rw [ih]
    cases nv x <;> rfl

theorem zip_flatMap_snd {ι : Type} (xs : List ι) (ls : List Int) (h : ls.length = xs.length) :
    ((xs.zip ls).flatMap fun p => [p.2]) = ls := by
  induction xs generalizing ls with
  | nil => cases ls <;> simp_all
  | cons x xs ih =>
    cases ls with
    | nil => simp at h
    | cons l ls => simp [ih ls (by simpa using h)]

theorem tokenwiseTransform_congr (σ : SetOrder) (nv : Tok → Res (Option (List Tok)))
    (nv' : Tok → Option (List Tok)) (l : List Tok) (h : ∀ x ∈ l, nv x = .ok (nv' x))
    (mk : ReplacementGroup (List Tok) → Nat → Aligner) :
    tokenwiseTransform σ nv l mk =
      .ok (l.flatMap fun x => (nv' x).getD [x],
        mk ⟨groupOf 0 (elemPieces id nv' l), true⟩ (l.flatMap fun x => (nv' x).getD [x]).length) := by
  rw [← tokenwiseTransform_eq]
  unfold tokenwiseTransform
  rw [enumAdd_congr nv (fun x => .ok (nv' x)) l h]

end Uttut
