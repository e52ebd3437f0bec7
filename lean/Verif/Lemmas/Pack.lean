import Verif.Lemmas.Data

/-! Lemmas about `pack_to_datum`: decomposition of a label list into runs. -/

namespace Uttut

open Spec

/-- The label list with the runs `(label, length)`. -/
def flatRuns (R : List (Int × Nat)) : List Int := R.flatMap fun r => List.replicate r.2 r.1

def GoodRuns (R : List (Int × Nat)) : Prop :=
  (∀ r ∈ R, 0 < r.2) ∧ Neighbours (fun a b => a.1 ≠ b.1) R

theorem flatRuns_cons (r : Int × Nat) (R : List (Int × Nat)) :
    flatRuns (r :: R) = List.replicate r.2 r.1 ++ flatRuns R := rfl

theorem exists_runs (ls : List Int) : ∃ R, GoodRuns R ∧ flatRuns R = ls := by
  induction ls with
  | nil => exact ⟨[], ⟨by simp, trivial⟩, rfl⟩
  | cons l ls ih =>
    obtain ⟨R, ⟨h1, h2⟩, h3⟩ := ih
    cases R with
    | nil => exact ⟨[(l, 1)], ⟨by simp, trivial⟩, by rw [← h3]; rfl⟩
    | cons r R =>
      by_cases he : l = r.1
      · refine ⟨(r.1, r.2 + 1) :: R, ⟨?_, ?_⟩, ?_⟩
        · intro x hx
          rcases List.mem_cons.mp hx with rfl | hx
          · simp
          · exact h1 x (by simp [hx])
        · cases R with
          | nil => trivial
          | cons s R => exact h2
        · rw [← h3, he, flatRuns_cons, flatRuns_cons]
          simp [List.replicate_succ]
      · refine ⟨(l, 1) :: r :: R, ⟨?_, he, h2⟩, by rw [← h3]; rfl⟩
        intro x hx
        rcases List.mem_cons.mp hx with rfl | hx
        · simp
        · exact h1 x hx

theorem GoodRuns.tail {r : Int × Nat} {R : List (Int × Nat)} (h : GoodRuns (r :: R)) : GoodRuns R := by
  refine ⟨fun x hx => h.1 x (by simp [hx]), ?_⟩
  cases R with
  | nil => trivial
  | cons s R => exact h.2.2

theorem neighbours_reverse {α : Type} {P : α → α → Prop} (l : List α) (h : Neighbours P l) :
    Neighbours (fun a b => P b a) l.reverse := by
  have key : ∀ (l : List α) (a : α) (acc : List α), Neighbours P (a :: l) →
      Neighbours (fun a b => P b a) (a :: acc) → Neighbours (fun a b => P b a) (l.reverse ++ a :: acc) := by
    intro l
    induction l with
    | nil => intro a acc _ h; exact h
    | cons b l ih =>
      intro a acc h1 h2
      have := ih b (a :: acc) h1.2 ⟨h1.1, h2⟩
      simpa using this
  cases l with
  | nil => trivial
  | cons a l => simpa using key l a [] h trivial

theorem GoodRuns.reverse {R : List (Int × Nat)} (h : GoodRuns R) : GoodRuns R.reverse := by
  refine ⟨fun r hr => h.1 r (by simpa using hr), ?_⟩
  have := neighbours_reverse R h.2
  refine cast ?_ this
  congr 1
  funext a b
  exact propext ⟨fun h => h.symm, fun h => h.symm⟩

theorem flatRuns_append (R S : List (Int × Nat)) : flatRuns (R ++ S) = flatRuns R ++ flatRuns S := by
  simp [flatRuns]

theorem flatRuns_reverse (R : List (Int × Nat)) : flatRuns R.reverse = (flatRuns R).reverse := by
  induction R with
  | nil => rfl
  | cons r R ih =>
    rw [List.reverse_cons, flatRuns_append, ih]
    simp [flatRuns]

/-- Offsets of the runs. -/
def runStarts : (off : Nat) → List (Int × Nat) → List Nat
  | _, [] => []
  | off, r :: R => off :: runStarts (off + r.2) R

/-- Offsets of the runs of non-zero labels. -/
def entStarts : (off : Nat) → List (Int × Nat) → List Nat
  | _, [] => []
  | off, r :: R => if r.1 ≠ 0 then off :: entStarts (off + r.2) R else entStarts (off + r.2) R

/-- Ends of the runs of non-zero labels. -/
def entEnds : (off : Nat) → List (Int × Nat) → List Nat
  | _, [] => []
  | off, r :: R => if r.1 ≠ 0 then (off + r.2) :: entEnds (off + r.2) R else entEnds (off + r.2) R

theorem startLoop_replicate (c : Nat) (v : Int) (rest : List Int) (i : Nat) (acc : List Nat) :
    startLoop (List.replicate c v ++ rest) i v acc = startLoop rest (i + c) v acc := by
  induction c generalizing i with
  | zero => rfl
  | succ c ih =>
    rw [List.replicate_succ, List.cons_append]
    have e : startLoop (v :: (List.replicate c v ++ rest)) i v acc =
        startLoop (List.replicate c v ++ rest) (i + 1) v acc := by
      rw [startLoop, if_neg (by simp)]
    rw [e, ih, Nat.add_right_comm, Nat.add_assoc]

theorem startLoop_runs (R : List (Int × Nat)) (hR : GoodRuns R) (i : Nat) (v : Int) (acc : List Nat)
    (hv : ∀ r, R.head? = some r → r.1 ≠ v) :
    startLoop (flatRuns R) i v acc = acc ++ runStarts i R := by
  induction R generalizing i v acc with
  | nil => simp [flatRuns, startLoop, runStarts]
  | cons r R ih =>
    have hpos := hR.1 r (by simp)
    have hne := hv r rfl
    obtain ⟨c, hc⟩ : ∃ c, r.2 = c + 1 := ⟨r.2 - 1, by omega⟩
    rw [flatRuns_cons, hc, List.replicate_succ, List.cons_append]
    unfold startLoop
    rw [if_pos hne, startLoop_replicate, ih hR.tail]
    · simp [runStarts, hc, Nat.add_assoc, Nat.add_comm 1 c]
    · intro s hs
      cases R with
      | nil => simp at hs
      | cons t R =>
        simp at hs
        subst hs
        exact fun h => hR.2.1 h.symm

theorem getStartIndices_runs (r : Int × Nat) (R : List (Int × Nat)) (hR : GoodRuns (r :: R)) :
    getStartIndices (flatRuns (r :: R)) = .ok (runStarts 0 (r :: R)) := by
  have hpos := hR.1 r (by simp)
  obtain ⟨c, hc⟩ : ∃ c, r.2 = c + 1 := ⟨r.2 - 1, by omega⟩
  have e : flatRuns (r :: R) = r.1 :: (List.replicate c r.1 ++ flatRuns R) := by
    rw [flatRuns_cons, hc, List.replicate_succ, List.cons_append]
  have e2 : r.1 :: (List.replicate c r.1 ++ flatRuns R) = List.replicate r.2 r.1 ++ flatRuns R := by
    rw [hc, List.replicate_succ, List.cons_append]
  rw [e]
  unfold getStartIndices
  dsimp only
  rw [e2, startLoop_replicate, startLoop_runs R hR.tail]
  · simp [runStarts]
  · intro s hs
    cases R with
    | nil => simp at hs
    | cons t R =>
      simp at hs
      subst hs
      exact fun h => hR.2.1 h.symm

/-- The loop that compacts `indices` in place keeps the ones with a non-zero label. -/
theorem compactLoop_spec (labels : List Int) (done todo front : List Nat)
    (hlen : front.length ≤ done.length) (hidx : ∀ i ∈ todo, i < labels.length) :
    ∃ rest, compactLoop labels todo.length done.length front.length
        (front ++ done.drop front.length ++ todo) =
      .ok (front ++ todo.filter (fun i => decide (labels[i]? ≠ some 0)) ++ rest,
        (front ++ todo.filter (fun i => decide (labels[i]? ≠ some 0))).length) := by
  induction todo generalizing done front with
  | nil => exact ⟨done.drop front.length, by simp [compactLoop]⟩
  | cons x todo ih =>
    have hx := hidx x (by simp)
    have hg : (front ++ done.drop front.length ++ x :: todo)[done.length]? = some x := by
      rw [List.getElem?_append_right (by simp; omega)]
      simp
      rw [show done.length - (front.length + (done.length - front.length)) = 0 by omega]
      rfl
    rw [List.length_cons]
    unfold compactLoop
    rw [hg]
    dsimp only
    rw [List.getElem?_eq_getElem hx]
    dsimp only
    by_cases h0 : labels[x] = 0
    · rw [if_neg (by simpa using h0)]
      obtain ⟨rest, hr⟩ := ih (done ++ [x]) front (by simp; omega) (fun i hi => hidx i (by simp [hi]))
      refine ⟨rest, ?_⟩
      have e : front ++ (done ++ [x]).drop front.length ++ todo =
          front ++ done.drop front.length ++ x :: todo := by
        rw [List.drop_append_of_le_length hlen]; simp
      rw [e, List.length_append] at hr
      rw [List.filter_cons, if_neg (by simp [List.getElem?_eq_getElem hx, h0])]
      exact hr
    · rw [if_pos (by simpa using h0)]
      obtain ⟨rest, hr⟩ := ih (done ++ [x]) (front ++ [x]) (by simp; omega)
        (fun i hi => hidx i (by simp [hi]))
      refine ⟨rest, ?_⟩
      have e : (front ++ done.drop front.length ++ x :: todo).set front.length x =
          (front ++ [x]) ++ (done ++ [x]).drop (front ++ [x]).length ++ todo := by
        rw [List.append_assoc, List.set_append_right _ _ (Nat.le_refl _), Nat.sub_self]
        cases hd : done.drop front.length with
        | nil =>
          have : done.length ≤ front.length := by
            have := congrArg List.length hd
            simp at this; omega
          simp
          omega
        | cons y ys =>
          have hlt : front.length < done.length := by
            have := congrArg List.length hd
            simp at this; omega
          have hd' : done.drop (front.length + 1) = ys := by
            rw [← List.drop_drop, hd]; rfl
          simp only [List.length_append, List.length_cons, List.length_nil, Nat.zero_add]
          rw [List.drop_append_of_le_length (by omega), hd']
          simp
      rw [e]
      rw [List.length_append, List.length_append] at hr
      rw [List.filter_cons, if_pos (by simp [List.getElem?_eq_getElem hx, h0])]
      simpa using hr

theorem runStarts_lt (R : List (Int × Nat)) (hR : ∀ r ∈ R, 0 < r.2) (off : Nat) :
    ∀ i ∈ runStarts off R, i < off + (flatRuns R).length := by
  induction R generalizing off with
  | nil => simp [runStarts]
  | cons r R ih =>
    intro i hi
    have hp := hR r (by simp)
    rw [flatRuns_cons, List.length_append, List.length_replicate]
    rcases List.mem_cons.mp hi with rfl | hi
    · omega
    · have := ih (fun r hr => hR r (by simp [hr])) (off + r.2) i hi
      omega

theorem filter_runStarts (R : List (Int × Nat)) (hR : ∀ r ∈ R, 0 < r.2) (pre : List Int) :
    (runStarts pre.length R).filter (fun i => decide ((pre ++ flatRuns R)[i]? ≠ some 0)) =
      entStarts pre.length R := by
  induction R generalizing pre with
  | nil => rfl
  | cons r R ih =>
    have hp := hR r (by simp)
    have h := ih (fun r hr => hR r (by simp [hr])) (pre ++ List.replicate r.2 r.1)
    rw [List.length_append, List.length_replicate, List.append_assoc, ← flatRuns_cons] at h
    unfold runStarts entStarts
    rw [List.filter_cons, h]
    have hg : (pre ++ flatRuns (r :: R))[pre.length]? = some r.1 := by
      rw [List.getElem?_append_right (Nat.le_refl _), Nat.sub_self, flatRuns_cons,
        List.getElem?_append_left (by simpa using hp)]
      simp [hp]
    rw [hg]
    simp

theorem getMeaningfulStartIndices_runs (r : Int × Nat) (R : List (Int × Nat)) (hR : GoodRuns (r :: R)) :
    getMeaningfulStartIndices (flatRuns (r :: R)) = .ok (entStarts 0 (r :: R)) := by
  unfold getMeaningfulStartIndices
  rw [getStartIndices_runs r R hR]
  obtain ⟨rest, hr⟩ := compactLoop_spec (flatRuns (r :: R)) [] (runStarts 0 (r :: R)) [] (Nat.le_refl _)
    (fun i hi => by simpa using runStarts_lt (r :: R) hR.1 0 i hi)
  simp only [List.length_nil, List.nil_append, List.drop_nil] at hr
  simp only [Except.bind_ok, hr]
  have hf := filter_runStarts (r :: R) hR.1 []
  simp only [List.length_nil, List.nil_append] at hf
  rw [hf]
  simp
  rfl

theorem entStarts_append (R S : List (Int × Nat)) (off : Nat) :
    entStarts off (R ++ S) = entStarts off R ++ entStarts (off + (flatRuns R).length) S := by
  induction R generalizing off with
  | nil => simp [entStarts, flatRuns]
  | cons r R ih =>
    have e : off + r.2 + (flatRuns R).length = off + (flatRuns (r :: R)).length := by
      rw [flatRuns_cons, List.length_append, List.length_replicate]; omega
    simp only [List.cons_append, entStarts, ih, e]
    split <;> simp

theorem entStarts_reverse (R : List (Int × Nat)) (off : Nat) :
    (entStarts 0 R.reverse).reverse.map (fun k => ((off + (flatRuns R).length : Nat) : Int) - (k : Nat)) =
      (entEnds off R).map (fun e : Nat => (e : Int)) := by
  induction R generalizing off with
  | nil => rfl
  | cons r R ih =>
    have e : off + (flatRuns (r :: R)).length = (off + r.2) + (flatRuns R).length := by
      rw [flatRuns_cons, List.length_append, List.length_replicate]; omega
    rw [List.reverse_cons, entStarts_append, List.reverse_append, List.map_append, e, ih (off + r.2)]
    have e2 : (flatRuns R.reverse).length = (flatRuns R).length := by rw [flatRuns_reverse]; simp
    simp only [entStarts, entEnds, e2]
    by_cases h : r.1 ≠ 0
    · rw [if_pos h, if_pos h]
      simp
    · rw [if_neg h, if_neg h]
      simp

/-- The entities made of the runs. -/
def runEntities (u : Str) : (off : Nat) → List (Int × Nat) → List Entity
  | _, [] => []
  | off, r :: R =>
    if r.1 ≠ 0 then
      ⟨r.1, pySlice u off ((off + r.2 : Nat) : Int), off, ((off + r.2 : Nat) : Int), []⟩ ::
        runEntities u (off + r.2) R
    else runEntities u (off + r.2) R

theorem entStarts_cons (off : Nat) (r : Int × Nat) (R : List (Int × Nat)) : entStarts off (r :: R) =
    if r.1 ≠ 0 then off :: entStarts (off + r.2) R else entStarts (off + r.2) R := rfl

theorem entEnds_cons (off : Nat) (r : Int × Nat) (R : List (Int × Nat)) : entEnds off (r :: R) =
    if r.1 ≠ 0 then (off + r.2) :: entEnds (off + r.2) R else entEnds (off + r.2) R := rfl

theorem runEntities_cons (u : Str) (off : Nat) (r : Int × Nat) (R : List (Int × Nat)) :
    runEntities u off (r :: R) = if r.1 ≠ 0 then
      ⟨r.1, pySlice u off ((off + r.2 : Nat) : Int), off, ((off + r.2 : Nat) : Int), []⟩ ::
        runEntities u (off + r.2) R
    else runEntities u (off + r.2) R := rfl

theorem toInt32_ok {i : Int} (h : IsInt32 i) : toInt32 i = .ok i := by
  unfold toInt32 IsInt32 at *
  rw [if_pos (by omega)]

theorem toInt32_error {i : Int} (h : ¬ IsInt32 i) : toInt32 i = .error .overflowError := by
  unfold toInt32 IsInt32 at *
  rw [if_neg (by omega)]

theorem entity_new_ok {label start stop : Int} (value : Str) (reps : Option (List Str))
    (h1 : IsInt32 label) (h2 : IsInt32 start) (h3 : IsInt32 stop) :
    Entity.new label value start stop reps = .ok ⟨label, value, start, stop, pyDedup (reps.getD [])⟩ := by
  unfold Entity.new
  rw [toInt32_ok h1, toInt32_ok h2, toInt32_ok h3]
  rfl

theorem entity_new_error {label start stop : Int} (value : Str) (reps : Option (List Str))
    (h : ¬ (IsInt32 label ∧ IsInt32 start ∧ IsInt32 stop)) :
    Entity.new label value start stop reps = .error .overflowError := by
  unfold Entity.new
  by_cases h1 : IsInt32 label
  · by_cases h2 : IsInt32 start
    · rw [toInt32_ok h1, toInt32_ok h2, toInt32_error (fun h3 => h ⟨h1, h2, h3⟩)]; rfl
    · rw [toInt32_ok h1, toInt32_error h2]; rfl
  · rw [toInt32_error h1]; rfl

/-- `zip` of the two index lists builds one entity per run of non-zero labels. -/
theorem packEntities_runs (u : Str) (R : List (Int × Nat)) (pre : List Int) (es : List Nat)
    (hu : u.length < 2 ^ 31)
    (hlen : u.length = (pre ++ flatRuns R).length)
    (hes : es.map (fun k => (u.length : Int) - (k : Nat)) = (entEnds pre.length R).map (fun e : Nat => (e : Int)))
    (hpos : ∀ r ∈ R, 0 < r.2) (hlab : ∀ r ∈ R, IsInt32 r.1) :
    packEntities u (pre ++ flatRuns R) ((entStarts pre.length R).zip es) = .ok (runEntities u pre.length R) := by
  induction R generalizing pre es with
  | nil => cases es <;> rfl
  | cons r R ih =>
    have hp := hpos r (by simp)
    have ih' := fun es hes => ih (pre ++ List.replicate r.2 r.1) es
      (by rw [List.append_assoc, ← flatRuns_cons]; exact hlen) hes
      (fun r hr => hpos r (by simp [hr])) (fun r hr => hlab r (by simp [hr]))
    simp only [List.length_append, List.length_replicate, List.append_assoc] at ih'
    rw [← flatRuns_cons] at ih'
    rw [entEnds_cons] at hes
    rw [entStarts_cons, runEntities_cons]
    by_cases h0 : r.1 ≠ 0
    · rw [if_pos h0] at hes ⊢
      rw [if_pos h0]
      cases es with
      | nil => simp at hes
      | cons k es =>
        simp only [List.map_cons, List.cons.injEq] at hes
        rw [List.zip_cons_cons]
        unfold packEntities
        have hg : (pre ++ flatRuns (r :: R))[pre.length]? = some r.1 := by
          rw [List.getElem?_append_right (Nat.le_refl _), Nat.sub_self, flatRuns_cons,
            List.getElem?_append_left (by simpa using hp)]
          simp [hp]
        rw [hg]
        dsimp only
        have hl : pre.length + r.2 ≤ u.length := by
          rw [hlen, flatRuns_cons]; simp
        rw [hes.1, entity_new_ok _ _ (hlab r (by simp)) (by unfold IsInt32; omega) (by unfold IsInt32; omega)]
        simp only [Except.bind_ok]
        rw [ih' es hes.2]
        rfl
    · rw [if_neg h0] at hes ⊢
      rw [if_neg h0]
      exact ih' es hes

theorem packEntities_error (u : Str) (labels : List Int) (ps : List (Nat × Nat))
    (hl : ∀ p ∈ ps, p.1 < labels.length) (h : ∃ p ∈ ps, ∀ l, labels[p.1]? = some l → ¬ IsInt32 l) :
    packEntities u labels ps = .error .overflowError := by
  induction ps with
  | nil => simp at h
  | cons p ps ih =>
    unfold packEntities
    have hp := hl p (by simp)
    rw [List.getElem?_eq_getElem hp]
    dsimp only
    by_cases hi : IsInt32 labels[p.1] ∧ IsInt32 (p.1 : Int) ∧ IsInt32 ((u.length : Int) - (p.2 : Nat))
    · rw [entity_new_ok _ _ hi.1 hi.2.1 hi.2.2]
      simp only [Except.bind_ok]
      rw [ih (fun p hp => hl p (by simp [hp]))]
      · rfl
      · obtain ⟨q, hq, hq'⟩ := h
        rcases List.mem_cons.mp hq with rfl | hq
        · exact absurd hi.1 (hq' _ (List.getElem?_eq_getElem hp))
        · exact ⟨q, hq, hq'⟩
    · rw [entity_new_error _ _ hi]
      rfl

/-! ### the entities are the maximal runs -/

theorem runEntities_mem (u : Str) (R : List (Int × Nat)) (off : Nat) (e : Entity)
    (h : e ∈ runEntities u off R) :
    ∃ a b : Nat, e = ⟨e.label, pySlice u a (b : Int), a, b, []⟩ ∧ e.label ≠ 0 ∧ off ≤ a ∧ a ≤ b ∧
      b ≤ off + (flatRuns R).length := by
  induction R generalizing off with
  | nil => simp [runEntities] at h
  | cons r R ih =>
    have e2 : off + (flatRuns (r :: R)).length = off + r.2 + (flatRuns R).length := by
      rw [flatRuns_cons, List.length_append, List.length_replicate]; omega
    unfold runEntities at h
    split at h
    · rename_i h0
      rcases List.mem_cons.mp h with rfl | h
      · exact ⟨off, off + r.2, rfl, h0, Nat.le_refl _, by omega, by omega⟩
      · obtain ⟨a, b, h1, h2, h3, h4, h5⟩ := ih (off + r.2) h
        exact ⟨a, b, h1, h2, by omega, h4, by omega⟩
    · obtain ⟨a, b, h1, h2, h3, h4, h5⟩ := ih (off + r.2) h
      exact ⟨a, b, h1, h2, by omega, h4, by omega⟩

theorem runEntities_pairwise (u : Str) (R : List (Int × Nat)) (off : Nat) :
    (runEntities u off R).Pairwise (fun a b => a.start ≤ b.start ∧ a.stop ≤ b.start) := by
  induction R generalizing off with
  | nil => exact .nil
  | cons r R ih =>
    unfold runEntities
    split
    · refine List.pairwise_cons.mpr ⟨fun f hf => ?_, ih _⟩
      obtain ⟨a, b, h1, _, h3, _, _⟩ := runEntities_mem u R _ f hf
      rw [h1]
      dsimp only
      omega
    · exact ih _

/-- The runs of a list are its maximal blocks of equal labels. -/
theorem mem_runs_iff (R : List (Int × Nat)) (hR : GoodRuns R) (pre : List Int)
    (hpre : ∀ r, R.head? = some r → ∀ v, pre.getLast? = some v → v ≠ r.1) (u : Str) (a b : Nat) (v : Int)
    (hv : v ≠ 0) (ha : pre.length ≤ a) :
    (⟨v, pySlice u a (b : Int), a, b, []⟩ : Entity) ∈ runEntities u pre.length R ↔
      IsMaximalRun (pre ++ flatRuns R) a b v := by
  induction R generalizing pre with
  | nil =>
    unfold runEntities
    constructor
    · intro h; cases h
    · rintro ⟨h1, h2, _⟩
      simp [flatRuns] at h2
      omega
  | cons r R ih =>
    have hp := hR.1 r (by simp)
    have ih' := ih hR.tail (pre ++ List.replicate r.2 r.1) (by
      intro s hs w hw
      have hw' : w = r.1 := by
        rw [List.getLast?_append, List.getLast?_replicate, if_neg (by omega)] at hw
        simpa using hw.symm
      subst hw'
      cases R with
      | nil => simp at hs
      | cons t R =>
        simp at hs
        subst hs
        exact hR.2.1)
    rw [List.append_assoc, ← flatRuns_cons, List.length_append, List.length_replicate] at ih'
    -- the labels of this run
    have hin : ∀ i, pre.length ≤ i → i < pre.length + r.2 → (pre ++ flatRuns (r :: R))[i]? = some r.1 := by
      intro i h1 h2
      rw [List.getElem?_append_right h1, flatRuns_cons, List.getElem?_append_left (by simp; omega)]
      rw [List.getElem?_replicate, if_pos (by omega)]
    have hnext : (pre ++ flatRuns (r :: R))[pre.length + r.2]? ≠ some r.1 := by
      rw [List.getElem?_append_right (by omega), flatRuns_cons, List.getElem?_append_right (by simp)]
      have : pre.length + r.2 - pre.length - (List.replicate r.2 r.1).length = 0 := by simp
      rw [this]
      cases R with
      | nil => simp [flatRuns]
      | cons t R =>
        have ht := hR.1 t (by simp)
        rw [flatRuns_cons, List.getElem?_append_left (by simpa using ht)]
        rw [List.getElem?_replicate, if_pos ht]
        intro h
        injection h with h
        exact hR.2.1 h.symm
    have hprev : 0 < pre.length → (pre ++ flatRuns (r :: R))[pre.length - 1]? ≠ some r.1 := by
      intro h0 h
      rw [List.getElem?_append_left (by omega), ← List.getLast?_eq_getElem?] at h
      exact hpre r rfl _ h rfl
    have hlen : pre.length + r.2 ≤ (pre ++ flatRuns (r :: R)).length := by
      rw [flatRuns_cons]; simp
    by_cases hfirst : a < pre.length + r.2
    · -- candidates starting in this run
      have hnot : (⟨v, pySlice u a (b : Int), a, b, []⟩ : Entity) ∉ runEntities u (pre.length + r.2) R := by
        intro h
        obtain ⟨a', b', h1, _, h3, _, _⟩ := runEntities_mem u R _ _ h
        injection h1 with _ _ h1 _ _
        omega
      have hmax : IsMaximalRun (pre ++ flatRuns (r :: R)) a b v ↔
          v = r.1 ∧ a = pre.length ∧ b = pre.length + r.2 := by
        constructor
        · rintro ⟨h1, h2, h3, h4, h5⟩
          have e1 : v = r.1 := by
            have := h3 a (Nat.le_refl _) h1
            rw [hin a ha hfirst] at this
            simpa using this.symm
          subst e1
          have e2 : a = pre.length := by
            rcases Nat.lt_or_ge pre.length a with h | h
            · exact absurd (hin (a - 1) (by omega) (by omega)) (h4 (by omega))
            · omega
          refine ⟨rfl, e2, ?_⟩
          rcases Nat.lt_trichotomy b (pre.length + r.2) with h | h | h
          · exact absurd (hin b (by omega) h) h5
          · exact h
          · exact absurd (h3 (pre.length + r.2) (by omega) h) hnext
        · rintro ⟨rfl, rfl, rfl⟩
          exact ⟨by omega, hlen, fun i => hin i, hprev, hnext⟩
      rw [hmax]
      unfold runEntities
      split
      · rename_i h0
        constructor
        · intro h
          rcases List.mem_cons.mp h with h | h
          · injection h with e1 _ e3 e4 _
            exact ⟨e1, by omega, by omega⟩
          · exact absurd h hnot
        · rintro ⟨rfl, rfl, rfl⟩
          exact List.mem_cons_self
      · rename_i h0
        constructor
        · exact fun h => absurd h hnot
        · rintro ⟨rfl, _, _⟩
          exact absurd hv h0
    · rw [← ih' (by omega), runEntities_cons]
      split
      · constructor
        · intro h
          rcases List.mem_cons.mp h with h | h
          · injection h with e1 _ e3 e4 _
            omega
          · exact h
        · exact fun h => List.mem_cons_of_mem _ h
      · exact Iff.rfl

/-- Every position with a non-zero label lies in an entity with that label. -/
theorem runEntities_cover (u : Str) (R : List (Int × Nat)) (pre : List Int) (i : Nat) (v : Int)
    (hi : pre.length ≤ i) (h : (pre ++ flatRuns R)[i]? = some v) (hv : v ≠ 0) :
    ∃ e ∈ runEntities u pre.length R, e.label = v ∧ e.start ≤ i ∧ (i : Int) < e.stop := by
  induction R generalizing pre with
  | nil =>
    rw [List.getElem?_append_right hi] at h
    simp [flatRuns] at h
  | cons r R ih =>
    have ih' := ih (pre ++ List.replicate r.2 r.1)
    rw [List.append_assoc, ← flatRuns_cons, List.length_append, List.length_replicate] at ih'
    unfold runEntities
    by_cases hf : i < pre.length + r.2
    · rw [List.getElem?_append_right hi, flatRuns_cons, List.getElem?_append_left (by simp; omega),
        List.getElem?_replicate, if_pos (by omega)] at h
      injection h with h
      subst h
      rw [if_pos hv]
      exact ⟨_, List.mem_cons_self, rfl, by dsimp only; omega, by dsimp only; omega⟩
    · obtain ⟨e, he, h'⟩ := ih' (by omega) h
      split
      · exact ⟨e, List.mem_cons_of_mem _ he, h'⟩
      · exact ⟨e, he, h'⟩

end Uttut
