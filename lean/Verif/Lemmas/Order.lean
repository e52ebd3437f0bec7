import Verif.Lemmas.Honest
import Verif.Lemmas.Spans
import Verif.Spec.Order
import Mathlib.Tactic.SplitIfs

/-! Aligners keep the order of labels. -/

namespace Uttut

open Spec

theorem _root_.Uttut.Spec.LabelsInOrder.refl (ls : List Int) : LabelsInOrder ls ls := ⟨id, fun _ _ h => h, fun _ _ h => Or.inr h⟩

theorem _root_.Uttut.Spec.LabelsInOrder.trans {ls ys zs : List Int} (h : LabelsInOrder ls ys) (h' : LabelsInOrder ys zs) : LabelsInOrder ls zs := by
  obtain ⟨f, hf, h1⟩ := h
  obtain ⟨g, hg, h2⟩ := h'
  refine ⟨fun j => f (g j), fun i j hij => hf _ _ (hg _ _ hij), fun j z hz => ?_⟩
  rcases h2 j z hz with h0 | h0
  · exact Or.inl h0
  · exact h1 _ _ h0

theorem _root_.Uttut.Spec.LabelsInOrder.nil (ls : List Int) : LabelsInOrder ls [] := ⟨id, fun _ _ h => h, fun j y h => by simp at h⟩

theorem _root_.Uttut.Spec.LabelsInOrder.labelsFrom {ls ys : List Int} (h : LabelsInOrder ls ys) : LabelsFrom ls ys := by
  obtain ⟨f, _, h⟩ := h
  intro y hy
  obtain ⟨j, hj⟩ := List.getElem?_of_mem hy
  exact (h j y hj).imp id List.mem_of_getElem?

theorem _root_.Uttut.Spec.LabelsInOrder.append {l1 l2 y1 y2 : List Int} (h1 : LabelsInOrder l1 y1) (h2 : LabelsInOrder l2 y2) :
    LabelsInOrder (l1 ++ l2) (y1 ++ y2) := by
  obtain ⟨f, hf, h1⟩ := h1
  obtain ⟨g, hg, h2⟩ := h2
  refine ⟨fun j => if j < y1.length then min (f j) l1.length else g (j - y1.length) + l1.length, fun i j hij => ?_,
    fun j y hy => ?_⟩
  · dsimp only
    have a1 := hf i j hij
    have a2 := hg (i - y1.length) (j - y1.length) (by omega)
    split_ifs <;> omega
  · dsimp only
    by_cases hj : j < y1.length
    · rw [if_pos hj]
      rw [List.getElem?_append_left hj] at hy
      rcases h1 j y hy with h0 | h0
      · exact Or.inl h0
      · right
        obtain ⟨hlt, _⟩ := List.getElem?_eq_some_iff.mp h0
        rw [Nat.min_eq_left (by omega), List.getElem?_append_left hlt]
        exact h0
    · rw [if_neg hj]
      rw [List.getElem?_append_right (by omega)] at hy
      rcases h2 _ y hy with h0 | h0
      · exact Or.inl h0
      · right
        rw [List.getElem?_append_right (by omega), Nat.add_sub_cancel]
        exact h0

theorem _root_.Uttut.Spec.LabelsInOrder.zeros {ls ys : List Int} (h : ∀ y ∈ ys, y = 0) : LabelsInOrder ls ys :=
  ⟨id, fun _ _ h => h, fun _ y hy => Or.inl (h y (List.mem_of_getElem? hy))⟩

theorem _root_.Uttut.Spec.LabelsInOrder.replicate {ls : List Int} {y : Int} (n : Nat) (h : y = 0 ∨ y ∈ ls) : LabelsInOrder ls (List.replicate n y) := by
  rcases h with rfl | h
  · exact .zeros fun y hy => List.eq_of_mem_replicate hy
  · obtain ⟨i, hi⟩ := List.getElem?_of_mem h
    refine ⟨fun _ => i, fun _ _ _ => Nat.le_refl _, fun j z hz => Or.inr ?_⟩
    rw [List.eq_of_mem_replicate (List.mem_of_getElem? hz)]
    exact hi

/-- Labels left over at the end make no difference. -/
theorem _root_.Uttut.Spec.LabelsInOrder.right {ls ys : List Int} (h : LabelsInOrder ls ys) (r : List Int) : LabelsInOrder (ls ++ r) ys := by
  have := h.append (LabelsInOrder.nil r)
  rwa [List.append_nil] at this

theorem _root_.Uttut.Spec.LabelsInOrder.left {ls ys : List Int} (h : LabelsInOrder ls ys) (l : List Int) : LabelsInOrder (l ++ ls) ys :=
  (LabelsInOrder.nil l).append h

theorem _root_.Uttut.Spec.LabelsInOrder.pad {ls ys : List Int} (h : LabelsInOrder ls ys) {zs : List Int} (hz : ∀ z ∈ zs, z = 0) : LabelsInOrder ls (ys ++ zs) := by
  have := h.append (LabelsInOrder.zeros (ls := []) hz)
  rwa [List.append_nil] at this

theorem _root_.Uttut.Spec.LabelsInOrder.take {ls ys : List Int} (h : LabelsInOrder ls ys) (n : Nat) : LabelsInOrder ls (ys.take n) := by
  obtain ⟨f, hf, h⟩ := h
  refine ⟨f, hf, fun j y hy => ?_⟩
  rw [List.getElem?_take] at hy
  split at hy
  · exact h j y hy
  · cases hy

theorem _root_.Uttut.Spec.LabelsInOrder.drop {ls ys : List Int} (h : LabelsInOrder ls ys) (n : Nat) : LabelsInOrder ls (ys.drop n) := by
  obtain ⟨f, hf, h⟩ := h
  refine ⟨fun j => f (n + j), fun i j hij => hf _ _ (by omega), fun j y hy => ?_⟩
  rw [List.getElem?_drop] at hy
  exact h _ y hy

theorem _root_.Uttut.Spec.LabelsInOrder.of_take {ls ys : List Int} {n : Nat} (h : LabelsInOrder (ls.take n) ys) : LabelsInOrder ls ys := by
  have := h.right (ls.drop n)
  rwa [List.take_append_drop] at this

theorem _root_.Uttut.Spec.LabelsInOrder.slice {ls : List Int} (i j : Nat) : LabelsInOrder ls (slice ls i j) := ((LabelsInOrder.refl _).take j).drop i

/-! ### transducers -/

/-- A transducer that keeps the order and is not longer than it is asked for. -/
def Slim (f : Transducer) : Prop := ∀ ls n ys, f ls n = .ok ys → LabelsInOrder ls ys ∧ ys.length ≤ n

/-- The same for the replacements that occur. -/
def SlimOn {β : Type} (f : Transducer) (rs : List (Rep (List β))) : Prop :=
  ∀ r ∈ rs, ∀ ls ys, f ls r.val.length = .ok ys → LabelsInOrder ls ys ∧ ys.length ≤ r.val.length

theorem Slim.on {β : Type} {f : Transducer} (h : Slim f) (rs : List (Rep (List β))) : SlimOn f rs :=
  fun _ _ ls ys hy => h ls _ ys hy

theorem getNotEntity_slim : Slim Transduce.getNotEntity := by
  intro ls n ys h
  injection h with h
  subst h
  exact ⟨.replicate n (Or.inl rfl), by simp⟩

theorem getMostCommon_slim : Slim Transduce.getMostCommon := by
  intro ls n ys h
  unfold Transduce.getMostCommon at h
  split at h
  · cases h
  · rename_i k m rest hm
    injection h with h
    subst h
    exact ⟨.replicate n (Or.inr (mostCommonItems_mem hm)), by simp⟩

theorem getMostCommonExcept_slim : Slim Transduce.getMostCommonExceptNotEntity := by
  intro ls n ys h
  unfold Transduce.getMostCommonExceptNotEntity at h
  dsimp only at h
  split at h
  · exact getNotEntity_slim _ _ _ h
  · unfold Transduce.getMostCommon at h
    split at h
    · cases h
    · rename_i k m rest hm
      injection h with h
      subst h
      exact ⟨.replicate n (Or.inr (List.mem_filter.mp (mostCommonItems_mem hm)).1), by simp⟩

theorem noneTransducer_slim : Slim noneTransducer := by
  intro ls n ys h
  cases h

theorem getMostCommonLabel_slim : Slim getMostCommonLabel := by
  intro ls n ys h
  injection h with h
  subst h
  refine ⟨.replicate n ?_, by simp⟩
  split
  · exact Or.inl rfl
  · exact countAndGetMostCommon_mem ls

/-! ### propagation -/

theorem slice_length_le {α : Type} (l : List α) (i j : Nat) : (slice l i j).length ≤ j - i := by
  unfold Uttut.slice
  rw [List.length_drop, List.length_take]
  omega

theorem take_append_slice' {α : Type} (s : List α) {i j : Nat} (h : i ≤ j) : s.take i ++ slice s i j = s.take j := by
  unfold Uttut.slice
  have e : s.take i = (s.take j).take i := by rw [List.take_take, Nat.min_eq_left h]
  rw [e, List.take_append_drop]

/-- What holds before each step of the loop. -/
structure Filled (labels : List Int) (i o : Nat) (out : List Int) : Prop where
  order : LabelsInOrder (labels.take i) (out.take o)
  rest : ∀ y ∈ out.drop o, y = 0

theorem Filled.assign {labels : List Int} {i j o k : Nat} {out new : List Int} (h : Filled labels i o out) (hij : i ≤ j)
    (hn : LabelsInOrder (Uttut.slice labels i j) new) (hk : new.length ≤ k) :
    Filled labels j (o + k) (sliceAssign out o (o + k) new) := by
  have e : sliceAssign out o (o + k) new = (out.take o ++ new) ++ out.drop (o + k) := by
    unfold sliceAssign
    rw [Nat.max_eq_right (by omega)]
  have hz : ∀ y ∈ out.drop (o + k), y = 0 := by
    intro y hy
    refine h.rest y ?_
    rw [← List.drop_drop] at hy
    exact List.mem_of_mem_drop hy
  have ho := h.order.append hn
  rw [take_append_slice' _ hij] at ho
  have hlen : (out.take o ++ new).length ≤ o + k := by
    rw [List.length_append, List.length_take]
    omega
  refine ⟨?_, ?_⟩
  · rw [e, List.take_append, List.take_of_length_le hlen]
    exact ho.pad fun z hz' => hz z (List.mem_of_mem_take hz')
  · rw [e, List.drop_append, List.drop_eq_nil_of_le hlen, List.nil_append]
    exact fun y hy => hz y (List.mem_of_mem_drop hy)

theorem propagateLoop_filled {β : Type} {f : Transducer} (labels : List Int) :
    ∀ (rs : List (Rep (List β))) (i o : Nat) (out : List Int) (r : Nat × Nat × List Int), SlimOn f rs →
      (∀ x ∈ rs, i ≤ x.start ∧ x.start ≤ x.stop) → rs.Pairwise Rep.Before → Filled labels i o out →
      propagateLoop labels f rs i o out = .ok r → Filled labels r.1 r.2.1 r.2.2 := by
  intro rs
  induction rs with
  | nil =>
    intro i o out r _ _ _ h hr
    injection hr with hr
    subst hr
    exact h
  | cons x rs ih =>
    intro i o out r hs hw hp h hr
    unfold propagateLoop at hr
    dsimp only at hr
    obtain ⟨new, hn, hr⟩ := bind_eq_ok hr
    obtain ⟨h1, h2⟩ := hw x (List.mem_cons_self ..)
    obtain ⟨n1, n2⟩ := hs x (List.mem_cons_self ..) _ _ hn
    obtain ⟨p1, p2⟩ := List.pairwise_cons.mp hp
    refine ih x.stop _ _ r (fun y hy => hs y (List.mem_cons_of_mem _ hy))
      (fun y hy => ⟨p1 y hy, (hw y (List.mem_cons_of_mem _ hy)).2⟩) p2 ?_ hr
    exact (h.assign h1 (LabelsInOrder.refl _) (slice_length_le _ _ _)).assign h2 n1 n2

/-- Labels keep their order in the edit of a group. -/
theorem propagate_inOrder {β : Type} {f : Transducer} (labels : List Int) (g : ReplacementGroup (List β))
    (hs : SlimOn f g.reps) (hw : ∀ r ∈ g.reps, r.start ≤ r.stop) (hp : g.reps.Pairwise Rep.Before) (ys : List Int)
    (h : propagate labels g f = .ok ys) : LabelsInOrder labels ys := by
  unfold propagate at h
  dsimp only at h
  obtain ⟨rs, hr, h⟩ := bind_eq_ok h
  obtain ⟨⟨i, o, out⟩, hl, h⟩ := bind_eq_ok h
  injection h with h
  subst h
  have hrs : rs = g.reps := by
    unfold ReplacementGroup.items at hr
    split at hr
    · injection hr with hr; exact hr.symm
    · cases hr
  subst hrs
  have := propagateLoop_filled labels g.reps 0 0 _ _ hs (fun x hx => ⟨Nat.zero_le _, hw x hx⟩) hp
    ⟨by rw [List.take_zero]; exact LabelsInOrder.nil _, fun y hy => List.eq_of_mem_replicate (List.mem_of_mem_drop hy)⟩ hl
  dsimp only at this ⊢
  unfold sliceAssign
  have e : out.drop (max o out.length) = [] := List.drop_eq_nil_of_le (by omega)
  rw [e, List.append_nil]
  have h2 := this.order.append (LabelsInOrder.refl (labels.drop i))
  rwa [List.take_append_drop] at h2

theorem propagate_done_inOrder {β : Type} [DecidableEq β] [NewValue (List β)] {f : Transducer} (σ : SetOrder)
    (labels : List Int) (g g' : ReplacementGroup (List β)) (hw : ∀ r ∈ g.reps, r.start ≤ r.stop)
    (hd : g.done σ = .ok g') (hs : SlimOn f g'.reps) (ys : List Int) (h : propagate labels g' f = .ok ys) :
    LabelsInOrder labels ys := by
  obtain ⟨_, h1, h2⟩ := ReplacementGroup.done_chain σ g g' hw hd
  exact propagate_inOrder labels g' hs h1 h2 ys h

theorem inverseLoop_wf {β : Type} (input : List β) : ∀ (rs : List (Rep (List β))) (ds : List Nat) (start : Nat)
    (inv : ReplacementGroup (List β)), (∀ r ∈ inv.reps, r.start ≤ r.stop) →
      ∀ r ∈ (inverseLoop input rs ds start inv).reps, r.start ≤ r.stop := by
  intro rs
  induction rs with
  | nil => intro ds start inv h; exact h
  | cons x rs ih =>
    intro ds start inv h
    cases ds with
    | nil => exact h
    | cons d ds => exact ih ds _ _ (ReplacementGroup.add_wf inv h _ _ _)

theorem editInverse_done {β : Type} [DecidableEq β] [NewValue (List β)] {σ : SetOrder} {input : List β}
    {g inv : ReplacementGroup (List β)} (h : editInverse σ input g = .ok inv) :
    (∀ r ∈ inv.reps, r.start ≤ r.stop) ∧ inv.reps.Pairwise Rep.Before := by
  unfold editInverse at h
  obtain ⟨i, h1, h⟩ := bind_eq_ok h
  split at h
  · injection h with h
    subst h
    unfold genInverse at h1
    split at h1
    · exact (ReplacementGroup.done_chain σ _ _ (fun r hr => by cases hr) h1).2
    · obtain ⟨rs, _, h1⟩ := bind_eq_ok h1
      obtain ⟨first, _, h1⟩ := bind_eq_ok h1
      exact (ReplacementGroup.done_chain σ _ _ (inverseLoop_wf _ _ _ _ _ fun r hr => by cases hr) h1).2
  · cases h

/-! ### spans -/

theorem reduceLoop_filled {f : Transducer} (hf : Slim f) (labels : List Int) :
    ∀ (ss : List Span) (cur i : Nat) (out ys : List Int), Tiles cur ss → Filled labels cur i out →
      reduceLoop labels f ss i out = .ok ys → LabelsInOrder labels ys := by
  intro ss
  induction ss with
  | nil =>
    intro cur i out ys _ h hr
    injection hr with hr
    subst hr
    have := h.order.pad h.rest
    rw [List.take_append_drop] at this
    exact this.of_take
  | cons s ss ih =>
    intro cur i out ys ht h hr
    unfold reduceLoop at hr
    obtain ⟨new, hn, hr⟩ := bind_eq_ok hr
    obtain ⟨t1, t2, t3⟩ := ht
    obtain ⟨n1, n2⟩ := hf _ _ _ hn
    subst t1
    exact ih s.stop (i + 1) _ ys t3 (h.assign t2 n1 n2) hr

theorem reduce_inOrder (labels : List Int) (g : SpanGroup) (ht : Tiles 0 g.spans) (ys : List Int)
    (h : reduceBySpanGroup labels g = .ok ys) : LabelsInOrder labels ys := by
  unfold reduceBySpanGroup at h
  split at h
  · injection h with h
    subst h
    exact LabelsInOrder.refl _
  · obtain ⟨l, _, h⟩ := bind_eq_ok h
    split at h
    · cases h
    · obtain ⟨spans, hs, h⟩ := bind_eq_ok h
      have : spans = g.spans := by
        unfold SpanGroup.items at hs
        split at hs
        · injection hs with hs; exact hs.symm
        · cases hs
      subst this
      exact reduceLoop_filled getMostCommonLabel_slim labels _ 0 0 _ _ ht
        ⟨by rw [List.take_zero]; exact LabelsInOrder.nil _, fun y hy => List.eq_of_mem_replicate (List.mem_of_mem_drop hy)⟩ h

theorem fillRange_filled {l : Int} {ls : List Int} {k : Nat} (hl : ls[k]? = some l) :
    ∀ (n i : Nat) (out ys : List Int), LabelsInOrder (ls.take (k + 1)) (out.take i) → (∀ y ∈ out.drop i, y = 0) →
      fillRange l n i out = .ok ys → Filled ls (k + 1) (i + n) ys := by
  intro n
  induction n with
  | zero =>
    intro i out ys h1 h2 h
    injection h with h
    subst h
    exact ⟨h1, h2⟩
  | succ n ih =>
    intro i out ys h1 h2 h
    unfold fillRange at h
    split at h
    · rename_i hi
      obtain ⟨hk, hkl⟩ := List.getElem?_eq_some_iff.mp hl
      have e1 : (out.set i l).take (i + 1) = out.take i ++ [l] := by
        rw [List.take_set, List.take_succ_eq_append_getElem hi]
        rw [List.set_append_right _ _ (by rw [List.length_take]; omega), List.length_take, Nat.min_eq_left (by omega),
          Nat.sub_self]
        rfl
      have e2 : (out.set i l).drop (i + 1) = out.drop (i + 1) := by
        rw [List.drop_set_of_lt (by omega)]
      have h3 : LabelsInOrder (ls.take (k + 1)) (out.take i ++ [l]) := by
        obtain ⟨f, hf, h1⟩ := h1
        have hlen : (out.take i).length = i := by rw [List.length_take]; omega
        refine ⟨fun j => if j < i then min (f j) k else k, fun a b hab => ?_, fun j y hy => ?_⟩
        · have := hf a b hab
          dsimp only
          split_ifs <;> omega
        · dsimp only
          by_cases hj : j < i
          · rw [if_pos hj]
            rw [List.getElem?_append_left (by omega)] at hy
            rcases h1 j y hy with h0 | h0
            · exact Or.inl h0
            · right
              obtain ⟨hlt, _⟩ := List.getElem?_eq_some_iff.mp h0
              rw [List.length_take] at hlt
              rw [Nat.min_eq_left (by omega)]
              exact h0
          · rw [if_neg hj]
            right
            rw [List.getElem?_append_right (by omega)] at hy
            have : y = l := by
              have := List.mem_of_getElem? hy
              simpa using this
            rw [this, List.getElem?_take, if_pos (by omega)]
            exact hl
      have := ih (i + 1) (out.set i l) ys (by rw [e1]; exact h3) (by
        rw [e2]
        intro y hy
        refine h2 y ?_
        rw [← List.drop_drop] at hy
        exact List.mem_of_mem_drop hy) h
      rwa [show i + 1 + n = i + (n + 1) by omega] at this
    · cases h

theorem _root_.Uttut.Spec.LabelsInOrder.take_mono {ls ys : List Int} {i j : Nat} (h : LabelsInOrder (ls.take i) ys) (hij : i ≤ j) :
    LabelsInOrder (ls.take j) ys := by
  have := h.right (Uttut.slice ls i j)
  rwa [take_append_slice' _ hij] at this

theorem expandLoop_inOrder (labels : List Int) :
    ∀ (ss : List Span) (cur k : Nat) (out ys : List Int), Tiles cur ss → Filled labels k cur out →
      expandLoop ss (labels.drop k) out = .ok ys → LabelsInOrder labels ys := by
  intro ss
  induction ss with
  | nil =>
    intro cur k out ys _ h hr
    have hr : Except.ok out = (.ok ys : Res (List Int)) := by
      rw [← hr]
      cases labels.drop k <;> rfl
    injection hr with hr
    subst hr
    have := h.order.pad h.rest
    rw [List.take_append_drop] at this
    exact this.of_take
  | cons s ss ih =>
    intro cur k out ys ht h hr
    cases hd : labels.drop k with
    | nil =>
      rw [hd] at hr
      injection hr with hr
      subst hr
      have := h.order.pad h.rest
      rw [List.take_append_drop] at this
      exact this.of_take
    | cons l ls =>
      rw [hd] at hr
      unfold expandLoop at hr
      obtain ⟨l', h1, hr⟩ := bind_eq_ok hr
      obtain ⟨out', h2, hr⟩ := bind_eq_ok hr
      rw [← (toUInt_ok h1).1] at h2
      obtain ⟨t1, t2, t3⟩ := ht
      subst t1
      have hk : labels[k]? = some l := by
        have := congrArg (·[0]?) hd
        simpa [List.getElem?_drop] using this
      have hd' : ls = labels.drop (k + 1) := by
        have := congrArg List.tail hd
        rw [List.tail_drop] at this
        exact this.symm
      have := fillRange_filled hk _ _ _ _ (h.order.take_mono (Nat.le_succ k)) h.rest h2
      rw [show s.start + (s.stop - s.start) = s.stop by omega] at this
      exact ih s.stop (k + 1) out' ys t3 this (hd' ▸ hr)

theorem expand_inOrder (labels : List Int) (g : SpanGroup) (ht : Tiles 0 g.spans) (ys : List Int)
    (h : expandBySpanGroup labels g = .ok ys) : LabelsInOrder labels ys := by
  unfold expandBySpanGroup at h
  split at h
  · cases h
  · split at h
    · injection h with h
      subst h
      exact LabelsInOrder.refl _
    · obtain ⟨l, _, h⟩ := bind_eq_ok h
      obtain ⟨spans, hs, h⟩ := bind_eq_ok h
      have : spans = g.spans := by
        unfold SpanGroup.items at hs
        split at hs
        · injection hs with hs; exact hs.symm
        · cases hs
      subst this
      exact expandLoop_inOrder labels _ 0 0 _ _ ht
        ⟨by rw [List.take_zero]; exact LabelsInOrder.nil _, fun y hy => List.eq_of_mem_replicate (List.mem_of_mem_drop hy)⟩ h

theorem genSpanLoop_wf (s : Str) : ∀ (ts : List Str) (shift : Nat) (g g' : SpanGroup),
    (∀ x ∈ g.spans, x.start ≤ x.stop) → Str2Lst.genSpanLoop s ts shift g = .ok g' → ∀ x ∈ g'.spans, x.start ≤ x.stop := by
  intro ts
  induction ts with
  | nil =>
    intro shift g g' h hr
    injection hr with hr
    subst hr
    exact h
  | cons t ts ih =>
    intro shift g g' h hr
    unfold Str2Lst.genSpanLoop at hr
    split at hr
    · rename_i start _
      refine ih _ _ g' ?_ hr
      unfold SpanGroup.add Span.new
      split
      · rename_i r hr
        obtain ⟨_, _, hr⟩ := bind_eq_ok hr
        injection hr with hr
        subst hr
        intro x hx
        rcases List.mem_append.mp hx with hx | hx
        · exact h x hx
        · rw [List.mem_singleton.mp hx]
          exact Nat.le_add_right _ _
      · exact h
    · cases hr

theorem genSpanGroup_tiles {s : Str} {tokens : List Str} {g : SpanGroup} (h : Str2Lst.genSpanGroup s tokens = .ok g) :
    Tiles 0 g.spans := by
  unfold Str2Lst.genSpanGroup at h
  split at h
  · cases h
  · obtain ⟨g1, h1, h⟩ := bind_eq_ok h
    obtain ⟨g2, h2, h⟩ := bind_eq_ok h
    split at h
    · injection h with h
      subst h
      obtain ⟨d1, d2⟩ := spanDone_spec g1.spans g1.isDone
        (genSpanLoop_wf s tokens 0 SpanGroup.empty g1 (fun x hx => by cases hx) h1)
      by_cases ht : Tiles 0 (SpanGroup.sortSpans g1.spans)
      · have e := (show g1.done = _ from d1 ht).symm.trans h2
        injection e with e
        rw [← e]
        exact ht
      · have e := (show g1.done = _ from d2 ht).symm.trans h2
        cases e
    · cases h

theorem genRepLoop_wf (s : Str) : ∀ (ts : List Str) (shift : Nat) (g : ReplacementGroup Str) (r : Nat × ReplacementGroup Str),
    (∀ x ∈ g.reps, x.start ≤ x.stop) → Str2Lst.genRepLoop s ts shift g = .ok r → ∀ x ∈ r.2.reps, x.start ≤ x.stop := by
  intro ts
  induction ts with
  | nil =>
    intro shift g r h hr
    injection hr with hr
    subst hr
    exact h
  | cons t ts ih =>
    intro shift g r h hr
    unfold Str2Lst.genRepLoop at hr
    split at hr
    · cases hr
    · dsimp only at hr
      refine ih _ _ r ?_ hr
      split
      · exact ReplacementGroup.add_wf g h _ _ _
      · exact h

theorem genReplacementGroup_done {σ : SetOrder} {s : Str} {tokens : List Str} {g : ReplacementGroup Str}
    (h : Str2Lst.genReplacementGroup σ s tokens = .ok g) :
    (∀ r ∈ g.reps, r.start ≤ r.stop) ∧ g.reps.Pairwise Rep.Before := by
  unfold Str2Lst.genReplacementGroup at h
  obtain ⟨⟨shift, g1⟩, h1, h⟩ := bind_eq_ok h
  dsimp only at h
  have hw := genRepLoop_wf s tokens 0 _ _ (fun x hx => by cases hx) h1
  refine (ReplacementGroup.done_chain σ _ _ ?_ h).2
  split
  · exact ReplacementGroup.add_wf g1 hw _ _ _
  · exact hw

theorem enumAdd_wf {ι V : Type} {nv : ι → Res (Option V)} : ∀ (xs : List ι) (i : Nat) (g g' : ReplacementGroup V),
    (∀ x ∈ g.reps, x.start ≤ x.stop) → enumAdd nv xs i g = .ok g' → ∀ x ∈ g'.reps, x.start ≤ x.stop := by
  intro xs
  induction xs with
  | nil =>
    intro i g g' h hr
    injection hr with hr
    subst hr
    exact h
  | cons x xs ih =>
    intro i g g' h hr
    unfold enumAdd at hr
    obtain ⟨v, _, hr⟩ := bind_eq_ok hr
    split at hr
    · exact ih _ _ _ (ReplacementGroup.add_wf g h _ _ _) hr
    · exact ih _ _ _ h hr

theorem searchLoop_wf {m : Matcher} {nv : Str → Nat → Nat → Str} {s : Str} : ∀ (fuel shift : Nat)
    (g g' : ReplacementGroup Str), (∀ x ∈ g.reps, x.start ≤ x.stop) → searchLoop m nv s fuel shift g = some g' →
      ∀ x ∈ g'.reps, x.start ≤ x.stop := by
  intro fuel
  induction fuel with
  | zero => intro shift g g' h hr; cases hr
  | succ n ih =>
    intro shift g g' h hr
    unfold searchLoop at hr
    split at hr
    · split at hr
      · injection hr with hr; subst hr; exact h
      · exact ih _ _ _ (ReplacementGroup.add_wf g h _ _ _) hr
    · injection hr with hr; subst hr; exact h

/-! ### aligners -/

/-- Both directions of the aligner keep the order of labels. -/
structure Orderly (a : Aligner) : Prop where
  fwd : ∀ ls ys, a.transform ls = .ok ys → LabelsInOrder ls ys
  bwd : ∀ ls ys, a.inverseTransform ls = .ok ys → LabelsInOrder ls ys

theorem orderly_of {a : Aligner} (hf : ∀ ls ys, a.fwd ls = .ok ys → LabelsInOrder ls ys)
    (hb : ∀ ls ys, a.bwd ls = .ok ys → LabelsInOrder ls ys) : Orderly a :=
  ⟨fun ls ys h => hf ls ys (Aligner.transform_fwd h), fun ls ys h => hb ls ys (Aligner.inverse_bwd h)⟩

theorem orderly_null (m n : Nat) : Orderly (Aligner.null m n) := by
  refine orderly_of ?_ ?_ <;>
  · intro ls ys h
    injection h with h
    subst h
    exact LabelsInOrder.refl _

theorem orderly_ofStrEdit (σ : SetOrder) (s : Str) (g : ReplacementGroup Str) (n : Nat) {f b : Transducer}
    (hf : SlimOn f g.reps) (hb : Slim b) (hg : (∀ r ∈ g.reps, r.start ≤ r.stop) ∧ g.reps.Pairwise Rep.Before) :
    Orderly (Aligner.ofStrEdit σ s g n f b) := by
  refine orderly_of (fun ls ys h => propagate_inOrder ls g hf hg.1 hg.2 ys h) (fun ls ys h => ?_)
  obtain ⟨inv, hi, h⟩ := bind_eq_ok h
  obtain ⟨h1, h2⟩ := editInverse_done hi
  exact propagate_inOrder ls inv (hb.on _) h1 h2 ys h

theorem orderly_ofLstEdit (σ : SetOrder) (s : List Tok) (g : ReplacementGroup (List Tok)) (n : Nat) {f b : Transducer}
    (hf : SlimOn f g.reps) (hb : Slim b) (hg : (∀ r ∈ g.reps, r.start ≤ r.stop) ∧ g.reps.Pairwise Rep.Before) :
    Orderly (Aligner.ofLstEdit σ s g n f b) := by
  refine orderly_of (fun ls ys h => propagate_inOrder ls g hf hg.1 hg.2 ys h) (fun ls ys h => ?_)
  obtain ⟨inv, hi, h⟩ := bind_eq_ok h
  obtain ⟨h1, h2⟩ := editInverse_done hi
  exact propagate_inOrder ls inv (hb.on _) h1 h2 ys h

theorem orderly_charwise {α : Type} {σ : SetOrder} {nv : α → Res (Option Str)} {xs : List α} {s : Str} {f b : Transducer}
    (hf : Slim f) (hb : Slim b) {out : Str} {a : Aligner}
    (h : charwiseTransform σ nv xs s (fun g n => Aligner.ofStrEdit σ s g n f b) = .ok (out, a)) : Orderly a := by
  unfold charwiseTransform at h
  obtain ⟨g, h1, h⟩ := bind_eq_ok h
  obtain ⟨g', h2, h⟩ := bind_eq_ok h
  obtain ⟨o, _, h⟩ := bind_eq_ok h
  injection h with h
  injection h with _ h
  subst h
  exact orderly_ofStrEdit _ _ _ _ (hf.on _) hb
    (ReplacementGroup.done_chain σ g g' (enumAdd_wf xs 0 _ g (fun x hx => by cases hx) h1) h2).2

theorem orderly_tokenwise {σ : SetOrder} {nv : Tok → Res (Option (List Tok))} {l : List Tok} {f b : Transducer}
    (hf : Slim f) (hb : Slim b) {out : List Tok} {a : Aligner}
    (h : tokenwiseTransform σ nv l (fun g n => Aligner.ofLstEdit σ l g n f b) = .ok (out, a)) : Orderly a := by
  unfold tokenwiseTransform at h
  obtain ⟨g, h1, h⟩ := bind_eq_ok h
  obtain ⟨g', h2, h⟩ := bind_eq_ok h
  obtain ⟨o, _, h⟩ := bind_eq_ok h
  injection h with h
  injection h with _ h
  subst h
  exact orderly_ofLstEdit _ _ _ _ (hf.on _) hb
    (ReplacementGroup.done_chain σ g g' (enumAdd_wf l 0 _ g (fun x hx => by cases hx) h1) h2).2

theorem orderly_pattern {σ : SetOrder} {m : Matcher} {token : Str} {f b : Transducer} (hf : Slim f) (hb : Slim b)
    {s out : Str} {a : Aligner} (h : patternTransform σ m token f b s = .ok (out, a)) : Orderly a := by
  unfold patternTransform patternTransformFuel patternGroup at h
  cases hg : searchLoop m (fun _ _ _ => token) s (s.length + 1) 0 ReplacementGroup.empty with
  | none => rw [hg] at h; cases h
  | some rg =>
    rw [hg] at h
    dsimp only [Option.map_some] at h
    obtain ⟨g, h1, h⟩ := bind_eq_ok h
    obtain ⟨o, _, h⟩ := bind_eq_ok h
    injection h with h
    injection h with _ h
    subst h
    exact orderly_ofStrEdit _ _ _ _ (hf.on _) hb
      (ReplacementGroup.done_chain σ rg g (searchLoop_wf _ _ _ rg (fun x hx => by cases hx) hg) h1).2

theorem orderly_tokenizer {σ : SetOrder} {f b : Transducer} (hf : Slim f) (hb : Slim b) {s : Str}
    {tokens out : List Str} {a : Aligner} (h : tokenizerTransform σ f b s tokens = .ok (out, a)) : Orderly a := by
  unfold tokenizerTransform at h
  obtain ⟨g, h1, h⟩ := bind_eq_ok h
  obtain ⟨t, _, h⟩ := bind_eq_ok h
  obtain ⟨sg, h2, h⟩ := bind_eq_ok h
  injection h with h
  injection h with _ h
  subst h
  obtain ⟨g1, g2⟩ := genReplacementGroup_done h1
  have ht := genSpanGroup_tiles h2
  refine orderly_of (fun ls ys h => ?_) (fun ls ys h => ?_)
  · obtain ⟨l, h1, h⟩ := bind_eq_ok h
    exact (propagate_inOrder ls g (hf.on _) g1 g2 l h1).trans (reduce_inOrder l sg ht ys h)
  · obtain ⟨inv, hi, h⟩ := bind_eq_ok h
    obtain ⟨l, h1, h⟩ := bind_eq_ok h
    obtain ⟨i1, i2⟩ := editInverse_done hi
    exact (expand_inOrder ls sg ht l h1).trans (propagate_inOrder l inv (hb.on _) i1 i2 ys h)

/-! ### exact descriptions -/

theorem inOrder_mapLabels (rec : Str → Bool) (F : Str → List Int → List Int) (hF : ∀ r seg, LabelsInOrder seg (F r seg)) :
    ∀ (rs cut : List Str) (ls : List Int), LabelsInOrder ls (mapLabels rec F rs (splitLike cut ls)) := by
  intro rs
  induction rs with
  | nil => intro cut ls; exact LabelsInOrder.nil _
  | cons r rs ih =>
    intro cut ls
    cases cut with
    | nil => exact LabelsInOrder.nil _
    | cons c cut =>
      have h := ih cut (ls.drop c.length)
      have h1 : LabelsInOrder (ls.take c.length) (if rec r then F r (ls.take c.length) else ls.take c.length) := by
        split
        · exact hF _ _
        · exact LabelsInOrder.refl _
      have := h1.append h
      rw [List.take_append_drop] at this
      exact this

end Uttut
