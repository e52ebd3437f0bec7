import Verif.Lemmas.Propagate
import Verif.Lemmas.EditSpec
import Verif.Lemmas.Mode

/-! Lemmas about span groups, `str2lst`, `reduce_by_span_group` and `expand_by_span_group`. -/

namespace Uttut

open Spec

/-! ### stable sort -/

theorem insertByKey_filter {α : Type} (key : α → Nat) (x : α) (l : List α) (k : Nat) :
    (insertByKey (fun a => (key a : Int)) x l).filter (fun a => key a = k) =
      (x :: l).filter (fun a => key a = k) := by
  induction l with
  | nil => rfl
  | cons y ys ih =>
    unfold insertByKey
    split
    · rfl
    · rename_i hgt
      rw [List.filter_cons, ih]
      simp only [List.filter_cons]
      by_cases hx : key x = k <;> by_cases hy : key y = k
      · exfalso; omega
      · simp [hx, hy]
      · simp [hx, hy]
      · simp [hx, hy]

theorem pySorted_stable {α : Type} (key : α → Nat) (l : List α) :
    IsStableSort key l (pySorted (fun a => (key a : Int)) l) := by
  refine ⟨(pySorted_pairwise _ l).imp (fun {a b} h => by omega), fun k => ?_⟩
  induction l with
  | nil => rfl
  | cons x xs ih =>
    rw [pySorted, insertByKey_filter, List.filter_cons, List.filter_cons, ih]

theorem stableSort_unique {α : Type} (key : α → Nat) (l1 l2 : List α)
    (h1 : l1.Pairwise (fun a b => key a ≤ key b)) (h2 : l2.Pairwise (fun a b => key a ≤ key b))
    (h : ∀ k, l1.filter (fun a => key a = k) = l2.filter (fun a => key a = k)) : l1 = l2 := by
  induction l1 generalizing l2 with
  | nil =>
    cases l2 with
    | nil => rfl
    | cons b bs =>
      have := h (key b)
      simp at this
  | cons a as ih =>
    cases l2 with
    | nil =>
      have := h (key a)
      simp at this
    | cons b bs =>
      rw [List.pairwise_cons] at h1 h2
      have hab : key a = key b := by
        have ha : a ∈ (b :: bs).filter (fun c => key c = key a) := by rw [← h (key a)]; simp
        have hb : b ∈ (a :: as).filter (fun c => key c = key b) := by rw [h (key b)]; simp
        have ha' := (List.mem_filter.mp ha).1
        have hb' := (List.mem_filter.mp hb).1
        have e1 : key b ≤ key a := by
          rcases List.mem_cons.mp ha' with e | e
          · rw [e]; exact Nat.le_refl _
          · exact h2.1 _ e
        have e2 : key a ≤ key b := by
          rcases List.mem_cons.mp hb' with e | e
          · rw [e]; exact Nat.le_refl _
          · exact h1.1 _ e
        omega
      have hk := h (key a)
      rw [List.filter_cons, List.filter_cons] at hk
      simp only [decide_true, if_true, hab] at hk
      injection hk with e _
      subst e
      congr 1
      refine ih bs h1.2 h2.2 fun k => ?_
      have hk := h k
      rw [List.filter_cons, List.filter_cons] at hk
      split at hk
      · injection hk
      · exact hk

theorem isStableSort_iff {α : Type} (key : α → Nat) (l l' : List α) :
    IsStableSort key l l' ↔ l' = pySorted (fun a => (key a : Int)) l := by
  constructor
  · intro h
    have hs := pySorted_stable key l
    exact stableSort_unique key _ _ h.1 hs.1 (fun k => by rw [h.2 k, hs.2 k])
  · rintro rfl; exact pySorted_stable key l

/-! ### Tiles -/

theorem tiles_mem {cur : Nat} {ss : List Span} (h : Tiles cur ss) :
    ∀ s ∈ ss, cur ≤ s.start ∧ s.start ≤ s.stop := by
  induction ss generalizing cur with
  | nil => simp
  | cons a as ih =>
    obtain ⟨h1, h2, h3⟩ := h
    intro s hs
    rcases List.mem_cons.mp hs with rfl | hs
    · exact ⟨by omega, h2⟩
    · have := ih h3 s hs; exact ⟨by omega, this.2⟩

/-- End of the last span (or the start, if there is none). -/
def endOf : Nat → List Span → Nat
  | cur, [] => cur
  | _, s :: ss => endOf s.stop ss

theorem endOf_getLast (cur : Nat) (ss : List Span) (s : Span) :
    endOf cur (ss ++ [s]) = s.stop := by
  induction ss generalizing cur with
  | nil => rfl
  | cons a as ih => exact ih _

theorem endOf_ge {cur : Nat} {ss : List Span} (h : Tiles cur ss) : cur ≤ endOf cur ss := by
  induction ss generalizing cur with
  | nil => exact Nat.le_refl _
  | cons a as ih =>
    obtain ⟨h1, h2, h3⟩ := h
    have := ih h3
    simp only [endOf]; omega

theorem tiles_stop_le {cur : Nat} {ss : List Span} (h : Tiles cur ss) :
    ∀ s ∈ ss, s.stop ≤ endOf cur ss := by
  induction ss generalizing cur with
  | nil => simp
  | cons a as ih =>
    obtain ⟨h1, h2, h3⟩ := h
    intro s hs
    rcases List.mem_cons.mp hs with rfl | hs
    · exact endOf_ge h3
    · exact ih h3 s hs

theorem tiles_pairwise_stop {cur : Nat} {ss : List Span} (h : Tiles cur ss) :
    ss.Pairwise (fun a b => a.stop ≤ b.stop) := by
  induction ss generalizing cur with
  | nil => exact .nil
  | cons a as ih =>
    rw [List.pairwise_cons]
    refine ⟨fun s hs => ?_, ih h.2.2⟩
    have := tiles_mem h.2.2 s hs; omega

theorem last_eq (ss : List Span) (hne : ss ≠ []) :
    ∃ s, (⟨ss, true⟩ : SpanGroup).last = .ok s ∧ s.stop = endOf 0 ss := by
  rcases List.eq_nil_or_concat ss with rfl | ⟨ys, y, rfl⟩
  · exact absurd rfl hne
  · refine ⟨y, ?_, ?_⟩
    · simp [SpanGroup.last]
    · rw [List.concat_eq_append, endOf_getLast]

theorem sortSpans_of_tiles {cur : Nat} {ss : List Span} (h : Tiles cur ss) :
    SpanGroup.sortSpans ss = ss :=
  pySorted_of_pairwise _ _ ((tiles_pairwise_stop h).imp (fun {a b} h => by omega))

theorem contiguousLoop_iff (s : Span) (ss : List Span) (hwf : ∀ t ∈ ss, t.start ≤ t.stop) :
    (SpanGroup.contiguousLoop (s :: ss) = .ok () ↔ Tiles s.stop ss) ∧
    (SpanGroup.contiguousLoop (s :: ss) = .ok () ∨
      SpanGroup.contiguousLoop (s :: ss) = .error .valueError) := by
  induction ss generalizing s with
  | nil => simp [SpanGroup.contiguousLoop, Tiles]
  | cons t ts ih =>
    simp only [SpanGroup.contiguousLoop, Tiles]
    by_cases h : s.stop = t.start
    · rw [if_neg (by simpa using h)]
      have ih' := ih t (fun u hu => hwf u (by simp [hu]))
      refine ⟨ih'.1.trans ⟨fun h' => ⟨h.symm, hwf t (by simp), h'⟩, fun h' => h'.2.2⟩, ih'.2⟩
    · rw [if_pos h]
      refine ⟨⟨fun h' => by simp at h', fun h' => absurd h'.1.symm h⟩, Or.inr rfl⟩

theorem tiles_disjoint {cur : Nat} {ss : List Span} (h : Tiles cur ss) (hne : ss ≠ []) :
    ReplacementGroup.validateDisjoint (ss.map fun s => (s.start, s.stop)) = .ok () := by
  have e : (ss.map fun s => (s.start, s.stop)) =
      (ss.map fun s => (⟨s.start, s.stop, ()⟩ : Rep Unit)).map fun r => (r.start, r.stop) := by
    simp [List.map_map, Function.comp_def]
  rw [e, ReplacementGroup.validateDisjoint_ok _ (by simpa using hne)]
  · rw [List.pairwise_map]
    clear e hne
    induction ss generalizing cur with
    | nil => exact .nil
    | cons a as ih =>
      rw [List.pairwise_cons]
      exact ⟨fun s hs => (tiles_mem h.2.2 s hs).1, ih h.2.2⟩
  · intro r hr
    obtain ⟨s, hs, rfl⟩ := List.mem_map.mp hr
    exact (tiles_mem h s hs).2

theorem spanDone_spec (ss : List Span) (d : Bool) (hwf : ∀ s ∈ ss, s.start ≤ s.stop) :
    (Tiles 0 (SpanGroup.sortSpans ss) → (⟨ss, d⟩ : SpanGroup).done = .ok ⟨SpanGroup.sortSpans ss, true⟩) ∧
    (¬ Tiles 0 (SpanGroup.sortSpans ss) → (⟨ss, d⟩ : SpanGroup).done = .error .valueError) := by
  cases hss : ss with
  | nil => simp [SpanGroup.done, SpanGroup.sortSpans, pySorted, Tiles, pure, Except.pure]
  | cons s0 ss0 =>
    rw [← hss]
    have hne : ss ≠ [] := by rw [hss]; simp
    have hlen : ss.length ≠ 0 := by simpa using hne
    have hsne : SpanGroup.sortSpans ss ≠ [] := by
      intro h
      have := length_pySorted (fun s : Span => (s.stop : Int)) ss
      unfold SpanGroup.sortSpans at h
      rw [h] at this; simp at this; exact hne (List.length_eq_zero_iff.mp this.symm)
    have hswf : ∀ t ∈ SpanGroup.sortSpans ss, t.start ≤ t.stop := fun t ht => hwf t (mem_pySorted.mp ht)
    simp only [SpanGroup.done]
    rw [if_pos hlen]
    constructor
    · intro ht
      rw [tiles_disjoint ht hsne]
      obtain ⟨a, as, ha⟩ := List.exists_cons_of_ne_nil hsne
      rw [ha] at ht hswf ⊢
      simp only [Except.bind_ok, SpanGroup.validateContiguousness]
      rw [if_neg (by simpa using ht.1), (contiguousLoop_iff a as (fun t h => hswf t (by simp [h]))).1.mpr ht.2.2]
      rfl
    · intro ht
      rcases ReplacementGroup.validateDisjoint_error
        ((SpanGroup.sortSpans ss).map fun s => (s.start, s.stop)) (by simpa using hsne) with h | h
      · rw [h]
        obtain ⟨a, as, ha⟩ := List.exists_cons_of_ne_nil hsne
        rw [ha] at ht hswf ⊢
        simp only [Except.bind_ok, SpanGroup.validateContiguousness]
        by_cases h0 : a.start = 0
        · rw [if_neg (by simpa using h0)]
          have hc := contiguousLoop_iff a as (fun t h => hswf t (by simp [h]))
          rcases hc.2 with h' | h'
          · exact absurd ⟨h0, hswf a (by simp), hc.1.mp h'⟩ ht
          · rw [h']; rfl
        · rw [if_pos h0]; rfl
      · rw [h]; rfl

theorem foldlM_spanAddPy_wf (ts : List (Int × Int)) (g g' : SpanGroup)
    (hg : ∀ r ∈ g.spans, r.start ≤ r.stop)
    (h : ts.foldlM (fun g (r : Int × Int) => g.addPy r.1 r.2) g = .ok g') :
    ∀ r ∈ g'.spans, r.start ≤ r.stop := by
  induction ts generalizing g with
  | nil => simp [pure, Except.pure] at h; rw [← h]; exact hg
  | cons t ts ih =>
    simp only [List.foldlM_cons] at h
    unfold SpanGroup.addPy at h
    rcases toUInt_cases t.1 with h1 | ⟨a, h1, _, _⟩
    · rw [h1] at h; simp [bind, Except.bind] at h
    · rcases toUInt_cases t.2 with h2 | ⟨b, h2, _, _⟩
      · rw [h1, h2] at h; simp [bind, Except.bind] at h
      · rw [h1, h2] at h
        simp only [Except.bind_ok] at h
        refine ih _ ?_ h
        unfold SpanGroup.add Span.new validateStartEnd
        by_cases hab : a > b
        · rw [if_pos hab]; exact hg
        · rw [if_neg hab]
          intro r hr
          rcases List.mem_append.mp hr with hr | hr
          · exact hg r hr
          · rcases List.mem_singleton.mp hr with rfl
            exact Nat.not_lt.mp hab

/-- What `SpanGroup.add_all` returns, whatever the tuples. -/
theorem spanAddAll_tiles (ts : List (Int × Int)) (g : SpanGroup) (h : SpanGroup.addAll ts = .ok g) :
    g.isDone = true ∧ Tiles 0 g.spans := by
  unfold SpanGroup.addAll at h
  cases hf : ts.foldlM (fun g (r : Int × Int) => g.addPy r.1 r.2) SpanGroup.empty with
  | error e => rw [hf] at h; simp [bind, Except.bind] at h
  | ok g0 =>
    rw [hf] at h
    simp only [Except.bind_ok] at h
    have hwf := foldlM_spanAddPy_wf ts _ g0 (by simp [SpanGroup.empty]) hf
    have hs := spanDone_spec g0.spans g0.isDone hwf
    by_cases ht : Tiles 0 (SpanGroup.sortSpans g0.spans)
    · have : g0.done = .ok ⟨SpanGroup.sortSpans g0.spans, true⟩ := hs.1 ht
      rw [this] at h
      injection h with h
      subst h
      exact ⟨rfl, ht⟩
    · have : g0.done = .error .valueError := hs.2 ht
      rw [this] at h; simp at h

theorem spanGroup_eta {g : SpanGroup} (h : g.isDone = true) : g = ⟨g.spans, true⟩ := by
  cases g; simp at h; simp [h]

theorem spanAddAll_eq_done (ss : List Span) (h : ∀ s ∈ ss, s.start ≤ s.stop ∧ s.stop < 2 ^ 32) :
    SpanGroup.addAll (ss.map fun s => ((s.start : Int), (s.stop : Int))) = (⟨ss, false⟩ : SpanGroup).done := by
  have key : ∀ g : SpanGroup, (ss.map fun s => ((s.start : Int), (s.stop : Int))).foldlM
      (fun g (r : Int × Int) => g.addPy r.1 r.2) g = .ok ⟨g.spans ++ ss, g.isDone⟩ := by
    induction ss with
    | nil => intro g; simp [pure, Except.pure]
    | cons s ss ih =>
      intro g
      obtain ⟨h1, h2⟩ := h s (by simp)
      simp only [List.map_cons, List.foldlM_cons]
      unfold SpanGroup.addPy
      rw [toUInt_nat (show s.stop < uintBound from h2),
        toUInt_nat (show s.start < uintBound from Nat.lt_of_le_of_lt h1 h2)]
      have hab : ¬ s.start > s.stop := by omega
      simp only [Except.bind_ok, SpanGroup.add, Span.new, validateStartEnd, if_neg hab]
      exact (ih (fun t ht => h t (by simp [ht])) _).trans (by simp [pure, Except.pure])
  unfold SpanGroup.addAll
  rw [key]
  simp only [Except.bind_ok]
  rfl

/-! ### splitting -/

theorem flatten_slices {α : Type} (xs : List α) (cur : Nat) (ss : List Span) (h : Tiles cur ss)
    (hend : endOf cur ss = xs.length) :
    (ss.map fun s => slice xs s.start s.stop).flatten = xs.drop cur := by
  induction ss generalizing cur with
  | nil =>
    simp only [endOf] at hend
    simp [hend]
  | cons s ss ih =>
    obtain ⟨h1, h2, h3⟩ := h
    simp only [List.map_cons, List.flatten_cons]
    rw [ih s.stop h3 hend, ← h1, slice_append_drop xs h2]

theorem slices_flatten {α : Type} (pre : List α) (ls : List (List α)) (ss : List Span)
    (h : Tiles pre.length ss) (hl : ls.map List.length = ss.map fun s => s.stop - s.start) :
    (ss.map fun s => slice (pre ++ ls.flatten) s.start s.stop) = ls ∧
      endOf pre.length ss = (pre ++ ls.flatten).length := by
  induction ss generalizing pre ls with
  | nil =>
    have : ls = [] := by simpa using hl
    simp [this, endOf]
  | cons s ss ih =>
    cases ls with
    | nil => simp at hl
    | cons l ls =>
      simp only [List.map_cons, List.cons.injEq] at hl
      obtain ⟨h1, h2, h3⟩ := h
      have hs : s.stop = (pre ++ l).length := by simp; omega
      have := ih (pre ++ l) ls (by rw [← hs]; exact h3) hl.2
      simp only [List.append_assoc] at this
      simp only [List.map_cons, List.flatten_cons, endOf]
      refine ⟨?_, ?_⟩
      · rw [this.1]
        congr 1
        have e1 : s.start = pre.length := h1
        have e2 : s.stop = pre.length + l.length := by simpa using hs
        unfold slice
        rw [e1, e2]
        simp [List.take_append]
      · rw [← this.2, hs]

/-! ### reduce -/

theorem reduceLoop_eq (labels : List Int) (f : Transducer) (h : Span → Int) (ss : List Span) (i : Nat)
    (out : List Int) (hlen : out.length = i + ss.length)
    (hf : ∀ s ∈ ss, f (slice labels s.start s.stop) 1 = .ok [h s]) :
    reduceLoop labels f ss i out = .ok (out.take i ++ ss.map h) := by
  induction ss generalizing i out with
  | nil => simp at hlen; simp [reduceLoop, ← hlen]
  | cons s ss ih =>
    simp only [List.length_cons] at hlen
    rw [reduceLoop, hf s (by simp)]
    simp only [Except.bind_ok]
    rw [ih (i + 1) _ _ (fun t ht => hf t (by simp [ht]))]
    · congr 1
      simp only [sliceAssign, List.append_assoc, List.map_cons]
      rw [List.take_append, List.take_of_length_le (by simp; omega)]
      simp only [List.length_take]
      have : i + 1 - min i out.length = 1 := by omega
      rw [this]
      simp
    · simp [sliceAssign]; omega

theorem reduce_eq (labels : List Int) (f : Transducer) (h : Span → Int) (ss : List Span)
    (hend : endOf 0 ss = labels.length)
    (hf : ∀ s ∈ ss, f (slice labels s.start s.stop) 1 = .ok [h s]) :
    reduceBySpanGroup labels ⟨ss, true⟩ f = .ok (ss.map h) := by
  unfold reduceBySpanGroup
  by_cases hne : ss = []
  · subst hne
    simp only [endOf] at hend
    have : labels = [] := List.length_eq_zero_iff.mp hend.symm
    simp [this]
  · have hl : ¬ (ss.length = 0 ∧ labels.length = 0) := fun h => hne (List.length_eq_zero_iff.mp h.1)
    rw [if_neg hl]
    obtain ⟨s, h1, h2⟩ := last_eq ss hne
    rw [h1]
    simp only [Except.bind_ok, SpanGroup.items, if_true]
    rw [if_neg (by rw [h2, hend]; simp)]
    rw [reduceLoop_eq labels f h ss 0 _ (by simp) hf]
    simp

/-! ### expand -/

theorem fillRange_eq (l : Int) (pre mid post : List Int) :
    fillRange l mid.length pre.length (pre ++ mid ++ post) =
      .ok (pre ++ List.replicate mid.length l ++ post) := by
  induction mid generalizing pre with
  | nil => simp [fillRange]
  | cons m mid ih =>
    simp only [List.length_cons, fillRange]
    rw [if_pos (by simp)]
    have e : (pre ++ m :: mid ++ post).set pre.length l = (pre ++ [l]) ++ mid ++ post := by simp
    rw [e]
    have := ih (pre ++ [l])
    simp only [List.length_append, List.length_cons, List.length_nil, Nat.zero_add] at this
    rw [this]
    simp [List.replicate_succ]

/-- Every label repeated over its span. -/
def spread (ss : List Span) (ls : List Int) : List Int :=
  ((ss.zip ls).map fun p => List.replicate (p.1.stop - p.1.start) p.2).flatten

theorem expandLoop_eq (ss : List Span) (ls pre junk : List Int) (hlen : ss.length = ls.length)
    (h : Tiles pre.length ss) (hj : pre.length + junk.length = endOf pre.length ss)
    (hr : ∀ x ∈ ls, 0 ≤ x ∧ x < 2 ^ 32) :
    expandLoop ss ls (pre ++ junk) = .ok (pre ++ spread ss ls) := by
  induction ss generalizing ls pre junk with
  | nil =>
    have : junk = [] := by
      simp only [endOf] at hj; exact List.length_eq_zero_iff.mp (by omega)
    subst this
    have : ls = [] := List.length_eq_zero_iff.mp (by simpa using hlen.symm)
    subst this
    simp [expandLoop, spread]
  | cons s ss ih =>
    cases ls with
    | nil => simp at hlen
    | cons l ls =>
      obtain ⟨h1, h2, h3⟩ := h
      have hge := endOf_ge h3
      simp only [endOf] at hj
      obtain ⟨hr1, hr2⟩ := hr l (by simp)
      have ht : toUInt l = .ok l.toNat := by
        unfold toUInt; rw [if_pos]; exact ⟨hr1, hr2⟩
      rw [expandLoop, ht]
      simp only [Except.bind_ok]
      have hsplit : junk = junk.take (s.stop - s.start) ++ junk.drop (s.stop - s.start) := by simp
      have hln : (junk.take (s.stop - s.start)).length = s.stop - s.start := by
        rw [List.length_take]; omega
      have hf := fillRange_eq (l.toNat : Int) pre (junk.take (s.stop - s.start))
        (junk.drop (s.stop - s.start))
      rw [hln, List.append_assoc, ← hsplit, ← h1] at hf
      rw [hf]
      simp only [Except.bind_ok]
      have hpl : (pre ++ List.replicate (s.stop - s.start) (l.toNat : Int)).length = s.stop := by
        simp; omega
      rw [ih ls _ _ (by simpa using hlen) (by rw [hpl]; exact h3) (by
        rw [hpl, List.length_drop]; omega) (fun x hx => hr x (by simp [hx]))]
      simp only [spread, List.zip_cons_cons, List.map_cons, List.flatten_cons, List.append_assoc]
      rw [Int.toNat_of_nonneg hr1]

theorem expand_eq (ss : List Span) (ls : List Int) (hlen : ss.length = ls.length) (h : Tiles 0 ss)
    (hr : ∀ x ∈ ls, 0 ≤ x ∧ x < 2 ^ 32) :
    expandBySpanGroup ls ⟨ss, true⟩ = .ok (spread ss ls) := by
  unfold expandBySpanGroup
  rw [if_neg (by simpa using hlen)]
  by_cases hne : ss = []
  · subst hne
    have : ls = [] := List.length_eq_zero_iff.mp (by simpa using hlen.symm)
    subst this
    simp [spread]
  · rw [if_neg (by simpa using hne)]
    obtain ⟨s, h1, h2⟩ := last_eq ss hne
    rw [h1]
    simp only [Except.bind_ok, SpanGroup.items, if_true]
    have := expandLoop_eq ss ls [] (List.replicate s.stop notEntity) hlen h (by simp [h2]) hr
    simpa using this

theorem spread_length (ss : List Span) (ls : List Int) (cur : Nat) (hlen : ss.length = ls.length)
    (h : Tiles cur ss) : (spread ss ls).length = endOf cur ss - cur := by
  induction ss generalizing ls cur with
  | nil => simp [spread, endOf]
  | cons s ss ih =>
    cases ls with
    | nil => simp at hlen
    | cons l ls =>
      obtain ⟨h1, h2, h3⟩ := h
      have := ih ls s.stop (by simpa using hlen) h3
      have hge := endOf_ge h3
      simp only [spread, List.zip_cons_cons, List.map_cons, List.flatten_cons, List.length_append,
        List.length_replicate, endOf] at this ⊢
      omega

theorem slice_spread (pre : List Int) (ss : List Span) (ls : List Int) (hlen : ss.length = ls.length)
    (h : Tiles pre.length ss) :
    ∀ p ∈ ss.zip ls, slice (pre ++ spread ss ls) p.1.start p.1.stop =
      List.replicate (p.1.stop - p.1.start) p.2 := by
  induction ss generalizing ls pre with
  | nil => simp
  | cons s ss ih =>
    cases ls with
    | nil => simp at hlen
    | cons l ls =>
      obtain ⟨h1, h2, h3⟩ := h
      intro p hp
      rw [List.zip_cons_cons] at hp
      simp only [spread, List.zip_cons_cons, List.map_cons, List.flatten_cons]
      have hpl : (pre ++ List.replicate (s.stop - s.start) l).length = s.stop := by simp; omega
      rcases List.mem_cons.mp hp with rfl | hp
      · have e1 : s.start = pre.length := h1
        have e2 : s.stop = pre.length + (s.stop - s.start) := by omega
        unfold slice
        dsimp only
        rw [← List.append_assoc, List.take_append_of_le_length (by omega),
          List.take_of_length_le (by omega), e1]
        simp
      · have := ih (pre ++ List.replicate (s.stop - s.start) l) ls (by simpa using hlen)
          (by rw [hpl]; exact h3) p hp
        rw [List.append_assoc] at this
        exact this

theorem zip_snd (ss : List Span) (ls : List Int) (h : ss.length = ls.length) :
    (ss.zip ls).map Prod.snd = ls := by
  rw [List.map_snd_zip]; omega

end Uttut
