import Verif.Lemmas.Tok
import Verif.Props.Edit

/-!
Properties C08-C13: most common labels, span groups, tokenisation edits.
-/

namespace Uttut

open Spec Piece

/-! ### C08 -/

/-- C08: the default transducer returns `output_size` copies of the first most common label; 0 when
there is nothing to count. -/
theorem C08_default_transducer (l : List Int) (n : Nat) (hr : ∀ x ∈ l, 0 ≤ x ∧ x < 2 ^ 32) :
    (∀ x, IsFirstMode l x → getMostCommonLabel l n = .ok (List.replicate n x)) ∧
    (l = [] → getMostCommonLabel l n = .ok (List.replicate n 0)) ∧
    (l ≠ [] → ∃ x, IsFirstMode l x) := by
  refine ⟨fun x hx => ?_, fun h => by subst h; rfl, fun h => ⟨_, scanMax_firstMode l h⟩⟩
  have hne : l ≠ [] := fun e => by subst e; exact absurd hx.1 (by simp)
  have hlen : ¬ l.length = 0 := by simpa using hne
  obtain ⟨r, hm⟩ := mapM_toUInt_ok l hr
  simp only [getMostCommonLabel, if_neg hlen, countAndGetMostCommon, hm]
  rw [isFirstMode_unique hx (scanMax_firstMode l hne)]

/-- C08: `get_most_common` agrees on every list of integers, and raises IndexError on the empty list. -/
theorem C08_get_most_common (l : List Int) (n : Nat) :
    (∀ x, IsFirstMode l x → Transduce.getMostCommon l n = .ok (List.replicate n x)) ∧
    (l = [] → Transduce.getMostCommon l n = .error .indexError) ∧
    (l ≠ [] → ∃ x, IsFirstMode l x) := by
  refine ⟨fun x hx => ?_, fun h => by subst h; rfl, fun h => ⟨_, scanMax_firstMode l h⟩⟩
  have hne : l ≠ [] := fun e => by subst e; exact absurd hx.1 (by simp)
  obtain ⟨k, m, rest, h1, h2⟩ := mostCommonItems_firstMode l hne
  simp only [Transduce.getMostCommon, h1]
  rw [isFirstMode_unique hx h2]

/-- C08: `get_most_common_except_not_entity` does the same on the labels different from 0, and returns
0 when there are none (it never raises). -/
theorem C08_except_not_entity (l : List Int) (n : Nat) :
    (∀ x, IsFirstMode (l.filter fun y => y ≠ 0) x →
      Transduce.getMostCommonExceptNotEntity l n = .ok (List.replicate n x)) ∧
    ((∀ y ∈ l, y = 0) → Transduce.getMostCommonExceptNotEntity l n = .ok (List.replicate n 0)) ∧
    ((∃ y ∈ l, y ≠ 0) → ∃ x, IsFirstMode (l.filter fun y => y ≠ 0) x) := by
  refine ⟨fun x hx => ?_, fun h => ?_, fun ⟨y, hy, h0⟩ => ?_⟩
  · have hne : l.filter (fun y => decide (y ≠ 0)) ≠ [] :=
      fun e => by rw [e] at hx; exact absurd hx.1 (by simp)
    have := (C08_get_most_common _ n).1 x hx
    have hl : ¬ (l.filter (fun y => decide (y ≠ notEntity))).length = 0 :=
      fun e => hne (List.length_eq_zero_iff.mp e)
    unfold Transduce.getMostCommonExceptNotEntity
    dsimp only
    rw [if_neg hl]
    exact this
  · have : l.filter (fun y => decide (y ≠ 0)) = [] := by
      rw [List.filter_eq_nil_iff]; simpa using h
    have hl : (l.filter (fun y => decide (y ≠ notEntity))).length = 0 :=
      List.length_eq_zero_iff.mpr this
    unfold Transduce.getMostCommonExceptNotEntity
    dsimp only
    rw [if_pos hl]
    rfl
  · refine ⟨_, scanMax_firstMode _ (fun e => ?_)⟩
    rw [List.filter_eq_nil_iff] at e
    exact absurd (e y hy) (by simpa using h0)

/-- C08: the Cython and the `Counter` implementation agree on non-empty 32-bit label lists. -/
theorem C08_implementations_agree (l : List Int) (n : Nat) (hne : l ≠ [])
    (hr : ∀ x ∈ l, 0 ≤ x ∧ x < 2 ^ 32) :
    getMostCommonLabel l n = Transduce.getMostCommon l n := by
  obtain ⟨x, hx⟩ := (C08_default_transducer l n hr).2.2 hne
  rw [(C08_default_transducer l n hr).1 x hx, (C08_get_most_common l n).1 x hx]

-- the first mode of a list with ties is the earlier label
example : IsFirstMode [3, 7, 7, 3, 1] 3 ∧ ¬ IsFirstMode [3, 7, 7, 3, 1] 7 := by
  unfold IsFirstMode; decide
example : getMostCommonLabel [0, 7, 7, 3, 3] 2 = .ok [7, 7] ∧
    Transduce.getMostCommonExceptNotEntity [0, 0, 5] 3 = .ok [5, 5, 5] := by decide

/-! ### C09 -/

/-- C09: with the default transducer a span whose labels contain an integer outside `unsigned int`
silently gets label 0. -/
theorem C09_reduce_negative_is_zero (l : List Int) (n : Nat) (h : ∃ x ∈ l, x < 0 ∨ 2 ^ 32 ≤ x) :
    getMostCommonLabel l n = .ok (List.replicate n 0) := by
  obtain ⟨e, he⟩ := mapM_toUInt_error l h
  obtain ⟨x, hx, _⟩ := h
  have hlen : ¬ l.length = 0 := by
    intro h0
    rw [List.length_eq_zero_iff.mp h0] at hx
    simp at hx
  simp only [getMostCommonLabel, if_neg hlen, countAndGetMostCommon, he]

/-- C09: `reduce_by_span_group` never raises on an accepted group and labels of the right length,
whatever the labels; each token gets the first most common label of its span, or 0 if the span is
empty or has a label outside `unsigned int`. -/
theorem C09_reduce_total (ts : List (Int × Int)) (g : SpanGroup) (hg : SpanGroup.addAll ts = .ok g)
    (labels : List Int) (hlen : labels.length = (g.spans.getLast?.map Span.stop).getD 0) :
    ∃ out, reduceBySpanGroup labels g = .ok out ∧ out.length = g.spans.length ∧
      ∀ (i : Nat) (s : Span), g.spans[i]? = some s → ∃ y, out[i]? = some y ∧
        let part := (labels.take s.stop).drop s.start
        ((∀ x ∈ part, 0 ≤ x ∧ x < 2 ^ 32) → part ≠ [] → IsFirstMode part y) ∧
        (((∃ x ∈ part, x < 0 ∨ 2 ^ 32 ≤ x) ∨ part = []) → y = 0) := by
  obtain ⟨h1, h2⟩ := spanAddAll_tiles ts g hg
  have hend : endOf 0 g.spans = labels.length := by
    rw [hlen]
    rcases List.eq_nil_or_concat g.spans with e | ⟨ys, y, e⟩
    · rw [e]; rfl
    · rw [e, List.concat_eq_append, endOf_getLast]; simp
  let f : Span → Int := fun s =>
    if (slice labels s.start s.stop).length = 0 then 0
    else countAndGetMostCommon (slice labels s.start s.stop)
  have hred := reduce_eq labels getMostCommonLabel f g.spans hend (fun s _ => rfl)
  rw [← spanGroup_eta h1] at hred
  refine ⟨_, hred, by simp, fun i s hs => ⟨f s, by simp [hs], ?_, ?_⟩⟩
  · intro hr hne
    have hr' : ∀ x ∈ slice labels s.start s.stop, 0 ≤ x ∧ x < 2 ^ 32 := hr
    have hne' : slice labels s.start s.stop ≠ [] := hne
    obtain ⟨r, hm⟩ := mapM_toUInt_ok _ hr'
    have hl : ¬ (slice labels s.start s.stop).length = 0 := by simpa using hne'
    simp only [f, if_neg hl, countAndGetMostCommon, hm]
    exact scanMax_firstMode _ hne'
  · rintro (hb | he)
    · obtain ⟨e, hm⟩ := mapM_toUInt_error (slice labels s.start s.stop) hb
      simp only [f, countAndGetMostCommon, hm]
      split <;> rfl
    · have he' : slice labels s.start s.stop = [] := he
      simp [f, he']

theorem expandLoop_overflow (ss : List Span) (ls pre junk : List Int) (hlen : ss.length = ls.length)
    (h : Tiles pre.length ss) (hj : pre.length + junk.length = endOf pre.length ss)
    (hr : ∃ x ∈ ls, x < 0 ∨ 2 ^ 32 ≤ x) :
    expandLoop ss ls (pre ++ junk) = .error .overflowError := by
  induction ss generalizing ls pre junk with
  | nil =>
    have : ls = [] := List.length_eq_zero_iff.mp (by simpa using hlen.symm)
    subst this
    simp at hr
  | cons s ss ih =>
    cases ls with
    | nil => simp at hlen
    | cons l ls =>
      rw [expandLoop]
      rcases toUInt_cases l with ht | ⟨n, ht, hn, hb⟩
      · rw [ht]; rfl
      · rw [ht]
        simp only [Except.bind_ok]
        obtain ⟨h1, h2, h3⟩ := h
        have hge := endOf_ge h3
        simp only [endOf] at hj
        have hsplit : junk = junk.take (s.stop - s.start) ++ junk.drop (s.stop - s.start) := by simp
        have hln : (junk.take (s.stop - s.start)).length = s.stop - s.start := by
          rw [List.length_take]; omega
        have hf := fillRange_eq (n : Int) pre (junk.take (s.stop - s.start))
          (junk.drop (s.stop - s.start))
        rw [hln, List.append_assoc, ← hsplit, ← h1] at hf
        rw [hf]
        simp only [Except.bind_ok]
        have hpl : (pre ++ List.replicate (s.stop - s.start) (n : Int)).length = s.stop := by
          simp; omega
        refine ih ls _ _ (by simpa using hlen) (by rw [hpl]; exact h3) (by
          rw [hpl, List.length_drop]; omega) ?_
        obtain ⟨x, hx, hbx⟩ := hr
        rcases List.mem_cons.mp hx with e | hx
        · exfalso
          have e2 : (uintBound : Int) = 2 ^ 32 := by decide
          omega
        · exact ⟨x, hx, hbx⟩

/-- C09: `expand_by_span_group` raises OverflowError on such a label. -/
theorem C09_expand_negative_raises (ts : List (Int × Int)) (g : SpanGroup)
    (hg : SpanGroup.addAll ts = .ok g) (labels : List Int) (hlen : labels.length = g.spans.length)
    (h : ∃ x ∈ labels, x < 0 ∨ 2 ^ 32 ≤ x) :
    expandBySpanGroup labels g = .error .overflowError := by
  obtain ⟨h1, h2⟩ := spanAddAll_tiles ts g hg
  have hne : g.spans ≠ [] := by
    intro e
    rw [e] at hlen
    rw [List.length_eq_zero_iff.mp hlen] at h
    simp at h
  obtain ⟨s, h3, h4⟩ := last_eq g.spans hne
  rw [spanGroup_eta h1]
  unfold expandBySpanGroup
  rw [if_neg (by simp [hlen]), if_neg (by simpa using hne), h3]
  simp only [Except.bind_ok, SpanGroup.items, if_true]
  have := expandLoop_overflow g.spans labels [] (List.replicate s.stop notEntity) hlen.symm h2
    (by simp [h4]) h
  simpa using this

example : SpanGroup.addAll [(0, 2), (2, 3)] = .ok ⟨[⟨0, 2⟩, ⟨2, 3⟩], true⟩ ∧
    reduceBySpanGroup [-1, -1, 4] ⟨[⟨0, 2⟩, ⟨2, 3⟩], true⟩ = .ok [0, 4] ∧
    expandBySpanGroup [-1, 4] ⟨[⟨0, 2⟩, ⟨2, 3⟩], true⟩ = .error .overflowError := by decide

/-! ### C10 -/

/-- C10: `SpanGroup.add_all` accepts exactly the lists of spans whose stable sort by end tiles an
initial segment of the integers; it stores that sorted list. -/
theorem C10_span_group_acceptance (ss : List Span) (hwf : ∀ s ∈ ss, s.start ≤ s.stop ∧ s.stop < 2 ^ 32)
    (sorted : List Span) (hs : IsStableSort Span.stop ss sorted) :
    (Tiles 0 sorted → SpanGroup.addAll (ss.map fun s => ((s.start : Int), (s.stop : Int))) =
      .ok ⟨sorted, true⟩) ∧
    (¬ Tiles 0 sorted → SpanGroup.addAll (ss.map fun s => ((s.start : Int), (s.stop : Int))) =
      .error .valueError) := by
  rw [isStableSort_iff] at hs
  subst hs
  rw [spanAddAll_eq_done ss hwf]
  exact spanDone_spec ss false (fun s hs => (hwf s hs).1)

/-- C10: such a sorted list always exists. -/
theorem C10_stable_sort_exists (ss : List Span) : ∃ sorted, IsStableSort Span.stop ss sorted :=
  ⟨_, pySorted_stable Span.stop ss⟩

/-- C10: an accepted group covers `[0, end of last)`: every position below the last end lies in
exactly one span (as the only one among all spans), no position beyond it lies in any. -/
theorem C10_accepted_covers (ts : List (Int × Int)) (g : SpanGroup) (hg : SpanGroup.addAll ts = .ok g)
    (i : Nat) :
    (i < (g.spans.getLast?.map Span.stop).getD 0 →
      ∃ pre s post, g.spans = pre ++ s :: post ∧ s.start ≤ i ∧ i < s.stop ∧
        ∀ t ∈ pre ++ post, ¬ (t.start ≤ i ∧ i < t.stop)) ∧
    ((g.spans.getLast?.map Span.stop).getD 0 ≤ i → ∀ t ∈ g.spans, ¬ (t.start ≤ i ∧ i < t.stop)) := by
  obtain ⟨_, h2⟩ := spanAddAll_tiles ts g hg
  have hend : (g.spans.getLast?.map Span.stop).getD 0 = endOf 0 g.spans := by
    rcases List.eq_nil_or_concat g.spans with e | ⟨ys, y, e⟩
    · rw [e]; rfl
    · rw [e, List.concat_eq_append, endOf_getLast]; simp
  rw [hend]
  constructor
  · intro hi
    have key : ∀ (ss : List Span) (cur : Nat), Tiles cur ss → cur ≤ i → i < endOf cur ss →
        ∃ pre s post, ss = pre ++ s :: post ∧ s.start ≤ i ∧ i < s.stop ∧
          ∀ t ∈ pre ++ post, ¬ (t.start ≤ i ∧ i < t.stop) := by
      intro ss
      induction ss with
      | nil => intro cur _ h1 h2; simp only [endOf] at h2; omega
      | cons a as ih =>
        intro cur ht hc he
        obtain ⟨t1, t2, t3⟩ := ht
        simp only [endOf] at he
        by_cases hlt : i < a.stop
        · refine ⟨[], a, as, rfl, by omega, hlt, ?_⟩
          intro t ht'
          have := tiles_mem t3 t (by simpa using ht')
          omega
        · obtain ⟨pre, s, post, e1, e2, e3, e4⟩ := ih a.stop t3 (by omega) he
          refine ⟨a :: pre, s, post, by simp [e1], e2, e3, ?_⟩
          intro t ht'
          rcases List.mem_cons.mp ht' with rfl | ht'
          · omega
          · exact e4 t ht'
    exact key g.spans 0 h2 (by omega) hi
  · intro hi t ht
    have := tiles_stop_le h2 t ht
    omega

/-- C10: acceptance depends on the order in which zero-width spans were added. -/
theorem C10_order_dependent :
    (∃ g, SpanGroup.addAll [(0, 2), (2, 2)] = .ok g) ∧
    SpanGroup.addAll [(2, 2), (0, 2)] = .error .valueError := by
  exact ⟨⟨⟨[⟨0, 2⟩, ⟨2, 2⟩], true⟩, by decide⟩, by decide⟩

example : IsStableSort Span.stop [⟨2, 5⟩, ⟨0, 2⟩] [⟨0, 2⟩, ⟨2, 5⟩] ∧
    Tiles 0 [⟨0, 2⟩, ⟨2, 5⟩] ∧ ¬ Tiles 0 [⟨0, 2⟩, ⟨3, 5⟩] := by
  refine ⟨(isStableSort_iff _ _ _).mpr (by decide), by decide, by decide⟩

/-- C10: `==` of an accepted group compares the number of spans and their sets. -/
theorem C10_equality (ts ts' : List (Int × Int)) (g g' : SpanGroup) (hg : SpanGroup.addAll ts = .ok g)
    (hg' : SpanGroup.addAll ts' = .ok g') :
    ∃ b, g.eq g' = .ok b ∧
      (b = true ↔ g.spans.length = g'.spans.length ∧ ∀ s, s ∈ g.spans ↔ s ∈ g'.spans) := by
  have h2 := (spanAddAll_tiles ts' g' hg').1
  refine ⟨_, by unfold SpanGroup.eq SpanGroup.items; rw [if_pos h2]; rfl, ?_⟩
  simp only [Bool.and_eq_true, List.all_eq_true, decide_eq_true_eq, beq_iff_eq]
  constructor
  · rintro ⟨a, b, c⟩
    exact ⟨a.symm, fun s => ⟨c s, b s⟩⟩
  · rintro ⟨a, b⟩
    exact ⟨a.symm, fun s => (b s).mpr, fun s => (b s).mp⟩

/-- C10: without empty spans, accepted groups are `==` exactly if they consist of the same spans in the same order. -/
theorem C10_equality_nonempty (ts ts' : List (Int × Int)) (g g' : SpanGroup) (hg : SpanGroup.addAll ts = .ok g)
    (hg' : SpanGroup.addAll ts' = .ok g') (hne : ∀ s ∈ g.spans, s.start < s.stop) :
    g.eq g' = .ok true ↔ g.spans = g'.spans := by
  obtain ⟨b, hb, hiff⟩ := C10_equality ts ts' g g' hg hg'
  have ht := (spanAddAll_tiles ts g hg).2
  have ht' := (spanAddAll_tiles ts' g' hg').2
  have sorted : ∀ (ss : List Span) (cur : Nat), Tiles cur ss → (∀ s ∈ ss, s.start < s.stop) →
      ss.Pairwise (fun a b => a.stop < b.stop) := by
    intro ss
    induction ss with
    | nil => intros; exact List.Pairwise.nil
    | cons a as ih =>
      intro cur h hn
      refine List.Pairwise.cons (fun b hb => ?_) (ih _ h.2.2 fun s hs => hn s (by simp [hs]))
      have h1 := (tiles_mem h.2.2 b hb).1
      have h2 := hn b (by simp [hb])
      omega
  rw [hb]
  constructor
  · intro h
    obtain ⟨_, h2⟩ := hiff.mp (Except.ok.inj h)
    have p1 := sorted _ _ ht hne
    have p2 := sorted _ _ ht' fun s hs => hne s ((h2 s).mpr hs)
    have nd : ∀ ss : List Span, ss.Pairwise (fun a b => a.stop < b.stop) → ss.Nodup := fun ss h =>
      h.imp fun {a b} hab e => by subst e; omega
    have hperm := (List.perm_ext_iff_of_nodup (nd _ p1) (nd _ p2)).mpr h2
    exact List.Perm.eq_of_pairwise (fun a b _ _ h1 h2 => by omega) p1 p2 hperm
  · intro h
    rw [hiff.mpr ⟨by rw [h], fun s => by rw [h]⟩]

/-- C10: with empty spans, groups that split a string differently can be `==`. -/
theorem C10_equality_coarse : ∃ g g', SpanGroup.addAll [(0, 0), (0, 0), (0, 1), (1, 1)] = .ok g ∧
    SpanGroup.addAll [(0, 0), (0, 1), (1, 1), (1, 1)] = .ok g' ∧ g.eq g' = .ok true ∧
    Str2Lst.apply "a".toList g = .ok ["".toList, "".toList, "a".toList, "".toList] ∧
    Str2Lst.apply "a".toList g' = .ok ["".toList, "a".toList, "".toList, "".toList] :=
  ⟨⟨[⟨0, 0⟩, ⟨0, 0⟩, ⟨0, 1⟩, ⟨1, 1⟩], true⟩, ⟨[⟨0, 0⟩, ⟨0, 1⟩, ⟨1, 1⟩, ⟨1, 1⟩], true⟩, by decide⟩

/-- C10: comparing with a group that is not finalised raises RuntimeError. -/
theorem C10_equality_not_done (g g' : SpanGroup) (h : g'.isDone = false) : g.eq g' = .error .runtimeError := by
  unfold SpanGroup.eq SpanGroup.items
  rw [h]; rfl

/-- C10: tuples of any length: pairs are added, the first tuple that is no pair raises ValueError (unless a bound before
it is outside unsigned 32 bit). -/
theorem C10_tuples (ts : List (Int × Int)) :
    SpanGroup.addAllTuples (ts.map fun t => [t.1, t.2]) = SpanGroup.addAll ts ∧
    ((∀ t ∈ ts, (0 ≤ t.1 ∧ t.1 < 2 ^ 32) ∧ 0 ≤ t.2 ∧ t.2 < 2 ^ 32) → ∀ (bad : List Int) (rest : List (List Int)),
      bad.length ≠ 2 → SpanGroup.addAllTuples ((ts.map fun t => [t.1, t.2]) ++ bad :: rest) = .error .valueError) := by
  constructor
  · unfold SpanGroup.addAllTuples SpanGroup.addAll
    rw [List.foldlM_map]
  · intro h bad rest hbad
    unfold SpanGroup.addAllTuples
    rw [List.foldlM_append, List.foldlM_map]
    have key : ∀ (ts : List (Int × Int)) (g : SpanGroup),
        (∀ t ∈ ts, (0 ≤ t.1 ∧ t.1 < 2 ^ 32) ∧ 0 ≤ t.2 ∧ t.2 < 2 ^ 32) →
        ∃ g', ts.foldlM (fun g (s : Int × Int) => g.addPy s.1 s.2) g = .ok g' := by
      intro ts
      induction ts with
      | nil => exact fun g _ => ⟨g, rfl⟩
      | cons t ts ih =>
        intro g h
        obtain ⟨⟨h1, h2⟩, h3, h4⟩ := h t (by simp)
        obtain ⟨a, ha⟩ := Int.eq_ofNat_of_zero_le h1
        obtain ⟨b, hb⟩ := Int.eq_ofNat_of_zero_le h3
        simp only [List.foldlM_cons]
        unfold SpanGroup.addPy
        rw [ha, hb, toUInt_nat (show a < uintBound by unfold uintBound; omega),
          toUInt_nat (show b < uintBound by unfold uintBound; omega)]
        exact ih _ fun t ht => h t (by simp [ht])
    obtain ⟨g', hg'⟩ := key ts SpanGroup.empty h
    rw [hg']
    simp only [Except.bind_ok, List.foldlM_cons]
    rcases bad with _ | ⟨a, _ | ⟨b, _ | ⟨c, bad⟩⟩⟩
    · rfl
    · rfl
    · simp at hbad
    · rfl

-- hypotheses of C10_equality_nonempty and C10_tuples
example : (∃ g g', SpanGroup.addAll [(0, 2), (2, 5)] = .ok g ∧ SpanGroup.addAll [(2, 5), (0, 2)] = .ok g' ∧
      g.eq g' = .ok true ∧ ∀ s ∈ g.spans, s.start < s.stop) ∧
    SpanGroup.addAllTuples [[0, 2], [2, 5, 6]] = .error .valueError ∧
    SpanGroup.addAllTuples [[0, 2], [2]] = .error .valueError :=
  ⟨⟨⟨[⟨0, 2⟩, ⟨2, 5⟩], true⟩, ⟨[⟨0, 2⟩, ⟨2, 5⟩], true⟩, by decide⟩, by decide⟩

/-! ### C11 -/

/-- C11: splitting along an accepted non-empty group and joining again gives back the string; the
tokens are as long as their spans. -/
theorem C11_split_join (ts : List (Int × Int)) (g : SpanGroup) (hg : SpanGroup.addAll ts = .ok g)
    (hne : g.spans ≠ []) (s : Str) (hlen : s.length = (g.spans.getLast?.map Span.stop).getD 0) :
    ∃ toks, Str2Lst.apply s g = .ok toks ∧
      toks.map List.length = g.spans.map (fun sp => sp.stop - sp.start) ∧
      Lst2Str.apply toks g = .ok s := by
  obtain ⟨h1, h2⟩ := spanAddAll_tiles ts g hg
  obtain ⟨sp, h3, h4⟩ := last_eq g.spans hne
  have hend : endOf 0 g.spans = s.length := by
    rw [hlen]
    rcases List.eq_nil_or_concat g.spans with e | ⟨ys, y, e⟩
    · exact absurd e hne
    · rw [e, List.concat_eq_append, endOf_getLast]; simp
  rw [spanGroup_eta h1]
  have hl : (g.spans.map fun sp => slice s sp.start sp.stop).map List.length
      = g.spans.map (fun sp => sp.stop - sp.start) := by
    rw [List.map_map]
    refine List.map_congr_left fun a ha => ?_
    simp only [Function.comp]
    rw [length_slice s (by have := tiles_stop_le h2 a ha; omega)]
  refine ⟨g.spans.map fun sp => slice s sp.start sp.stop, ?_, hl, ?_⟩
  · unfold Str2Lst.apply Str2Lst.validateCompatibility
    rw [h3]
    simp only [Except.bind_ok, SpanGroup.items, if_true]
    rw [if_neg (by rw [h4, hend]; simp)]
    rfl
  · have hcompat : ∀ (ss : List Span), (∀ a ∈ ss, a.start ≤ a.stop ∧ a.stop ≤ s.length) →
        Lst2Str.compatLoop (ss.map fun sp => slice s sp.start sp.stop) ss = .ok () := by
      intro ss
      induction ss with
      | nil => intro _; rfl
      | cons a as ih =>
        intro hh
        have ha := hh a (by simp)
        simp only [List.map_cons, Lst2Str.compatLoop]
        rw [length_slice s ha.2, if_neg (by omega)]
        exact ih (fun b hb => hh b (by simp [hb]))
    unfold Lst2Str.apply Lst2Str.validateCompatibility
    rw [if_neg (by simp)]
    have hemp : (g.spans.map fun sp => slice s sp.start sp.stop).isEmpty = false := by simpa using hne
    simp only [hemp, SpanGroup.items, if_true, Bool.false_eq_true, if_false, Except.bind_ok]
    rw [hcompat g.spans (fun a ha => ⟨(tiles_mem h2 a ha).2, by
      have := tiles_stop_le h2 a ha; omega⟩)]
    simp only [Except.bind_ok]
    rw [flatten_slices s 0 g.spans h2 hend]
    rfl

/-- C11, other direction: joining tokens that fit a non-empty group and splitting again gives back the
tokens. -/
theorem C11_join_split (ts : List (Int × Int)) (g : SpanGroup) (hg : SpanGroup.addAll ts = .ok g)
    (hne : g.spans ≠ []) (toks : List Str)
    (hl : toks.map List.length = g.spans.map (fun sp => sp.stop - sp.start)) :
    Lst2Str.apply toks g = .ok toks.flatten ∧ Str2Lst.apply toks.flatten g = .ok toks := by
  obtain ⟨h1, h2⟩ := spanAddAll_tiles ts g hg
  obtain ⟨sp, h3, h4⟩ := last_eq g.spans hne
  obtain ⟨h5, h6⟩ := slices_flatten [] toks g.spans h2 hl
  simp only [List.nil_append, List.length_nil] at h5 h6
  rw [spanGroup_eta h1]
  constructor
  · have hcompat : ∀ (ss : List Span) (ts : List Str), (∀ a ∈ ss, a.start ≤ a.stop) →
        ts.map List.length = ss.map (fun sp => sp.stop - sp.start) →
        Lst2Str.compatLoop ts ss = .ok () := by
      intro ss
      induction ss with
      | nil => intro ts _ _; cases ts <;> rfl
      | cons a as ih =>
        intro ts hh he
        cases ts with
        | nil => rfl
        | cons t ts =>
          simp only [List.map_cons, List.cons.injEq] at he
          have ha := hh a (by simp)
          simp only [Lst2Str.compatLoop]
          rw [if_neg (by omega)]
          exact ih ts (fun b hb => hh b (by simp [hb])) he.2
    have hlen : toks.length = g.spans.length := by
      have := congrArg List.length hl; simpa using this
    unfold Lst2Str.apply Lst2Str.validateCompatibility
    rw [if_neg (by simp [hlen])]
    have hemp : toks.isEmpty = false := by
      cases toks with
      | nil => exact absurd (List.length_eq_zero_iff.mp hlen.symm) hne
      | cons _ _ => rfl
    simp only [hemp, SpanGroup.items, if_true, Bool.false_eq_true, if_false, Except.bind_ok]
    rw [hcompat g.spans toks (fun a ha => (tiles_mem h2 a ha).2) hl]
    rfl
  · unfold Str2Lst.apply Str2Lst.validateCompatibility
    rw [h3]
    simp only [Except.bind_ok, SpanGroup.items, if_true]
    rw [if_neg (by rw [h4, h6]; simp)]
    show Except.ok _ = _
    rw [h5]

/-- C11: errors of `str2lst.apply`. -/
theorem C11_split_errors (ts : List (Int × Int)) (g : SpanGroup) (hg : SpanGroup.addAll ts = .ok g)
    (s : Str) :
    (g.spans = [] → Str2Lst.apply s g = .error .indexError) ∧
    (g.spans ≠ [] → s.length ≠ (g.spans.getLast?.map Span.stop).getD 0 →
      Str2Lst.apply s g = .error .valueError) := by
  obtain ⟨h1, h2⟩ := spanAddAll_tiles ts g hg
  rw [spanGroup_eta h1]
  constructor
  · intro e
    rw [e]
    rfl
  · intro hne hl
    rcases List.eq_nil_or_concat g.spans with e | ⟨ys, y, e⟩
    · exact absurd e hne
    · rw [List.concat_eq_append] at e
      rw [e] at hl
      simp only [List.getLast?_append, List.getLast?_singleton, Option.some_or, Option.map_some,
        Option.getD_some] at hl
      rw [e]
      unfold Str2Lst.apply Str2Lst.validateCompatibility SpanGroup.last
      simp only [if_true, List.getLast?_append, List.getLast?_singleton, Option.some_or,
        Except.bind_ok]
      rw [if_pos hl]
      rfl

/-- C11: errors of `lst2str.apply`: a different number of tokens, or a token of another length. -/
theorem C11_join_errors (ts : List (Int × Int)) (g : SpanGroup) (hg : SpanGroup.addAll ts = .ok g)
    (toks : List Str) (hl : toks.map List.length ≠ g.spans.map (fun sp => sp.stop - sp.start)) :
    Lst2Str.apply toks g = .error .valueError := by
  obtain ⟨h1, h2⟩ := spanAddAll_tiles ts g hg
  unfold Lst2Str.apply Lst2Str.validateCompatibility
  by_cases hlen : toks.length = g.spans.length
  · rw [if_neg (by simp [hlen])]
    have hcompat : ∀ (ss : List Span) (ts : List Str), (∀ a ∈ ss, a.start ≤ a.stop) →
        ts.length = ss.length → ts.map List.length ≠ ss.map (fun sp => sp.stop - sp.start) →
        Lst2Str.compatLoop ts ss = .error .valueError := by
      intro ss
      induction ss with
      | nil =>
        intro ts _ h0 h
        rw [List.length_eq_zero_iff.mp h0] at h
        simp at h
      | cons a as ih =>
        intro ts hh h0 he
        cases ts with
        | nil => simp at h0
        | cons t ts =>
          have ha := hh a (by simp)
          simp only [Lst2Str.compatLoop]
          by_cases hta : (t.length : Int) = (a.stop : Int) - a.start
          · rw [if_neg (by simpa using hta)]
            refine ih ts (fun b hb => hh b (by simp [hb])) (by simpa using h0) (fun h => he ?_)
            simp only [List.map_cons, h, List.cons.injEq, and_true]
            omega
          · rw [if_pos hta]
    have hemp : toks.isEmpty = false := by
      cases toks with
      | nil =>
        exfalso
        have : g.spans = [] := List.length_eq_zero_iff.mp hlen.symm
        rw [this] at hl
        simp at hl
      | cons _ _ => rfl
    simp only [hemp, SpanGroup.items, h1, if_true, Bool.false_eq_true, if_false, Except.bind_ok]
    rw [hcompat g.spans toks (fun a ha => (tiles_mem h2 a ha).2) hlen hl]
    rfl
  · rw [if_pos hlen]
    rfl

example : Str2Lst.apply "abc de".toList ⟨[⟨0, 3⟩, ⟨3, 3⟩, ⟨3, 6⟩], true⟩ =
    .ok ["abc".toList, [], " de".toList] := by decide

/-! ### C12 -/

/-- C12: `gen_span_group` succeeds iff the tokens concatenate to the string (ValueError otherwise); the
spans are the token boundaries. -/
theorem C12_gen_span_group (s : Str) (toks : List Str) :
    (toks.flatten = s → Str2Lst.genSpanGroup s toks =
      .ok ⟨consecutive 0 (toks.map List.length), true⟩) ∧
    (toks.flatten ≠ s → Str2Lst.genSpanGroup s toks = .error .valueError) := by
  constructor
  · rintro rfl; exact genSpanGroup_eq toks
  · exact genSpanGroup_error s toks

/-- C12: splitting along the generated spans yields the tokens. -/
theorem C12_gen_span_group_splits (toks : List Str) (hne : toks ≠ []) (g : SpanGroup)
    (hg : Str2Lst.genSpanGroup toks.flatten toks = .ok g) : Str2Lst.apply toks.flatten g = .ok toks := by
  rw [genSpanGroup_eq] at hg
  injection hg with hg
  subst hg
  have ht := tiles_consecutive 0 (toks.map List.length)
  have hne' : consecutive 0 (toks.map List.length) ≠ [] := by
    intro e
    have := length_consecutive 0 (toks.map List.length)
    rw [e] at this
    simp only [List.length_nil, List.length_map] at this
    exact hne (List.length_eq_zero_iff.mp this.symm)
  obtain ⟨sp, h3, h4⟩ := last_eq _ hne'
  have hl : toks.map List.length =
      (consecutive 0 (toks.map List.length)).map (fun sp => sp.stop - sp.start) := by
    have : ∀ (ns : List Nat) (off : Nat), (consecutive off ns).map (fun sp => sp.stop - sp.start) = ns := by
      intro ns
      induction ns with
      | nil => intro off; rfl
      | cons n ns ih => intro off; simp [consecutive, ih]
    rw [this]
  obtain ⟨h5, h6⟩ := slices_flatten [] toks _ ht hl
  simp only [List.nil_append, List.length_nil] at h5 h6
  unfold Str2Lst.apply Str2Lst.validateCompatibility
  rw [h3]
  simp only [Except.bind_ok, SpanGroup.items, if_true]
  rw [if_neg (by rw [h4, h6]; simp)]
  show Except.ok _ = _
  rw [h5]

/-- C12: `gen_replacement_group` succeeds iff the tokens occur one after the other in the string
(ValueError otherwise); applying the group leaves the concatenated tokens. -/
theorem C12_gen_replacement_group (σ : SetOrder) (s : Str) (toks : List Str) :
    ((∃ g, Str2Lst.genReplacementGroup σ s toks = .ok g) ↔ OccursInOrder s toks) ∧
    (¬ OccursInOrder s toks → Str2Lst.genReplacementGroup σ s toks = .error .valueError) ∧
    (∀ g, Str2Lst.genReplacementGroup σ s toks = .ok g → Str2Str.apply s g = .ok toks.flatten) := by
  obtain ⟨h1, h2⟩ := genReplacementGroup_complete σ s toks
  refine ⟨⟨fun ⟨g, hg⟩ => ?_, h1⟩, h2, fun g hg => ?_⟩
  · by_cases h : OccursInOrder s toks
    · exact h
    · rw [h2 h] at hg; simp at hg
  · obtain ⟨ps, tail, e1, e2, e3, e4⟩ := genReplacementGroup_ok σ s toks g hg
    have := strApply_pieces (tokPieces ps tail)
    rw [srcOf_tokPieces, dstOf_tokPieces] at this
    rw [e1, e4, this, e2]

/-- C12: the tokenisation edit can always be undone (it never contains touching deletions). -/
theorem C12_gen_replacement_group_inverse (σ σ' : SetOrder) (s : Str) (toks : List Str)
    (g : ReplacementGroup Str) (hg : Str2Lst.genReplacementGroup σ s toks = .ok g) :
    ∃ inv, Str2Str.inverse σ' s g = .ok inv ∧ Str2Str.apply toks.flatten inv = .ok s := by
  obtain ⟨ps, tail, e1, e2, e3, e4⟩ := genReplacementGroup_ok σ s toks g hg
  have h := editInverse_pieces (α := Char) σ' (tokPieces ps tail) (separated_swap_tokPieces ps tail e3)
  rw [srcOf_tokPieces, ← e1, ← e4] at h
  refine ⟨_, h, ?_⟩
  have := strApply_pieces ((tokPieces ps tail).map swap)
  rw [srcOf_swap, dstOf_swap, srcOf_tokPieces, dstOf_tokPieces, e2, ← e1] at this
  exact this

example : OccursInOrder " ab  c".toList ["ab".toList, "c".toList] ∧
    Str2Lst.genReplacementGroup SetOrder.rev " ab  c".toList ["ab".toList, "c".toList] =
      .ok ⟨[⟨0, 1, []⟩, ⟨3, 5, []⟩], true⟩ ∧
    Str2Lst.genReplacementGroup SetOrder.rev "ab".toList ["b".toList, "a".toList] = .error .valueError :=
  ⟨⟨" ".toList, "  c".toList, rfl, "  ".toList, [], rfl, trivial⟩, by decide, by decide⟩

/-! ### C13 -/

/-- C13: expanding gives every character its token's label: the labels of the `i`-th span are copies of
the `i`-th label, and there is one label for each position. -/
theorem C13_expand (ts : List (Int × Int)) (g : SpanGroup) (hg : SpanGroup.addAll ts = .ok g)
    (labels : List Int) (hlen : labels.length = g.spans.length)
    (hr : ∀ x ∈ labels, 0 ≤ x ∧ x < 2 ^ 32) :
    ∃ out, expandBySpanGroup labels g = .ok out ∧
      out.length = (g.spans.getLast?.map Span.stop).getD 0 ∧
      ∀ p ∈ g.spans.zip labels, ∀ i, p.1.start ≤ i → i < p.1.stop → out[i]? = some p.2 := by
  obtain ⟨h1, h2⟩ := spanAddAll_tiles ts g hg
  have hexp := expand_eq g.spans labels hlen.symm h2 hr
  rw [← spanGroup_eta h1] at hexp
  refine ⟨_, hexp, ?_, ?_⟩
  · rw [spread_length _ _ 0 hlen.symm h2]
    rcases List.eq_nil_or_concat g.spans with e | ⟨ys, y, e⟩
    · rw [e]; rfl
    · rw [e, List.concat_eq_append, endOf_getLast]; simp
  · intro p hp i hi1 hi2
    have := slice_spread [] g.spans labels hlen.symm h2 p hp
    simp only [List.nil_append] at this
    have h4 : (slice (spread g.spans labels) p.1.start p.1.stop)[i - p.1.start]? = some p.2 := by
      rw [this, List.getElem?_replicate, if_pos (by omega)]
    unfold slice at h4
    rw [List.getElem?_drop, List.getElem?_take] at h4
    rw [if_pos (by omega)] at h4
    have e : p.1.start + (i - p.1.start) = i := by omega
    rw [e] at h4
    exact h4

/-- C13: reducing the expanded labels gives back the labels, when no span is empty. -/
theorem C13_reduce_expand (ts : List (Int × Int)) (g : SpanGroup) (hg : SpanGroup.addAll ts = .ok g)
    (hpos : ∀ s ∈ g.spans, s.start < s.stop) (labels : List Int)
    (hlen : labels.length = g.spans.length) (hr : ∀ x ∈ labels, 0 ≤ x ∧ x < 2 ^ 32) :
    ∃ out, expandBySpanGroup labels g = .ok out ∧ reduceBySpanGroup out g = .ok labels := by
  obtain ⟨h1, h2⟩ := spanAddAll_tiles ts g hg
  have hexp := expand_eq g.spans labels hlen.symm h2 hr
  rw [← spanGroup_eta h1] at hexp
  refine ⟨_, hexp, ?_⟩
  have hend : endOf 0 g.spans = (spread g.spans labels).length := by
    rw [spread_length _ _ 0 hlen.symm h2]; omega
  let f : Span → Int := fun s =>
    if (slice (spread g.spans labels) s.start s.stop).length = 0 then 0
    else countAndGetMostCommon (slice (spread g.spans labels) s.start s.stop)
  have hred := reduce_eq (spread g.spans labels) getMostCommonLabel f g.spans hend (fun s _ => rfl)
  rw [← spanGroup_eta h1] at hred
  rw [hred]
  congr 1
  have hz : g.spans.map f = (g.spans.zip labels).map (fun p => f p.1) := by
    rw [show (fun p : Span × Int => f p.1) = f ∘ Prod.fst from rfl, ← List.map_map,
      List.map_fst_zip (by omega)]
  rw [hz]
  refine Eq.trans ?_ (zip_snd g.spans labels hlen.symm)
  refine List.map_congr_left fun p hp => ?_
  have hs := slice_spread [] g.spans labels hlen.symm h2 p hp
  simp only [List.nil_append] at hs
  have hp' := hpos p.1 (List.of_mem_zip hp).1
  have hx := hr p.2 (List.of_mem_zip hp).2
  have hne : List.replicate (p.1.stop - p.1.start) p.2 ≠ [] := by
    intro e
    have := congrArg List.length e
    simp at this; omega
  simp only [f, hs]
  rw [if_neg (by simp; omega)]
  obtain ⟨r, hm⟩ := mapM_toUInt_ok (List.replicate (p.1.stop - p.1.start) p.2)
    (fun y hy => by rw [List.eq_of_mem_replicate hy]; exact hx)
  simp only [countAndGetMostCommon, hm]
  exact List.eq_of_mem_replicate (scanMax_firstMode _ hne).1

example : SpanGroup.addAll [(0, 2), (2, 5)] = .ok ⟨[⟨0, 2⟩, ⟨2, 5⟩], true⟩ ∧
    expandBySpanGroup [4, 0] ⟨[⟨0, 2⟩, ⟨2, 5⟩], true⟩ = .ok [4, 4, 0, 0, 0] := by decide

/-- C13: labels of another length are refused: expanding raises ValueError, reducing raises ValueError, or IndexError
if there are no spans at all, whatever the function that combines labels. -/
theorem C13_wrong_length (g : SpanGroup) (hd : g.isDone = true) (labels : List Int) (f : Transducer) :
    (labels.length ≠ g.spans.length → expandBySpanGroup labels g = .error .valueError) ∧
    (∀ s, g.spans.getLast? = some s → labels.length ≠ s.stop → reduceBySpanGroup labels g f = .error .valueError) ∧
    (g.spans = [] → labels ≠ [] → reduceBySpanGroup labels g f = .error .indexError) := by
  rw [spanGroup_eta hd]
  refine ⟨fun h => ?_, fun s hs h => ?_, fun h hl => ?_⟩
  · unfold expandBySpanGroup
    exact if_pos fun e => h e.symm
  · unfold reduceBySpanGroup SpanGroup.last
    dsimp only at hs ⊢
    have hne : g.spans.length ≠ 0 := by
      intro e
      rw [List.length_eq_zero_iff.mp e] at hs
      cases hs
    rw [if_neg fun e => hne e.1, if_pos rfl, hs]
    simp only [Except.bind_ok]
    exact if_pos h
  · unfold reduceBySpanGroup SpanGroup.last
    dsimp only at h ⊢
    rw [h, if_neg fun e => hl (List.length_eq_zero_iff.mp e.2)]
    rfl

/-- C13: before `done()` both functions raise RuntimeError, unless they can answer without looking at the spans. -/
theorem C13_not_done (g : SpanGroup) (hd : g.isDone = false) (labels : List Int) (f : Transducer) :
    (g.spans ≠ [] → labels.length = g.spans.length → expandBySpanGroup labels g = .error .runtimeError) ∧
    (g.spans ≠ [] ∨ labels ≠ [] → reduceBySpanGroup labels g f = .error .runtimeError) := by
  refine ⟨fun h hl => ?_, fun h => ?_⟩
  · unfold expandBySpanGroup SpanGroup.last
    rw [if_neg (by simp [hl]), if_neg (by simpa using h), hd]
    rfl
  · unfold reduceBySpanGroup SpanGroup.last
    rw [if_neg, hd]
    · rfl
    · rintro ⟨h1, h2⟩
      rcases h with h | h
      · exact h (List.length_eq_zero_iff.mp h1)
      · exact h (List.length_eq_zero_iff.mp h2)

example : expandBySpanGroup [4, 0, 1] ⟨[⟨0, 2⟩, ⟨2, 5⟩], true⟩ = .error .valueError ∧
    reduceBySpanGroup [4, 4, 0, 0, 0, 9] ⟨[⟨0, 2⟩, ⟨2, 5⟩], true⟩ = .error .valueError ∧
    reduceBySpanGroup [4] ⟨[], true⟩ = .error .indexError ∧
    reduceBySpanGroup [4, 4] ⟨[⟨0, 2⟩], false⟩ = .error .runtimeError := by decide

end Uttut
