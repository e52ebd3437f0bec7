import Verif.Lemmas.Pack

/-! Properties C43-C47: data, entities, `unpack_datum` and `pack_to_datum`. -/

namespace Uttut

open Spec

/-! ### C43 construction -/

/-- C43: `Datum(utterance, intents, entities)` returns a datum iff every entity's value is the text at its
position and, in start order (equal starts in the given order), no entity ends after the next one starts.
The datum has exactly the given intents sorted by hash and the given entities sorted by start. -/
theorem C43_datum (u : Str) (is : List Intent) (es : List Entity) (d : Datum) :
    Datum.new u (some is) (some es) = .ok d ↔
      d.utterance = u ∧ IsStableSort Intent.hash is d.intents ∧ IsStableSort Entity.start es d.entities ∧
        (∀ e ∈ es, ValueAt u e) ∧ Neighbours Before d.entities := by
  constructor
  · intro h
    obtain ⟨rfl, h1, h2⟩ := datum_new_cases u is es d h
    exact ⟨rfl, pySorted_stable_int _ _, pySorted_stable_int _ _, h1, h2⟩
  · rintro ⟨h1, h2, h3, h4, h5⟩
    rw [isStableSort_int_iff] at h2 h3
    rw [h3] at h5
    rw [datum_new_ok u is es h4 h5, ← h1, ← h2, ← h3]

/-- C43: the error cases; a wrong value takes precedence over an overlap, nothing else can be raised, and
missing intents or entities are empty lists. -/
theorem C43_errors (u : Str) (is : List Intent) (es : List Entity) :
    (Datum.new u (some is) (some es) = .error .entityPositionError ↔ ∃ e ∈ es, ¬ ValueAt u e) ∧
      (Datum.new u (some is) (some es) = .error .entityOverlapping ↔
        (∀ e ∈ es, ValueAt u e) ∧ ∀ l, IsStableSort Entity.start es l → ¬ Neighbours Before l) ∧
      (∀ x, Datum.new u (some is) (some es) = .error x → x = .entityPositionError ∨ x = .entityOverlapping) ∧
      Datum.new u none (some es) = Datum.new u (some []) (some es) ∧
      Datum.new u (some is) none = Datum.new u (some is) (some []) ∧
      Datum.new u none none = Datum.new u (some []) (some []) := by
  have key : ∀ l, IsStableSort Entity.start es l ↔ l = pySorted Entity.start es :=
    isStableSort_int_iff _ _
  refine ⟨?_, ?_, ?_, rfl, rfl, rfl⟩
  · by_cases h1 : ∀ e ∈ es, ValueAt u e
    · constructor
      · intro h
        by_cases h2 : Neighbours Before (pySorted Entity.start es)
        · rw [datum_new_ok u is es h1 h2] at h; cases h
        · rw [datum_new_overlap u is es h1 h2] at h; cases h
      · rintro ⟨e, he, hn⟩
        exact absurd (h1 e he) hn
    · refine ⟨fun _ => ?_, fun _ => datum_new_position u is es h1⟩
      simpa using h1
  · constructor
    · intro h
      by_cases h1 : ∀ e ∈ es, ValueAt u e
      · refine ⟨h1, fun l hl hb => ?_⟩
        rw [(key l).mp hl] at hb
        rw [datum_new_ok u is es h1 hb] at h; cases h
      · rw [datum_new_position u is es h1] at h; cases h
    · rintro ⟨h1, h2⟩
      exact datum_new_overlap u is es h1 (h2 _ ((key _).mpr rfl))
  · intro x h
    by_cases h1 : ∀ e ∈ es, ValueAt u e
    · by_cases h2 : Neighbours Before (pySorted Entity.start es)
      · rw [datum_new_ok u is es h1 h2] at h; cases h
      · rw [datum_new_overlap u is es h1 h2] at h; injection h with h; exact .inr h.symm
    · rw [datum_new_position u is es h1] at h; injection h with h; exact .inl h.symm

/-- C43: a stable sort is a rearrangement and there is exactly one, so the datum is determined. -/
theorem C43_sort_unique {α : Type} (key : α → Int) (l : List α) :
    (∃ l', IsStableSort key l l') ∧
      ∀ l' l'', IsStableSort key l l' → IsStableSort key l l'' → l' = l'' ∧ l'.Perm l := by
  refine ⟨⟨_, pySorted_stable_int key l⟩, fun l' l'' h1 h2 => ?_⟩
  rw [isStableSort_int_iff] at h1 h2
  exact ⟨h1.trans h2.symm, h1 ▸ pySorted_perm key l⟩

/-- A concrete case of C43: two touching entities given in the wrong order. -/
example : Datum.new "abcd".toList (some [⟨3⟩, ⟨-1⟩, ⟨-2⟩])
    (some [⟨7, "cd".toList, 2, 4, []⟩, ⟨8, "ab".toList, 0, 2, []⟩]) =
    .ok ⟨"abcd".toList, [⟨-1⟩, ⟨-2⟩, ⟨3⟩],
      [⟨8, "ab".toList, 0, 2, []⟩, ⟨7, "cd".toList, 2, 4, []⟩]⟩ := by decide

/-- Witness that construction depends on the given order of entities with equal starts. -/
example : Datum.new "ab".toList none (some [⟨1, [], 0, 0, []⟩, ⟨2, "a".toList, 0, 1, []⟩]) =
      .ok ⟨"ab".toList, [], [⟨1, [], 0, 0, []⟩, ⟨2, "a".toList, 0, 1, []⟩]⟩ ∧
    Datum.new "ab".toList none (some [⟨2, "a".toList, 0, 1, []⟩, ⟨1, [], 0, 0, []⟩]) =
      .error .entityOverlapping := by decide

/-! ### C44 disjoint entities -/

/-- C44: of any two entities of a constructed datum (in the order they were given) one ends at or before
the start of the other, so no index belongs to both `range(start, end)`. -/
theorem C44_disjoint (u : Str) (is : List Intent) (es : List Entity) (d : Datum)
    (h : Datum.new u (some is) (some es) = .ok d) :
    d.entities.Pairwise Before ∧
      es.Pairwise (fun e f => ∀ i : Int, ¬ ((e.start ≤ i ∧ i < e.stop) ∧ (f.start ≤ i ∧ i < f.stop))) := by
  have hd := isDatum_of_new h
  refine ⟨hd.before, ?_⟩
  obtain ⟨rfl, _, _⟩ := datum_new_cases u is es d h
  have hb : (pySorted Entity.start es).Pairwise
      (fun e f => ∀ i : Int, ¬ ((e.start ≤ i ∧ i < e.stop) ∧ (f.start ≤ i ∧ i < f.stop))) :=
    hd.before.imp (fun {e f} hef i hi => by unfold Before at hef; omega)
  refine (List.Perm.pairwise_iff ?_ (pySorted_perm Entity.start es)).mp hb
  intro e f hef i hi
  exact hef i ⟨hi.2, hi.1⟩

/-- C44: when no bound is negative, any two entities also occupy different characters of the utterance. -/
theorem C44_characters (u : Str) (is : List Intent) (es : List Entity) (d : Datum)
    (h : Datum.new u (some is) (some es) = .ok d) (hn : ∀ e ∈ es, 0 ≤ e.start) :
    es.Pairwise (fun e f => ∀ i, i < u.length → ¬ (Covers u.length e i ∧ Covers u.length f i)) := by
  have hp := (C44_disjoint u is es d h).2
  refine List.Pairwise.imp_of_mem ?_ hp
  intro e f he hf hef i hi ⟨h1, h2⟩
  have := hn e he
  have := hn f hf
  unfold Covers at h1 h2
  exact hef i (by omega)

/-- Without these bounds the constructor accepts entities on the same characters, ... -/
theorem C44_negative_bounds_collide :
    ∃ d, Datum.new "abcd".toList none
        (some [⟨1, "ab".toList, -4, -2, []⟩, ⟨2, "ab".toList, 0, 2, []⟩]) = .ok d ∧
      ∀ e ∈ d.entities, Covers 4 e 0 := by
  exact ⟨_, rfl, by decide⟩

/-- ... and entities reaching beyond the end of the utterance. -/
theorem C44_beyond_end :
    ∃ d, Datum.new "ab".toList none (some [⟨1, "b".toList, 1, 9, []⟩]) = .ok d ∧
      ¬ ∀ e ∈ d.entities, WithinUtterance d.utterance e := by
  exact ⟨_, rfl, by unfold WithinUtterance; decide⟩

/-- A concrete case of C44. -/
example : ∃ d, Datum.new "abcd".toList (some [])
    (some [⟨7, "cd".toList, 2, 4, []⟩, ⟨8, "ab".toList, 0, 2, []⟩]) = .ok d ∧
    ∀ e ∈ d.entities, 0 ≤ e.start := by
  exact ⟨_, rfl, by decide⟩

/-! ### C45 unpack_datum -/

/-- C45: `unpack_datum` returns the utterance, the intent labels and one label per character, that of the
last entity covering it (negative bounds count from the end), 0 if there is none. It does so iff every
non-empty entity range lies within `-len(utterance) .. len(utterance)`; else it raises IndexError. -/
theorem C45_unpack (d : Datum) :
    ((∀ e ∈ d.entities, e.start < e.stop →
        -(d.utterance.length : Int) ≤ e.start ∧ e.stop ≤ d.utterance.length) →
      ∃ ls, unpackDatum d = .ok (d.utterance, d.intents.map (fun i => i.label), ls) ∧
        ls.length = d.utterance.length ∧
        ∀ i, i < d.utterance.length → ls[i]? =
          some (((d.entities.filter (fun e => decide (Covers d.utterance.length e i))).getLast?.map
            (fun e => e.label)).getD 0)) ∧
      ((¬ ∀ e ∈ d.entities, e.start < e.stop →
        -(d.utterance.length : Int) ≤ e.start ∧ e.stop ≤ d.utterance.length) →
        unpackDatum d = .error .indexError) := by
  constructor
  · intro h
    obtain ⟨ls, h1, h2, h3⟩ := paintAll_spec d.utterance.length d.entities
      (List.replicate d.utterance.length 0) (by simp) h
    refine ⟨ls, by unfold unpackDatum; rw [h1]; rfl, h2, fun i hi => ?_⟩
    rw [h3 i hi]
    cases (d.entities.filter (fun e => decide (Covers d.utterance.length e i))).getLast? with
    | some e => rfl
    | none => simp [hi]
  · intro h
    have h' : ∃ e ∈ d.entities, e.start < e.stop ∧
        (e.start < -(d.utterance.length : Int) ∨ (d.utterance.length : Int) < e.stop) := by
      refine Classical.byContradiction fun hn => h fun e he hlt => ?_
      refine Classical.byContradiction fun hc => hn ⟨e, he, hlt, by omega⟩
    unfold unpackDatum
    rw [paintAll_error d.utterance.length d.entities (List.replicate d.utterance.length 0) (by simp) h']
    rfl

/-- The label at a position of a datum with well-placed entities. -/
theorem unpack_within {d : Datum} (hd : IsDatum d) (hw : ∀ e ∈ d.entities, WithinUtterance d.utterance e) :
    ∃ ls, unpackDatum d = .ok (d.utterance, d.intents.map (fun i => i.label), ls) ∧
      ls.length = d.utterance.length ∧
      ∀ i, i < d.utterance.length →
        (∀ e ∈ d.entities, e.start ≤ i → (i : Int) < e.stop → ls[i]? = some e.label) ∧
        ((∀ e ∈ d.entities, ¬ (e.start ≤ i ∧ (i : Int) < e.stop)) → ls[i]? = some 0) := by
  obtain ⟨ls, h1, h2, h3⟩ := (C45_unpack d).1 (fun e he _ => by
    have := hw e he
    unfold WithinUtterance at this
    omega)
  have hcov : ∀ e ∈ d.entities, ∀ i, i < d.utterance.length →
      (Covers d.utterance.length e i ↔ (e.start ≤ i ∧ (i : Int) < e.stop)) := by
    intro e he i hi
    have := hw e he
    unfold WithinUtterance at this
    unfold Covers
    omega
  refine ⟨ls, h1, h2, fun i hi => ⟨fun e he ha hb => ?_, fun hn => ?_⟩⟩
  · rw [h3 i hi]
    have hmem : e ∈ d.entities.filter (fun e => decide (Covers d.utterance.length e i)) := by
      rw [List.mem_filter]
      exact ⟨he, decide_eq_true ((hcov e he i hi).mpr ⟨ha, hb⟩)⟩
    cases hg : (d.entities.filter (fun e => decide (Covers d.utterance.length e i))).getLast? with
    | none => rw [List.getLast?_eq_none_iff] at hg; rw [hg] at hmem; cases hmem
    | some f =>
      have hf := List.mem_of_getLast? hg
      rw [List.mem_filter] at hf
      have hfc := (hcov f hf.1 i hi).mp (of_decide_eq_true hf.2)
      have hef : e = f := by
        have hb' := hd.before
        refine Classical.byContradiction fun hne => ?_
        have : Before e f ∨ Before f e := pairwise_or hb' he hf.1 hne
        unfold Before at this
        omega
      rw [hef]
      rfl
  · rw [h3 i hi]
    have : d.entities.filter (fun e => decide (Covers d.utterance.length e i)) = [] := by
      rw [List.filter_eq_nil_iff]
      intro e he
      rw [decide_eq_true_iff, hcov e he i hi]
      exact hn e he
    rw [this]
    rfl

/-- C45: in a constructed datum whose entities lie within the utterance, every character carries the label
of the one entity that covers it, and 0 when there is none. -/
theorem C45_labels (u : Str) (is : List Intent) (es : List Entity) (d : Datum)
    (h : Datum.new u (some is) (some es) = .ok d) (hw : ∀ e ∈ es, WithinUtterance u e) :
    ∃ ls, unpackDatum d = .ok (u, d.intents.map (fun i => i.label), ls) ∧ ls.length = u.length ∧
      ∀ i, i < u.length →
        (∀ e ∈ es, e.start ≤ i → (i : Int) < e.stop → ls[i]? = some e.label) ∧
        ((∀ e ∈ es, ¬ (e.start ≤ i ∧ (i : Int) < e.stop)) → ls[i]? = some 0) := by
  obtain ⟨rfl, _, _⟩ := datum_new_cases u is es d h
  obtain ⟨ls, h1, h2, h3⟩ := unpack_within (isDatum_of_new h) (fun e he => hw e (mem_pySorted.mp he))
  refine ⟨ls, h1, h2, fun i hi => ⟨fun e he => (h3 i hi).1 e (mem_pySorted.mpr he), fun hn => ?_⟩⟩
  exact (h3 i hi).2 (fun e he => hn e (mem_pySorted.mp he))

/-- C45: an entity reaching beyond the end is accepted by the constructor but `unpack_datum` raises. -/
theorem C45_beyond_end (u : Str) (is : List Intent) (es : List Entity) (d : Datum)
    (h : Datum.new u (some is) (some es) = .ok d)
    (hb : ∃ e ∈ es, e.start < e.stop ∧ (u.length : Int) < e.stop) : unpackDatum d = .error .indexError := by
  obtain ⟨rfl, _, _⟩ := datum_new_cases u is es d h
  refine (C45_unpack _).2 fun hall => ?_
  obtain ⟨e, he, h1, h2⟩ := hb
  have := hall e (mem_pySorted.mpr he) h1
  dsimp only at this
  omega

example : unpackDatum ⟨"abcde".toList, [⟨4⟩], [⟨7, "bc".toList, 1, 3, []⟩, ⟨9, "d".toList, 3, 4, []⟩]⟩ =
    .ok ("abcde".toList, [4], [0, 7, 7, 9, 0]) := by decide

example : ∃ d, Datum.new "ab".toList (some []) (some [⟨1, "b".toList, 1, 9, []⟩]) = .ok d ∧
    unpackDatum d = .error .indexError := ⟨_, rfl, by decide⟩

/-! ### C46 pack_to_datum -/

theorem mapM_intents (ls : List Int) (h : ∀ l ∈ ls, IsInt32 l) :
    ls.mapM Intent.new = .ok (ls.map Intent.mk) := by
  induction ls with
  | nil => rfl
  | cons l ls ih =>
    rw [List.mapM_cons, ih (fun x hx => h x (by simp [hx]))]
    unfold Intent.new
    rw [toInt32_ok (h l (by simp))]
    rfl

theorem mapM_intents_error (ls : List Int) (h : ∃ l ∈ ls, ¬ IsInt32 l) :
    ls.mapM Intent.new = .error .overflowError := by
  induction ls with
  | nil => simp at h
  | cons l ls ih =>
    rw [List.mapM_cons]
    unfold Intent.new
    by_cases hl : IsInt32 l
    · rw [toInt32_ok hl]
      have : ∃ l ∈ ls, ¬ IsInt32 l := by
        obtain ⟨x, hx, hn⟩ := h
        rcases List.mem_cons.mp hx with rfl | hx
        · exact absurd hl hn
        · exact ⟨x, hx, hn⟩
      have := ih this
      unfold Intent.new at this
      rw [this]
      rfl
    · rw [toInt32_error hl]
      rfl

/-- C46: packing labels (C `int`s, for a text shorter than 2^31) succeeds; the entities are exactly the
maximal blocks of equal non-zero labels, each with its text and no replacements; unpacking the datum
returns the utterance, the distinct intents in increasing order and the given labels. -/
theorem C46_pack (u : Str) (intents labels : List Int) (hne : u ≠ []) (hlen : u.length = labels.length)
    (hu : u.length < 2 ^ 31) (hi : ∀ l ∈ intents, IsInt32 l) (hl : ∀ l ∈ labels, IsInt32 l) :
    ∃ d is, packToDatum u intents labels = .ok d ∧ d.utterance = u ∧
      (∀ e, e ∈ d.entities ↔ ∃ a b : Nat, IsMaximalRun labels a b e.label ∧ e.label ≠ 0 ∧
        e = ⟨e.label, pySlice u a b, a, b, []⟩) ∧
      d.entities.Pairwise Before ∧
      unpackDatum d = .ok (u, is, labels) ∧ is.Pairwise (· < ·) ∧ (∀ l, l ∈ is ↔ l ∈ intents) := by
  obtain ⟨R, hR, rfl⟩ := exists_runs labels
  cases R with
  | nil => simp [flatRuns] at hlen; exact absurd hlen hne
  | cons r R =>
    have hlab : ∀ r' ∈ r :: R, IsInt32 r'.1 := by
      intro r' hr'
      refine hl r'.1 ?_
      unfold flatRuns
      rw [List.mem_flatMap]
      exact ⟨r', hr', by simp; exact Nat.ne_of_gt (hR.1 r' hr')⟩
    have hrev := hR.reverse
    obtain ⟨r', R', hR'⟩ : ∃ r' R', (r :: R).reverse = r' :: R' := by
      cases hc : (r :: R).reverse with
      | nil => simp at hc
      | cons a b => exact ⟨a, b, rfl⟩
    have hstarts := getMeaningfulStartIndices_runs r R hR
    have hends : getMeaningfulStartIndices (flatRuns (r :: R)).reverse = .ok (entStarts 0 (r :: R).reverse) := by
      rw [← flatRuns_reverse, hR']
      rw [hR'] at hrev
      exact getMeaningfulStartIndices_runs r' R' hrev
    have hes := entStarts_reverse (r :: R) 0
    rw [Nat.zero_add, ← hlen] at hes
    have hpack := packEntities_runs u (r :: R) [] _ hu hlen hes hR.1 hlab
    simp only [List.nil_append, List.length_nil] at hpack
    have hpw := runEntities_pairwise u (r :: R) 0
    have hsort : pySorted Entity.start (runEntities u 0 (r :: R)) = runEntities u 0 (r :: R) :=
      pySorted_of_pairwise _ _ (hpw.imp (fun h => h.1))
    have hval : ∀ e ∈ runEntities u 0 (r :: R), ValueAt u e := by
      intro e he
      obtain ⟨a, b, h1, _⟩ := runEntities_mem u _ 0 e he
      rw [h1]
      rfl
    let sl := pySorted (fun i : Int => i) (pyDedup intents)
    have hsl : ∀ l, l ∈ sl ↔ l ∈ intents := fun l => mem_pySorted.trans mem_pyDedup
    have hslp : sl.Pairwise (· < ·) := by
      have h1 : sl.Nodup := (pySorted_perm _ _).nodup_iff.mpr (nodup_pyDedup intents)
      have h2 : sl.Pairwise (· ≤ ·) := pySorted_pairwise _ _
      exact (h1.and h2).imp (fun {a b} h => by
        have h1 : a ≠ b := h.1
        have h2 : a ≤ b := h.2
        omega)
    have hhash : pySorted Intent.hash (sl.map Intent.mk) = sl.map Intent.mk := by
      apply pySorted_of_pairwise
      rw [List.pairwise_map]
      refine hslp.imp (fun {a b} h => ?_)
      unfold Intent.hash
      dsimp only
      split <;> split <;> omega
    have hnew := datum_new_ok u (sl.map Intent.mk) (runEntities u 0 (r :: R)) hval
      (by rw [hsort]; exact pairwise_neighbours (hpw.imp (fun h => h.2)))
    rw [hhash, hsort] at hnew
    have hrun : packToDatum u intents (flatRuns (r :: R)) =
        .ok ⟨u, sl.map Intent.mk, runEntities u 0 (r :: R)⟩ := by
      unfold packToDatum
      rw [if_neg (fun h => h hlen), mapM_intents _ (fun l hl => hi l ((hsl l).mp hl)), hstarts, hends]
      simp only [Except.bind_ok]
      rw [hpack]
      exact hnew
    have hmem : ∀ e, e ∈ runEntities u 0 (r :: R) ↔ ∃ a b : Nat, IsMaximalRun (flatRuns (r :: R)) a b e.label ∧
        e.label ≠ 0 ∧ e = ⟨e.label, pySlice u a b, a, b, []⟩ := by
      intro e
      have key := fun a b v hv => mem_runs_iff (r :: R) hR [] (by simp) u a b v hv (Nat.zero_le a)
      simp only [List.length_nil, List.nil_append] at key
      constructor
      · intro he
        obtain ⟨a, b, h1, h2, _⟩ := runEntities_mem u _ 0 e he
        refine ⟨a, b, (key a b e.label h2).mp (h1 ▸ he), h2, h1⟩
      · rintro ⟨a, b, h1, h2, h3⟩
        rw [h3]
        exact (key a b e.label h2).mpr h1
    have hwithin : ∀ e ∈ runEntities u 0 (r :: R), WithinUtterance u e := by
      intro e he
      obtain ⟨a, b, h1, _, _, h4, h5⟩ := runEntities_mem u _ 0 e he
      rw [h1]
      unfold WithinUtterance
      dsimp only
      omega
    obtain ⟨ls, h1, h2, h3⟩ := unpack_within (isDatum_of_new hnew) hwithin
    have hls : ls = flatRuns (r :: R) := by
      apply List.ext_getElem?
      intro i
      by_cases hiu : i < u.length
      · have hg : (flatRuns (r :: R))[i]? = some (flatRuns (r :: R))[i] :=
          List.getElem?_eq_getElem (by omega)
        by_cases h0 : (flatRuns (r :: R))[i] = 0
        · rw [hg, h0]
          refine (h3 i hiu).2 fun e he hc => ?_
          obtain ⟨a, b, hm, hn, hee⟩ := (hmem e).mp he
          rw [hee] at hc
          dsimp only at hc
          have := hm.2.2.1 i (by omega) (by omega)
          rw [hg, h0] at this
          injection this with this
          exact hn this.symm
        · obtain ⟨e, he, hl1, hl2, hl3⟩ := runEntities_cover u (r :: R) [] i _ (Nat.zero_le _) hg h0
          rw [(h3 i hiu).1 e he hl2 hl3, hg, hl1]
      · rw [List.getElem?_eq_none (by dsimp only at h2; omega), List.getElem?_eq_none (by omega)]
    refine ⟨_, sl, hrun, rfl, hmem, hpw.imp (fun h => h.2), ?_, hslp, hsl⟩
    rw [h1, hls]
    simp [Function.comp_def]

/-- C46: the rejected inputs: lengths that differ (ValueError), intents or non-zero labels that are no C
`int` (OverflowError), the empty text (IndexError). -/
theorem C46_pack_errors (u : Str) (intents labels : List Int) :
    (u.length ≠ labels.length → packToDatum u intents labels = .error .valueError) ∧
      (u.length = labels.length → (∃ l ∈ intents, ¬ IsInt32 l) →
        packToDatum u intents labels = .error .overflowError) ∧
      ((∀ l ∈ intents, IsInt32 l) → packToDatum [] intents [] = .error .indexError) ∧
      (u.length = labels.length → (∃ l ∈ labels, l ≠ 0 ∧ ¬ IsInt32 l) →
        packToDatum u intents labels = .error .overflowError) := by
  have hmem : ∀ l, l ∈ pySorted (fun i : Int => i) (pyDedup intents) ↔ l ∈ intents :=
    fun l => mem_pySorted.trans mem_pyDedup
  refine ⟨fun h => ?_, fun h hx => ?_, fun hx => ?_, fun h hx => ?_⟩
  · unfold packToDatum
    rw [if_pos h]
  · unfold packToDatum
    rw [if_neg (fun hn => hn h), mapM_intents_error _ (by
      obtain ⟨l, hl, hn⟩ := hx
      exact ⟨l, (hmem l).mpr hl, hn⟩)]
    rfl
  · unfold packToDatum
    rw [if_neg (by simp), mapM_intents _ (fun l hl => hx l ((hmem l).mp hl))]
    rfl
  · unfold packToDatum
    rw [if_neg (fun hn => hn h)]
    by_cases hint : ∀ l ∈ intents, IsInt32 l
    · rw [mapM_intents _ (fun l hl => hint l ((hmem l).mp hl))]
      simp only [Except.bind_ok]
      obtain ⟨R, hR, rfl⟩ := exists_runs labels
      obtain ⟨l, hl, hl0, hl1⟩ := hx
      cases R with
      | nil => cases hl
      | cons r R =>
        have hrev := hR.reverse
        obtain ⟨r', R', hR'⟩ : ∃ r' R', (r :: R).reverse = r' :: R' := by
          cases hc : (r :: R).reverse with
          | nil => simp at hc
          | cons a b => exact ⟨a, b, rfl⟩
        have hends : getMeaningfulStartIndices (flatRuns (r :: R)).reverse =
            .ok (entStarts 0 (r :: R).reverse) := by
          rw [← flatRuns_reverse, hR']
          rw [hR'] at hrev
          exact getMeaningfulStartIndices_runs r' R' hrev
        rw [getMeaningfulStartIndices_runs r R hR, hends]
        simp only [Except.bind_ok]
        have hes := entStarts_reverse (r :: R) 0
        have hfil := filter_runStarts (r :: R) hR.1 []
        simp only [List.length_nil, List.nil_append] at hfil
        have hlt : ∀ i ∈ entStarts 0 (r :: R), i < (flatRuns (r :: R)).length := by
          intro i hi
          rw [← hfil, List.mem_filter] at hi
          simpa using runStarts_lt (r :: R) hR.1 0 i hi.1
        -- the run carrying `l`
        have hex : ∃ i ∈ entStarts 0 (r :: R), (flatRuns (r :: R))[i]? = some l := by
          have key : ∀ (S : List (Int × Nat)) (pre : List Int), (∀ s ∈ S, 0 < s.2) → l ∈ flatRuns S →
              ∃ i ∈ entStarts pre.length S, (pre ++ flatRuns S)[i]? = some l := by
            intro S
            induction S with
            | nil => intro pre _ h; cases h
            | cons s S ih =>
              intro pre hpos hmem
              rw [flatRuns_cons, List.mem_append] at hmem
              rw [entStarts_cons]
              by_cases hsl : s.1 = l
              · rw [if_pos (by rw [hsl]; exact hl0)]
                refine ⟨pre.length, by simp, ?_⟩
                have hs := hpos s (by simp)
                rw [List.getElem?_append_right (Nat.le_refl _), Nat.sub_self, flatRuns_cons,
                  List.getElem?_append_left (by simpa using hs), List.getElem?_replicate, if_pos hs, hsl]
              · have hm : l ∈ flatRuns S := by
                  rcases hmem with h | h
                  · exact absurd (List.eq_of_mem_replicate h).symm hsl
                  · exact h
                obtain ⟨i, hi, hg⟩ := ih (pre ++ List.replicate s.2 s.1) (fun s hs => hpos s (by simp [hs])) hm
                rw [List.length_append, List.length_replicate] at hi
                rw [List.append_assoc, ← flatRuns_cons] at hg
                refine ⟨i, ?_, hg⟩
                split
                · exact List.mem_cons_of_mem _ hi
                · exact hi
          have := key (r :: R) [] hR.1 hl
          simpa using this
        obtain ⟨i, hi, hg⟩ := hex
        have hlen2 : (entStarts 0 (r :: R)).length = (entStarts 0 (r :: R).reverse).reverse.length := by
          have h1 := congrArg List.length hes
          simp only [List.length_map] at h1
          rw [h1]
          have key : ∀ (S : List (Int × Nat)) (off : Nat),
              (entStarts off S).length = (entEnds off S).length := by
            intro S
            induction S with
            | nil => intro off; rfl
            | cons s S ih => intro off; rw [entStarts_cons, entEnds_cons]; split <;> simp [ih]
          exact key _ _
        rw [packEntities_error]
        · rfl
        · intro p hp
          exact hlt p.1 (List.of_mem_zip (a := p.1) (b := p.2) hp).1
        · obtain ⟨n, hn, rfl⟩ := List.mem_iff_getElem.mp hi
          refine ⟨((entStarts 0 (r :: R))[n], (entStarts 0 (r :: R).reverse).reverse[n]'(by omega)), ?_, ?_⟩
          · rw [List.mem_iff_getElem]
            exact ⟨n, by simp at hlen2 ⊢; omega, by simp⟩
          · intro x hx
            dsimp only at hx
            rw [hg] at hx
            injection hx with hx
            exact hx ▸ hl1
    · rw [mapM_intents_error _ (by
        refine Classical.byContradiction fun hn => hint fun l hl => ?_
        exact Classical.byContradiction fun hc => hn ⟨l, (hmem l).mpr hl, hc⟩)]
      rfl

example : packToDatum "abcde".toList [3, 1, 3] [0, 7, 7, 9, 0] =
    .ok ⟨"abcde".toList, [⟨1⟩, ⟨3⟩], [⟨7, "bc".toList, 1, 3, []⟩, ⟨9, "d".toList, 3, 4, []⟩]⟩ := by
  decide

example : packToDatum "".toList [] [] = .error .indexError := by decide

/-! ### C47 equality and dictionaries -/

/-- C47: two entities are equal iff all fields agree, replacements as sets. -/
theorem C47_entity_eq (e f : Entity) :
    e.eq f = true ↔ e.label = f.label ∧ e.value = f.value ∧ e.start = f.start ∧ e.stop = f.stop ∧
      ∀ r, r ∈ e.replacements ↔ r ∈ f.replacements := by
  unfold Entity.eq setEq
  simp only [Bool.and_eq_true, beq_iff_eq, List.all_eq_true, decide_eq_true_iff]
  constructor
  · rintro ⟨⟨⟨h1, h2⟩, h3, h4⟩, h5, h6⟩
    exact ⟨h1, h2, h3, h4, fun r => ⟨h5 r, h6 r⟩⟩
  · rintro ⟨h1, h2, h3, h4, h5⟩
    exact ⟨⟨⟨h1, h2⟩, h3, h4⟩, fun r => (h5 r).mp, fun r => (h5 r).mpr⟩

/-- C47: equality of entities is an equivalence relation. -/
theorem C47_entity_equivalence :
    (∀ e : Entity, e.eq e = true) ∧ (∀ e f : Entity, e.eq f = true → f.eq e = true) ∧
      (∀ e f g : Entity, e.eq f = true → f.eq g = true → e.eq g = true) := by
  refine ⟨fun e => ?_, fun e f h => ?_, fun e f g h1 h2 => ?_⟩
  · rw [C47_entity_eq]; exact ⟨rfl, rfl, rfl, rfl, fun _ => Iff.rfl⟩
  · rw [C47_entity_eq] at *
    exact ⟨h.1.symm, h.2.1.symm, h.2.2.1.symm, h.2.2.2.1.symm, fun r => (h.2.2.2.2 r).symm⟩
  · rw [C47_entity_eq] at *
    exact ⟨h1.1.trans h2.1, h1.2.1.trans h2.2.1, h1.2.2.1.trans h2.2.2.1, h1.2.2.2.1.trans h2.2.2.2.1,
      fun r => (h1.2.2.2.2 r).trans (h2.2.2.2.2 r)⟩

/-- C47: two data are equal iff their utterances are, every intent of one occurs in the other (order and
multiplicity do not matter), and their entities are equal one by one. -/
theorem C47_datum_eq (d e : Datum) :
    d.eq e = true ↔ d.utterance = e.utterance ∧ (∀ i, i ∈ d.intents ↔ i ∈ e.intents) ∧
      d.entities.length = e.entities.length ∧
      ∀ (n : Nat) (x y : Entity), d.entities[n]? = some x → e.entities[n]? = some y → x.eq y = true := by
  unfold Datum.eq Datum.hasSameUtteranceAs Datum.hasSameIntentsAs Datum.hasSameEntitiesAs
  have hset : setEq d.intents e.intents = true ↔ ∀ i, i ∈ d.intents ↔ i ∈ e.intents := by
    unfold setEq
    simp only [Bool.and_eq_true, List.all_eq_true, decide_eq_true_iff]
    exact ⟨fun h i => ⟨h.1 i, h.2 i⟩, fun h => ⟨fun i => (h i).mp, fun i => (h i).mpr⟩⟩
  have hzip : (d.entities.zip e.entities).all (fun p => p.1.eq p.2) = true ↔
      ∀ (n : Nat) (x y : Entity), d.entities[n]? = some x → e.entities[n]? = some y → x.eq y = true := by
    rw [List.all_eq_true]
    constructor
    · intro h n x y hx hy
      refine h (x, y) ?_
      rw [List.mem_iff_getElem?]
      exact ⟨n, List.getElem?_zip_eq_some.mpr ⟨hx, hy⟩⟩
    · intro h p hp
      rw [List.mem_iff_getElem?] at hp
      obtain ⟨n, hn⟩ := hp
      have := List.getElem?_zip_eq_some.mp hn
      exact h n p.1 p.2 this.1 this.2
  by_cases h1 : d.utterance = e.utterance
  · rw [if_neg (by simp [h1])]
    by_cases h2 : setEq d.intents e.intents = true
    · rw [if_neg (by simp [h2])]
      by_cases h3 : d.entities.length = e.entities.length
      · rw [if_pos h3]
        by_cases h4 : (d.entities.zip e.entities).all (fun p => p.1.eq p.2) = true
        · rw [if_neg (by simp only [h4]; decide)]
          simp only [true_iff]
          exact ⟨h1, hset.mp h2, h3, hzip.mp h4⟩
        · rw [if_pos (by simpa using h4)]
          constructor
          · intro h; cases h
          · rintro ⟨_, _, _, h⟩; exact absurd (hzip.mpr h) h4
      · rw [if_neg h3]
        simp [h3]
    · rw [if_pos (by simpa using h2)]
      constructor
      · intro h; cases h
      · rintro ⟨_, h, _⟩; exact absurd (hset.mpr h) h2
  · rw [if_pos (by simpa using h1)]
    simp [h1]

/-- C47: equality of data is an equivalence relation. -/
theorem C47_datum_equivalence :
    (∀ d : Datum, d.eq d = true) ∧ (∀ d e : Datum, d.eq e = true → e.eq d = true) ∧
      (∀ d e f : Datum, d.eq e = true → e.eq f = true → d.eq f = true) := by
  obtain ⟨hr, hs, ht⟩ := C47_entity_equivalence
  refine ⟨fun d => ?_, fun d e h => ?_, fun d e f h1 h2 => ?_⟩
  · rw [C47_datum_eq]
    refine ⟨rfl, fun _ => Iff.rfl, rfl, fun n x y hx hy => ?_⟩
    rw [hx] at hy
    injection hy with hy
    exact hy ▸ hr x
  · rw [C47_datum_eq] at *
    exact ⟨h.1.symm, fun i => (h.2.1 i).symm, h.2.2.1.symm, fun n x y hx hy => hs _ _ (h.2.2.2 n y x hy hx)⟩
  · rw [C47_datum_eq] at *
    refine ⟨h1.1.trans h2.1, fun i => (h1.2.1 i).trans (h2.2.1 i), h1.2.2.1.trans h2.2.2.1,
      fun n x z hx hz => ?_⟩
    have hn : n < e.entities.length := by
      have := List.getElem?_eq_some_iff.mp hx
      have := this.1
      omega
    have hy := List.getElem?_eq_getElem hn
    exact ht _ _ _ (h1.2.2.2 n x _ hx hy) (h2.2.2.2 n _ z hy hz)

/-- C47: an entity (with C `int` fields, as every constructed one) written to a dict and read back with the
utterance it lies in is equal to itself, whatever the iteration order of its set of replacements. -/
theorem C47_dict_round_trip (σ : SetOrder) (e : Entity) (u : Str) (hv : ValueAt u e)
    (h : IsInt32 e.label ∧ IsInt32 e.start ∧ IsInt32 e.stop) :
    ∃ f, Entity.fromDict (e.toDict σ) u = .ok f ∧ f.eq e = true := by
  unfold Entity.fromDict Entity.toDict
  dsimp only
  rw [entity_new_ok _ _ h.1 h.2.1 h.2.2]
  refine ⟨_, rfl, ?_⟩
  rw [C47_entity_eq]
  refine ⟨rfl, hv.symm, rfl, rfl, fun r => ?_⟩
  dsimp only
  rw [Option.getD_some, mem_pyDedup]
  unfold Entity.noReplacements
  split
  · rename_i h0
    have : e.replacements = [] := by simpa using h0
    simp [this]
  · rw [Option.getD_some, mem_listSet]

/-- C47: the fields of an entity from the constructor are C `int`s and its replacements are the given ones. -/
theorem C47_constructed (label : Int) (value : Str) (start stop : Int) (reps : Option (List Str)) (e : Entity)
    (h : Entity.new label value start stop reps = .ok e) :
    (IsInt32 e.label ∧ IsInt32 e.start ∧ IsInt32 e.stop) ∧ e.label = label ∧ e.value = value ∧
      e.start = start ∧ e.stop = stop ∧ e.replacements.Nodup ∧
      ∀ r, r ∈ e.replacements ↔ r ∈ reps.getD [] := by
  by_cases hi : IsInt32 label ∧ IsInt32 start ∧ IsInt32 stop
  · rw [entity_new_ok _ _ hi.1 hi.2.1 hi.2.2] at h
    injection h with h
    subst h
    exact ⟨hi, rfl, rfl, rfl, rfl, nodup_pyDedup _, fun r => mem_pyDedup⟩
  · rw [entity_new_error _ _ hi] at h; cases h

example : (⟨1, "b".toList, 1, 2, ["x".toList, "y".toList]⟩ : Entity).eq
    ⟨1, "b".toList, 1, 2, ["y".toList, "x".toList]⟩ = true := by decide

example : ValueAt "abc".toList ⟨1, "bc".toList, -2, 7, ["x".toList]⟩ := by unfold ValueAt; decide

end Uttut
