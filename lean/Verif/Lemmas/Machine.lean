import Verif.Model.Machine
import Verif.Lemmas.Seeds
import Verif.Lemmas.Order
import Verif.Props.Trie
import Verif.Props.Pattern

/-! Lemmas for C91: the edit code with 32-bit arithmetic computes what it computes with unbounded numbers. -/

namespace Uttut.Machine

open Spec Piece Uttut

theorem u32_of_lt {n : Nat} (h : n < 2 ^ 32) : u32 n = n := Nat.mod_eq_of_lt h

theorem u32sub_of_le {a b : Nat} (h : b ≤ a) (ha : a < 2 ^ 32) : u32sub a b = a - b := by
  unfold u32sub
  rw [Nat.mod_eq_of_lt (by omega : b < 2 ^ 32)]
  have : a + (2 ^ 32 - b) = (a - b) + 2 ^ 32 := by omega
  rw [this, Nat.add_mod_right, Nat.mod_eq_of_lt (by omega)]

/-! ### apply -/

theorem transformSequenceLoop_same {β : Type} (input : List β) (rs : List (Rep (List β))) (start i : Nat)
    (out : List (List β)) (h : i + 2 * rs.length ≤ 2 ^ 32) :
    transformSequenceLoop input rs start i out = Uttut.transformSequenceLoop input rs start i out := by
  induction rs generalizing start i out with
  | nil => rfl
  | cons r rs ih =>
    simp only [List.length_cons] at h
    simp only [transformSequenceLoop, Uttut.transformSequenceLoop]
    rw [u32_of_lt (by omega : i + 1 < 2 ^ 32)]
    cases rs with
    | nil => rfl
    | cons q rs =>
      simp only [List.length_cons] at h
      rw [u32_of_lt (by omega : i + 2 < 2 ^ 32)]
      exact ih _ _ _ (by simp only [List.length_cons]; omega)

theorem apply_same {β : Type} (l : List β) (g : ReplacementGroup (List β)) (h : g.reps.length ≤ 2 ^ 31) :
    apply l g = Lst2Lst.apply l g := by
  unfold apply Lst2Lst.apply transformSequence
  cases hi : g.items with
  | error e => rfl
  | ok rs =>
    have : rs = g.reps := by
      unfold ReplacementGroup.items at hi
      split at hi
      · injection hi with hi; exact hi.symm
      · cases hi
    subst this
    simp only [Except.bind_ok]
    rw [transformSequenceLoop_same _ _ _ _ _ (by omega)]
    rfl

/-! ### sizes -/

/-- Length of the edited sequence from position `cur` on. -/
def editedLen {β : Type} (n : Nat) : (cur : Nat) → List (Rep (List β)) → Nat
  | cur, [] => n - cur
  | cur, r :: rs => (r.start - cur) + r.val.length + editedLen n r.stop rs

theorem editedLen_eq {β : Type} {n : Nat} : ∀ {cur : Nat} {rs : List (Rep (List β))}, Fits n cur rs →
    editedLen n cur rs + (rs.map fun r => r.stop - r.start).sum = (n - cur) + (rs.map fun r => r.val.length).sum := by
  intro cur rs
  induction rs generalizing cur with
  | nil => intro _; simp [editedLen]
  | cons r rs ih =>
    intro h
    have := ih h.2.2
    have := h.1
    have := h.2.1
    have := h.2.2.le
    simp only [editedLen, List.map_cons, List.sum_cons]
    omega

theorem editedLen_perm {β : Type} {n : Nat} {rs rs' : List (Rep (List β))} (h : Fits n 0 rs) (h' : Fits n 0 rs')
    (hp : rs.Perm rs') : editedLen n 0 rs = editedLen n 0 rs' := by
  have e := editedLen_eq h
  have e' := editedLen_eq h'
  rw [(hp.map fun r => r.stop - r.start).sum_nat, (hp.map fun r => r.val.length).sum_nat] at e
  omega

theorem fits_groupOf {α β : Type} (ps : List (Piece α β)) (off : Nat) :
    Fits (off + (srcOf ps).length) off (groupOf off ps) := by
  rw [fits_iff]
  exact ⟨by omega, fun r hr => ⟨groupOf_ge _ _ r hr, groupOf_wf _ _ r hr, groupOf_stop_le _ _ r hr⟩,
    groupOf_before _ _⟩

theorem editedLen_groupOf {α : Type} (ps : List (Piece α α)) :
    editedLen (srcOf ps).length 0 (groupOf 0 ps) = (dstOf ps).length := by
  suffices H : ∀ (off cur : Nat), cur ≤ off →
      editedLen (off + (srcOf ps).length) cur (groupOf off ps) = (off - cur) + (dstOf ps).length by
    simpa using H 0 0 (by omega)
  induction ps with
  | nil => intro off cur h; simp [groupOf, editedLen]
  | cons p ps ih =>
    intro off cur h
    cases p with
    | keep l =>
      simp only [groupOf, srcOf_keep, dstOf_keep, List.length_append]
      have := ih (off + l.length) cur (by omega)
      rw [← Nat.add_assoc, this]
      omega
    | sub o n =>
      simp only [groupOf, srcOf_sub, dstOf_sub, List.length_append, editedLen]
      have := ih (off + o.length) (off + o.length) (by omega)
      rw [← Nat.add_assoc, this]
      omega

/-! ### propagate -/

theorem propagateLoop_same {β : Type} (labels : List Int) (f : Transducer) (n : Nat) (hn : n < 2 ^ 32)
    (rs : List (Rep (List β))) (cur o : Nat) (out : List Int) (hf : Fits n cur rs)
    (ho : o + editedLen n cur rs < 2 ^ 32) :
    propagateLoop labels f rs cur o out = Uttut.propagateLoop labels f rs cur o out := by
  induction rs generalizing cur o out with
  | nil => rfl
  | cons r rs ih =>
    simp only [editedLen] at ho
    have h1 := hf.1
    have h2 := hf.2.1
    have h3 := hf.2.2.le
    simp only [propagateLoop, Uttut.propagateLoop]
    rw [u32sub_of_le h1 (by omega), u32_of_lt (by omega : o + (r.start - cur) < 2 ^ 32),
      u32_of_lt (by omega : r.val.length < 2 ^ 32),
      u32_of_lt (by omega : o + (r.start - cur) + r.val.length < 2 ^ 32)]
    cases f (slice labels r.start r.stop) r.val.length with
    | error e => rfl
    | ok new =>
      simp only [Except.bind_ok]
      exact ih _ _ _ hf.2.2 (by omega)

theorem propagate_same {β : Type} (labels : List Int) (f : Transducer) (rs : List (Rep (List β)))
    (hn : labels.length < 2 ^ 32) (hf : Fits labels.length 0 rs) (ho : editedLen labels.length 0 rs < 2 ^ 32) :
    propagate labels ⟨rs, true⟩ f = Uttut.propagate labels ⟨rs, true⟩ f := by
  unfold propagate Uttut.propagate
  simp only [ReplacementGroup.items, if_true, Except.bind_ok]
  rw [propagateLoop_same labels f labels.length hn rs 0 0 _ hf (by omega)]

/-! ### inverse -/

theorem distances_same {β : Type} (n : Nat) (hn : n < 2 ^ 32) (cur : Nat) (rs : List (Rep (List β)))
    (h : Fits n cur rs) : distances rs = Uttut.distances rs := by
  induction rs generalizing cur with
  | nil => rfl
  | cons r rs ih =>
    cases rs with
    | nil => rfl
    | cons q rs =>
      have := h.2.2.1
      have := h.2.2.2.1
      have := h.2.2.2.2.le
      simp only [distances, Uttut.distances]
      rw [u32sub_of_le h.2.2.1 (by omega), ih _ h.2.2]

theorem inverseLoop_same {β : Type} (input : List β) (n : Nat) (rs : List (Rep (List β))) (r : Rep (List β))
    (start : Nat) (inv : ReplacementGroup (List β)) (h : Fits n r.start (r :: rs))
    (ho : start + editedLen n r.start (r :: rs) < 2 ^ 32) :
    inverseLoop input (r :: rs) (Uttut.distances (r :: rs) ++ [0]) start inv =
      Uttut.inverseLoop input (r :: rs) (Uttut.distances (r :: rs) ++ [0]) start inv := by
  induction rs generalizing r start inv with
  | nil =>
    simp only [editedLen] at ho
    simp only [Uttut.distances, List.nil_append, inverseLoop, Uttut.inverseLoop]
    rw [u32_of_lt (by omega : start + r.val.length < 2 ^ 32)]
  | cons q rs ih =>
    simp only [editedLen] at ho
    simp only [Uttut.distances, List.cons_append, inverseLoop, Uttut.inverseLoop]
    have := h.2.2.1
    rw [u32_of_lt (by omega : start + r.val.length < 2 ^ 32),
      u32_of_lt (by omega : start + (r.val.length + (q.start - r.stop)) < 2 ^ 32)]
    refine ih q _ _ ⟨Nat.le_refl _, h.2.2.2.1, h.2.2.2.2⟩ ?_
    simp only [editedLen]
    omega

theorem inverse_same {β : Type} [DecidableEq β] [NewValue (List β)] (σ : SetOrder) (input : List β)
    (rs : List (Rep (List β))) (hf : Fits input.length 0 rs) (hn : input.length < 2 ^ 32)
    (hr : rs.length < 2 ^ 32) (ho : editedLen input.length 0 rs < 2 ^ 32) :
    inverse σ input ⟨rs, true⟩ = editInverse σ input ⟨rs, true⟩ := by
  unfold inverse editInverse genInverse
  cases rs with
  | nil => rfl
  | cons r rs =>
    have hd := distances_same _ hn 0 (r :: rs) hf
    simp only [ReplacementGroup.items, if_true, Except.bind_ok]
    rw [u32_of_lt hr, List.take_length, hd]
    have h0 : ReplacementGroup.getItem (⟨r :: rs, true⟩ : ReplacementGroup (List β)) 0 = .ok r := by
      simp [ReplacementGroup.getItem, pyIndex?]
    rw [h0]
    simp only [Except.bind_ok]
    have hs : r.start + editedLen input.length r.start (r :: rs) < 2 ^ 32 := by
      simp only [editedLen] at ho ⊢
      omega
    rw [inverseLoop_same input input.length rs r r.start _ ⟨Nat.le_refl _, hf.2⟩ hs]
    rfl

/-! ### aligners -/

theorem backward_same {β : Type} [DecidableEq β] [NewValue (List β)] [UniformKind (List β)] (σ : SetOrder)
    (ps : List (Piece β β)) (hsrc : (srcOf ps).length < 2 ^ 32) (hdst : (dstOf ps).length < 2 ^ 32)
    (hr : (groupOf 0 ps).length < 2 ^ 32) (b : Transducer) (ls : List Int)
    (hl : ls.length = (dstOf ps).length) :
    (do let inv ← inverse σ (srcOf ps) ⟨groupOf 0 ps, true⟩
        propagate ls inv b) =
    (do let inv ← editInverse σ (srcOf ps) ⟨groupOf 0 ps, true⟩
        Uttut.propagate ls inv b) := by
  have hfit := fits_groupOf ps 0
  rw [Nat.zero_add] at hfit
  rw [inverse_same σ _ _ hfit hsrc hr (by rw [editedLen_groupOf]; exact hdst)]
  by_cases hd : (groupOf 0 (ps.map swap)).Nodup
  · obtain ⟨M, h1, h2, h3⟩ := editInverse_nodup σ ps hd
    have hdone := editInverse_done h1
    rw [h1]
    simp only [Except.bind_ok]
    have hswap : Fits ls.length 0 (groupOf 0 (ps.map swap)) := by
      have := fits_groupOf (ps.map swap) 0
      rw [Nat.zero_add, srcOf_swap, ← hl] at this
      exact this
    have hM : Fits ls.length 0 M := by
      rw [fits_iff] at hswap ⊢
      exact ⟨hswap.1, fun r hr => hswap.2.1 r (h2.mem_iff.mpr hr), hdone.2⟩
    refine propagate_same ls b M (by omega) hM ?_
    rw [← editedLen_perm hswap hM h2]
    have := editedLen_groupOf (ps.map swap)
    rw [srcOf_swap, ← hl, dstOf_swap] at this
    rw [this]
    exact hsrc
  · rw [editInverse_dup σ ps hd]
    rfl

theorem forward_same {β : Type} (ps : List (Piece β β)) (hsrc : (srcOf ps).length < 2 ^ 32)
    (hdst : (dstOf ps).length < 2 ^ 32) (f : Transducer) (ls : List Int)
    (hl : ls.length = (srcOf ps).length) :
    propagate ls ⟨groupOf 0 ps, true⟩ f = Uttut.propagate ls ⟨groupOf 0 ps, true⟩ f := by
  have hfit := fits_groupOf ps 0
  rw [Nat.zero_add] at hfit
  refine propagate_same ls f _ (by omega) (hl ▸ hfit) ?_
  rw [hl, editedLen_groupOf]
  exact hdst

theorem aligner_same {β : Type} [DecidableEq β] [NewValue (List β)] [UniformKind (List β)] (σ : SetOrder)
    (ps : List (Piece β β)) (s : List β) (n : Nat) (f b : Transducer) (hs : srcOf ps = s)
    (hn : (dstOf ps).length = n) (hsrc : s.length < 2 ^ 32) (hdst : n < 2 ^ 32)
    (hr : (groupOf 0 ps).length < 2 ^ 32) :
    SameAligner (ofEdit σ s ⟨groupOf 0 ps, true⟩ n f b)
      { inputLength := s.length
        outputLength := n
        fwd := fun labels => Uttut.propagate labels ⟨groupOf 0 ps, true⟩ f
        bwd := fun labels => do
          let inv ← editInverse σ s ⟨groupOf 0 ps, true⟩
          Uttut.propagate labels inv b } := by
  subst hs
  subst hn
  refine .of_exact rfl rfl (fun ls hl => ?_) fun ls hl => ?_
  · unfold Aligner.transform Aligner.validateInput Aligner.validateOutput ofEdit
    dsimp only
    rw [forward_same ps hsrc hdst f ls hl]
  · unfold Aligner.inverseTransform Aligner.validateInput Aligner.validateOutput ofEdit
    dsimp only
    rw [backward_same σ ps hsrc hdst hr b ls hl]

/-! ### building groups -/

theorem addPy_of_lt {V : Type} (g : ReplacementGroup V) {a b : Nat} (v : V) (ha : a < 2 ^ 32) (hb : b < 2 ^ 32) :
    g.addPy (a : Int) (b : Int) v = .ok (g.add a b v) := by
  unfold ReplacementGroup.addPy
  rw [toUInt_nat ha, toUInt_nat hb]
  rfl

theorem addSpan_of_lt (g : SpanGroup) {a b : Nat} (ha : a < 2 ^ 32) (hb : b < 2 ^ 32) :
    g.addPy (a : Int) (b : Int) = .ok (g.add a b) := by
  unfold SpanGroup.addPy
  rw [toUInt_nat ha, toUInt_nat hb]
  rfl

theorem enumAdd_same {ι V : Type} (nv : ι → Res (Option V)) (xs : List ι) (i : Nat) (g : ReplacementGroup V)
    (h : i + xs.length < 2 ^ 32) : enumAdd nv xs i g = Uttut.enumAdd nv xs i g := by
  induction xs generalizing i g with
  | nil => rfl
  | cons x xs ih =>
    simp only [List.length_cons] at h
    unfold enumAdd Uttut.enumAdd
    cases nv x with
    | error e => simp only [bind, Except.bind]
    | ok v =>
      simp only [Except.bind_ok]
      cases v with
      | none => exact ih _ _ (by omega)
      | some v =>
        dsimp only
        rw [show ((i : Int) + 1) = ((i + 1 : Nat) : Int) by simp, addPy_of_lt g v (by omega) (by omega)]
        exact ih _ _ (by omega)

theorem searchLoop_same {m : Matcher} {s : Str} (hs : SoundMatcher m s) (nv : Str → Nat → Nat → Str)
    (hn : s.length < 2 ^ 32) (fuel pos : Nat) (g : ReplacementGroup Str) :
    searchLoop m nv s fuel pos g = (Uttut.searchLoop m nv s fuel pos g).map fun g => (.ok g : Res (ReplacementGroup Str)) := by
  induction fuel generalizing pos g with
  | zero => rfl
  | succ fuel ih =>
    unfold searchLoop Uttut.searchLoop
    by_cases hp : pos < s.length
    · rw [if_pos hp, if_pos hp]
      cases hm : m s pos with
      | none => rfl
      | some ab =>
        obtain ⟨a, b⟩ := ab
        have := hs pos a b (by omega) hm
        dsimp only
        rw [addPy_of_lt g _ (by omega) (by omega)]
        exact ih _ _
    · rw [if_neg hp, if_neg hp]
      rfl

theorem wordLoop_same (ws : List Str) (t : Trie) (ht : Trie.ofUserWords ws = .ok t) (sh : Bool) (s : Str)
    (hn : s.length < 2 ^ 32) (fuel pos : Nat) (g : ReplacementGroup Str) :
    wordLoop t sh s fuel pos g = (AddWhitespaceAroundWordnZhChar.loop t sh s fuel pos g).map fun g => (.ok g : Res (ReplacementGroup Str)) := by
  induction fuel generalizing pos g with
  | zero => rfl
  | succ fuel ih =>
    unfold wordLoop AddWhitespaceAroundWordnZhChar.loop
    by_cases hp : pos < s.length
    · rw [if_pos hp, if_pos hp]
      have hbest := matchPrefix_best t ws (ofUserWords_holds ws t ht).1 (s.drop pos) sh
      cases hm : t.matchPrefix (s.drop pos) sh with
      | none =>
        dsimp only
        generalize slice s pos (pos + 1) = cs
        rcases cs with _ | ⟨c, _ | ⟨d, cs⟩⟩
        · rfl
        · dsimp only
          split
          · rw [show ((pos : Int) + 1) = ((pos + 1 : Nat) : Int) by simp, addPy_of_lt g _ (by omega) (by omega)]
            exact ih _ _
          · exact ih _ _
        · rfl
      | some w =>
        rw [hm] at hbest
        have hw := hbest.2.2.1.length_le
        simp only [List.length_drop] at hw
        dsimp only
        rw [show ((pos : Int) + (w.length : Int)) = ((pos + w.length : Nat) : Int) by simp,
          addPy_of_lt g _ (by omega) (by omega)]
        exact ih _ _
    · rw [if_neg hp, if_neg hp]
      rfl

theorem pyFind_le {s t : Str} {shift j : Nat} (hshift : shift ≤ s.length) (h : pyFind s t shift = some j) :
    shift ≤ j ∧ j + t.length ≤ s.length := by
  obtain ⟨pre, rest, rfl, rfl⟩ : ∃ pre rest, s = pre ++ rest ∧ shift = pre.length :=
    ⟨s.take shift, s.drop shift, (List.take_append_drop _ _).symm, by simp; omega⟩
  rw [pyFind_eq] at h
  obtain ⟨gap, post, rfl, rfl, _⟩ := findAux_some h
  simp only [List.length_append]
  omega

theorem genRepLoop_same (s : Str) (hn : s.length < 2 ^ 32) (ts : List Str) (shift : Nat) (hs : shift ≤ s.length)
    (g : ReplacementGroup Str) : genRepLoop s ts shift g = Str2Lst.genRepLoop s ts shift g := by
  induction ts generalizing shift g with
  | nil => rfl
  | cons t ts ih =>
    unfold genRepLoop Str2Lst.genRepLoop
    cases hf : pyFind s t shift with
    | none => rfl
    | some j =>
      have := pyFind_le hs hf
      dsimp only
      split
      · rw [addPy_of_lt g _ (by omega) (by omega)]
        exact ih _ (by omega) _
      · exact ih _ (by omega) _

theorem genRepLoop_le (s : Str) (ts : List Str) (shift : Nat) (hs : shift ≤ s.length) (g g' : ReplacementGroup Str)
    (sh : Nat) (h : Str2Lst.genRepLoop s ts shift g = .ok (sh, g')) : sh ≤ s.length := by
  induction ts generalizing shift g with
  | nil =>
    injection h with h
    injection h with h1 h2
    omega
  | cons t ts ih =>
    unfold Str2Lst.genRepLoop at h
    cases hf : pyFind s t shift with
    | none => rw [hf] at h; cases h
    | some j =>
      have := pyFind_le hs hf
      rw [hf] at h
      exact ih _ (by omega) _ h

theorem genReplacementGroup_same (σ : SetOrder) (s : Str) (hn : s.length < 2 ^ 32) (ts : List Str) :
    genReplacementGroup σ s ts = Str2Lst.genReplacementGroup σ s ts := by
  unfold genReplacementGroup Str2Lst.genReplacementGroup
  rw [genRepLoop_same s hn ts 0 (by omega)]
  cases h : Str2Lst.genRepLoop s ts 0 ReplacementGroup.empty with
  | error e => rfl
  | ok r =>
    obtain ⟨sh, g⟩ := r
    have := genRepLoop_le s ts 0 (by omega) _ _ _ h
    simp only [Except.bind_ok]
    split
    · rw [addPy_of_lt g _ (by omega) (by omega)]
      rfl
    · rfl

theorem genSpanLoop_same (s : Str) (hn : s.length < 2 ^ 32) (ts : List Str) (shift : Nat) (hs : shift ≤ s.length)
    (g : SpanGroup) : genSpanLoop s ts shift g = Str2Lst.genSpanLoop s ts shift g := by
  induction ts generalizing shift g with
  | nil => rfl
  | cons t ts ih =>
    unfold genSpanLoop Str2Lst.genSpanLoop
    cases hf : pyFind s t shift with
    | none => rfl
    | some j =>
      have := pyFind_le hs hf
      dsimp only
      rw [show ((j : Int) + (t.length : Int)) = ((j + t.length : Nat) : Int) by simp,
        addSpan_of_lt g (by omega) (by omega)]
      exact ih _ (by omega) _

theorem genSpanGroup_same (s : Str) (hn : s.length < 2 ^ 32) (ts : List Str) :
    genSpanGroup s ts = Str2Lst.genSpanGroup s ts := by
  unfold genSpanGroup Str2Lst.genSpanGroup
  rw [genSpanLoop_same s hn ts 0 (by omega)]

theorem reduceLoop_same (labels : List Int) (f : Transducer) (ss : List Span) (i : Nat) (out : List Int)
    (h : i + ss.length < 2 ^ 32) : reduceLoop labels f ss i out = Uttut.reduceLoop labels f ss i out := by
  induction ss generalizing i out with
  | nil => rfl
  | cons s ss ih =>
    simp only [List.length_cons] at h
    unfold reduceLoop Uttut.reduceLoop
    rw [u32_of_lt (by omega : i + 1 < 2 ^ 32)]
    cases f (slice labels s.start s.stop) 1 with
    | error e => rfl
    | ok new => exact ih _ _ (by omega)

theorem reduceBySpanGroup_same (labels : List Int) (g : SpanGroup) (f : Transducer) (h : g.spans.length < 2 ^ 32) :
    reduceBySpanGroup labels g f = Uttut.reduceBySpanGroup labels g f := by
  unfold reduceBySpanGroup Uttut.reduceBySpanGroup
  rw [u32_of_lt h]
  split
  · rfl
  · cases g.last with
    | error e => rfl
    | ok l =>
      simp only [Except.bind_ok]
      split
      · rfl
      · cases hi : g.items with
        | error e => rfl
        | ok spans =>
          have : spans = g.spans := by
            unfold SpanGroup.items at hi
            split at hi
            · injection hi with hi; exact hi.symm
            · cases hi
          subst this
          simp only [Except.bind_ok]
          exact reduceLoop_same _ _ _ _ _ (by omega)

/-! ### what is built lies within the sequence -/

/-- Replacements with ordered bounds within a sequence of length `n`. -/
def Within {V : Type} (n : Nat) (g : ReplacementGroup V) : Prop := ∀ r ∈ g.reps, r.start ≤ r.stop ∧ r.stop ≤ n

theorem within_empty {V : Type} (n : Nat) : Within n (ReplacementGroup.empty : ReplacementGroup V) := fun _ h => nomatch h

theorem within_add {V : Type} {n : Nat} {g : ReplacementGroup V} (h : Within n g) {a b : Nat} (hab : a ≤ b) (hb : b ≤ n)
    (v : V) : Within n (g.add a b v) ∧ (g.add a b v).reps.length = g.reps.length + 1 := by
  rw [ReplacementGroup.add_of_le g hab v]
  refine ⟨fun r hr => ?_, by simp⟩
  rcases List.mem_append.mp hr with hr | hr
  · exact h r hr
  · rw [List.mem_singleton.mp hr]
    exact ⟨hab, hb⟩

theorem enumAdd_within {ι V : Type} {nv : ι → Res (Option V)} {xs : List ι} {i n : Nat} {g g' : ReplacementGroup V}
    (hi : i + xs.length ≤ n) (hg : Within n g) (h : Uttut.enumAdd nv xs i g = .ok g') :
    Within n g' ∧ g'.reps.length ≤ g.reps.length + xs.length := by
  induction xs generalizing i g with
  | nil =>
    injection h with h
    subst h
    exact ⟨hg, by simp⟩
  | cons x xs ih =>
    simp only [List.length_cons] at hi ⊢
    unfold Uttut.enumAdd at h
    obtain ⟨v, _, h⟩ := bind_eq_ok h
    cases v with
    | none =>
      have := ih (by omega) hg h
      exact ⟨this.1, by omega⟩
    | some v =>
      obtain ⟨h1, h2⟩ := within_add hg (Nat.le_succ i) (by omega) v
      have := ih (by omega) h1 h
      exact ⟨this.1, by omega⟩

theorem searchLoop_within {m : Matcher} {s : Str} (hs : SoundMatcher m s) {nv : Str → Nat → Nat → Str}
    {fuel pos : Nat} {g g' : ReplacementGroup Str} (hg : Within s.length g)
    (h : Uttut.searchLoop m nv s fuel pos g = some g') :
    Within s.length g' ∧ g'.reps.length + 1 ≤ g.reps.length + fuel := by
  induction fuel generalizing pos g with
  | zero => cases h
  | succ fuel ih =>
    unfold Uttut.searchLoop at h
    by_cases hp : pos < s.length
    · rw [if_pos hp] at h
      cases hm : m s pos with
      | none =>
        rw [hm] at h
        injection h with h
        subst h
        exact ⟨hg, by omega⟩
      | some ab =>
        obtain ⟨a, b⟩ := ab
        rw [hm] at h
        have := hs pos a b (by omega) hm
        obtain ⟨h1, h2⟩ := within_add hg this.2.1 this.2.2 (nv s a b)
        have := ih h1 h
        exact ⟨this.1, by omega⟩
    · rw [if_neg hp] at h
      injection h with h
      subst h
      exact ⟨hg, by omega⟩

theorem wordLoop_within (ws : List Str) (t : Trie) (ht : Trie.ofUserWords ws = .ok t) {sh : Bool} {s : Str}
    {fuel pos : Nat} {g g' : ReplacementGroup Str} (hg : Within s.length g)
    (h : AddWhitespaceAroundWordnZhChar.loop t sh s fuel pos g = some g') :
    Within s.length g' ∧ g'.reps.length + 1 ≤ g.reps.length + fuel := by
  induction fuel generalizing pos g with
  | zero => cases h
  | succ fuel ih =>
    unfold AddWhitespaceAroundWordnZhChar.loop at h
    by_cases hp : pos < s.length
    · rw [if_pos hp] at h
      have hbest := matchPrefix_best t ws (ofUserWords_holds ws t ht).1 (s.drop pos) sh
      cases hm : t.matchPrefix (s.drop pos) sh with
      | none =>
        rw [hm] at h
        dsimp only at h
        split at h
        · split at h
          · obtain ⟨h1, h2⟩ := within_add hg (Nat.le_succ pos) (by omega) _
            have := ih h1 h
            exact ⟨this.1, by omega⟩
          · have := ih hg h
            exact ⟨this.1, by omega⟩
        · cases h
      | some w =>
        rw [hm] at h hbest
        have hw := hbest.2.2.1.length_le
        simp only [List.length_drop] at hw
        obtain ⟨h1, h2⟩ := within_add hg (Nat.le_add_right pos w.length) (by omega) ([' '] ++ w ++ [' '])
        have := ih h1 h
        exact ⟨this.1, by omega⟩
    · rw [if_neg hp] at h
      injection h with h
      subst h
      exact ⟨hg, by omega⟩

theorem done_within {V : Type} [DecidableEq V] [NewValue V] (σ : SetOrder) {n : Nat} {g g' : ReplacementGroup V}
    (hg : Within n g) (h : g.done σ = .ok g') :
    g'.isDone = true ∧ Within n g' ∧ g'.reps.Pairwise Rep.Before ∧ g'.reps.length ≤ g.reps.length := by
  obtain ⟨h1, h2, h3⟩ := ReplacementGroup.done_chain σ g g' (fun r hr => (hg r hr).1) h
  have hperm : g'.reps.Perm (pyDedup g.reps) := by
    unfold ReplacementGroup.done at h
    dsimp only at h
    split at h
    · obtain ⟨_, _, h⟩ := bind_eq_ok h
      obtain ⟨_, _, h⟩ := bind_eq_ok h
      injection h with h
      subst h
      exact (ReplacementGroup.sortReps_perm _).trans (listSet_perm σ _)
    · injection h with h
      subst h
      exact listSet_perm σ _
  refine ⟨h1, fun r hr => ?_, h3, ?_⟩
  · exact hg r (mem_pyDedup.mp (hperm.mem_iff.mp hr))
  · rw [hperm.length_eq]
    exact pyDedup_length_le _

/-! ### operators -/

/-- The result, if any, has fewer than 2^32 elements. -/
def Below {α : Type} (r : Res (List α × Aligner)) : Prop := ∀ out a, r = .ok (out, a) → out.length < 2 ^ 32

theorem finish_same {β : Type} [DecidableEq β] [NewValue (List β)] (σ : SetOrder) (s : List β)
    (g0 : ReplacementGroup (List β)) (hg : Within s.length g0) (hlen : g0.reps.length ≤ 2 ^ 31)
    (mk mk' : ReplacementGroup (List β) → Nat → Aligner)
    (hmk : ∀ ps : List (Piece β β), srcOf ps = s → (groupOf 0 ps).length ≤ 2 ^ 31 → (dstOf ps).length < 2 ^ 32 →
      SameAligner (mk ⟨groupOf 0 ps, true⟩ (dstOf ps).length) (mk' ⟨groupOf 0 ps, true⟩ (dstOf ps).length))
    (hb : Below (do
      let g ← g0.done σ
      let out ← Lst2Lst.apply s g
      return (out, mk' g out.length))) :
    SameRes
      (do let g ← g0.done σ
          let out ← apply s g
          return (out, mk g out.length))
      (do let g ← g0.done σ
          let out ← Lst2Lst.apply s g
          return (out, mk' g out.length)) := by
  cases hd : g0.done σ with
  | error e => exact .error e
  | ok g =>
    rw [hd] at hb
    simp only [Except.bind_ok] at hb ⊢
    obtain ⟨h1, h2, h3, h4⟩ := done_within σ hg hd
    obtain ⟨rs, d⟩ := g
    simp only at h1 h2 h3 h4
    subst h1
    have hfit : Fits s.length 0 rs := by
      rw [fits_iff]
      exact ⟨by omega, fun r hr => ⟨by omega, (h2 r hr).1, (h2 r hr).2⟩, h3⟩
    have hsrc : srcOf (cut s 0 rs) = s := by rw [srcOf_cut s 0 _ hfit]; simp
    have hrs := groupOf_cut s 0 rs hfit
    have happ := lstApply_pieces (cut s 0 rs)
    rw [hsrc, hrs] at happ
    rw [happ] at hb
    rw [apply_same s ⟨rs, true⟩ (by simp only; omega), happ]
    simp only [Except.bind_ok] at hb ⊢
    have := hmk (cut s 0 rs) hsrc (by rw [hrs]; omega) (hb _ _ rfl)
    rw [hrs] at this
    exact .ok _ _ _ this

theorem strAligner_same (σ : SetOrder) (s : Str) (hs : s.length ≤ 2 ^ 31) (f b : Transducer)
    (ps : List (Piece Char Char)) (h1 : srcOf ps = s) (h2 : (groupOf 0 ps).length ≤ 2 ^ 31)
    (h3 : (dstOf ps).length < 2 ^ 32) :
    SameAligner (ofEdit (β := Char) σ s ⟨groupOf 0 ps, true⟩ (dstOf ps).length f b)
      (Aligner.ofStrEdit σ s ⟨groupOf 0 ps, true⟩ (dstOf ps).length f b) :=
  aligner_same (β := Char) σ ps s _ f b h1 rfl (by omega) h3 (by omega)

theorem lstAligner_same (σ : SetOrder) (l : List Tok) (hs : l.length ≤ 2 ^ 31) (f b : Transducer)
    (ps : List (Piece Tok Tok)) (h1 : srcOf ps = l) (h2 : (groupOf 0 ps).length ≤ 2 ^ 31)
    (h3 : (dstOf ps).length < 2 ^ 32) :
    SameAligner (ofEdit σ l ⟨groupOf 0 ps, true⟩ (dstOf ps).length f b)
      (Aligner.ofLstEdit σ l ⟨groupOf 0 ps, true⟩ (dstOf ps).length f b) :=
  aligner_same (β := Tok) σ ps l _ f b h1 rfl (by omega) h3 (by omega)

theorem charwise_same {ι : Type} (σ : SetOrder) (nv : ι → Res (Option Str)) (xs : List ι) (s : Str)
    (hx : xs.length = s.length) (hs : s.length ≤ 2 ^ 31) (f b : Transducer)
    (hb : Below (Uttut.charwiseTransform σ nv xs s fun g n => Aligner.ofStrEdit σ s g n f b)) :
    SameRes (charwiseTransform σ nv xs s f b)
      (Uttut.charwiseTransform σ nv xs s fun g n => Aligner.ofStrEdit σ s g n f b) := by
  unfold charwiseTransform Uttut.charwiseTransform at *
  rw [enumAdd_same nv xs 0 _ (by omega)]
  cases he : Uttut.enumAdd nv xs 0 (ReplacementGroup.empty : ReplacementGroup Str) with
  | error e => exact .error e
  | ok g =>
    rw [he] at hb
    simp only [Except.bind_ok] at hb ⊢
    obtain ⟨h1, h2⟩ := enumAdd_within (n := s.length) (by omega) (within_empty _) he
    exact finish_same (β := Char) σ s g h1 (by simp only [ReplacementGroup.empty, List.length_nil] at h2; omega)
      (fun g n => ofEdit (β := Char) σ s g n f b) (fun g n => Aligner.ofStrEdit σ s g n f b)
      (strAligner_same σ s hs _ _) hb

theorem tokenwise_same (σ : SetOrder) (nv : Tok → Res (Option (List Tok))) (l : List Tok) (hl : l.length ≤ 2 ^ 31)
    (mk mk' : ReplacementGroup (List Tok) → Nat → Aligner)
    (hmk : ∀ ps : List (Piece Tok Tok), srcOf ps = l → (groupOf 0 ps).length ≤ 2 ^ 31 → (dstOf ps).length < 2 ^ 32 →
      SameAligner (mk ⟨groupOf 0 ps, true⟩ (dstOf ps).length) (mk' ⟨groupOf 0 ps, true⟩ (dstOf ps).length))
    (hb : Below (Uttut.tokenwiseTransform σ nv l mk')) :
    SameRes (tokenwiseTransform σ nv l mk) (Uttut.tokenwiseTransform σ nv l mk') := by
  unfold tokenwiseTransform Uttut.tokenwiseTransform at *
  rw [enumAdd_same nv l 0 _ (by omega)]
  cases he : Uttut.enumAdd nv l 0 (ReplacementGroup.empty : ReplacementGroup (List Tok)) with
  | error e => exact .error e
  | ok g =>
    rw [he] at hb
    simp only [Except.bind_ok] at hb ⊢
    obtain ⟨h1, h2⟩ := enumAdd_within (n := l.length) (by omega) (within_empty _) he
    exact finish_same (β := Tok) σ l g h1 (by simp only [ReplacementGroup.empty, List.length_nil] at h2; omega) _ _
      hmk hb

theorem pattern_same (σ : SetOrder) (m : Matcher) (token : Str) (f b : Transducer) (s : Str) (hm : SoundMatcher m s)
    (hs : s.length ≤ 2 ^ 31) (hb : Below (Uttut.patternTransform σ m token f b s)) :
    SameRes (patternTransform σ m token f b s) (Uttut.patternTransform σ m token f b s) := by
  unfold patternTransform Uttut.patternTransform patternTransformFuel patternGroup at *
  rw [searchLoop_same hm _ (by omega)]
  cases he : Uttut.searchLoop m (fun _ _ _ => token) s (s.length + 1) 0 ReplacementGroup.empty with
  | none => exact .error _
  | some g =>
    rw [he] at hb
    simp only [Option.map_some, Except.bind_ok] at hb ⊢
    obtain ⟨h1, h2⟩ := searchLoop_within hm (within_empty _) he
    exact finish_same (β := Char) σ s g h1 (by simp only [ReplacementGroup.empty, List.length_nil] at h2; omega)
      (fun g n => ofEdit (β := Char) σ s g n f b) (fun g n => Aligner.ofStrEdit σ s g n f b)
      (strAligner_same σ s hs _ _) hb

theorem lowercase_same (σ : SetOrder) (s : Str) (hs : s.length ≤ 2 ^ 31) :
    SameRes (lowercase σ s) (Lowercase.transform σ s) := by
  have hm := C24_regex_sound Lowercase.regex s
  unfold lowercase Lowercase.transform patternGroup
  rw [searchLoop_same hm _ (by omega)]
  cases he : Uttut.searchLoop Lowercase.regex.search Lowercase.newValue s (s.length + 1) 0 ReplacementGroup.empty with
  | none => exact .error _
  | some g =>
    simp only [Option.map_some, Except.bind_ok]
    obtain ⟨h1, h2⟩ := searchLoop_within hm (within_empty _) he
    simp only [ReplacementGroup.empty, List.length_nil] at h2
    cases hd : g.done σ with
    | error e => exact .error e
    | ok g' =>
      obtain ⟨_, _, _, h3⟩ := done_within σ h1 hd
      simp only [Except.bind_ok]
      rw [apply_same (β := Char) s g' (by omega)]
      exact .refl _

theorem words_same (σ : SetOrder) (ws : List Str) (t : Trie) (ht : Trie.ofUserWords ws = .ok t) (sh : Bool) (s : Str)
    (hs : s.length ≤ 2 ^ 31) (hb : Below (AddWhitespaceAroundWordnZhChar.transform σ t sh s)) :
    SameRes (aroundWords σ t sh s) (AddWhitespaceAroundWordnZhChar.transform σ t sh s) := by
  unfold aroundWords AddWhitespaceAroundWordnZhChar.transform at *
  rw [wordLoop_same ws t ht sh s (by omega)]
  cases he : AddWhitespaceAroundWordnZhChar.loop t sh s (s.length + 1) 0 ReplacementGroup.empty with
  | none => exact .error _
  | some g =>
    rw [he] at hb
    simp only [Option.map_some, Except.bind_ok] at hb ⊢
    obtain ⟨h1, h2⟩ := wordLoop_within ws t ht (within_empty _) he
    exact finish_same (β := Char) σ s g h1 (by simp only [ReplacementGroup.empty, List.length_nil] at h2; omega)
      (fun g n => ofEdit (β := Char) σ s g n AddWhitespaceAroundWordnZhChar.fwd AddWhitespaceAroundWordnZhChar.bwd) (fun g n => Aligner.ofStrEdit σ s g n AddWhitespaceAroundWordnZhChar.fwd AddWhitespaceAroundWordnZhChar.bwd)
      (strAligner_same σ s hs _ _) hb

theorem foldlM_within {V : Type} {n : Nat} (ts : List (Int × Int × V)) (g g' : ReplacementGroup V)
    (ht : ∀ t ∈ ts, t.2.1 ≤ n) (hg : Within n g)
    (h : ts.foldlM (fun g (r : Int × Int × V) => g.addPy r.1 r.2.1 r.2.2) g = .ok g') :
    Within n g' ∧ g'.reps.length ≤ g.reps.length + ts.length := by
  induction ts generalizing g with
  | nil =>
    injection h with h
    subst h
    exact ⟨hg, by simp⟩
  | cons t ts ih =>
    rw [List.foldlM_cons] at h
    obtain ⟨g1, h1, h⟩ := bind_eq_ok h
    have htt := ht t (by simp)
    have hg1 : Within n g1 ∧ g1.reps.length ≤ g.reps.length + 1 := by
      unfold ReplacementGroup.addPy at h1
      obtain ⟨a, ha, h1⟩ := bind_eq_ok h1
      obtain ⟨b, hb', h1⟩ := bind_eq_ok h1
      injection h1 with h1
      subst h1
      have hb2 := (toUInt_ok hb').1
      by_cases hab : a ≤ b
      · obtain ⟨h2, h3⟩ := within_add hg hab (by omega) t.2.2
        exact ⟨h2, by omega⟩
      · have : g.add a b t.2.2 = g := by
          unfold ReplacementGroup.add Rep.new validateStartEnd
          rw [if_pos (by omega)]
          rfl
        rw [this]
        exact ⟨hg, by omega⟩
    have := ih g1 (fun t ht' => ht t (List.mem_cons_of_mem _ ht')) hg1.1 h
    simp only [List.length_cons]
    exact ⟨this.1, by omega⟩

theorem group_same (σ : SetOrder) (ts : List (Int × Int × List Tok)) (l : List Tok) (hl : l.length ≤ 2 ^ 31)
    (ht : ∀ t ∈ ts, t.2.1 ≤ l.length) (hts : ts.length ≤ 2)
    (hb : Below (do
      let g ← ReplacementGroup.addAll σ ts
      let out ← Lst2Lst.apply l g
      return (out, Aligner.ofLstEdit σ l g out.length Transduce.getNotEntity Transduce.getNotEntity))) :
    SameRes (groupTransform σ (ReplacementGroup.addAll σ ts) l)
      (do let g ← ReplacementGroup.addAll σ ts
          let out ← Lst2Lst.apply l g
          return (out, Aligner.ofLstEdit σ l g out.length Transduce.getNotEntity Transduce.getNotEntity)) := by
  unfold groupTransform ReplacementGroup.addAll at *
  cases he : ts.foldlM (fun g (r : Int × Int × List Tok) => g.addPy r.1 r.2.1 r.2.2)
      (ReplacementGroup.empty : ReplacementGroup (List Tok)) with
  | error e => exact .error e
  | ok g =>
    rw [he] at hb
    simp only [Except.bind_ok] at hb ⊢
    obtain ⟨h1, h2⟩ := foldlM_within ts _ _ ht (within_empty _) he
    exact finish_same (β := Tok) σ l g h1 (by simp only [ReplacementGroup.empty, List.length_nil] at h2; omega)
      (fun g n => ofEdit σ l g n Transduce.getNotEntity Transduce.getNotEntity)
      (fun g n => Aligner.ofLstEdit σ l g n Transduce.getNotEntity Transduce.getNotEntity)
      (lstAligner_same σ l hl _ _) hb

theorem groupOf_length_le {α β : Type} (ps : List (Piece α β)) (h : ∀ o n, sub o n ∈ ps → o ≠ []) (off : Nat) :
    (groupOf off ps).length ≤ (srcOf ps).length := by
  induction ps generalizing off with
  | nil => simp [groupOf]
  | cons p ps ih =>
    have ih := ih fun o n hm => h o n (List.mem_cons_of_mem _ hm)
    cases p with
    | keep l =>
      have := ih (off + l.length)
      simp only [groupOf, srcOf_keep, List.length_append]
      omega
    | sub o n =>
      have := ih (off + o.length)
      have ho := List.length_pos_iff.mpr (h o n (by simp))
      simp only [groupOf, srcOf_sub, List.length_append, List.length_cons]
      omega

theorem gapPiece_nonempty {g o n : Str} (h : sub o n = gapPiece g) : o ≠ [] := by
  unfold gapPiece at h
  split at h
  · cases h
  · rename_i hg
    injection h with h1 h2
    rw [h1]
    exact hg

theorem tokPieces_nonempty (ps : List (Str × Str)) (tail : Str) (o n : Str) (h : sub o n ∈ tokPieces ps tail) :
    o ≠ [] := by
  unfold tokPieces pairPieces at h
  rw [List.mem_append, List.mem_flatMap, List.mem_singleton] at h
  rcases h with ⟨p, _, h⟩ | h
  · simp only [List.mem_cons, List.not_mem_nil, or_false] at h
    rcases h with h | h
    · exact gapPiece_nonempty h
    · cases h
  · exact gapPiece_nonempty h

theorem consecutive_last (ns : List Nat) (off : Nat) (l : Span) (h : (consecutive off ns).getLast? = some l) :
    l.stop = off + ns.sum := by
  induction ns generalizing off with
  | nil => cases h
  | cons n ns ih =>
    simp only [consecutive] at h
    cases ns with
    | nil =>
      simp only [consecutive, List.getLast?_singleton, Option.some.injEq] at h
      subst h
      simp
    | cons m ns =>
      rw [show consecutive (off + n) (m :: ns) = ⟨off + n, off + n + m⟩ :: consecutive (off + n + m) ns from rfl,
        List.getLast?_cons_cons] at h
      have := ih (off + n) h
      rw [this]
      simp only [List.sum_cons]
      omega

theorem fillRange_length (label : Int) (n i : Nat) (out out' : List Int) (h : fillRange label n i out = .ok out') :
    out'.length = out.length := by
  induction n generalizing i out with
  | zero =>
    injection h with h
    rw [h]
  | succ n ih =>
    unfold fillRange at h
    split at h
    · have := ih _ _ h
      rw [this, List.length_set]
    · cases h

theorem expandLoop_length (ss : List Span) (ls out out' : List Int) (h : Uttut.expandLoop ss ls out = .ok out') :
    out'.length = out.length := by
  induction ss generalizing ls out with
  | nil =>
    injection h with h
    rw [h]
  | cons s ss ih =>
    cases ls with
    | nil =>
      injection h with h
      rw [h]
    | cons l ls =>
      unfold Uttut.expandLoop at h
      obtain ⟨a, _, h⟩ := bind_eq_ok h
      obtain ⟨o, h1, h⟩ := bind_eq_ok h
      rw [ih _ _ h, fillRange_length _ _ _ _ _ h1]

theorem expand_length (tokens : List Str) (ls l : List Int)
    (h : expandBySpanGroup ls ⟨consecutive 0 (tokens.map List.length), true⟩ = .ok l) :
    l.length = tokens.flatten.length := by
  unfold expandBySpanGroup at h
  simp only [length_consecutive, List.length_map] at h
  split at h
  · cases h
  · rename_i hl
    split at h
    · rename_i h0
      injection h with h
      subst h
      have := List.length_eq_zero_iff.mp h0
      subst this
      simp at hl
      simp [hl]
    · obtain ⟨x, hx, h⟩ := bind_eq_ok h
      obtain ⟨ss, _, h⟩ := bind_eq_ok h
      rw [expandLoop_length _ _ _ _ h, List.length_replicate]
      unfold SpanGroup.last at hx
      simp only [if_true] at hx
      split at hx
      · rename_i y hy
        injection hx with hx
        subst hx
        rw [consecutive_last _ _ _ hy, List.length_flatten]
        simp
      · cases hx

theorem tokenizer_same (σ : SetOrder) (f b : Transducer) (s : Str) (tokens : List Str) (hs : s.length ≤ 2 ^ 31)
    (hb : Below (Uttut.tokenizerTransform σ f b s tokens)) :
    SameRes (tokenizerTransform σ f b s tokens) (Uttut.tokenizerTransform σ f b s tokens) := by
  unfold tokenizerTransform Uttut.tokenizerTransform at *
  rw [genReplacementGroup_same σ s (by omega)]
  cases hg : Str2Lst.genReplacementGroup σ s tokens with
  | error e => exact .error e
  | ok g =>
    obtain ⟨ps, tail, h1, h2, h3, h4⟩ := genReplacementGroup_ok σ s tokens g hg
    rw [hg] at hb
    simp only [Except.bind_ok] at hb ⊢
    have hsrc : srcOf (tokPieces ps tail) = s := by rw [srcOf_tokPieces, h1]
    have hdst : dstOf (tokPieces ps tail) = tokens.flatten := by rw [dstOf_tokPieces, h2]
    have hlen : (groupOf 0 (tokPieces ps tail)).length ≤ s.length := by
      have := groupOf_length_le (tokPieces ps tail) (fun o n => tokPieces_nonempty ps tail o n) 0
      rw [hsrc] at this
      exact this
    have happ := strApply_pieces (tokPieces ps tail)
    rw [hsrc, hdst, ← h4] at happ
    have hflat : tokens.flatten.length ≤ s.length := by
      rw [← h2, h1]
      clear * -
      unfold joinPairs
      induction ps with
      | nil => simp
      | cons p ps ih =>
        simp only [List.map_cons, List.flatten_cons, List.flatMap_cons, List.length_append] at ih ⊢
        omega
    rw [happ] at hb
    rw [apply_same (β := Char) s g (by rw [h4]; simp only; omega)]
    rw [show Lst2Lst.apply (β := Char) s g = Str2Str.apply s g from rfl, happ]
    simp only [Except.bind_ok] at hb ⊢
    rw [genSpanGroup_same tokens.flatten (by omega)]
    rw [genSpanGroup_eq] at hb ⊢
    simp only [Except.bind_ok] at hb ⊢
    have hn := hb _ _ rfl
    refine .ok _ _ _ (.of_exact rfl rfl (fun ls hl => ?_) fun ls hl => ?_)
    · unfold Aligner.transform Aligner.validateInput Aligner.validateOutput ofTokens Aligner.ofTokens
      dsimp only
      have hp : propagate ls g f = Uttut.propagate ls g f := by
        rw [h4]
        exact forward_same (β := Char) (tokPieces ps tail) (by rw [hsrc]; omega) (by rw [hdst]; omega) f ls
          (by rw [hsrc]; exact hl)
      rw [hp]
      have hr : ∀ l, reduceBySpanGroup l ⟨consecutive 0 (tokens.map List.length), true⟩ =
          Uttut.reduceBySpanGroup l ⟨consecutive 0 (tokens.map List.length), true⟩ := by
        intro l
        refine reduceBySpanGroup_same l _ _ ?_
        show (consecutive 0 (tokens.map List.length)).length < _
        rw [length_consecutive, List.length_map]
        exact hn
      simp only [hr]
    · unfold Aligner.inverseTransform Aligner.validateInput Aligner.validateOutput ofTokens Aligner.ofTokens
      dsimp only
      have hexp : ∀ l, expandBySpanGroup ls ⟨consecutive 0 (tokens.map List.length), true⟩ = .ok l →
          l.length = tokens.flatten.length := fun l => expand_length tokens ls l
      have hinv : inverse (β := Char) σ s g = Str2Str.inverse σ s g := by
        have hfit := fits_groupOf (tokPieces ps tail) 0
        rw [Nat.zero_add, hsrc] at hfit
        have hed := editedLen_groupOf (tokPieces ps tail)
        rw [hsrc, hdst] at hed
        rw [h4]
        exact inverse_same (β := Char) σ s _ hfit (by omega) (by omega) (by omega)
      rw [hinv]
      have hpieces := editInverse_pieces (α := Char) σ (tokPieces ps tail) (separated_swap_tokPieces ps tail h3)
      rw [hsrc, ← h4] at hpieces
      rw [show Str2Str.inverse σ s g = _ from hpieces]
      simp only [Except.bind_ok]
      cases he : expandBySpanGroup ls ⟨consecutive 0 (tokens.map List.length), true⟩ with
      | error e => rfl
      | ok l =>
        simp only [Except.bind_ok]
        have hl' := hexp l he
        have hfit := fits_groupOf ((tokPieces ps tail).map swap) 0
        rw [Nat.zero_add, srcOf_swap, hdst, ← hl'] at hfit
        have hed := editedLen_groupOf ((tokPieces ps tail).map swap)
        rw [srcOf_swap, dstOf_swap, hsrc, hdst, ← hl'] at hed
        rw [propagate_same l b _ (by omega) hfit (by omega)]

end Uttut.Machine
