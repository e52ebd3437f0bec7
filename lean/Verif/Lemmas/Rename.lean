import Verif.Lemmas.Mode
import Verif.Lemmas.Order
import Verif.Spec.Rename
import Verif.Props.Annotated

/-! Aligners do not look at the numbers of the classes. -/

namespace Uttut

open Spec

variable {f : Int → Int}

/-! ### counting -/

theorem dedup_map (hf : ∀ x y, f x = f y → x = y) (l : List Int) : pyDedup (l.map f) = (pyDedup l).map f := by
  induction l with
  | nil => rfl
  | cons x xs ih =>
    simp only [List.map_cons, pyDedup, ih, List.filter_map]
    congr 2
    refine List.filter_congr fun y _ => ?_
    simp only [Function.comp_apply, ne_eq, decide_not]
    congr 1
    exact decide_eq_decide.mpr ⟨fun h => hf _ _ h, fun h => congrArg f h⟩

theorem count_map (hf : ∀ x y, f x = f y → x = y) (l : List Int) (x : Int) : (l.map f).count (f x) = l.count x := by
  rw [List.count, List.count, List.countP_map]
  refine List.countP_congr fun y _ => ?_
  simp only [Function.comp_apply, beq_iff_eq]
  exact ⟨fun h => hf _ _ h, fun h => congrArg f h⟩

theorem counterOf_map (hf : ∀ x y, f x = f y → x = y) (l : List Int) :
    counterOf (l.map f) = (counterOf l).map fun kv => (f kv.1, kv.2) := by
  rw [counterOf_eq, counterOf_eq, dedup_map hf, List.map_map, List.map_map]
  refine List.map_congr_left fun x _ => ?_
  simp only [Function.comp_apply, count_map hf]

theorem scanMax_map (c : List (Int × Nat)) : ∀ (k : Int) (m : Nat),
    scanMax (c.map fun kv => (f kv.1, kv.2)) (f k) m = f (scanMax c k m) := by
  induction c with
  | nil => intro k m; rfl
  | cons kv c ih =>
    intro k m
    obtain ⟨x, n⟩ := kv
    simp only [List.map_cons, scanMax]
    split <;> exact ih _ _

theorem mostCommonItems_map (hf : ∀ x y, f x = f y → x = y) (l : List Int) :
    Transduce.mostCommonItems (l.map f) = (Transduce.mostCommonItems l).map fun kv => (f kv.1, kv.2) := by
  unfold Transduce.mostCommonItems
  rw [counterOf_map hf]
  exact (NotedGroup.pySorted_map (fun kv : Int × Nat => (f kv.1, kv.2)) (fun kv : Int × Nat => -(kv.2 : Int))
    (counterOf l)).symm

theorem toUInt_renumber (hf : Renumbering f) (x : Int) :
    (∃ n m, toUInt x = .ok n ∧ (n : Int) = x ∧ toUInt (f x) = .ok m ∧ (m : Int) = f x) ∨
      (toUInt x = .error .overflowError ∧ toUInt (f x) = .error .overflowError) := by
  have hu := hf.unsigned x
  unfold toUInt uintBound
  by_cases h : 0 ≤ x ∧ x < 2 ^ 32
  · have h' := hu.mpr h
    left
    refine ⟨x.toNat, (f x).toNat, if_pos ?_, Int.toNat_of_nonneg h.1, if_pos ?_, Int.toNat_of_nonneg h'.1⟩
    · exact_mod_cast h
    · exact_mod_cast h'
  · right
    have h' : ¬ (0 ≤ f x ∧ f x < 2 ^ 32) := fun h' => h (hu.mp h')
    refine ⟨if_neg ?_, if_neg ?_⟩
    · exact_mod_cast h
    · exact_mod_cast h'

theorem mapM_toUInt_renumber (hf : Renumbering f) (l : List Int) :
    (∃ ns ms, l.mapM toUInt = .ok ns ∧ (l.map f).mapM toUInt = .ok ms) ∨
      (∃ e e', l.mapM toUInt = .error e ∧ (l.map f).mapM toUInt = .error e') := by
  induction l with
  | nil => exact Or.inl ⟨[], [], rfl, rfl⟩
  | cons x xs ih =>
    simp only [List.map_cons, List.mapM_cons]
    rcases toUInt_renumber hf x with ⟨n, m, h1, _, h2, _⟩ | ⟨h1, h2⟩
    · rw [h1, h2]
      rcases ih with ⟨ns, ms, h3, h4⟩ | ⟨e, e', h3, h4⟩
      · rw [h3, h4]
        exact Or.inl ⟨_, _, rfl, rfl⟩
      · rw [h3, h4]
        exact Or.inr ⟨_, _, rfl, rfl⟩
    · rw [h1, h2]
      exact Or.inr ⟨_, _, rfl, rfl⟩

/-! ### transducers -/

/-- A transducer that gives the renumbered labels for renumbered labels. -/
def Blind (f : Int → Int) (t : Transducer) : Prop := ∀ ls n, t (ls.map f) n = (t ls n).map (List.map f)

theorem getNotEntity_blind (hf : Renumbering f) : Blind f Transduce.getNotEntity := by
  intro ls n
  unfold Transduce.getNotEntity notEntity
  simp only [Except.map, List.map_replicate, hf.zero]

theorem getMostCommon_blind (hf : Renumbering f) : Blind f Transduce.getMostCommon := by
  intro ls n
  unfold Transduce.getMostCommon
  rw [mostCommonItems_map hf.injective]
  cases Transduce.mostCommonItems ls with
  | nil => rfl
  | cons kv rest => simp only [List.map_cons, Except.map, List.map_replicate]

theorem getMostCommonExcept_blind (hf : Renumbering f) : Blind f Transduce.getMostCommonExceptNotEntity := by
  intro ls n
  unfold Transduce.getMostCommonExceptNotEntity
  have e : (ls.map f).filter (fun l => decide (l ≠ notEntity)) = (ls.filter fun l => decide (l ≠ notEntity)).map f := by
    rw [List.filter_map]
    congr 1
    refine List.filter_congr fun y _ => ?_
    simp only [Function.comp_apply, ne_eq, decide_not]
    congr 1
    refine decide_eq_decide.mpr ⟨fun h => hf.injective _ _ ?_, fun h => ?_⟩
    · rw [h]; exact hf.zero.symm
    · rw [h]; exact hf.zero
  dsimp only
  rw [e, List.length_map]
  split
  · exact getNotEntity_blind hf ls n
  · exact getMostCommon_blind hf _ n

theorem noneTransducer_blind : Blind f noneTransducer := fun _ _ => rfl

theorem getMostCommonLabel_blind (hf : Renumbering f) : Blind f getMostCommonLabel := by
  intro ls n
  unfold getMostCommonLabel
  simp only [Except.map, List.map_replicate, List.length_map]
  congr 2
  split
  · exact hf.zero.symm
  · unfold countAndGetMostCommon
    rcases mapM_toUInt_renumber hf ls with ⟨ns, ms, h1, h2⟩ | ⟨e, e', h1, h2⟩
    · rw [h1, h2]
      dsimp only
      rw [counterOf_map hf.injective]
      have := scanMax_map (f := f) (counterOf ls) 0 0
      rw [hf.zero] at this
      exact this
    · rw [h1, h2]
      exact hf.zero.symm

theorem around_blind (hf : Renumbering f) : Blind f AddWhitespaceAroundChar.fwd := by
  intro ls n
  unfold AddWhitespaceAroundChar.fwd notEntity
  match ls with
  | [] => rfl
  | [l] => simp only [List.map_cons, List.map_nil, Except.map, hf.zero]
  | _ :: _ :: _ => rfl

theorem word_blind (hf : Renumbering f) : Blind f AddWhitespaceAroundWordnZhChar.fwd := by
  intro ls n
  unfold AddWhitespaceAroundWordnZhChar.fwd notEntity
  simp only [Except.map, List.map_append, List.map_cons, List.map_nil, hf.zero]

theorem slice_map (ls : List Int) (i j : Nat) : slice (ls.map f) i j = (slice ls i j).map f := by
  unfold slice
  rw [List.map_drop, List.map_take]

theorem word_back_blind : Blind f AddWhitespaceAroundWordnZhChar.bwd := by
  intro ls n
  unfold AddWhitespaceAroundWordnZhChar.bwd pySlice
  rw [List.length_map, slice_map]
  rfl

theorem spaced_blind (hf : Renumbering f) (token : Str) : Blind f (withSpaceFwd token) := by
  intro ls n
  unfold withSpaceFwd notEntity
  rw [mostCommonItems_map hf.injective]
  cases Transduce.mostCommonItems ls with
  | nil => rfl
  | cons kv rest =>
    simp only [List.map_cons, Except.map, List.map_replicate, List.map_append, List.map_nil, hf.zero, List.cons_append]

/-! ### edits -/

theorem sliceAssign_map (l new : List Int) (i j : Nat) :
    sliceAssign (l.map f) i j (new.map f) = (sliceAssign l i j new).map f := by
  unfold sliceAssign
  rw [List.map_append, List.map_append, List.map_take, List.map_drop]

theorem propagateLoop_map {β : Type} {t : Transducer} (ht : Blind f t) (labels : List Int) (rs : List (Rep (List β))) :
    ∀ (i o : Nat) (out : List Int), propagateLoop (labels.map f) t rs i o (out.map f) =
      (propagateLoop labels t rs i o out).map fun r => (r.1, r.2.1, r.2.2.map f) := by
  induction rs with
  | nil => intro i o out; rfl
  | cons r rs ih =>
    intro i o out
    unfold propagateLoop
    dsimp only
    rw [slice_map, slice_map, sliceAssign_map, ht]
    cases t (slice labels r.start r.stop) r.val.length with
    | error e => rfl
    | ok new =>
      simp only [Except.map, Except.bind_ok]
      rw [sliceAssign_map]
      exact ih _ _ _

theorem propagate_map {β : Type} (hf : Renumbering f) {t : Transducer} (ht : Blind f t) (labels : List Int)
    (g : ReplacementGroup (List β)) : propagate (labels.map f) g t = (propagate labels g t).map (List.map f) := by
  unfold propagate
  dsimp only
  cases g.items with
  | error e => rfl
  | ok rs =>
    simp only [Except.bind_ok, List.length_map]
    have e : List.replicate (computeOutputLength labels.length g) notEntity =
        (List.replicate (computeOutputLength labels.length g) notEntity).map f := by
      rw [List.map_replicate]
      congr 1
      exact hf.zero.symm
    rw [e, propagateLoop_map ht, ← e]
    cases propagateLoop labels t rs 0 0 (List.replicate (computeOutputLength labels.length g) notEntity) with
    | error e => rfl
    | ok r =>
      obtain ⟨i, o, out⟩ := r
      simp only [Except.map, Except.bind_ok, List.length_map]
      rw [← List.map_drop, sliceAssign_map]
      rfl

/-! ### spans -/

theorem reduceLoop_map {t : Transducer} (ht : Blind f t) (labels : List Int) (ss : List Span) :
    ∀ (i : Nat) (out : List Int), reduceLoop (labels.map f) t ss i (out.map f) =
      (reduceLoop labels t ss i out).map (List.map f) := by
  induction ss with
  | nil => intro i out; rfl
  | cons s ss ih =>
    intro i out
    unfold reduceLoop
    rw [slice_map, ht]
    cases t (slice labels s.start s.stop) 1 with
    | error e => rfl
    | ok new =>
      simp only [Except.map, Except.bind_ok]
      rw [sliceAssign_map]
      exact ih _ _

theorem zeros_map (hf : Renumbering f) (n : Nat) :
    List.replicate n notEntity = (List.replicate n notEntity).map f := by
  rw [List.map_replicate]
  congr 1
  exact hf.zero.symm

theorem reduce_map (hf : Renumbering f) (labels : List Int) (g : SpanGroup) :
    reduceBySpanGroup (labels.map f) g = (reduceBySpanGroup labels g).map (List.map f) := by
  unfold reduceBySpanGroup
  simp only [List.length_map]
  split
  · rfl
  · cases g.last with
    | error e => rfl
    | ok l =>
      simp only [Except.bind_ok]
      split
      · rfl
      · cases g.items with
        | error e => rfl
        | ok ss =>
          simp only [Except.bind_ok]
          rw [zeros_map hf, reduceLoop_map (getMostCommonLabel_blind hf), ← zeros_map hf]

theorem fillRange_map (l : Int) (n : Nat) : ∀ (i : Nat) (out : List Int),
    fillRange (f l) n i (out.map f) = (fillRange l n i out).map (List.map f) := by
  induction n with
  | zero => intro i out; rfl
  | succ n ih =>
    intro i out
    unfold fillRange
    rw [List.length_map]
    split
    · rw [← List.map_set]; exact ih _ _
    · rfl

theorem expandLoop_map (hf : Renumbering f) (ss : List Span) : ∀ (ls out : List Int),
    expandLoop ss (ls.map f) (out.map f) = (expandLoop ss ls out).map (List.map f) := by
  induction ss with
  | nil => intro ls out; cases ls <;> rfl
  | cons s ss ih =>
    intro ls out
    cases ls with
    | nil => rfl
    | cons l ls =>
      simp only [List.map_cons]
      unfold expandLoop
      rcases toUInt_renumber hf l with ⟨n, m, h1, h2, h3, h4⟩ | ⟨h1, h2⟩
      · rw [h1, h3]
        simp only [Except.bind_ok]
        rw [h2, h4, fillRange_map]
        cases fillRange l (s.stop - s.start) s.start out with
        | error e => rfl
        | ok o =>
          simp only [Except.map, Except.bind_ok]
          exact ih _ _
      · rw [h1, h2]
        rfl

theorem expand_map (hf : Renumbering f) (labels : List Int) (g : SpanGroup) :
    expandBySpanGroup (labels.map f) g = (expandBySpanGroup labels g).map (List.map f) := by
  unfold expandBySpanGroup
  simp only [List.length_map]
  split
  · rfl
  · split
    · rfl
    · cases g.last with
      | error e => rfl
      | ok l =>
        cases g.items with
        | error e => rfl
        | ok ss =>
          simp only [Except.bind_ok]
          rw [zeros_map hf, expandLoop_map hf, ← zeros_map hf]

/-! ### aligners -/

/-- An aligner that gives renumbered labels for renumbered labels, in both directions, exceptions included. -/
structure BlindAligner (f : Int → Int) (a : Aligner) : Prop where
  fwd : ∀ ls, a.fwd (ls.map f) = (a.fwd ls).map (List.map f)
  bwd : ∀ ls, a.bwd (ls.map f) = (a.bwd ls).map (List.map f)

theorem BlindAligner.transform {a : Aligner} (h : BlindAligner f a) (ls : List Int) :
    a.transform (ls.map f) = (a.transform ls).map (List.map f) := by
  unfold Aligner.transform Aligner.validateInput Aligner.validateOutput
  rw [List.length_map, h.fwd]
  split
  · rfl
  · cases a.fwd ls with
    | error e => rfl
    | ok ys =>
      simp only [Except.map, Except.bind_ok, List.length_map]
      split <;> rfl

theorem BlindAligner.inverse {a : Aligner} (h : BlindAligner f a) (ls : List Int) :
    a.inverseTransform (ls.map f) = (a.inverseTransform ls).map (List.map f) := by
  unfold Aligner.inverseTransform Aligner.validateInput Aligner.validateOutput
  rw [List.length_map, h.bwd]
  split
  · rfl
  · cases a.bwd ls with
    | error e => rfl
    | ok ys =>
      simp only [Except.map, Except.bind_ok, List.length_map]
      split <;> rfl

theorem blind_null (i o : Nat) : BlindAligner f (Aligner.null i o) := ⟨fun _ => rfl, fun _ => rfl⟩

theorem blind_ofStrEdit (hf : Renumbering f) (σ : SetOrder) (s : Str) (g : ReplacementGroup Str) (n : Nat)
    {t b : Transducer} (ht : Blind f t) (hb : Blind f b) : BlindAligner f (Aligner.ofStrEdit σ s g n t b) := by
  refine ⟨fun ls => propagate_map hf ht ls g, fun ls => ?_⟩
  simp only [Aligner.ofStrEdit]
  cases Str2Str.inverse σ s g with
  | error e => rfl
  | ok inv => exact propagate_map hf hb ls inv

theorem blind_ofLstEdit (hf : Renumbering f) (σ : SetOrder) (s : List Tok) (g : ReplacementGroup (List Tok)) (n : Nat)
    {t b : Transducer} (ht : Blind f t) (hb : Blind f b) : BlindAligner f (Aligner.ofLstEdit σ s g n t b) := by
  refine ⟨fun ls => propagate_map hf ht ls g, fun ls => ?_⟩
  simp only [Aligner.ofLstEdit]
  cases Lst2Lst.inverse σ s g with
  | error e => rfl
  | ok inv => exact propagate_map hf hb ls inv

theorem blind_ofTokens (hf : Renumbering f) (σ : SetOrder) (s : Str) (g : ReplacementGroup Str) (spans : SpanGroup)
    (n : Nat) {t b : Transducer} (ht : Blind f t) (hb : Blind f b) :
    BlindAligner f (Aligner.ofTokens σ s g spans n t b) := by
  refine ⟨fun ls => ?_, fun ls => ?_⟩
  · simp only [Aligner.ofTokens]
    rw [propagate_map hf ht]
    cases propagate ls g t with
    | error e => rfl
    | ok l => exact reduce_map hf l spans
  · simp only [Aligner.ofTokens]
    cases Str2Str.inverse σ s g with
    | error e => rfl
    | ok inv =>
      simp only [Except.bind_ok]
      rw [expand_map hf]
      cases expandBySpanGroup ls spans with
      | error e => rfl
      | ok l => exact propagate_map hf hb l inv

/-! ### operators -/

theorem blind_charwise {α : Type} (hf : Renumbering f) {σ : SetOrder} {nv : α → Res (Option Str)} {xs : List α} {s out : Str}
    {n' : Str} {a : Aligner} {t b : Transducer} (ht : Blind f t) (hb : Blind f b)
    (h : charwiseTransform σ nv xs s (fun g n => Aligner.ofStrEdit σ n' g n t b) = .ok (out, a)) : BlindAligner f a := by
  unfold charwiseTransform at h
  obtain ⟨g, _, h⟩ := bind_eq_ok h
  obtain ⟨g', _, h⟩ := bind_eq_ok h
  obtain ⟨o, _, h⟩ := bind_eq_ok h
  injection h with h
  injection h with _ h
  subst h
  exact blind_ofStrEdit hf _ _ _ _ ht hb

theorem blind_pattern (hf : Renumbering f) {σ : SetOrder} {m : Matcher} {token s out : Str} {a : Aligner}
    {t b : Transducer} (ht : Blind f t) (hb : Blind f b) (h : patternTransform σ m token t b s = .ok (out, a)) :
    BlindAligner f a := by
  unfold patternTransform patternTransformFuel at h
  split at h
  · rename_i r hr
    subst h
    obtain ⟨rg, _, hr⟩ := Option.map_eq_some_iff.mp hr
    obtain ⟨g, _, hr⟩ := bind_eq_ok hr
    obtain ⟨o, _, hr⟩ := bind_eq_ok hr
    injection hr with hr
    injection hr with _ hr
    subst hr
    exact blind_ofStrEdit hf _ _ _ _ ht hb
  · cases h

theorem blind_tokenizer (hf : Renumbering f) {σ : SetOrder} {s : Str} {tokens out : List Str} {a : Aligner}
    {t b : Transducer} (ht : Blind f t) (hb : Blind f b) (h : tokenizerTransform σ t b s tokens = .ok (out, a)) :
    BlindAligner f a := by
  unfold tokenizerTransform at h
  obtain ⟨g, _, h⟩ := bind_eq_ok h
  obtain ⟨temp, _, h⟩ := bind_eq_ok h
  obtain ⟨spans, _, h⟩ := bind_eq_ok h
  injection h with h
  injection h with _ h
  subst h
  exact blind_ofTokens hf _ _ _ _ _ ht hb

theorem blind_tokenwise {σ : SetOrder} {nv : Tok → Res (Option (List Tok))} {l out : List Tok} {a : Aligner}
    {mk : ReplacementGroup (List Tok) → Nat → Aligner} (hm : ∀ g n, BlindAligner f (mk g n))
    (h : tokenwiseTransform σ nv l mk = .ok (out, a)) : BlindAligner f a := by
  unfold tokenwiseTransform at h
  obtain ⟨g, _, h⟩ := bind_eq_ok h
  obtain ⟨g', _, h⟩ := bind_eq_ok h
  obtain ⟨o, _, h⟩ := bind_eq_ok h
  injection h with h
  injection h with _ h
  subst h
  exact hm _ _

end Uttut
