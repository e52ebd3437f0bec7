import Verif.Lemmas.Ops
import Verif.Lemmas.EditSpec
import Verif.Model.Ops
import Verif.Spec.Pipe

/-! Aligners invent no labels: every label they return is 0 or one of the labels they were given. -/

namespace Uttut

open Spec

theorem bind_eq_ok {ε α γ : Type} {e : Except ε α} {f : α → Except ε γ} {c : γ} (h : (e >>= f) = .ok c) :
    ∃ a, e = .ok a ∧ f a = .ok c := by
  cases e with
  | error x => cases h
  | ok a => exact ⟨a, rfl, h⟩

theorem LabelsFrom.refl (ls : List Int) : LabelsFrom ls ls := fun _ h => Or.inr h

theorem LabelsFrom.of_subset {ls ys : List Int} (h : ∀ y ∈ ys, y ∈ ls) : LabelsFrom ls ys :=
  fun y hy => Or.inr (h y hy)

theorem LabelsFrom.trans {ls ys zs : List Int} (h : LabelsFrom ls ys) (h' : LabelsFrom ys zs) :
    LabelsFrom ls zs := by
  intro z hz
  rcases h' z hz with h0 | h0
  · exact Or.inl h0
  · exact h z h0

theorem LabelsFrom.replicate_zero (ls : List Int) (n : Nat) : LabelsFrom ls (List.replicate n 0) :=
  fun _ h => Or.inl (List.eq_of_mem_replicate h)

theorem LabelsFrom.mono {ls ls' ys : List Int} (h : LabelsFrom ls ys) (hs : ∀ l ∈ ls, l ∈ ls') :
    LabelsFrom ls' ys := fun y hy => (h y hy).imp id (hs y)

theorem mem_slice {α : Type} {l : List α} {i j : Nat} {x : α} (h : x ∈ slice l i j) : x ∈ l :=
  List.mem_of_mem_take (List.mem_of_mem_drop h)

theorem LabelsFrom.sliceAssign {ls out new : List Int} (i j : Nat) (ho : LabelsFrom ls out)
    (hn : LabelsFrom ls new) : LabelsFrom ls (sliceAssign out i j new) := by
  intro y hy
  unfold Uttut.sliceAssign at hy
  simp only [List.mem_append] at hy
  rcases hy with (hy | hy) | hy
  · exact ho y (List.mem_of_mem_take hy)
  · exact hn y hy
  · exact ho y (List.mem_of_mem_drop hy)

/-- A label transducer that invents no labels. -/
def Frugal (f : Transducer) : Prop := ∀ ls n ys, f ls n = .ok ys → LabelsFrom ls ys

theorem getNotEntity_frugal : Frugal Transduce.getNotEntity := by
  intro ls n ys h
  injection h with h
  subst h
  exact LabelsFrom.replicate_zero _ _

theorem mostCommonItems_mem {l : List Int} {k : Int} {n : Nat} {rest : List (Int × Nat)}
    (h : Transduce.mostCommonItems l = (k, n) :: rest) : k ∈ l := by
  have hne : l ≠ [] := by
    rintro rfl
    cases h
  obtain ⟨k', n', rest', h1, h2⟩ := mostCommonItems_firstMode l hne
  rw [h] at h1
  injection h1 with h1 _
  injection h1 with h1 _
  rw [h1]
  exact h2.1

theorem getMostCommon_frugal : Frugal Transduce.getMostCommon := by
  intro ls n ys h
  unfold Transduce.getMostCommon at h
  split at h
  · cases h
  · rename_i k m rest hm
    injection h with h
    subst h
    intro y hy
    rw [List.eq_of_mem_replicate hy]
    exact Or.inr (mostCommonItems_mem hm)

theorem getMostCommonExcept_frugal : Frugal Transduce.getMostCommonExceptNotEntity := by
  intro ls n ys h
  unfold Transduce.getMostCommonExceptNotEntity at h
  dsimp only at h
  split at h
  · exact getNotEntity_frugal _ _ _ h
  · exact (getMostCommon_frugal _ _ _ h).mono fun l hl => (List.mem_filter.mp hl).1

theorem withSpaceFwd_frugal (token : Str) : Frugal (withSpaceFwd token) := by
  intro ls n ys h
  unfold withSpaceFwd at h
  split at h
  · cases h
  · rename_i k m rest hm
    injection h with h
    subst h
    intro y hy
    simp only [List.cons_append, List.mem_cons, List.mem_append, List.not_mem_nil, or_false] at hy
    rcases hy with hy | hy | hy
    · exact Or.inl hy
    · rw [List.eq_of_mem_replicate hy]
      exact Or.inr (mostCommonItems_mem hm)
    · exact Or.inl hy

theorem aroundChar_frugal : Frugal AddWhitespaceAroundChar.fwd := by
  intro ls n ys h
  unfold AddWhitespaceAroundChar.fwd at h
  split at h
  · injection h with h
    subst h
    intro y hy
    simp only [List.mem_cons, List.not_mem_nil, or_false] at hy
    rcases hy with hy | hy | hy
    · exact Or.inl hy
    · exact Or.inr (by simp [hy])
    · exact Or.inl hy
  · cases h

theorem aroundWord_fwd_frugal : Frugal AddWhitespaceAroundWordnZhChar.fwd := by
  intro ls n ys h
  injection h with h
  subst h
  intro y hy
  simp only [List.cons_append, List.mem_cons, List.mem_append, List.not_mem_nil, or_false] at hy
  rcases hy with hy | hy | hy
  · exact Or.inl hy
  · exact Or.inr hy
  · exact Or.inl hy

theorem aroundWord_bwd_frugal : Frugal AddWhitespaceAroundWordnZhChar.bwd := by
  intro ls n ys h
  injection h with h
  subst h
  exact LabelsFrom.of_subset fun y hy => mem_slice hy

theorem noneTransducer_frugal : Frugal noneTransducer := by
  intro ls n ys h
  cases h

theorem countAndGetMostCommon_mem (l : List Int) : countAndGetMostCommon l = 0 ∨ countAndGetMostCommon l ∈ l := by
  unfold countAndGetMostCommon
  split
  · have gen : ∀ (c : List (Int × Nat)) (k : Int) (m : Nat), scanMax c k m = k ∨ scanMax c k m ∈ c.map Prod.fst := by
      intro c
      induction c with
      | nil => intro k m; exact Or.inl rfl
      | cons x c ih =>
        intro k m
        obtain ⟨key, n⟩ := x
        unfold scanMax
        split
        · rcases ih key n with h | h
          · exact Or.inr (by rw [h]; simp)
          · exact Or.inr (List.mem_cons_of_mem _ h)
        · rcases ih k m with h | h
          · exact Or.inl h
          · exact Or.inr (List.mem_cons_of_mem _ h)
    refine (gen (counterOf l) 0 0).imp id fun h => ?_
    rw [counterOf_eq, List.map_map] at h
    obtain ⟨y, hy, he⟩ := List.mem_map.mp h
    have : y = scanMax (counterOf l) 0 0 := by rw [counterOf_eq]; exact he
    rw [← this]
    exact mem_pyDedup.mp hy
  · exact Or.inl rfl

theorem getMostCommonLabel_frugal : Frugal getMostCommonLabel := by
  intro ls n ys h
  injection h with h
  subst h
  intro y hy
  rw [List.eq_of_mem_replicate hy]
  split
  · exact Or.inl rfl
  · exact countAndGetMostCommon_mem ls

/-! ### closure -/

theorem propagateLoop_labelsFrom {β : Type} {f : Transducer} (hf : Frugal f) (labels : List Int) :
    ∀ (rs : List (Rep (List β))) (i o : Nat) (out : List Int) (r : Nat × Nat × List Int),
      LabelsFrom labels out → propagateLoop labels f rs i o out = .ok r → LabelsFrom labels r.2.2 := by
  intro rs
  induction rs with
  | nil =>
    intro i o out r ho h
    injection h with h
    subst h
    exact ho
  | cons x rs ih =>
    intro i o out r ho h
    unfold propagateLoop at h
    dsimp only at h
    obtain ⟨new, hn, h⟩ := bind_eq_ok h
    refine ih _ _ _ _ ?_ h
    refine LabelsFrom.sliceAssign _ _ (LabelsFrom.sliceAssign _ _ ho ?_) ?_
    · exact LabelsFrom.of_subset fun y hy => mem_slice hy
    · exact (hf _ _ _ hn).mono fun l hl => mem_slice hl

theorem propagate_labelsFrom {β : Type} {f : Transducer} (hf : Frugal f) (labels : List Int)
    (g : ReplacementGroup (List β)) (ys : List Int) (h : propagate labels g f = .ok ys) :
    LabelsFrom labels ys := by
  unfold propagate at h
  dsimp only at h
  obtain ⟨rs, _, h⟩ := bind_eq_ok h
  obtain ⟨⟨i, o, out⟩, hl, h⟩ := bind_eq_ok h
  injection h with h
  subst h
  refine LabelsFrom.sliceAssign _ _ ?_ (LabelsFrom.of_subset fun y hy => List.mem_of_mem_drop hy)
  exact propagateLoop_labelsFrom hf labels rs 0 0 _ _ (LabelsFrom.replicate_zero _ _) hl

theorem reduceLoop_labelsFrom {f : Transducer} (hf : Frugal f) (labels : List Int) :
    ∀ (ss : List Span) (i : Nat) (out ys : List Int), LabelsFrom labels out →
      reduceLoop labels f ss i out = .ok ys → LabelsFrom labels ys := by
  intro ss
  induction ss with
  | nil =>
    intro i out ys ho h
    injection h with h
    subst h
    exact ho
  | cons s ss ih =>
    intro i out ys ho h
    unfold reduceLoop at h
    obtain ⟨new, hn, h⟩ := bind_eq_ok h
    refine ih _ _ _ (LabelsFrom.sliceAssign _ _ ho ?_) h
    exact (hf _ _ _ hn).mono fun l hl => mem_slice hl

theorem reduce_labelsFrom (labels : List Int) (g : SpanGroup) (ys : List Int)
    (h : reduceBySpanGroup labels g = .ok ys) : LabelsFrom labels ys := by
  unfold reduceBySpanGroup at h
  split at h
  · injection h with h
    subst h
    exact LabelsFrom.refl _
  · obtain ⟨l, _, h⟩ := bind_eq_ok h
    split at h
    · cases h
    · obtain ⟨spans, _, h⟩ := bind_eq_ok h
      exact reduceLoop_labelsFrom getMostCommonLabel_frugal labels _ _ _ _ (LabelsFrom.replicate_zero _ _) h

theorem fillRange_labelsFrom {ls : List Int} {l : Int} (hl : l ∈ ls) :
    ∀ (n i : Nat) (out ys : List Int), LabelsFrom ls out → fillRange l n i out = .ok ys → LabelsFrom ls ys := by
  intro n
  induction n with
  | zero =>
    intro i out ys ho h
    injection h with h
    subst h
    exact ho
  | succ n ih =>
    intro i out ys ho h
    unfold fillRange at h
    split at h
    · refine ih _ _ _ ?_ h
      intro y hy
      rcases List.mem_or_eq_of_mem_set hy with hy | hy
      · exact ho y hy
      · rw [hy]; exact Or.inr hl
    · cases h

theorem expandLoop_labelsFrom (labels : List Int) :
    ∀ (ss : List Span) (ls out ys : List Int), (∀ l ∈ ls, l ∈ labels) → LabelsFrom labels out →
      expandLoop ss ls out = .ok ys → LabelsFrom labels ys := by
  intro ss
  induction ss with
  | nil =>
    intro ls out ys _ ho h
    cases ls <;> (injection h with h; subst h; exact ho)
  | cons s ss ih =>
    intro ls out ys hs ho h
    cases ls with
    | nil => injection h with h; subst h; exact ho
    | cons l ls =>
      unfold expandLoop at h
      obtain ⟨l', h1, h⟩ := bind_eq_ok h
      obtain ⟨out', h2, h⟩ := bind_eq_ok h
      refine ih ls out' ys (fun x hx => hs x (List.mem_cons_of_mem _ hx)) ?_ h
      refine fillRange_labelsFrom ?_ _ _ _ _ ho h2
      rw [← (toUInt_ok h1).1]
      exact hs l (by simp)

theorem expand_labelsFrom (labels : List Int) (g : SpanGroup) (ys : List Int)
    (h : expandBySpanGroup labels g = .ok ys) : LabelsFrom labels ys := by
  unfold expandBySpanGroup at h
  split at h
  · cases h
  · split at h
    · injection h with h
      subst h
      exact LabelsFrom.refl _
    · obtain ⟨l, _, h⟩ := bind_eq_ok h
      obtain ⟨spans, _, h⟩ := bind_eq_ok h
      exact expandLoop_labelsFrom labels _ _ _ _ (fun _ h => h) (LabelsFrom.replicate_zero _ _) h

/-! ### aligners -/

/-- Neither direction of the aligner invents labels. -/
structure Honest (a : Aligner) : Prop where
  fwd : ∀ ls ys, a.transform ls = .ok ys → LabelsFrom ls ys
  bwd : ∀ ls ys, a.inverseTransform ls = .ok ys → LabelsFrom ls ys

theorem Aligner.transform_fwd {a : Aligner} {ls ys : List Int} (h : a.transform ls = .ok ys) : a.fwd ls = .ok ys := by
  unfold Aligner.transform at h
  obtain ⟨_, _, h⟩ := bind_eq_ok h
  obtain ⟨out, h1, h⟩ := bind_eq_ok h
  obtain ⟨_, _, h⟩ := bind_eq_ok h
  injection h with h
  rw [h1, h]

theorem Aligner.inverse_bwd {a : Aligner} {ls ys : List Int} (h : a.inverseTransform ls = .ok ys) :
    a.bwd ls = .ok ys := by
  unfold Aligner.inverseTransform at h
  obtain ⟨_, _, h⟩ := bind_eq_ok h
  obtain ⟨out, h1, h⟩ := bind_eq_ok h
  obtain ⟨_, _, h⟩ := bind_eq_ok h
  injection h with h
  rw [h1, h]

theorem honest_of {a : Aligner} (hf : ∀ ls ys, a.fwd ls = .ok ys → LabelsFrom ls ys)
    (hb : ∀ ls ys, a.bwd ls = .ok ys → LabelsFrom ls ys) : Honest a :=
  ⟨fun ls ys h => hf ls ys (Aligner.transform_fwd h), fun ls ys h => hb ls ys (Aligner.inverse_bwd h)⟩

theorem honest_null (m n : Nat) : Honest (Aligner.null m n) := by
  refine honest_of ?_ ?_ <;>
  · intro ls ys h
    injection h with h
    subst h
    exact LabelsFrom.refl _

theorem honest_ofStrEdit (σ : SetOrder) (s : Str) (g : ReplacementGroup Str) (n : Nat) {f b : Transducer}
    (hf : Frugal f) (hb : Frugal b) : Honest (Aligner.ofStrEdit σ s g n f b) := by
  refine honest_of (fun ls ys h => propagate_labelsFrom hf ls _ ys h) (fun ls ys h => ?_)
  obtain ⟨inv, _, h⟩ := bind_eq_ok h
  exact propagate_labelsFrom hb ls _ ys h

theorem honest_ofLstEdit (σ : SetOrder) (s : List Tok) (g : ReplacementGroup (List Tok)) (n : Nat) {f b : Transducer}
    (hf : Frugal f) (hb : Frugal b) : Honest (Aligner.ofLstEdit σ s g n f b) := by
  refine honest_of (fun ls ys h => propagate_labelsFrom hf ls _ ys h) (fun ls ys h => ?_)
  obtain ⟨inv, _, h⟩ := bind_eq_ok h
  exact propagate_labelsFrom hb ls _ ys h

theorem honest_ofTokens (σ : SetOrder) (s : Str) (g : ReplacementGroup Str) (sg : SpanGroup) (n : Nat)
    {f b : Transducer} (hf : Frugal f) (hb : Frugal b) : Honest (Aligner.ofTokens σ s g sg n f b) := by
  refine honest_of (fun ls ys h => ?_) (fun ls ys h => ?_)
  · obtain ⟨l, h1, h⟩ := bind_eq_ok h
    exact (propagate_labelsFrom hf ls _ l h1).trans (reduce_labelsFrom l sg ys h)
  · obtain ⟨inv, _, h⟩ := bind_eq_ok h
    obtain ⟨l, h1, h⟩ := bind_eq_ok h
    exact (expand_labelsFrom ls sg l h1).trans (propagate_labelsFrom hb l _ ys h)

/-! ### operators -/

theorem honest_charwise {α : Type} {σ : SetOrder} {nv : α → Res (Option Str)} {xs : List α} {s : Str}
    {mk : ReplacementGroup Str → Nat → Aligner} (hm : ∀ g n, Honest (mk g n)) {out : Str} {a : Aligner}
    (h : charwiseTransform σ nv xs s mk = .ok (out, a)) : Honest a := by
  unfold charwiseTransform at h
  obtain ⟨g, _, h⟩ := bind_eq_ok h
  obtain ⟨g', _, h⟩ := bind_eq_ok h
  obtain ⟨o, _, h⟩ := bind_eq_ok h
  injection h with h
  injection h with _ h
  subst h
  exact hm _ _

theorem honest_tokenwise {σ : SetOrder} {nv : Tok → Res (Option (List Tok))} {l : List Tok}
    {mk : ReplacementGroup (List Tok) → Nat → Aligner} (hm : ∀ g n, Honest (mk g n)) {out : List Tok} {a : Aligner}
    (h : tokenwiseTransform σ nv l mk = .ok (out, a)) : Honest a := by
  unfold tokenwiseTransform at h
  obtain ⟨g, _, h⟩ := bind_eq_ok h
  obtain ⟨g', _, h⟩ := bind_eq_ok h
  obtain ⟨o, _, h⟩ := bind_eq_ok h
  injection h with h
  injection h with _ h
  subst h
  exact hm _ _

theorem honest_pattern {σ : SetOrder} {m : Matcher} {token : Str} {f b : Transducer} (hf : Frugal f) (hb : Frugal b)
    {s out : Str} {a : Aligner} (h : patternTransform σ m token f b s = .ok (out, a)) : Honest a := by
  unfold patternTransform patternTransformFuel at h
  cases hg : patternGroup σ m (fun _ _ _ => token) (s.length + 1) s with
  | none => rw [hg] at h; cases h
  | some rg =>
    rw [hg] at h
    dsimp only [Option.map_some] at h
    obtain ⟨g, _, h⟩ := bind_eq_ok h
    obtain ⟨o, _, h⟩ := bind_eq_ok h
    injection h with h
    injection h with _ h
    subst h
    exact honest_ofStrEdit _ _ _ _ hf hb

theorem honest_tokenizer {σ : SetOrder} {f b : Transducer} (hf : Frugal f) (hb : Frugal b) {s : Str}
    {tokens out : List Str} {a : Aligner} (h : tokenizerTransform σ f b s tokens = .ok (out, a)) : Honest a := by
  unfold tokenizerTransform at h
  obtain ⟨g, _, h⟩ := bind_eq_ok h
  obtain ⟨t, _, h⟩ := bind_eq_ok h
  obtain ⟨sg, _, h⟩ := bind_eq_ok h
  injection h with h
  injection h with _ h
  subst h
  exact honest_ofTokens _ _ _ _ _ hf hb

theorem faithful_of {a : Aligner} {n m : Nat} (ha : Aligned a n m uintLabels) (hh : Honest a) : Faithful a n m := by
  refine ⟨fun ls hl => ?_, fun ls hl hu => ?_, fun ls hl => ?_, fun ls hl => ?_⟩
  · obtain ⟨y, h1, h2⟩ := ha.forward ls hl
    exact ⟨y, h1, h2, hh.fwd _ _ h1⟩
  · obtain ⟨y, h1, h2⟩ := ha.backward ls hl hu
    exact ⟨y, h1, h2, hh.bwd _ _ h1⟩
  · unfold Aligner.transform Aligner.validateInput
    rw [ha.input, if_pos hl]
    rfl
  · unfold Aligner.inverseTransform Aligner.validateOutput
    rw [ha.output, if_pos hl]
    rfl

theorem faithful_of_any {a : Aligner} {n m : Nat} (ha : Aligned a n m anyLabels) (hh : Honest a) : Faithful a n m :=
  faithful_of ⟨ha.input, ha.output, ha.forward, fun ls hl _ => ha.backward ls hl trivial⟩ hh

end Uttut
