import Verif.Lemmas.Dict
import Verif.Lemmas.Ops
import Verif.Props.Elementwise
import Mathlib.Data.List.Perm.Subperm

/-!
C31, C33, C34, C35: operators that rewrite single tokens.
-/

namespace Uttut

open Spec Piece

/-! ### Dictionaries -/

theorem nodup_of_pyDedup_length {α : Type} [DecidableEq α] (l : List α)
    (h : (pyDedup l).length = l.length) : l.Nodup := by
  induction l with
  | nil => simp
  | cons y l ih =>
    simp only [pyDedup, List.length_cons] at h
    have h1 := List.length_filter_le (fun x => decide (x ≠ y)) (pyDedup l)
    have h2 := pyDedup_length_le l
    have h3 : (pyDedup l).length = l.length := by omega
    rw [List.nodup_cons]
    refine ⟨fun hy => ?_, ih h3⟩
    have hy' := mem_pyDedup.mpr hy
    have : ((pyDedup l).filter fun x => decide (x ≠ y)).length = (pyDedup l).length := by omega
    have := (List.length_filter_eq_length_iff (l := pyDedup l)).mp this y hy'
    simp at this

theorem foldl_min_spec (xs : List Int) (x m : Int) (h : xs.foldl min x = m) :
    m ∈ x :: xs ∧ ∀ y ∈ x :: xs, m ≤ y := by
  induction xs generalizing x with
  | nil => simp at h; simp [h]
  | cons z xs ih =>
    simp only [List.foldl_cons] at h
    obtain ⟨h1, h2⟩ := ih _ h
    simp only [List.mem_cons] at h1 h2 ⊢
    constructor
    · rcases h1 with h1 | h1
      · rcases Int.le_total x z with hxz | hxz
        · left; rw [h1, Int.min_eq_left hxz]
        · right; left; rw [h1, Int.min_eq_right hxz]
      · exact Or.inr (Or.inr h1)
    · intro y hy
      have hm := h2 (min x z) (Or.inl rfl)
      rcases hy with rfl | rfl | hy
      · omega
      · omega
      · exact h2 y (Or.inr hy)

theorem foldl_max_spec (xs : List Int) (x m : Int) (h : xs.foldl max x = m) :
    m ∈ x :: xs ∧ ∀ y ∈ x :: xs, y ≤ m := by
  induction xs generalizing x with
  | nil => simp at h; simp [h]
  | cons z xs ih =>
    simp only [List.foldl_cons] at h
    obtain ⟨h1, h2⟩ := ih _ h
    simp only [List.mem_cons] at h1 h2 ⊢
    constructor
    · rcases h1 with h1 | h1
      · rcases Int.le_total x z with hxz | hxz
        · right; left; rw [h1, Int.max_eq_right hxz]
        · left; rw [h1, Int.max_eq_left hxz]
      · exact Or.inr (Or.inr h1)
    · intro y hy
      have hm := h2 (max x z) (Or.inl rfl)
      rcases hy with rfl | rfl | hy
      · omega
      · omega
      · exact h2 y (Or.inr hy)

theorem zip_map_self {α β : Type} (f : α → β) (l : List α) : l.zip (l.map f) = l.map fun t => (t, f t) := by
  induction l with
  | nil => rfl
  | cons x l ih => simp [ih]

/-! ### C31 -/

/-- The values of the mapping are exactly `0 .. n-1`, without repetition, and there is one. -/
def Continuous (d : List (Str × Int)) : Prop :=
  d ≠ [] ∧ (d.map Prod.snd).Nodup ∧ ∀ i : Int, i ∈ d.map Prod.snd ↔ 0 ≤ i ∧ i < d.length

theorem validateContinuity_cases (d : List (Str × Int)) :
    validateContinuity d = .ok () ∨ validateContinuity d = .error .valueError := by
  unfold validateContinuity
  dsimp only
  split
  · exact Or.inr rfl
  · split
    · split
      · exact Or.inl rfl
      · exact Or.inr rfl
    · exact Or.inr rfl

/-- C31/C32: the continuity check accepts exactly the mappings with values `0 .. n-1`. -/
theorem C31_continuity (d : List (Str × Int)) : validateContinuity d = .ok () ↔ Continuous d := by
  unfold validateContinuity
  dsimp only
  constructor
  · intro h
    split at h
    · cases h
    · rename_i hlen
      have hlen : (pyDedup (d.map Prod.snd)).length = (d.map Prod.snd).length := by
        rw [List.length_map]; omega
      have hnd := nodup_of_pyDedup_length _ hlen
      rw [pyDedup_of_nodup hnd] at h
      cases hv : d.map Prod.snd with
      | nil => rw [hv] at h; simp [minInt?] at h
      | cons x xs =>
        rw [hv] at h
        simp only [minInt?, maxInt?] at h
        split at h
        · rename_i hmm
          obtain ⟨hm1, hm2⟩ := foldl_min_spec xs x _ rfl
          obtain ⟨hM1, hM2⟩ := foldl_max_spec xs x _ rfl
          rw [hmm.1] at hm1 hm2
          rw [hmm.2] at hM1 hM2
          refine ⟨by rintro rfl; simp at hv, hv ▸ hnd, ?_⟩
          have hl : (x :: xs).length = d.length := by rw [← hv, List.length_map]
          have hsub : (x :: xs) ⊆ (List.range d.length).map Int.ofNat := by
            intro y hy
            have := hm2 y hy
            have := hM2 y hy
            rw [List.mem_map]
            exact ⟨y.toNat, by rw [List.mem_range]; omega, by simp; omega⟩
          have hp := (List.subperm_of_subset (hv ▸ hnd) hsub).perm_of_length_le (by simp at hl ⊢; omega)
          intro i
          rw [hv, hp.mem_iff, List.mem_map]
          constructor
          · rintro ⟨k, hk, rfl⟩
            rw [List.mem_range] at hk
            simp; omega
          · rintro ⟨h0, h1⟩
            exact ⟨i.toNat, by rw [List.mem_range]; omega, by simp; omega⟩
        · cases h
  · rintro ⟨hne, hnd, hmem⟩
    rw [pyDedup_of_nodup hnd, if_neg (by simp)]
    cases hv : d.map Prod.snd with
    | nil => exact absurd (List.map_eq_nil_iff.mp hv) hne
    | cons x xs =>
      simp only [minInt?, maxInt?]
      rw [hv] at hmem
      have hpos : 0 < d.length := List.length_pos_iff.mpr hne
      obtain ⟨hm1, hm2⟩ := foldl_min_spec xs x _ rfl
      obtain ⟨hM1, hM2⟩ := foldl_max_spec xs x _ rfl
      have e1 := (hmem _).mp hm1
      have e2 := (hmem _).mp hM1
      have e3 := hm2 0 ((hmem 0).mpr (by omega))
      have e4 := hM2 (d.length - 1) ((hmem _).mpr (by omega))
      rw [if_pos (by omega)]

example : Continuous [("b".toList, 1), ("a".toList, 0)] :=
  (C31_continuity _).mp (by decide)

/-- C31: the constructor of `Token2Index`. -/
theorem C31_init (d : List (Str × Int)) (unk : Str) :
    (Token2Index.init d unk = .ok () ↔ Continuous d ∧ unk ∈ d.map Prod.fst) ∧
    (¬ Continuous d → Token2Index.init d unk = .error .valueError) ∧
    (Continuous d → unk ∉ d.map Prod.fst → Token2Index.init d unk = .error .keyError) := by
  have hbad : ¬ Continuous d → Token2Index.init d unk = .error .valueError := by
    intro h
    unfold Token2Index.init
    rcases validateContinuity_cases d with hc | hc
    · exact absurd ((C31_continuity d).mp hc) h
    · rw [hc]; rfl
  have hgood : Continuous d → Token2Index.init d unk =
      (match dictGet d unk with | some _ => .ok () | none => .error .keyError) := by
    intro h
    unfold Token2Index.init
    rw [(C31_continuity d).mpr h]
    simp only [Except.bind_ok]
    rfl
  refine ⟨⟨fun h => ?_, fun h => ?_⟩, hbad, fun hc hn => ?_⟩
  · by_cases hc : Continuous d
    · refine ⟨hc, ?_⟩
      rw [hgood hc] at h
      cases hg : dictGet d unk with
      | none => rw [hg] at h; cases h
      | some v => exact List.mem_map_of_mem (f := Prod.fst) (dictGet_mem d unk v hg)
    · rw [hbad hc] at h; cases h
  · rw [hgood h.1]
    cases hg : dictGet d unk with
    | none => exact absurd h.2 ((dictGet_none d unk).mp hg)
    | some v => rfl
  · rw [hgood hc, (dictGet_none d unk).mpr hn]

example : Token2Index.init [("b".toList, 1), ("<unk>".toList, 0)] unkToken = .ok () :=
  ((C31_init _ _).1).mpr ⟨(C31_continuity _).mp (by decide), by decide⟩

/-- The index of a token according to a mapping. -/
def IndexOf (d : List (Str × Int)) (unk : Str) (t : Tok) (i : Int) : Prop :=
  match t with
  | .str s => (s, i) ∈ d ∨ (s ∉ d.map Prod.fst ∧ (unk, i) ∈ d)
  | .int _ => (unk, i) ∈ d

/-- C31: `Token2Index` maps every token to its index (unknown tokens to that of `unk`); the output has
the length of the input, contains integers in `[0, n)` only, and labels pass through. -/
theorem C31_transform (σ : SetOrder) (d : List (Str × Int)) (unk : Str)
    (hkeys : (d.map Prod.fst).Nodup) (hinit : Token2Index.init d unk = .ok ()) (l : List Tok) :
    ∃ (out : List Int) (a : Aligner), Token2Index.transform σ d unk l = .ok (out.map Tok.int, a) ∧
      out.length = l.length ∧ PassThrough a l.length ∧ Aligned a l.length l.length anyLabels ∧
      (∀ p ∈ l.zip out, IndexOf d unk p.1 p.2 ∧ ∀ j, IndexOf d unk p.1 j → j = p.2) ∧
      ∀ i ∈ out, 0 ≤ i ∧ i < d.length := by
  obtain ⟨hc, hunk⟩ := ((C31_init d unk).1).mp hinit
  cases hu : dictGet d unk with
  | none => exact absurd hunk ((dictGet_none d unk).mp hu)
  | some iu =>
    let idx : Tok → Int := fun t => match t with
      | .str s => (dictGet d s).getD iu
      | .int _ => iu
    have hnv : ∀ t ∈ l, Token2Index.newValue d unk t = .ok (some [Tok.int (idx t)]) := by
      intro t _
      unfold Token2Index.newValue
      cases t with
      | int i => simp only [hu, idx]
      | str s => cases hs : dictGet d s <;> simp only [hs, hu, idx] <;> rfl
    have ht := tokenwiseTransform_congr σ (Token2Index.newValue d unk)
      (fun t => some [Tok.int (idx t)]) l hnv (fun _ n => Aligner.null l.length n)
    have hout : (l.flatMap fun x => (some [Tok.int (idx x)]).getD [x]) = (l.map idx).map Tok.int := by
      rw [List.map_map, ← List.flatMap_singleton' (List.map _ l), List.flatMap_map]; rfl
    have hun := dictGet_mem d unk iu hu
    have huniq : ∀ k i j, (k, i) ∈ d → (k, j) ∈ d → j = i := by
      intro k i j h1 h2
      have e1 := dictGet_of_mem d k i hkeys h1
      have e2 := dictGet_of_mem d k j hkeys h2
      rw [e1] at e2; injection e2 with e2; exact e2.symm
    have hidx : ∀ t, IndexOf d unk t (idx t) := by
      intro t
      cases t with
      | int i => exact hun
      | str s =>
        cases hs : dictGet d s with
        | none => exact Or.inr ⟨(dictGet_none d s).mp hs, by simp only [idx, hs]; exact hun⟩
        | some i => exact Or.inl (by simp only [idx, hs]; exact dictGet_mem d s i hs)
    have hval : ∀ t i, IndexOf d unk t i → ∃ k, (k, i) ∈ d := by
      intro t i h
      cases t with
      | int j => exact ⟨_, h⟩
      | str s =>
        rcases h with h | h
        · exact ⟨_, h⟩
        · exact ⟨_, h.2⟩
    refine ⟨l.map idx, Aligner.null l.length l.length, ?_, by simp, ?_, ?_, ?_, ?_⟩
    · unfold Token2Index.transform
      rw [ht, hout, List.length_map, List.length_map]
    · exact null_passThrough _
    · exact null_aligned _
    · intro p hp
      have hp2 : p.2 = idx p.1 := by
        rw [zip_map_self] at hp
        obtain ⟨t, _, rfl⟩ := List.mem_map.mp hp
        rfl
      rw [hp2]
      refine ⟨hidx _, fun j hj => ?_⟩
      have hi := hidx p.1
      revert hi hj
      cases p.1 with
      | int k => intro hj hi; exact huniq _ _ _ hi hj
      | str s =>
        intro hj hi
        rcases hi with hi | hi <;> rcases hj with hj | hj
        · exact huniq _ _ _ hi hj
        · exact absurd (List.mem_map_of_mem (f := Prod.fst) hi) hj.1
        · exact absurd (List.mem_map_of_mem (f := Prod.fst) hj) hi.1
        · exact huniq _ _ _ hi.2 hj.2
    · intro i hi
      obtain ⟨t, _, rfl⟩ := List.mem_map.mp hi
      obtain ⟨k, hk⟩ := hval t _ (hidx t)
      exact (hc.2.2 _).mp (List.mem_map_of_mem (f := Prod.snd) hk)

/-- The hypotheses of `C31_transform` hold for a mapping with two tokens. -/
example : (([("b".toList, (1 : Int)), ("<unk>".toList, 0)].map Prod.fst).Nodup ∧
    Token2Index.init [("b".toList, 1), ("<unk>".toList, 0)] unkToken = .ok ()) ∧
    (Token2Index.transform SetOrder.id [("b".toList, 1), ("<unk>".toList, 0)] unkToken
      [.str "b".toList, .str "x".toList]).map Prod.fst = .ok [.int 1, .int 0] := by decide

/-! ### C35 -/

theorem searchFrom_plus (p : Char → Bool) (before after : Str) (a b : Nat)
    (h : (Re.plus p).searchFrom before after = some (a, b)) :
    ∃ pre run rest, after = pre ++ run ++ rest ∧ run ≠ [] ∧ (∀ c ∈ run, p c = true) ∧
      a = before.length + pre.length ∧ b = a + run.length := by
  induction after generalizing before with
  | nil => simp [Re.searchFrom, Re.ends, downFrom] at h
  | cons c cs ih =>
    simp only [Re.searchFrom] at h
    by_cases hc : p c = true
    · have he : (Re.plus p).ends before (c :: cs) =
          (cs.takeWhile p).length.succ :: downFrom (cs.takeWhile p).length := by
        simp [Re.ends, hc, downFrom]
      rw [he] at h
      simp only [Option.some.injEq, Prod.mk.injEq] at h
      refine ⟨[], c :: cs.takeWhile p, cs.dropWhile p, ?_, by simp, ?_, ?_, ?_⟩
      · simp [List.takeWhile_append_dropWhile]
      · intro d hd
        rcases List.mem_cons.mp hd with rfl | hd
        · exact hc
        · exact List.all_eq_true.mp List.all_takeWhile d hd
      · simp [h.1]
      · rw [← h.1, ← h.2]; rfl
    · have he : (Re.plus p).ends before (c :: cs) = [] := by
        simp [Re.ends, hc, downFrom]
      rw [he] at h
      obtain ⟨pre, run, rest, h1, h2, h3, h4, h5⟩ := ih (c :: before) h
      refine ⟨c :: pre, run, rest, by simp [h1], h2, h3, ?_, h5⟩
      simp at h4 ⊢; omega

/-- `findall` finds the whole token first exactly for non-empty digit strings. -/
theorem firstFound_iff (u : Unicode) (s : Str) :
    PureNum2Token.firstFound u s = some s ↔ s ≠ [] ∧ ∀ c ∈ s, isDigit u c = true := by
  unfold PureNum2Token.firstFound PureNum2Token.regex
  constructor
  · intro h
    rw [Option.map_eq_some_iff] at h
    obtain ⟨⟨a, b⟩, hs, hab⟩ := h
    obtain ⟨pre, run, rest, h1, h2, h3, h4, h5⟩ := searchFrom_plus _ _ _ _ _ hs
    simp only [List.drop_zero] at h1
    simp only [List.take_zero, List.reverse_nil, List.length_nil, Nat.zero_add] at h4
    have hsl : slice s a b = run := by
      unfold slice
      rw [h5, h4, h1, List.take_append_of_le_length (by simp), List.take_of_length_le (by simp)]
      simp
    dsimp only at hab
    rw [hsl] at hab
    subst hab
    exact ⟨h2, h3⟩
  · rintro ⟨hne, hall⟩
    have : (Re.plus (isDigit u)).search s 0 = some (0, s.length) := by
      unfold Re.search
      simp only [List.take_zero, List.reverse_nil, List.drop_zero]
      cases s with
      | nil => exact absurd rfl hne
      | cons c cs =>
        have hw : (c :: cs).takeWhile (isDigit u) = c :: cs := by
          have := List.takeWhile_append_of_pos (l₁ := c :: cs) (l₂ := []) hall
          simpa using this
        have he : (Re.plus (isDigit u)).ends [] (c :: cs) = cs.length.succ :: downFrom cs.length := by
          show downFrom ((c :: cs).takeWhile (isDigit u)).length = _
          rw [hw]; rfl
        simp only [Re.searchFrom, he, List.length_nil, List.length_cons, Nat.zero_add]
    rw [this]
    simp [slice]

/-- C35: exactly the non-empty tokens consisting of digits are replaced; length and labels are kept. -/
theorem C35_transform (σ : SetOrder) (u : Unicode) (token : Tok) (l : List Str) :
    ∃ a, PureNum2Token.transform σ u token (l.map Tok.str) =
        .ok (l.map (fun s => if s ≠ [] ∧ ∀ c ∈ s, isDigit u c = true then token else Tok.str s), a) ∧
      PassThrough a l.length ∧ Aligned a l.length l.length anyLabels := by
  have hnv : ∀ t ∈ l.map Tok.str, PureNum2Token.newValue u token t =
      .ok (match t with
        | .int _ => none
        | .str s => if s ≠ [] ∧ ∀ c ∈ s, isDigit u c = true then some [token] else none) := by
    intro t ht
    obtain ⟨s, _, rfl⟩ := List.mem_map.mp ht
    simp only [PureNum2Token.newValue]
    congr 1
    by_cases h : s ≠ [] ∧ ∀ c ∈ s, isDigit u c = true
    · rw [if_pos h, if_pos ((firstFound_iff u s).mpr h)]
    · rw [if_neg h, if_neg (fun h' => h ((firstFound_iff u s).mp h'))]
  have ht := tokenwiseTransform_congr σ (PureNum2Token.newValue u token) _ (l.map Tok.str) hnv
    (fun _ n => Aligner.null (l.map Tok.str).length n)
  refine ⟨Aligner.null l.length l.length, ?_, null_passThrough _, null_aligned _⟩
  unfold PureNum2Token.transform
  rw [ht]
  have hout : ((l.map Tok.str).flatMap fun t => (match t with
        | .int _ => none
        | .str s => if s ≠ [] ∧ ∀ c ∈ s, isDigit u c = true then some [token] else none).getD [t]) =
      l.map (fun s => if s ≠ [] ∧ ∀ c ∈ s, isDigit u c = true then token else Tok.str s) := by
    rw [List.flatMap_map, ← List.flatMap_singleton' (List.map _ l), List.flatMap_map]
    congr 1; funext s
    by_cases h : s ≠ [] ∧ ∀ c ∈ s, isDigit u c = true
    · simp only [if_pos h]; rfl
    · simp only [if_neg h]; rfl
  rw [hout]
  simp only [List.length_map]

example : (PureNum2Token.transform SetOrder.id asciiUnicode (.str numToken)
    (["12".toList, "1a".toList, []].map Tok.str)).map Prod.fst =
    .ok [.str numToken, .str "1a".toList, .str []] := by decide

/-- C35: a list containing a non-string is rejected with TypeError. -/
theorem C35_non_string (σ : SetOrder) (u : Unicode) (token : Tok) (l : List Tok) (i : Int)
    (h : Tok.int i ∈ l) : PureNum2Token.transform σ u token l = .error .typeError := by
  unfold PureNum2Token.transform tokenwiseTransform
  rw [enumAdd_error _ l .typeError ⟨_, h, rfl⟩]
  · rfl
  · intro t _ e he
    cases t with
    | int j => simp only [PureNum2Token.newValue] at he; injection he with he; exact he.symm
    | str s => simp only [PureNum2Token.newValue] at he; cases he

example : PureNum2Token.transform SetOrder.id asciiUnicode (.str numToken) [.str [], .int 3] =
    .error .typeError := C35_non_string _ _ _ _ 3 (by simp)

end Uttut
