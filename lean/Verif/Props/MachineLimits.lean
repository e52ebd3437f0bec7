import Verif.Props.Machine
import Verif.Props.SosPad

/-!
C91: past the limits.
-/

namespace Uttut

open Spec Machine Piece

/-! ### More than 2^31 replacements -/

/-- The first element becomes `c`, each of the `n` following ones becomes `b`. -/
def Spec.oneByOne {β : Type} (c b : β) (n : Nat) : List (Int × Int × List β) :=
  (0, 1, [c]) :: (List.range n).map fun i : Nat => ((i : Int) + 1, (i : Int) + 2, [b])

theorem loop_keeps {β : Type} (c : β) (input : List β) (hi : c ∉ input) (rs : List (Rep (List β)))
    (hr : ∀ r ∈ rs, c ∉ r.val) (start i : Nat) (out : List (List β))
    (h : ∀ (j : Nat) x, out[j]? = some x → j ≠ 1 → c ∉ x) :
    ∀ (j : Nat) x, (Machine.transformSequenceLoop input rs start i out).2[j]? = some x → j ≠ 1 → c ∉ x := by
  induction rs generalizing start i out with
  | nil => exact h
  | cons r rs ih =>
    unfold Machine.transformSequenceLoop
    refine ih (fun q hq => hr q (List.mem_cons_of_mem _ hq)) _ _ _ fun j x hx hj => ?_
    rw [List.getElem?_set] at hx
    split at hx
    · split at hx
      · injection hx with hx
        subst hx
        exact hr r (by simp)
      · cases hx
    · rw [List.getElem?_set] at hx
      split at hx
      · split at hx
        · injection hx with hx
          subst hx
          unfold slice
          exact fun hm => hi (List.mem_of_mem_take (List.mem_of_mem_drop hm))
        · cases hx
      · exact h j x hx hj

theorem loop_length {β : Type} (input : List β) (rs : List (Rep (List β))) (start i : Nat) (out : List (List β)) :
    (Machine.transformSequenceLoop input rs start i out).2.length = out.length := by
  induction rs generalizing start i out with
  | nil => rfl
  | cons r rs ih =>
    unfold Machine.transformSequenceLoop
    rw [ih]
    simp

theorem loop_last {β : Type} (input : List β) (rs : List (Rep (List β))) (r : Rep (List β)) (start i : Nat)
    (out : List (List β)) (hi : i < 2 ^ 32) (h : (i + 2 * rs.length) % 2 ^ 32 = 0) (hl : 1 < out.length) :
    (Machine.transformSequenceLoop input (rs ++ [r]) start i out).2[1]? = some r.val := by
  induction rs generalizing start i out with
  | nil =>
    have : i = 0 := by
      simp only [List.length_nil] at h
      omega
    subst this
    show ((out.set 0 _).set (u32 (0 + 1)) r.val)[1]? = some r.val
    rw [u32_of_lt (by omega)]
    simp [hl]
  | cons q rs ih =>
    show (Machine.transformSequenceLoop input (rs ++ [r]) q.stop (u32 (i + 2)) _).2[1]? = some r.val
    refine ih _ _ _ (Nat.mod_lt _ (by omega)) ?_ (by simpa using hl)
    simp only [List.length_cons] at h
    unfold u32
    omega

theorem machine_apply_drops {β : Type} (c : β) (input : List β) (hi : c ∉ input) (q r : Rep (List β))
    (rs : List (Rep (List β))) (hn : rs.length + 1 = 2 ^ 31) (hr : ∀ p ∈ rs ++ [r], c ∉ p.val) :
    ∃ out, Machine.apply input ⟨q :: (rs ++ [r]), true⟩ = .ok out ∧ c ∉ out := by
  let L := Machine.transformSequenceLoop input (q :: (rs ++ [r])) 0 0
    (List.replicate (2 * (q :: (rs ++ [r])).length + 1) [])
  refine ⟨(L.2.set (L.2.length - 1) (input.drop L.1)).flatten, rfl, ?_⟩
  have hlen : (q :: (rs ++ [r])).length = 2 ^ 31 + 1 := by
    simp only [List.length_cons, List.length_append, List.length_nil]
    omega
  show c ∉ (L.2.set (L.2.length - 1) (input.drop L.1)).flatten
  simp only [L, hlen]
  generalize hout : List.replicate (2 * (2 ^ 31 + 1) + 1) ([] : List β) = out0
  have hl0 : out0.length = 2 * (2 ^ 31 + 1) + 1 := by rw [← hout, List.length_replicate]
  have h0 : ∀ (j : Nat) x, out0[j]? = some x → c ∉ x := by
    intro j x hx
    have := List.mem_of_getElem? hx
    rw [← hout] at this
    rw [List.eq_of_mem_replicate this]
    simp
  have hlast : (Machine.transformSequenceLoop input (q :: (rs ++ [r])) 0 0 out0).2[1]? = some r.val := by
    have := loop_last input (q :: rs) r 0 0 out0 (by omega) (by simp only [List.length_cons]; omega) (by omega)
    exact this
  have hrest : ∀ (j : Nat) x, (Machine.transformSequenceLoop input (q :: (rs ++ [r])) 0 0 out0).2[j]? = some x →
      j ≠ 1 → c ∉ x := by
    unfold Machine.transformSequenceLoop
    refine loop_keeps c input hi _ hr _ _ _ fun j x hx hj => ?_
    rw [u32_of_lt (by omega : 0 + 1 < 2 ^ 32), List.getElem?_set, if_neg (by omega), List.getElem?_set] at hx
    split at hx
    · split at hx
      · injection hx with hx
        subst hx
        unfold slice
        exact fun hm => hi (List.mem_of_mem_take (List.mem_of_mem_drop hm))
      · cases hx
    · exact h0 j x hx
  have hll := loop_length input (q :: (rs ++ [r])) 0 0 out0
  clear_value L
  revert hlast hrest hll
  generalize Machine.transformSequenceLoop input (q :: (rs ++ [r])) 0 0 out0 = res
  obtain ⟨st, o⟩ := res
  intro hlast hrest hll hc
  dsimp only at hlast hrest hll hc
  rw [List.mem_flatten] at hc
  obtain ⟨x, hx, hcx⟩ := hc
  obtain ⟨j, hj⟩ := List.mem_iff_getElem?.mp hx
  rw [List.getElem?_set] at hj
  split at hj
  · split at hj
    · injection hj with hj
      subst hj
      exact hi (List.mem_of_mem_drop hcx)
    · cases hj
  · by_cases h1 : j = 1
    · subst h1
      rw [hlast] at hj
      injection hj with hj
      subst hj
      exact hr r (by simp) hcx
    · exact hrest j x hj h1 hcx

theorem oneByOne_group {β : Type} (a c b : β) (n : Nat) :
    groupOf 0 (sub [a] [c] :: List.replicate n (sub [a] [b])) =
      (⟨0, 1, [c]⟩ : Rep (List β)) :: (List.range n).map fun i => ⟨i + 1, i + 2, [b]⟩ := by
  have key : ∀ (n off : Nat), groupOf off (List.replicate n (sub [a] [b])) =
      (List.range n).map fun i => (⟨off + i, off + i + 1, [b]⟩ : Rep (List β)) := by
    intro n
    induction n with
    | zero => intro off; rfl
    | succ n ih =>
      intro off
      rw [List.replicate_succ, List.range_succ_eq_map]
      simp only [groupOf, ih, List.map_cons, List.map_map, List.length_singleton]
      refine congrArg₂ List.cons rfl ?_
      refine List.map_congr_left fun i _ => ?_
      simp only [Function.comp]
      congr 1 <;> omega
  simp only [groupOf, key, List.length_singleton]
  refine congrArg₂ List.cons rfl ?_
  refine List.map_congr_left fun i _ => ?_
  congr 1 <;> omega

/-- C91: past the limit, with 2^31 + 1 replacements, a text is silently wrong: each element replaced by a new one, the
new first element is missing from the result. -/
theorem C91_apply_wrong (σ : SetOrder) (a b c : Tok) (hca : c ≠ a) (hcb : c ≠ b) :
    ∃ g, ReplacementGroup.addAll σ (oneByOne c b (2 ^ 31)) = .ok g ∧
      Lst2Lst.apply (List.replicate (2 ^ 31 + 1) a) g = .ok (c :: List.replicate (2 ^ 31) b) ∧
      ∃ out, Machine.apply (List.replicate (2 ^ 31 + 1) a) g = .ok out ∧ c ∉ out := by
  obtain ⟨n, hn⟩ : ∃ n, n = 2 ^ 31 := ⟨_, rfl⟩
  rw [← hn]
  let ps : List (Piece Tok Tok) := sub [a] [c] :: List.replicate n (sub [a] [b])
  have hsrc : srcOf ps = List.replicate (n + 1) a := by
    have : ∀ n, srcOf (List.replicate n (sub [a] [b])) = List.replicate n a := by
      intro n
      induction n with
      | zero => rfl
      | succ n ih => simp [List.replicate_succ, ih]
    simp [ps, this, List.replicate_succ]
  have hdst : dstOf ps = c :: List.replicate n b := by
    have : ∀ n, dstOf (List.replicate n (sub [a] [b])) = List.replicate n b := by
      intro n
      induction n with
      | zero => rfl
      | succ n ih => simp [List.replicate_succ, ih]
    simp [ps, this]
  have hg := oneByOne_group a c b n
  refine ⟨⟨groupOf 0 ps, true⟩, ?_, ?_, ?_⟩
  · have hsep : Separated false ps := by
      refine separated_of_nonempty ps (fun o m hm => ?_) false
      simp only [ps, List.mem_cons, List.mem_replicate] at hm
      rcases hm with hm | ⟨_, hm⟩ <;> (injection hm with h1 _; subst h1; simp)
    have := addAll_pieces (β := Tok) σ ps hsep (by rw [hsrc, List.length_replicate]; omega)
    rw [← this, show groupOf 0 ps = _ from hg]
    simp only [oneByOne, List.map_cons, List.map_map, Rep.triple]
    refine congrArg _ (congrArg₂ List.cons rfl (List.map_congr_left fun i _ => ?_))
    simp [Function.comp, Rep.triple]
  · have := lstApply_pieces ps
    rw [hsrc, hdst] at this
    exact this
  · rw [show groupOf 0 ps = _ from hg]
    obtain ⟨k, hk⟩ : ∃ k, n = k + 1 := ⟨n - 1, by omega⟩
    rw [hk, List.range_succ, List.map_append, List.map_cons, List.map_nil]
    refine machine_apply_drops c _ ?_ _ _ _ (by simp; omega) ?_
    · intro hm
      exact hca (List.eq_of_mem_replicate hm)
    · intro p hp
      simp only [List.mem_append, List.mem_map, List.mem_singleton] at hp
      rcases hp with ⟨_, _, rfl⟩ | rfl
      · simpa using hcb
      · simpa using hcb

/-! ### Sequences of 2^32 and more elements -/

theorem propagate_single_length {β : Type} (ls : List Int) (x y : Nat) (v : List β) :
    ∃ out, Machine.propagate ls ⟨[⟨x, y, v⟩], true⟩ Transduce.getNotEntity = .ok out ∧
      ∃ k, out.length = min (u32 (u32 (0 + u32sub x 0) + u32 v.length)) k + (ls.length - y) := by
  unfold Machine.propagate
  simp only [ReplacementGroup.items, if_true, Except.bind_ok, Machine.propagateLoop, Transduce.getNotEntity]
  generalize sliceAssign (sliceAssign (List.replicate _ _) _ _ _) _ _ _ = o
  refine ⟨_, rfl, o.length, ?_⟩
  · unfold sliceAssign
    rw [List.length_append, List.length_append, List.length_take, List.length_drop, List.length_drop, Nat.max_def]
    split <;> omega

/-- C91: past the limit, `Pad` to 2^32 or more tokens gives the padded list, but all labels are refused, in both directions. -/
theorem C91_pad_past (σ : SetOrder) (maxlen : Nat) (pad : Tok) (l : List Tok) (hl : l.length < 2 ^ 32)
    (hm : 2 ^ 32 ≤ maxlen) :
    ∃ a, Machine.padTo σ maxlen pad l = .ok (l ++ List.replicate (maxlen - l.length) pad, a) ∧
      (∀ ls, a.transform ls = .error .valueError) ∧
      ∀ ls, ls.length = maxlen →
        a.inverseTransform ls = .error (if maxlen % 2 ^ 32 < l.length then .assertionError else .valueError) := by
  let ps : List (Piece Tok Tok) := [keep l, sub [] (List.replicate (maxlen - l.length) pad)]
  have hsrc : srcOf ps = l := by simp [ps]
  have hdst : dstOf ps = l ++ List.replicate (maxlen - l.length) pad := by simp [ps]
  have hsep : Separated false ps := by simp [ps, Separated]
  have hg : groupOf 0 ps = [⟨l.length, l.length, List.replicate (maxlen - l.length) pad⟩] := by simp [ps, groupOf]
  obtain ⟨h1, h2⟩ := lstOp_pieces σ [((l.length : Int), (l.length : Int), List.replicate (maxlen - l.length) pad)]
    ps l _ (by simp [ps, groupOf, Rep.triple]) hsrc hdst hsep hl
  rw [hg] at h1 h2
  have hol : (l ++ List.replicate (maxlen - l.length) pad).length = maxlen := by
    simp; omega
  refine ⟨ofEdit σ l ⟨[⟨l.length, l.length, List.replicate (maxlen - l.length) pad⟩], true⟩ maxlen
    Transduce.getNotEntity Transduce.getNotEntity, ?_, ?_, ?_⟩
  · unfold Machine.padTo Pad.group Machine.groupTransform
    dsimp only
    rw [if_neg (by omega), if_neg (by omega),
      show ((maxlen : Int) - (l.length : Int)).toNat = maxlen - l.length by omega, h1]
    simp only [Except.bind_ok]
    rw [apply_same _ _ (by simp), h2]
    simp only [Except.bind_ok, hol]
    rfl
  · intro ls
    unfold Aligner.transform Aligner.validateInput Aligner.validateOutput ofEdit
    dsimp only
    split
    · rfl
    · rename_i hlen
      obtain ⟨out, ho, k, hk⟩ := propagate_single_length (β := Tok) ls l.length l.length
        (List.replicate (maxlen - l.length) pad)
      rw [ho]
      simp only [Except.bind_ok]
      have hlt : u32 (u32 (0 + u32sub l.length 0) + u32 (List.replicate (maxlen - l.length) pad).length) < 2 ^ 32 :=
        Nat.mod_lt _ (by omega)
      rw [if_pos (by omega)]
      rfl
  · intro ls hls
    have hu : u32 (l.length + (maxlen - l.length)) = maxlen % 2 ^ 32 := by
      unfold u32
      rw [show l.length + (maxlen - l.length) = maxlen by omega]
    have hinv : Machine.inverse σ l ⟨[⟨l.length, l.length, List.replicate (maxlen - l.length) pad⟩], true⟩ =
        if maxlen % 2 ^ 32 < l.length then .error .assertionError
        else .ok ⟨[⟨l.length, maxlen % 2 ^ 32, []⟩], true⟩ := by
      generalize List.replicate (maxlen - l.length) pad = v at hol
      have hv : l.length + v.length = maxlen := by simpa using hol
      have h0 : ReplacementGroup.getItem (⟨[⟨l.length, l.length, v⟩], true⟩ : ReplacementGroup (List Tok)) 0 =
          .ok ⟨l.length, l.length, v⟩ := by simp [ReplacementGroup.getItem, pyIndex?]
      unfold Machine.inverse
      simp only [ReplacementGroup.items, if_true, Except.bind_ok, h0]
      rw [if_neg (by simp [ReplacementGroup.isEmpty]), u32_of_lt (by simp), List.take_length]
      simp only [Machine.distances, List.nil_append, Machine.inverseLoop]
      rw [show u32 (l.length + v.length) = maxlen % 2 ^ 32 by rw [hv]; rfl]
      have hsl : slice l l.length l.length = [] := by unfold slice; simp
      rw [hsl]
      by_cases hlt : maxlen % 2 ^ 32 < l.length
      · have hadd : (ReplacementGroup.empty : ReplacementGroup (List Tok)).add l.length (maxlen % 2 ^ 32) [] =
            ⟨[], false⟩ := by
          unfold ReplacementGroup.add Rep.new validateStartEnd
          rw [if_pos hlt]
          rfl
        rw [hadd, ReplacementGroup.done_of_sep σ [] false (by simp) (by simp), if_pos hlt]
        rfl
      · have hadd : (ReplacementGroup.empty : ReplacementGroup (List Tok)).add l.length (maxlen % 2 ^ 32) [] =
            ⟨[⟨l.length, maxlen % 2 ^ 32, []⟩], false⟩ := by
          unfold ReplacementGroup.add Rep.new validateStartEnd
          rw [if_neg hlt]
          rfl
        rw [hadd, ReplacementGroup.done_of_sep σ [_] false (by simp; omega) (by simp), if_neg hlt]
        rfl
    unfold Aligner.inverseTransform Aligner.validateInput Aligner.validateOutput ofEdit
    dsimp only
    rw [if_neg (by omega), hinv]
    simp only [Except.bind_ok]
    split
    · rfl
    · rename_i hge
      simp only [Except.bind_ok]
      obtain ⟨out, ho, k, hk⟩ := propagate_single_length (β := Tok) ls l.length (maxlen % 2 ^ 32) []
      rw [ho]
      simp only [Except.bind_ok]
      rw [if_pos ?_]
      · rfl
      · rw [hk, hls]
        have := Nat.mod_add_div maxlen (2 ^ 32)
        have : 1 ≤ maxlen / 2 ^ 32 := Nat.div_pos hm (by omega)
        omega

/-! ### Positions of 2^32 and more -/

theorem enumAdd_overflow {ι V : Type} (nv : ι → Res (Option V)) (xs : List ι) (i : Nat) (g : ReplacementGroup V)
    (hnv : ∀ x ∈ xs, ∃ o, nv x = .ok o) (h : ∃ (k : Nat) (x : ι) (v : V), xs[k]? = some x ∧ 2 ^ 32 ≤ i + k + 1 ∧ nv x = .ok (some v)) :
    Machine.enumAdd nv xs i g = .error .overflowError := by
  induction xs generalizing i g with
  | nil =>
    obtain ⟨k, x, v, hx, _⟩ := h
    simp at hx
  | cons y ys ih =>
    obtain ⟨k, x, v, hx, hk, hv⟩ := h
    obtain ⟨o, ho⟩ := hnv y (by simp)
    have rest : ∀ g' : ReplacementGroup V, k ≠ 0 → Machine.enumAdd nv ys (i + 1) g' = .error .overflowError := by
      intro g' hk0
      obtain ⟨k', rfl⟩ := Nat.exists_eq_succ_of_ne_zero hk0
      exact ih (i + 1) g' (fun z hz => hnv z (List.mem_cons_of_mem _ hz)) ⟨k', x, v, by simpa using hx, by omega, hv⟩
    unfold Machine.enumAdd
    rw [ho]
    simp only [Except.bind_ok]
    cases o with
    | none =>
      refine rest g ?_
      rintro rfl
      simp at hx
      subst hx
      rw [ho] at hv
      cases hv
    | some w =>
      dsimp only
      by_cases hi : i + 1 < 2 ^ 32
      · rw [show ((i : Int) + 1) = ((i + 1 : Nat) : Int) by simp, addPy_of_lt g w (by omega) hi]
        refine rest _ ?_
        rintro rfl
        omega
      · have : g.addPy (i : Int) ((i : Int) + 1) w = .error .overflowError := by
          unfold ReplacementGroup.addPy
          have hb : toUInt ((i : Int) + 1) = .error .overflowError := by
            unfold toUInt
            rw [if_neg (by have : uintBound = 2 ^ 32 := rfl; omega)]
          unfold toUInt at hb ⊢
          by_cases h0 : 0 ≤ (i : Int) ∧ (i : Int) < uintBound
          · rw [if_pos h0, hb]
            rfl
          · rw [if_neg h0]
            rfl
        rw [this]
        rfl

/-- C91: past the limit, a character to be set apart at position 2^32 - 1 or later raises OverflowError. -/
theorem C91_around_past (σ : SetOrder) (valid : Char → Bool) (s : Str) (i : Nat) (c : Char) (hi : 2 ^ 32 ≤ i + 1)
    (hc : s[i]? = some c) (hv : valid c = true) : Machine.aroundChar σ valid s = .error .overflowError := by
  unfold Machine.aroundChar Machine.charwiseTransform
  rw [enumAdd_overflow]
  · rfl
  · intro x _
    unfold AddWhitespaceAroundChar.newValue
    exact ⟨_, rfl⟩
  · refine ⟨i, c, [' ', c, ' '], hc, by omega, ?_⟩
    unfold AddWhitespaceAroundChar.newValue
    rw [hv]
    rfl

theorem addPy_overflow {V : Type} (g : ReplacementGroup V) (a : Int) {b : Nat} (v : V) (hb : 2 ^ 32 ≤ b) :
    g.addPy a (b : Int) v = .error .overflowError := by
  unfold ReplacementGroup.addPy
  have e : toUInt (b : Int) = .error .overflowError := by
    unfold toUInt
    rw [if_neg (by have : uintBound = 2 ^ 32 := rfl; omega)]
  unfold toUInt at e ⊢
  by_cases h0 : 0 ≤ a ∧ a < uintBound
  · rw [if_pos h0, e]
    rfl
  · rw [if_neg h0]
    rfl

theorem searchLoop_overflow {m : Matcher} {s : Str} (hs : SoundMatcher m s) (nv : Str → Nat → Nat → Str) {pos : Nat}
    {ms : List (Nat × Nat)} (h : Scan m s pos ms) (hp : pos ≤ s.length) (hm : ∃ q ∈ ms, 2 ^ 32 ≤ q.2) (fuel : Nat)
    (hf : ms.length ≤ fuel) (g : ReplacementGroup Str) : Machine.searchLoop m nv s fuel pos g = some (.error .overflowError) := by
  induction h generalizing fuel g with
  | atEnd => obtain ⟨q, hq, _⟩ := hm; cases hq
  | noMatch => obtain ⟨q, hq, _⟩ := hm; cases hq
  | match_ pos a b ms h1 h2 h3 ih =>
    obtain ⟨g1, g2, g3⟩ := hs pos a b hp h2
    cases fuel with
    | zero => simp at hf
    | succ fuel =>
      unfold Machine.searchLoop
      rw [if_pos h1, h2]
      dsimp only
      by_cases hb : b < 2 ^ 32
      · rw [addPy_of_lt g _ (by omega) hb]
        obtain ⟨q, hq, hq2⟩ := hm
        refine ih g3 ⟨q, ?_, hq2⟩ fuel (by simpa using hf) _
        rcases List.mem_cons.mp hq with rfl | hq
        · exact absurd hb (by omega)
        · exact hq
      · rw [addPy_overflow g _ _ (by omega)]
        rfl

/-- C91: past the limit, a pattern recognizer raises OverflowError if one of its matches ends at 2^32 or later. -/
theorem C91_search_past (σ : SetOrder) (m : Matcher) (token : Str) (f b : Transducer) (s : Str) (hs : SoundMatcher m s)
    (ms : List (Nat × Nat)) (h : Scan m s 0 ms) (hm : ∃ q ∈ ms, 2 ^ 32 ≤ q.2) :
    Machine.patternTransform σ m token f b s = .error .overflowError := by
  unfold Machine.patternTransform
  rw [searchLoop_overflow hs _ h (by omega) hm _ (by have := Spec.Scan.length_le hs h; omega)]
  rfl

/-- A recognizer that finds the last character of the text, and a text of 2^32 characters. -/
example : ∃ (m : Matcher) (s : Str) (ms : List (Nat × Nat)), SoundMatcher m s ∧ Scan m s 0 ms ∧ ∃ q ∈ ms, 2 ^ 32 ≤ q.2 := by
  refine ⟨fun s p => if p < s.length then some (s.length - 1, s.length) else none, List.replicate (2 ^ 32) 'x',
    [(2 ^ 32 - 1, 2 ^ 32)], ?_, ?_, _, List.mem_singleton.mpr rfl, Nat.le_refl _⟩
  · intro pos a b hp h
    dsimp only at h
    split at h
    · injection h with h
      injection h with e1 e2
      subst e1; subst e2
      omega
    · cases h
  · have hl : (List.replicate (2 ^ 32) 'x').length = 2 ^ 32 := List.length_replicate
    refine .match_ 0 _ _ [] ?_ ?_ (.atEnd _ ?_)
    · rw [hl]; omega
    · rw [hl, if_pos (by omega)]
    · exact Nat.le_of_eq hl

end Uttut
