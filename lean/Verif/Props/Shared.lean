import Verif.Lemmas.Shared
import Verif.Spec.Shared
import Verif.Props.SosPad
import Verif.Props.WordPiece
import Verif.Props.Builtins

/-!
C86: what changing a list does to the label aligners that keep it.
-/

namespace Uttut

open Spec Piece

/-! ### The live operators are the operators -/

/-- `_transform` as in `Verif/Model/Ops.lean`. -/
def ListOperator.plain (σ : SetOrder) (u : Unicode) : ListOperator → List Tok → Res (List Tok × Aligner)
  | .addSosEos sos eos => AddSosEos.transform σ sos eos
  | .addEndToken eos => AddEndToken.transform σ eos
  | .pad maxlen token => Pad.transform σ maxlen token
  | .token2Index d unk => Token2Index.transform σ d unk
  | .token2IndexWithHash d => Token2IndexwithHash.transform σ d
  | .pureNum2Token token => PureNum2Token.transform σ u token
  | .spanSubwords vocab unk maxChars => SpanSubwords.transform σ vocab unk maxChars

theorem tokenwise_now (σ : SetOrder) (nv : Tok → Res (Option (List Tok))) (l : List Tok)
    (mk : ReplacementGroup (List Tok) → Nat → LiveAligner) (mk' : ReplacementGroup (List Tok) → Nat → Aligner)
    (h : ∀ g n, mk' g n = (mk g n).now (.list l)) :
    tokenwiseTransform σ nv l mk' =
      (ListOperator.tokenwise σ nv l mk).map fun r => (r.1, r.2.now (.list l)) := by
  unfold tokenwiseTransform ListOperator.tokenwise
  cases enumAdd nv l 0 ReplacementGroup.empty with
  | error e => rfl
  | ok g =>
    simp only [Except.bind_ok]
    cases g.done σ with
    | error e => rfl
    | ok g =>
      simp only [Except.bind_ok]
      cases Lst2Lst.apply l g with
      | error e => rfl
      | ok out =>
        simp only [Except.bind_ok, h]
        rfl

theorem addAll_now (σ : SetOrder) (r : Res (ReplacementGroup (List Tok))) (l : List Tok) (f b : Transducer) :
    (do let g ← r
        let out ← Lst2Lst.apply l g
        return (out, Aligner.ofLstEdit σ l g out.length f b) : Res (List Tok × Aligner)) =
      (do let g ← r
          let out ← Lst2Lst.apply l g
          return (out, LiveAligner.ofEdit σ l.length g out.length f b) : Res (List Tok × LiveAligner)).map
        fun r => (r.1, r.2.now (.list l)) := by
  cases r with
  | error e => rfl
  | ok g =>
    simp only [Except.bind_ok]
    cases Lst2Lst.apply l g with
    | error e => rfl
    | ok out => rfl

/-- C86: while the list is as it was, the aligner object is the aligner of the operator. -/
theorem C86_unchanged (σ : SetOrder) (u : Unicode) (k : ListOperator) (l : List Tok) :
    k.plain σ u l = (k.live σ u l).map fun r => (r.1, r.2.now (.list l)) := by
  cases k with
  | addSosEos sos eos => exact addAll_now σ _ l _ _
  | addEndToken eos => exact addAll_now σ _ l _ _
  | pad maxlen token => exact addAll_now σ _ l _ _
  | token2Index d unk => exact tokenwise_now σ _ l _ _ (by intros; rfl)
  | token2IndexWithHash d => exact tokenwise_now σ _ l _ _ (by intros; rfl)
  | pureNum2Token token => exact tokenwise_now σ _ l _ _ (by intros; rfl)
  | spanSubwords vocab unk maxChars =>
    exact tokenwise_now σ (SpanSubwords.newValue vocab unk maxChars) l
      (fun g n => .ofEdit σ l.length g n Transduce.getMostCommon Transduce.getMostCommonExceptNotEntity)
      (fun g n => Aligner.ofLstEdit σ l g n Transduce.getMostCommon Transduce.getMostCommonExceptNotEntity)
      (by intros; rfl)

/-! ### The edits of the operators -/

theorem mem_cut {α β : Type} (xs : List α) (cur : Nat) (rs : List (Rep (List β))) (o : List α) (n : List β)
    (h : sub o n ∈ cut xs cur rs) : ∃ r ∈ rs, o = slice xs r.start r.stop ∧ n = r.val := by
  induction rs generalizing cur with
  | nil => simp [cut] at h
  | cons r rs ih =>
    simp only [cut, List.mem_cons, reduceCtorEq, false_or] at h
    rcases h with h | h
    · injection h with h1 h2
      exact ⟨r, by simp, h1, h2⟩
    · obtain ⟨q, hq, h1, h2⟩ := ih r.stop h
      exact ⟨q, by simp [hq], h1, h2⟩

theorem done_mem (σ : SetOrder) (rs : List (Rep (List Tok))) (g : ReplacementGroup (List Tok))
    (h : (⟨rs, false⟩ : ReplacementGroup (List Tok)).done σ = .ok g) (r : Rep (List Tok)) : r ∈ g.reps ↔ r ∈ rs := by
  have hset : ∀ x, x ∈ σ.listSet rs ↔ x ∈ rs := fun x => by
    rw [(listSet_perm σ rs).mem_iff, mem_pyDedup]
  unfold ReplacementGroup.done at h
  dsimp only at h
  split at h
  · obtain ⟨_, _, h⟩ := bind_eq_ok h
    obtain ⟨_, _, h⟩ := bind_eq_ok h
    cases h
    rw [(ReplacementGroup.sortReps_perm _).mem_iff, hset]
  · cases h
    exact hset r

/-- The shape of an edit given by explicit replacements inside of the list. -/
theorem addAll_shape (σ : SetOrder) (rs : List (Rep (List Tok))) (l out : List Tok) (g : ReplacementGroup (List Tok))
    (hg : ReplacementGroup.addAll σ (rs.map Rep.triple) = .ok g) (hout : Lst2Lst.apply l g = .ok out)
    (hin : ∀ r ∈ rs, r.start ≤ r.stop ∧ r.stop ≤ l.length) :
    ∃ ps : List (Piece Tok Tok), srcOf ps = l ∧ dstOf ps = out ∧ g = ⟨groupOf 0 ps, true⟩ ∧
      (∀ r, r ∈ groupOf 0 ps ↔ r ∈ rs) ∧ ∀ o n, sub o n ∈ ps → ∃ r ∈ rs, o = slice l r.start r.stop ∧ n = r.val := by
  obtain ⟨h1, h2, h3⟩ := addAll_chain σ _ g hg
  have hb := addAll_bounds σ _ g hg
  rw [addAll_eq_done σ rs (fun r hr => ⟨(hin r hr).1, by
    have := (hb _ (List.mem_map_of_mem hr)).2.2.2
    simp only [Rep.triple] at this
    have hbd : uintBound = 2 ^ 32 := rfl
    rw [hbd]
    omega⟩)] at hg
  have hm := done_mem σ rs g hg
  have hfit : Fits l.length 0 g.reps := by
    rw [fits_iff]
    exact ⟨Nat.zero_le _, fun r hr => ⟨Nat.zero_le _, h2 r hr, (hin r ((hm r).mp hr)).2⟩, h3⟩
  have hsrc := srcOf_cut l 0 g.reps hfit
  have hgr := groupOf_cut l 0 g.reps hfit
  rw [List.drop_zero] at hsrc
  have hg' : g = ⟨groupOf 0 (cut l 0 g.reps), true⟩ := by rw [hgr]; exact group_eta h1
  have hd := lstApply_pieces (cut l 0 g.reps)
  rw [hsrc, ← hg', hout] at hd
  refine ⟨cut l 0 g.reps, hsrc, (Except.ok.inj hd).symm, hg', fun r => by rw [hgr]; exact hm r, fun o n h => ?_⟩
  obtain ⟨r, hr, e1, e2⟩ := mem_cut l 0 g.reps o n h
  exact ⟨r, (hm r).mp hr, e1, e2⟩

/-- The shape of an edit made token by token. -/
theorem tokenwise_shape (σ : SetOrder) (nv : Tok → Res (Option (List Tok))) (l out : List Tok)
    (mk : ReplacementGroup (List Tok) → Nat → LiveAligner) (a : LiveAligner)
    (h : ListOperator.tokenwise σ nv l mk = .ok (out, a)) :
    ∃ ps : List (Piece Tok Tok), srcOf ps = l ∧ dstOf ps = out ∧ a = mk ⟨groupOf 0 ps, true⟩ out.length ∧
      (∀ r, r ∈ groupOf 0 ps ↔ ∃ (i : Nat) (x : Tok) (v : List Tok), l[i]? = some x ∧ nv x = .ok (some v) ∧
        r = ⟨i, i + 1, v⟩) ∧
      (∀ o n, sub o n ∈ ps → ∃ x ∈ l, o = [x] ∧ nv x = .ok (some n)) ∧ ∀ x ∈ l, ∃ v, nv x = .ok v := by
  unfold ListOperator.tokenwise at h
  obtain ⟨g, hg, h⟩ := bind_eq_ok h
  have hv := enumAdd_values hg
  let nv' : Tok → Option (List Tok) := fun x => match nv x with
    | .ok v => v
    | .error _ => none
  have hnv : ∀ x ∈ l, nv x = .ok (nv' x) := fun x hx => by
    obtain ⟨v, e⟩ := hv x hx
    simp only [nv', e]
  rw [enumAdd_congr nv (fun x => .ok (nv' x)) l hnv, enumAdd_pieces (β := Tok) id nv' l 0 ReplacementGroup.empty] at hg
  have hg := Except.ok.inj hg
  subst hg
  simp only [ReplacementGroup.empty, List.nil_append] at h
  rw [done_groupOf (β := Tok) σ 0 (elemPieces id nv' l) false false (separated_elemPieces id nv' l false)] at h
  simp only [Except.bind_ok] at h
  obtain ⟨o, ho, h⟩ := bind_eq_ok h
  have hd := lstApply_pieces (elemPieces id nv' l)
  have hs := srcOf_elemPieces id nv' l
  rw [List.map_id] at hs
  rw [hs, ho] at hd
  have hd := Except.ok.inj hd
  have h := Except.ok.inj h
  injection h with h1 h2
  subst h1
  refine ⟨elemPieces id nv' l, hs, hd.symm, h2.symm, ?_, ?_, hv⟩
  · have gen : ∀ (xs : List Tok) (off : Nat) (r : Rep (List Tok)), r ∈ groupOf off (elemPieces id nv' xs) ↔
        ∃ (i : Nat) (x : Tok) (v : List Tok), xs[i]? = some x ∧ nv' x = some v ∧ r = ⟨off + i, off + i + 1, v⟩ := by
      intro xs
      induction xs with
      | nil => intro off r; simp [elemPieces, groupOf]
      | cons x xs ih =>
        intro off r
        have step : (∃ (i : Nat) (y : Tok) (v : List Tok), (x :: xs)[i]? = some y ∧ nv' y = some v ∧
              r = ⟨off + i, off + i + 1, v⟩) ↔
            (∃ v, nv' x = some v ∧ r = ⟨off, off + 1, v⟩) ∨
            ∃ (i : Nat) (y : Tok) (v : List Tok), xs[i]? = some y ∧ nv' y = some v ∧
              r = ⟨off + 1 + i, off + 1 + i + 1, v⟩ := by
          constructor
          · rintro ⟨i, y, v, h1, h2, h3⟩
            cases i with
            | zero =>
              simp only [List.getElem?_cons_zero, Option.some.injEq] at h1
              subst h1
              exact .inl ⟨v, h2, h3⟩
            | succ i =>
              refine .inr ⟨i, y, v, by simpa using h1, h2, ?_⟩
              rw [h3, show off + (i + 1) = off + 1 + i by omega]
          · rintro (⟨v, h2, h3⟩ | ⟨i, y, v, h1, h2, h3⟩)
            · exact ⟨0, x, v, by simp, h2, h3⟩
            · refine ⟨i + 1, y, v, by simpa using h1, h2, ?_⟩
              rw [h3, show off + (i + 1) = off + 1 + i by omega]
        rw [step]
        cases hx : nv' x with
        | none =>
          have : elemPieces id nv' (x :: xs) = keep [x] :: elemPieces id nv' xs := by simp [elemPieces, hx]
          rw [this, groupOf, ih]
          simp
        | some v =>
          have : elemPieces id nv' (x :: xs) = sub [x] v :: elemPieces id nv' xs := by simp [elemPieces, hx]
          rw [this, groupOf, List.mem_cons, ih]
          simp
    intro r
    rw [gen l 0 r]
    constructor
    · rintro ⟨i, x, v, h1, h2, h3⟩
      exact ⟨i, x, v, h1, by rw [hnv x (List.mem_of_getElem? h1), h2], by simpa using h3⟩
    · rintro ⟨i, x, v, h1, h2, h3⟩
      refine ⟨i, x, v, h1, ?_, by simpa using h3⟩
      rw [hnv x (List.mem_of_getElem? h1)] at h2
      exact Except.ok.inj h2
  · intro o n hm
    obtain ⟨x, hx, e1, e2⟩ := mem_elemPieces hm
    exact ⟨x, hx, e1, by rw [hnv x hx, e2]⟩

theorem except_total (x : List Int) (n : Nat) : ∃ y, Transduce.getMostCommonExceptNotEntity x n = .ok y :=
  ⟨_, getMostCommonExcept_mode x n⟩

theorem notEntity_total (x : List Int) (n : Nat) : ∃ y, Transduce.getNotEntity x n = .ok y := ⟨_, rfl⟩

/-- What an operator on a list leaves in its aligner. -/
theorem live_shape (σ : SetOrder) (u : Unicode) (k : ListOperator) (l out : List Tok) (a : LiveAligner)
    (h : k.live σ u l = .ok (out, a)) :
    (HandsThrough k ∧ a = .null l.length out.length) ∨
    (¬ HandsThrough k ∧ ∃ (ps : List (Piece Tok Tok)) (f b : Transducer) (c : List Tok), Neutral b ∧
      (∀ x n, ∃ y, b x n = .ok y) ∧ srcOf ps = l ∧ dstOf ps = out ∧
      a = .ofEdit σ (srcOf ps).length ⟨groupOf 0 ps, true⟩ (dstOf ps).length f b ∧
      (∀ o, sub o [] ∈ ps → o = c) ∧ ∀ n, Covers n (groupOf 0 ps) ↔ StillThere k l n) := by
  cases k with
  | addSosEos sos eos =>
    refine .inr ⟨id, ?_⟩
    unfold ListOperator.live at h
    obtain ⟨g, hg, h⟩ := bind_eq_ok h
    obtain ⟨o, ho, h⟩ := bind_eq_ok h
    cases h
    obtain ⟨ps, h1, h2, h3, h4, h5⟩ := addAll_shape σ [⟨0, 0, [sos]⟩, ⟨l.length, l.length, [eos]⟩] l out g hg ho
      (by simp)
    subst h1 h2 h3
    refine ⟨ps, _, _, [], neutral_notEntity, notEntity_total, rfl, rfl, rfl, fun o hm => ?_, fun n => ?_⟩
    · obtain ⟨r, hr, _, e⟩ := h5 o [] hm
      simp only [List.mem_cons, List.not_mem_nil, or_false] at hr
      rcases hr with rfl | rfl <;> cases e
    · refine iff_of_true (fun r hr => ?_) trivial
      have := (h4 r).mp hr
      simp only [List.mem_cons, List.not_mem_nil, or_false] at this
      rcases this with rfl | rfl <;> intro hlt <;> dsimp only at hlt <;> omega
  | addEndToken eos =>
    refine .inr ⟨id, ?_⟩
    unfold ListOperator.live at h
    obtain ⟨g, hg, h⟩ := bind_eq_ok h
    obtain ⟨o, ho, h⟩ := bind_eq_ok h
    cases h
    obtain ⟨ps, h1, h2, h3, h4, h5⟩ := addAll_shape σ [⟨l.length, l.length, [eos]⟩] l out g hg ho (by simp)
    subst h1 h2 h3
    refine ⟨ps, _, _, [], neutral_notEntity, notEntity_total, rfl, rfl, rfl, fun o hm => ?_, fun n => ?_⟩
    · obtain ⟨r, hr, _, e⟩ := h5 o [] hm
      simp only [List.mem_cons, List.not_mem_nil, or_false] at hr
      subst hr
      cases e
    · refine iff_of_true (fun r hr => ?_) trivial
      have := (h4 r).mp hr
      simp only [List.mem_cons, List.not_mem_nil, or_false] at this
      subst this
      intro hlt
      dsimp only at hlt
      omega
  | pad maxlen token =>
    refine .inr ⟨id, ?_⟩
    unfold ListOperator.live Pad.group at h
    obtain ⟨g, hg, h⟩ := bind_eq_ok h
    obtain ⟨o, ho, h⟩ := bind_eq_ok h
    cases h
    dsimp only at hg
    split at hg
    · rename_i he
      obtain ⟨ps, h1, h2, h3, h4, h5⟩ := addAll_shape σ [] l out g hg ho (by simp)
      subst h1 h2 h3
      refine ⟨ps, _, _, [], neutral_notEntity, notEntity_total, rfl, rfl, rfl, fun o hm => ?_, fun n => ?_⟩
      · obtain ⟨r, hr, _⟩ := h5 o [] hm
        cases hr
      · refine iff_of_true (fun r hr => ?_) (fun h => by omega)
        cases (h4 r).mp hr
    · split at hg
      · rename_i hne hgt
        have hb := addAll_bounds σ _ g hg (maxlen, (l.length : Int), []) (by simp)
        dsimp only at hb
        obtain ⟨m, rfl⟩ : ∃ m : Nat, maxlen = m := ⟨maxlen.toNat, by omega⟩
        obtain ⟨ps, h1, h2, h3, h4, h5⟩ := addAll_shape σ [⟨m, l.length, []⟩] l out g hg ho (by
          simp only [List.mem_cons, List.not_mem_nil, or_false]
          rintro r rfl
          dsimp only
          omega)
        subst h1 h2 h3
        refine ⟨ps, _, _, slice (srcOf ps) m (srcOf ps).length, neutral_notEntity, notEntity_total, rfl, rfl, rfl,
          fun o hm => ?_, fun n => ?_⟩
        · obtain ⟨r, hr, e, _⟩ := h5 o [] hm
          simp only [List.mem_cons, List.not_mem_nil, or_false] at hr
          subst hr
          exact e
        · have : StillThere (.pad (m : Int) token) (srcOf ps) n ↔ (srcOf ps).length ≤ n := by
            simp only [StillThere]
            omega
          rw [this]
          constructor
          · intro hc
            have := hc ⟨m, (srcOf ps).length, []⟩ ((h4 _).mpr (by simp))
            dsimp only at this
            omega
          · intro hle r hr
            have := (h4 r).mp hr
            simp only [List.mem_cons, List.not_mem_nil, or_false] at this
            subst this
            intro _
            exact hle
      · rename_i hne hgt
        obtain ⟨ps, h1, h2, h3, h4, h5⟩ := addAll_shape σ
          [⟨l.length, l.length, List.replicate (maxlen - (l.length : Int)).toNat token⟩] l out g hg ho (by simp)
        subst h1 h2 h3
        refine ⟨ps, _, _, [], neutral_notEntity, notEntity_total, rfl, rfl, rfl, fun o hm => ?_, fun n => ?_⟩
        · obtain ⟨r, hr, e, _⟩ := h5 o [] hm
          simp only [List.mem_cons, List.not_mem_nil, or_false] at hr
          subst hr
          rw [e]
          simp [slice]
        · refine iff_of_true (fun r hr => ?_) (fun h => by omega)
          have := (h4 r).mp hr
          simp only [List.mem_cons, List.not_mem_nil, or_false] at this
          subst this
          intro hlt
          dsimp only at hlt
          omega
  | token2Index d unk =>
    obtain ⟨ps, _, _, h3, _⟩ := tokenwise_shape σ _ l out _ a h
    exact .inl ⟨trivial, h3⟩
  | token2IndexWithHash d =>
    obtain ⟨ps, _, _, h3, _⟩ := tokenwise_shape σ _ l out _ a h
    exact .inl ⟨trivial, h3⟩
  | pureNum2Token token =>
    obtain ⟨ps, _, _, h3, _⟩ := tokenwise_shape σ _ l out _ a h
    exact .inl ⟨trivial, h3⟩
  | spanSubwords vocab unk maxChars =>
    refine .inr ⟨id, ?_⟩
    obtain ⟨ps, h1, h2, h3, h4, h5, h6⟩ := tokenwise_shape σ (SpanSubwords.newValue vocab unk maxChars) l out
      (fun g n => .ofEdit σ l.length g n Transduce.getMostCommon Transduce.getMostCommonExceptNotEntity) a h
    subst h1 h2
    refine ⟨ps, _, _, [.str []], neutral_except, except_total, rfl, rfl, h3, fun o hm => ?_, fun n => ?_⟩
    · obtain ⟨x, _, rfl, hv⟩ := h5 o [] hm
      cases x with
      | int i => cases hv
      | str w =>
        simp only [SpanSubwords.newValue] at hv
        obtain ⟨subs, hs, hne⟩ := spanSubwords_ok vocab unk maxChars w
        rw [hs] at hv
        simp only [Except.bind_ok] at hv
        have hv := Except.ok.inj hv
        split at hv
        · have hv := Option.some.inj hv
          have : subs = [] := by simpa using hv
          by_cases hw : w = []
          · rw [hw]
          · exact absurd this (hne hw)
        · cases hv
    · have key : ∀ w, (∃ v, SpanSubwords.newValue vocab unk maxChars (.str w) = .ok (some v)) ↔
          SpanSubwords.spanSubwords vocab unk maxChars w ≠ .ok [w] := by
        intro w
        obtain ⟨subs, hs, _⟩ := spanSubwords_ok vocab unk maxChars w
        simp only [SpanSubwords.newValue, hs, Except.bind_ok]
        by_cases he : subs = [w]
        · subst he
          rw [if_neg (by simp)]
          exact iff_of_false (fun ⟨v, hv⟩ => by cases hv) (fun h => h rfl)
        · rw [if_pos he]
          exact iff_of_true ⟨_, rfl⟩ fun h => he (Except.ok.inj h)
      constructor
      · intro hc i w hi hw
        obtain ⟨v, hv⟩ := (key w).mpr hw
        have := hc ⟨i, i + 1, v⟩ ((h4 _).mpr ⟨i, .str w, v, hi, hv, rfl⟩) (by dsimp only; omega)
        dsimp only at this
        omega
      · intro hst r hr _
        obtain ⟨i, x, v, hi, hv, rfl⟩ := (h4 r).mp hr
        cases x with
        | int j => cases hv
        | str w =>
          have := hst i w hi ((key w).mp ⟨v, hv⟩)
          dsimp only
          omega

/-! ### C86 -/

/-- C86: `inverse_transform` after the list was changed. Where it gave labels before, it gives the same labels as
long as the list still has every element the operator replaced or removed; otherwise it raises ValueError. -/
theorem C86_after_change (σ : SetOrder) (u : Unicode) (k : ListOperator) (l out : List Tok) (a : LiveAligner)
    (h : k.live σ u l = .ok (out, a)) (ls y : List Int)
    (hy : (a.now (.list l)).inverseTransform ls = .ok y) (l' : List Tok) :
    (StillThere k l l'.length → (a.now (.list l')).inverseTransform ls = .ok y) ∧
    (¬ StillThere k l l'.length → (a.now (.list l')).inverseTransform ls = .error .valueError) := by
  rcases live_shape σ u k l out a h with ⟨hk, rfl⟩ | ⟨_, ps, f, b, c, h1, h2, rfl, rfl, rfl, h3, h4⟩
  · have : StillThere k l l'.length := by
      cases k <;> trivial
    exact ⟨fun _ => hy, fun hn => absurd this hn⟩
  · have := live_same σ ps f b h1 h2 c h3 ls y hy l'
    rw [h4] at this
    exact this

/-- C86: so no change of the list makes `inverse_transform` give other labels. -/
theorem C86_never_other (σ : SetOrder) (u : Unicode) (k : ListOperator) (l out : List Tok) (a : LiveAligner)
    (h : k.live σ u l = .ok (out, a)) (ls y y' : List Int)
    (hy : (a.now (.list l)).inverseTransform ls = .ok y) (l' : List Tok)
    (hy' : (a.now (.list l')).inverseTransform ls = .ok y') : y' = y := by
  obtain ⟨h1, h2⟩ := C86_after_change σ u k l out a h ls y hy l'
  by_cases hs : StillThere k l l'.length
  · rw [h1 hs] at hy'
    exact (Except.ok.inj hy').symm
  · rw [h2 hs] at hy'
    cases hy'

/-! ### Programs -/

namespace Shared

theorem give_lists (s : Shared) (out : Seq) (r : Nat) (l : List Tok) (h : s.lists[r]? = some l) :
    (s.give out).1.lists[r]? = some l := by
  cases out with
  | str t => exact h
  | list l' =>
    have := (List.getElem?_eq_some_iff.mp h).1
    simp only [give]
    rw [List.getElem?_append_left this, h]

theorem give_aligners (s : Shared) (out : Seq) : (s.give out).1.aligners = s.aligners := by
  cases out <;> rfl

theorem give_labels (s : Shared) (out : Seq) : (s.give out).1.labels = s.labels := by
  cases out <;> rfl

/-- Nothing that was there is lost: aligners stay as they are, and so do lists that are not changed. -/
structure Grown (s s' : Shared) : Prop where
  aligners : ∀ (i : Nat) p, s.aligners[i]? = some p → s'.aligners[i]? = some p
  lists : ∀ (r : Nat) l, s.lists[r]? = some l → s'.lists[r]? = some l
  labels : ∀ (r : Nat) l, s.labels[r]? = some l → s'.labels[r]? = some l

theorem Grown.refl (s : Shared) : Grown s s := ⟨fun _ _ h => h, fun _ _ h => h, fun _ _ h => h⟩

theorem Grown.trans {s t v : Shared} (h : Grown s t) (h' : Grown t v) : Grown s v :=
  ⟨fun i p e => h'.aligners i p (h.aligners i p e), fun r l e => h'.lists r l (h.lists r l e),
    fun r l e => h'.labels r l (h.labels r l e)⟩

theorem getElem?_snoc {α : Type} {xs : List α} {i : Nat} {x : α} (h : xs[i]? = some x) (ys : List α) :
    (xs ++ ys)[i]? = some x := by
  rw [List.getElem?_append_left (List.getElem?_eq_some_iff.mp h).1, h]

theorem call_grown (σ : SetOrder) (u : Unicode) (s : Shared) (op : LiveOp) (x : SeqRef) :
    Grown s (s.call σ u op x).1 := by
  unfold call
  split
  · split
    · exact .refl s
    · refine ⟨fun i p h => ?_, fun r l h => ?_, fun r l h => ?_⟩
      · dsimp only
        exact getElem?_snoc (by rw [give_aligners]; exact h) _
      · exact give_lists s _ r l h
      · dsimp only
        rw [give_labels]
        exact h
  · exact .refl s

theorem pipeLoop_grown (σ : SetOrder) (u : Unicode) (ops : List LiveOp) (s : Shared) (x : SeqRef) (as : List Nat)
    (coll : List SeqRef) : Grown s (pipeLoop σ u ops s x as coll).1 := by
  induction ops generalizing s x as coll with
  | nil => exact .refl s
  | cons op ops ih =>
    have h := call_grown σ u s op x
    unfold pipeLoop
    split
    · rename_i s' e heq
      rw [heq] at h
      exact h
    · rename_i s' y i heq
      rw [heq] at h
      exact h.trans (ih s' y _ _)

theorem giveLabels_grown (s : Shared) (same : Bool) (r : Nat) (out : List Int) :
    Grown s (s.giveLabels same r out).1 := by
  unfold giveLabels
  split
  · exact .refl s
  · exact ⟨fun _ _ h => h, fun _ _ h => h, fun r l h => getElem?_snoc h _⟩

theorem align_grown (s : Shared) (i r : Nat) : Grown s (s.align i r).1 := by
  unfold align
  split
  · split
    · exact .refl s
    · exact giveLabels_grown s _ _ _
  · exact .refl s

theorem realign_grown (s : Shared) (i r : Nat) : Grown s (s.realign i r).1 := by
  unfold realign
  split
  · split
    · exact .refl s
    · exact giveLabels_grown s _ _ _
  · exact .refl s

theorem step_aligners (σ : SetOrder) (u : Unicode) (s : Shared) (c : SharedCmd) (i : Nat) (p : SeqRef × LiveAligner)
    (h : s.aligners[i]? = some p) : (s.step σ u c).aligners[i]? = some p := by
  cases c with
  | newList l => exact h
  | changeList r l => exact h
  | newLabels l => exact h
  | changeLabels r l => exact h
  | transform op x => exact (call_grown σ u s op x).aligners i p h
  | transformSequence ops x => exact (pipeLoop_grown σ u ops s x _ _).aligners i p h
  | align j r => exact (align_grown s j r).aligners i p h
  | realign j r => exact (realign_grown s j r).aligners i p h

theorem exec_aligners (σ : SetOrder) (u : Unicode) (cmds : List SharedCmd) (s : Shared) (i : Nat)
    (p : SeqRef × LiveAligner) (h : s.aligners[i]? = some p) : (s.exec σ u cmds).aligners[i]? = some p := by
  induction cmds generalizing s with
  | nil => exact h
  | cons c cs ih => exact ih _ (step_aligners σ u s c i p h)

/-- A list that no step changes has the elements it had. -/
theorem exec_lists (σ : SetOrder) (u : Unicode) (cmds : List SharedCmd) (s : Shared) (r : Nat) (l : List Tok)
    (h : s.lists[r]? = some l) (hn : ∀ v, SharedCmd.changeList r v ∉ cmds) :
    (s.exec σ u cmds).lists[r]? = some l := by
  induction cmds generalizing s with
  | nil => exact h
  | cons c cs ih =>
    refine ih _ ?_ fun v hv => hn v (List.mem_cons_of_mem _ hv)
    cases c with
    | newList l' => exact getElem?_snoc h _
    | changeList r' l' =>
      have : r' ≠ r := fun e => hn l' (by rw [e]; simp)
      simp only [step]
      rw [List.getElem?_set_ne this]
      exact h
    | newLabels l => exact h
    | changeLabels r l => exact h
    | transform op x => exact (call_grown σ u s op x).lists r l h
    | transformSequence ops x => exact (pipeLoop_grown σ u ops s x _ _).lists r l h
    | align j r' => exact (align_grown s j r').lists r l h
    | realign j r' => exact (realign_grown s j r').lists r l h

/-- What a successful call of an operator leaves behind. -/
theorem call_ok {σ : SetOrder} {u : Unicode} {s s' : Shared} {op : LiveOp} {x y : SeqRef} {i : Nat}
    (h : s.call σ u op x = (s', .ok (y, i))) :
    ∃ out a, op.run σ u (s.read x) = .ok (out, a) ∧ s'.aligners[i]? = some (x, a) ∧ s'.read x = s.read x ∧
      s'.read y = out ∧ s.known x = true ∧ (∀ r, y = .list r → r = s.lists.length) ∧ s.aligners.length = i := by
  have hg := call_grown σ u s op x
  unfold call at h hg
  split at h
  · rename_i hk
    rw [if_pos hk] at hg
    split at h
    · cases h
    · rename_i out a heq
      rw [heq] at hg
      dsimp only at hg h
      injection h with h1 h2
      injection h2 with h2
      injection h2 with h2 h3
      have hy : (s.give out).2 = y := h2
      have hr : s'.read x = s.read x := by
        cases x with
        | str t => rfl
        | list r =>
          have hk : r < s.lists.length := by simpa [known] using hk
          have := hg.lists r s.lists[r] (List.getElem?_eq_getElem hk)
          rw [← h1]
          simp only [read]
          rw [this, List.getElem?_eq_getElem hk]
      refine ⟨out, a, heq, ?_, hr, ?_, hk, ?_, ?_⟩
      · rw [← h1, ← h3]
        simp
      · rw [← h1, ← hy]
        cases out with
        | str t => rfl
        | list l => simp [give, read]
      · intro r e
        rw [← hy] at e
        cases out with
        | str t => cases e
        | list l =>
          injection e with e
          exact e.symm
      · rw [← h3, give_aligners]
  · cases h

end Shared

open Shared

/-- C86: whatever the program does in between, `transform` of an aligner gives what it gave. -/
theorem C86_program_forward (σ : SetOrder) (u : Unicode) (s : Shared) (i : Nat) (a : Aligner)
    (h : s.aligner? i = some a) (cmds : List SharedCmd) :
    ∃ a', (s.exec σ u cmds).aligner? i = some a' ∧ ∀ ls, a'.transform ls = a.transform ls := by
  unfold aligner? at h ⊢
  cases hp : s.aligners[i]? with
  | none => rw [hp] at h; cases h
  | some p =>
    rw [hp] at h
    rw [exec_aligners σ u cmds s i p hp]
    simp only [Option.map_some, Option.some.injEq] at h
    subst h
    exact ⟨_, rfl, fun ls => rfl⟩

/-- C86: an aligner whose list no step changes is the aligner it was. -/
theorem C86_program_untouched (σ : SetOrder) (u : Unicode) (s : Shared) (i : Nat) (x : SeqRef) (b : LiveAligner)
    (h : s.aligners[i]? = some (x, b)) (hx : s.known x = true) (cmds : List SharedCmd)
    (hn : ∀ r v, x = .list r → SharedCmd.changeList r v ∉ cmds) :
    (s.exec σ u cmds).aligner? i = s.aligner? i := by
  unfold aligner?
  rw [exec_aligners σ u cmds s i _ h, h]
  simp only [Option.map_some, Option.some.injEq]
  cases x with
  | str t => rfl
  | list r =>
    have hk : r < s.lists.length := by simpa [known] using hx
    have := exec_lists σ u cmds s r _ (List.getElem?_eq_getElem hk) fun v => hn r v rfl
    simp only [Shared.read]
    rw [this, List.getElem?_eq_getElem hk]

/-- C86: an operator on lists was called and gave the aligner `i`; then the program went on. Labels the aligner would
have given right after the call are given still, if the list (as it is now) has every element the operator replaced or
removed; otherwise there is a ValueError. -/
theorem C86_program (σ : SetOrder) (u : Unicode) (s s' : Shared) (k : ListOperator) (r : Nat) (l : List Tok)
    (hl : s.lists[r]? = some l) (y : SeqRef) (i : Nat)
    (hc : s.call σ u (.onList k) (.list r) = (s', .ok (y, i))) (cmds : List SharedCmd) :
    ∃ a a', s'.aligner? i = some a ∧ (s'.exec σ u cmds).aligner? i = some a' ∧
      ∀ ls out, a.inverseTransform ls = .ok out →
        ∃ now, (s'.exec σ u cmds).read (.list r) = .list now ∧
          (StillThere k l now.length → a'.inverseTransform ls = .ok out) ∧
          (¬ StillThere k l now.length → a'.inverseTransform ls = .error .valueError) := by
  obtain ⟨out, b, h1, h2, h3, _⟩ := call_ok hc
  have hr : s.read (.list r) = .list l := by simp [Shared.read, hl]
  rw [hr] at h1 h3
  refine ⟨b.now (s'.read (.list r)), b.now ((s'.exec σ u cmds).read (.list r)), ?_, ?_, fun ls o ho => ?_⟩
  · simp [aligner?, h2]
  · simp [aligner?, exec_aligners σ u cmds s' i _ h2]
  · rw [h3] at ho
    simp only [LiveOp.run] at h1
    obtain ⟨q, hq, h1⟩ := bind_eq_ok h1
    cases h1
    exact ⟨_, rfl, C86_after_change σ u k l q.1 q.2 hq ls o ho _⟩

end Uttut
