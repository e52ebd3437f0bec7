import Verif.Lemmas.Ops
import Verif.Props.Edit

/-!
C28, C29, C30: `AddSosEos`, `AddEndToken`, `Pad`.
-/

namespace Uttut

open Spec Piece

theorem addAll_pieces {β : Type} [DecidableEq β] (σ : SetOrder) (ps : List (Piece β β))
    (h : Separated false ps) (hlen : (srcOf ps).length < 2 ^ 32) :
    ReplacementGroup.addAll σ ((groupOf 0 ps).map Rep.triple) = .ok ⟨groupOf 0 ps, true⟩ := by
  rw [addAll_eq_done σ (groupOf 0 ps) (fun r hr => ⟨groupOf_wf 0 ps r hr, by
    have := groupOf_stop_le 0 ps r hr
    have hb : uintBound = 2 ^ 32 := rfl
    rw [hb]; omega⟩)]
  exact done_groupOf σ 0 ps false false h

/-- The shape shared by the three operators. -/
theorem lstOp_pieces (σ : SetOrder) (ts : List (Int × Int × List Tok)) (ps : List (Piece Tok Tok))
    (l out : List Tok) (hts : ts = (groupOf 0 ps).map Rep.triple) (hsrc : srcOf ps = l)
    (hdst : dstOf ps = out) (hsep : Separated false ps) (hlen : l.length < 2 ^ 32) :
    ReplacementGroup.addAll σ ts = .ok ⟨groupOf 0 ps, true⟩ ∧
    Lst2Lst.apply l ⟨groupOf 0 ps, true⟩ = .ok out := by
  subst hsrc; subst hdst; subst hts
  exact ⟨addAll_pieces σ ps hsep hlen, lstApply_pieces ps⟩

/-! ### C28 -/

/-- C28: `AddSosEos` on a non-empty token list. -/
theorem C28_add_sos_eos (σ : SetOrder) (sos eos : Tok) (l : List Tok) (hne : l ≠ [])
    (hlen : l.length < 2 ^ 32) :
    ∃ a, AddSosEos.transform σ sos eos l = .ok (sos :: l ++ [eos], a) ∧
      Aligned a l.length (l.length + 2) anyLabels ∧
      (∀ ls : List Int, ls.length = l.length → a.transform ls = .ok (0 :: ls ++ [0])) ∧
      (∀ (ls : List Int) (x y : Int), ls.length = l.length →
        a.inverseTransform (x :: ls ++ [y]) = .ok ls) := by
  let ps : List (Piece Tok Tok) := [sub [] [sos], keep l, sub [] [eos]]
  have hsrc : srcOf ps = l := by simp [ps]
  have hdst : dstOf ps = sos :: l ++ [eos] := by simp [ps]
  have hsep : Separated false ps := by
    have : l.isEmpty = false := by simpa using hne
    simp [ps, Separated, this]
  have hsep' : Separated false (ps.map swap) := by simp [ps, Separated, swap]
  obtain ⟨h1, h2⟩ := lstOp_pieces σ [(0, 0, [sos]), ((l.length : Int), (l.length : Int), [eos])] ps l _
    (by simp [ps, groupOf, Rep.triple]) hsrc hdst hsep hlen
  obtain ⟨p1, p2, p3, _⟩ := lstAligner_pack σ ps Transduce.getNotEntity Transduce.getNotEntity l _ hsrc hdst
    (getNotEntity_good _) (getNotEntity_good _) hsep'
  refine ⟨_, ?_, ?_, fun ls hl => p2 ls _ hl ?_, fun ls x y hl => p3 _ _ ?_ ?_⟩
  · unfold AddSosEos.transform
    rw [h1]
    simp only [Except.bind_ok]
    rw [h2]
    rfl
  · have : (sos :: l ++ [eos]).length = l.length + 2 := by simp
    rw [← this]
    exact p1
  · simp [ps, withLabels, relabel, ← hl, Transduce.getNotEntity, bind, Except.bind, Except.map,
      pure, Except.pure, notEntity]
  · simp [hl]
  · simp [ps, swap, withLabels, relabel, ← hl, Transduce.getNotEntity, bind, Except.bind, Except.map,
      pure, Except.pure]

example : ∃ a, AddSosEos.transform SetOrder.rev (.str startToken) (.str endToken) [.str "a".toList] =
    .ok ([.str startToken, .str "a".toList, .str endToken], a) ∧ a.transform [5] = .ok [0, 5, 0] := by
  obtain ⟨a, h, _, h', _⟩ := C28_add_sos_eos SetOrder.rev (.str startToken) (.str endToken)
    [.str "a".toList] (by simp) (by decide)
  exact ⟨a, h, h' [5] rfl⟩

/-- C28: `AddEndToken` on every token list. -/
theorem C28_add_end_token (σ : SetOrder) (eos : Tok) (l : List Tok) (hlen : l.length < 2 ^ 32) :
    ∃ a, AddEndToken.transform σ eos l = .ok (l ++ [eos], a) ∧
      Aligned a l.length (l.length + 1) anyLabels ∧
      (∀ ls : List Int, ls.length = l.length → a.transform ls = .ok (ls ++ [0])) ∧
      (∀ (ls : List Int) (y : Int), ls.length = l.length → a.inverseTransform (ls ++ [y]) = .ok ls) := by
  let ps : List (Piece Tok Tok) := [keep l, sub [] [eos]]
  have hsrc : srcOf ps = l := by simp [ps]
  have hdst : dstOf ps = l ++ [eos] := by simp [ps]
  have hsep : Separated false ps := by simp [ps, Separated]
  have hsep' : Separated false (ps.map swap) := by simp [ps, Separated, swap]
  obtain ⟨h1, h2⟩ := lstOp_pieces σ [((l.length : Int), (l.length : Int), [eos])] ps l _
    (by simp [ps, groupOf, Rep.triple]) hsrc hdst hsep hlen
  obtain ⟨p1, p2, p3, _⟩ := lstAligner_pack σ ps Transduce.getNotEntity Transduce.getNotEntity l _ hsrc hdst
    (getNotEntity_good _) (getNotEntity_good _) hsep'
  refine ⟨_, ?_, ?_, fun ls hl => p2 ls _ hl ?_, fun ls y hl => p3 _ _ ?_ ?_⟩
  · unfold AddEndToken.transform
    rw [h1]
    simp only [Except.bind_ok]
    rw [h2]
    rfl
  · have : (l ++ [eos]).length = l.length + 1 := by simp
    rw [← this]
    exact p1
  · simp [ps, withLabels, relabel, ← hl, Transduce.getNotEntity, bind, Except.bind, Except.map,
      pure, Except.pure, notEntity]
  · simp [hl]
  · simp [ps, swap, withLabels, relabel, ← hl, Transduce.getNotEntity, bind, Except.bind, Except.map,
      pure, Except.pure]

example : ∃ a, AddEndToken.transform SetOrder.id (.str endToken) [] = .ok ([.str endToken], a) ∧
    a.transform [] = .ok [0] := by
  obtain ⟨a, h, _, h', _⟩ := C28_add_end_token SetOrder.id (.str endToken) [] (by decide)
  exact ⟨a, h, h' [] rfl⟩

/-- C28: round trip of labels is the identity for both operators. -/
theorem C28_round_trip (σ : SetOrder) (sos eos : Tok) (l : List Tok) (hne : l ≠ [])
    (hlen : l.length < 2 ^ 32) (out out' : List Tok) (a a' : Aligner)
    (h : AddSosEos.transform σ sos eos l = .ok (out, a)) (h' : AddEndToken.transform σ eos l = .ok (out', a'))
    (ls : List Int) (hl : ls.length = l.length) :
    (∃ y, a.transform ls = .ok y ∧ a.inverseTransform y = .ok ls) ∧
    (∃ y, a'.transform ls = .ok y ∧ a'.inverseTransform y = .ok ls) := by
  obtain ⟨b, e1, _, e2, e3⟩ := C28_add_sos_eos σ sos eos l hne hlen
  obtain ⟨b', f1, _, f2, f3⟩ := C28_add_end_token σ eos l hlen
  rw [e1] at h; rw [f1] at h'
  injection h with h; injection h with _ h; subst h
  injection h' with h'; injection h' with _ h'; subst h'
  exact ⟨⟨_, e2 ls hl, e3 ls 0 0 hl⟩, ⟨_, f2 ls hl, f3 ls 0 hl⟩⟩

example : ([.str "a".toList] : List Tok) ≠ [] ∧ ([.str "a".toList] : List Tok).length < 2 ^ 32 := by
  constructor <;> decide

/-- C28: the end token of `AddEndToken` must not be empty. -/
theorem C28_empty_end_token (e : Str) :
    (e = [] → AddEndToken.init e = .error .valueError) ∧ (e ≠ [] → AddEndToken.init e = .ok e) := by
  unfold AddEndToken.init
  constructor
  · rintro rfl; rfl
  · intro h; rw [if_neg (fun h0 => h (List.length_eq_zero_iff.mp h0))]

example : AddEndToken.init endToken = .ok endToken := (C28_empty_end_token _).2 (by decide)

/-! ### C29 -/

/-- C29: on the empty list with different tokens, the output is one of the two orders; both label maps
work. -/
theorem C29_empty_list (σ : SetOrder) (sos eos : Tok) (hne : sos ≠ eos) :
    ∃ out a, AddSosEos.transform σ sos eos [] = .ok (out, a) ∧
      (out = [sos, eos] ∨ out = [eos, sos]) ∧ Aligned a 0 2 anyLabels ∧
      a.transform [] = .ok [0, 0] ∧ ∀ x y, a.inverseTransform [x, y] = .ok [] := by
  have hrep : (⟨0, 0, [sos]⟩ : Rep (List Tok)) ≠ ⟨0, 0, [eos]⟩ := by
    intro h; injection h with _ _ h; injection h with h; exact hne h
  have hadd : ReplacementGroup.addAll σ [(0, 0, [sos]), ((([] : List Tok).length : Int), (([] : List Tok).length : Int), [eos])] =
      (⟨[⟨0, 0, [sos]⟩, ⟨0, 0, [eos]⟩], false⟩ : ReplacementGroup (List Tok)).done σ := by
    have := addAll_eq_done σ ([⟨0, 0, [sos]⟩, ⟨0, 0, [eos]⟩] : List (Rep (List Tok))) (by
      intro r hr
      simp only [List.mem_cons, List.not_mem_nil, or_false] at hr
      rcases hr with rfl | rfl <;> exact ⟨Nat.le_refl _, show 0 < uintBound by decide⟩)
    exact this
  have hset : σ.listSet ([⟨0, 0, [sos]⟩, ⟨0, 0, [eos]⟩] : List (Rep (List Tok))) = [⟨0, 0, [sos]⟩, ⟨0, 0, [eos]⟩] ∨
      σ.listSet ([⟨0, 0, [sos]⟩, ⟨0, 0, [eos]⟩] : List (Rep (List Tok))) = [⟨0, 0, [eos]⟩, ⟨0, 0, [sos]⟩] := by
    unfold SetOrder.listSet
    rw [pyDedup_of_nodup (by simp [hrep])]
    have hp := σ.perm _ ([⟨0, 0, [sos]⟩, ⟨0, 0, [eos]⟩] : List (Rep (List Tok)))
    generalize σ.iter _ ([⟨0, 0, [sos]⟩, ⟨0, 0, [eos]⟩] : List (Rep (List Tok))) = q at hp
    have hl := hp.length_eq
    match q, hl with
    | [a, b], _ =>
      have ha : a ∈ ([⟨0, 0, [sos]⟩, ⟨0, 0, [eos]⟩] : List (Rep (List Tok))) := hp.mem_iff.mp (by simp)
      have hb : b ∈ ([⟨0, 0, [sos]⟩, ⟨0, 0, [eos]⟩] : List (Rep (List Tok))) := hp.mem_iff.mp (by simp)
      have hnd : ([a, b] : List (Rep (List Tok))).Nodup := hp.nodup_iff.mpr (by simp [hrep])
      simp only [List.nodup_cons, List.mem_cons, List.not_mem_nil, or_false, not_false_eq_true,
        List.nodup_nil, and_true] at hnd
      simp only [List.mem_cons, List.not_mem_nil, or_false] at ha hb
      rcases ha with rfl | rfl <;> rcases hb with rfl | rfl
      · exact absurd rfl hnd
      · exact Or.inl rfl
      · exact Or.inr rfl
      · exact absurd rfl hnd
  have hpieces : ∀ s e : Tok, σ.listSet ([⟨0, 0, [sos]⟩, ⟨0, 0, [eos]⟩] : List (Rep (List Tok))) =
      [⟨0, 0, [s]⟩, ⟨0, 0, [e]⟩] → ∃ a, AddSosEos.transform σ sos eos [] = .ok ([s, e], a) ∧
      Aligned a 0 2 anyLabels ∧ a.transform [] = .ok [0, 0] ∧ ∀ x y, a.inverseTransform [x, y] = .ok [] := by
    intro s e hs
    let ps : List (Piece Tok Tok) := [sub [] [s], sub [] [e]]
    have hdone : (⟨[⟨0, 0, [sos]⟩, ⟨0, 0, [eos]⟩], false⟩ : ReplacementGroup (List Tok)).done σ =
        .ok ⟨groupOf 0 ps, true⟩ := by
      have hspec := (ReplacementGroup.done_spec σ (⟨[⟨0, 0, [sos]⟩, ⟨0, 0, [eos]⟩], false⟩ : ReplacementGroup (List Tok))
        (by intro r hr; simp only [List.mem_cons, List.not_mem_nil, or_false] at hr
            rcases hr with rfl | rfl <;> exact Nat.le_refl _)).1
        (by intro a _ b _; rfl)
        (by intro a ha b hb _
            simp only [List.mem_cons, List.not_mem_nil, or_false] at ha hb
            rcases ha with rfl | rfl <;> rcases hb with rfl | rfl <;> exact Or.inl (Nat.le_refl _))
      rw [hspec, hs]
      rfl
    obtain ⟨p1, p2, p3, _⟩ := lstAligner_pack σ ps Transduce.getNotEntity Transduce.getNotEntity []
      [s, e] rfl rfl (getNotEntity_good _) (getNotEntity_good _) (by simp [ps, swap, Separated])
    refine ⟨_, ?_, p1, p2 [] _ rfl rfl, fun x y => p3 [x, y] _ rfl rfl⟩
    unfold AddSosEos.transform
    rw [hadd, hdone]
    simp only [Except.bind_ok]
    have := lstApply_pieces ps
    rw [show srcOf ps = [] from rfl, show dstOf ps = [s, e] from rfl] at this
    rw [this]
    rfl
  rcases hset with h | h
  · obtain ⟨a, h1, h2⟩ := hpieces sos eos h
    exact ⟨_, a, h1, Or.inl rfl, h2⟩
  · obtain ⟨a, h1, h2⟩ := hpieces eos sos h
    exact ⟨_, a, h1, Or.inr rfl, h2⟩

example : (Tok.str startToken) ≠ Tok.str endToken := by decide

/-- C29: both orders occur. -/
theorem C29_both_orders :
    (AddSosEos.transform SetOrder.id (.str startToken) (.str endToken) []).map Prod.fst =
      .ok [.str startToken, .str endToken] ∧
    (AddSosEos.transform SetOrder.rev (.str startToken) (.str endToken) []).map Prod.fst =
      .ok [.str endToken, .str startToken] := by decide

/-- C29: with equal tokens only one token is added to the empty list. -/
theorem C29_equal_tokens (σ : SetOrder) (t : Tok) :
    ∃ a, AddSosEos.transform σ t t [] = .ok ([t], a) ∧ Aligned a 0 1 anyLabels := by
  have hadd : ReplacementGroup.addAll σ [(0, 0, [t]), ((([] : List Tok).length : Int), (([] : List Tok).length : Int), [t])] =
      (⟨[⟨0, 0, [t]⟩, ⟨0, 0, [t]⟩], false⟩ : ReplacementGroup (List Tok)).done σ := by
    have := addAll_eq_done σ ([⟨0, 0, [t]⟩, ⟨0, 0, [t]⟩] : List (Rep (List Tok))) (by
      intro r hr
      simp only [List.mem_cons, List.not_mem_nil, or_false] at hr
      rcases hr with rfl | rfl <;> exact ⟨Nat.le_refl _, show 0 < uintBound by decide⟩)
    exact this
  have hset : σ.listSet ([⟨0, 0, [t]⟩, ⟨0, 0, [t]⟩] : List (Rep (List Tok))) = [⟨0, 0, [t]⟩] := by
    unfold SetOrder.listSet
    have : pyDedup ([⟨0, 0, [t]⟩, ⟨0, 0, [t]⟩] : List (Rep (List Tok))) = [⟨0, 0, [t]⟩] := by
      simp [pyDedup]
    rw [this]
    exact List.perm_singleton.mp (σ.perm _ _)
  let ps : List (Piece Tok Tok) := [sub [] [t]]
  have hdone : (⟨[⟨0, 0, [t]⟩, ⟨0, 0, [t]⟩], false⟩ : ReplacementGroup (List Tok)).done σ =
      .ok ⟨groupOf 0 ps, true⟩ := by
    have hspec := (ReplacementGroup.done_spec σ (⟨[⟨0, 0, [t]⟩, ⟨0, 0, [t]⟩], false⟩ : ReplacementGroup (List Tok))
      (by intro r hr; simp only [List.mem_cons, List.not_mem_nil, or_false] at hr
          rcases hr with rfl | rfl <;> exact Nat.le_refl _)).1
      (by intro a _ b _; rfl)
      (by intro a ha b hb _
          simp only [List.mem_cons, List.not_mem_nil, or_false] at ha hb
          rcases ha with rfl | rfl <;> rcases hb with rfl | rfl <;> exact Or.inl (Nat.le_refl _))
    rw [hspec, hset]
    rfl
  obtain ⟨p1, _⟩ := lstAligner_pack σ ps Transduce.getNotEntity Transduce.getNotEntity []
    [t] rfl rfl (getNotEntity_good _) (getNotEntity_good _) (by simp [ps, swap, Separated])
  refine ⟨_, ?_, p1⟩
  unfold AddSosEos.transform
  rw [hadd, hdone]
  simp only [Except.bind_ok]
  have := lstApply_pieces ps
  rw [show srcOf ps = [] from rfl, show dstOf ps = [t] from rfl] at this
  rw [this]
  rfl

example : (AddSosEos.transform SetOrder.id (.int 3) (.int 3) []).map Prod.fst = .ok [.int 3] := by decide

/-! ### C30 -/

/-- C30: `Pad` to `maxlen` tokens; forward labels are padded with 0 or cut, the inverse restores the
labels of the kept prefix and gives 0 to cut tokens. -/
theorem C30_pad (σ : SetOrder) (maxlen : Nat) (pad : Tok) (l : List Tok)
    (hlen : l.length = maxlen ∨ l.length < 2 ^ 32) :
    ∃ a, Pad.transform σ maxlen pad l =
        .ok (l.take maxlen ++ List.replicate (maxlen - l.length) pad, a) ∧
      Aligned a l.length maxlen anyLabels ∧
      (∀ ls : List Int, ls.length = l.length →
        a.transform ls = .ok (ls.take maxlen ++ List.replicate (maxlen - l.length) 0)) ∧
      (∀ ls : List Int, ls.length = maxlen →
        a.inverseTransform ls = .ok (ls.take l.length ++ List.replicate (l.length - maxlen) 0)) := by
  rcases Nat.lt_trichotomy l.length maxlen with hlt | heq | hgt
  · have hlen := hlen.resolve_left (Nat.ne_of_lt hlt)
    let ps : List (Piece Tok Tok) := [keep l, sub [] (List.replicate (maxlen - l.length) pad)]
    have hsrc : srcOf ps = l := by simp [ps]
    have hdst : dstOf ps = l.take maxlen ++ List.replicate (maxlen - l.length) pad := by
      simp [ps, List.take_of_length_le (Nat.le_of_lt hlt)]
    have hsep : Separated false ps := by simp [ps, Separated]
    have hsep' : Separated false (ps.map swap) := by
      apply separated_swap_of_nonempty
      intro o n hm
      simp [ps] at hm
      intro h
      rw [h] at hm
      have := congrArg List.length hm.2
      simp at this; omega
    obtain ⟨h1, h2⟩ := lstOp_pieces σ [((l.length : Int), (l.length : Int), List.replicate (maxlen - l.length) pad)]
      ps l _ (by simp [ps, groupOf, Rep.triple]) hsrc hdst hsep hlen
    obtain ⟨p1, p2, p3, _⟩ := lstAligner_pack σ ps Transduce.getNotEntity Transduce.getNotEntity l _ hsrc hdst
      (getNotEntity_good _) (getNotEntity_good _) hsep'
    have hol : (l.take maxlen ++ List.replicate (maxlen - l.length) pad).length = maxlen := by
      simp; omega
    rw [hol] at p1 p2 p3
    refine ⟨_, ?_, p1, fun ls hl => p2 ls _ hl ?_, fun ls hl => p3 _ _ hl ?_⟩
    · unfold Pad.transform Pad.group
      dsimp only
      rw [if_neg (by omega), if_neg (by omega),
        show ((maxlen : Int) - (l.length : Int)).toNat = maxlen - l.length by omega, h1]
      simp only [Except.bind_ok]
      rw [h2]
      simp only [Except.bind_ok, hol]
      rfl
    · have hm : ls.take maxlen = ls := List.take_of_length_le (by omega)
      simp [ps, withLabels, relabel, ← hl, Transduce.getNotEntity, bind, Except.bind, Except.map,
        pure, Except.pure, notEntity, hm]
    · have hz : l.length - maxlen = 0 := by omega
      simp [ps, swap, withLabels, relabel, Transduce.getNotEntity, bind, Except.bind, Except.map,
        pure, Except.pure, hz]
  · let ps : List (Piece Tok Tok) := [keep l]
    have hsrc : srcOf ps = l := by simp [ps]
    have hdst : dstOf ps = l.take maxlen ++ List.replicate (maxlen - l.length) pad := by
      simp [ps, ← heq]
    have hsep : Separated false ps := by simp [ps, Separated]
    have hsep' : Separated false (ps.map swap) := by simp [ps, Separated, swap]
    have h1 : ReplacementGroup.addAll σ [] = .ok ⟨groupOf 0 ps, true⟩ := by
      have := done_groupOf σ 0 ps false false hsep
      simpa [ps, groupOf, ReplacementGroup.addAll, ReplacementGroup.empty, bind, Except.bind, pure, Except.pure]
        using this
    have h2 := lstApply_pieces ps
    rw [hsrc, hdst] at h2
    obtain ⟨p1, p2, p3, _⟩ := lstAligner_pack σ ps Transduce.getNotEntity Transduce.getNotEntity l _ hsrc hdst
      (getNotEntity_good _) (getNotEntity_good _) hsep'
    have hol : (l.take maxlen ++ List.replicate (maxlen - l.length) pad).length = maxlen := by
      simp; omega
    rw [hol] at p1 p2 p3
    refine ⟨_, ?_, p1, fun ls hl => p2 ls _ hl ?_, fun ls hl => p3 _ _ hl ?_⟩
    · unfold Pad.transform Pad.group
      dsimp only
      rw [if_pos (by omega), h1]
      simp only [Except.bind_ok]
      rw [h2]
      simp only [Except.bind_ok, hol]
      rfl
    · have hm : ls.take maxlen = ls := List.take_of_length_le (by omega)
      simp [ps, withLabels, relabel, ← hl, Except.map, hm]; omega
    · simp [ps, swap, withLabels, relabel, Except.map, heq]
  · have hlen := hlen.resolve_left (Nat.ne_of_gt hgt)
    let ps : List (Piece Tok Tok) := [keep (l.take maxlen), sub (l.drop maxlen) []]
    have hsrc : srcOf ps = l := by simp [ps]
    have hdst : dstOf ps = l.take maxlen ++ List.replicate (maxlen - l.length) pad := by
      have : maxlen - l.length = 0 := by omega
      simp [ps, this]
    have hdne : (l.drop maxlen).isEmpty = false := by
      rw [List.isEmpty_eq_false_iff]
      intro h
      have := congrArg List.length h
      rw [List.length_drop] at this; simp at this; omega
    have htl : (l.take maxlen).length = maxlen := by rw [List.length_take]; omega
    have hsep : Separated false ps := by simp only [ps, Separated, hdne]; simp
    have hsep' : Separated false (ps.map swap) := by simp [ps, Separated, swap]
    obtain ⟨h1, h2⟩ := lstOp_pieces σ [((maxlen : Int), (l.length : Int), [])] ps l _ (by
        simp only [ps, groupOf, Rep.triple, List.map_cons, List.map_nil, htl, List.length_drop, Nat.zero_add]
        congr 3
        omega) hsrc hdst hsep hlen
    obtain ⟨p1, p2, p3, _⟩ := lstAligner_pack σ ps Transduce.getNotEntity Transduce.getNotEntity l _ hsrc hdst
      (getNotEntity_good _) (getNotEntity_good _) hsep'
    have hol : (l.take maxlen ++ List.replicate (maxlen - l.length) pad).length = maxlen := by
      simp; omega
    rw [hol] at p1 p2 p3
    refine ⟨_, ?_, p1, fun ls hl => p2 ls _ hl ?_, fun ls hl => p3 _ _ hl ?_⟩
    · unfold Pad.transform Pad.group
      dsimp only
      rw [if_neg (by omega), if_pos (by omega), h1]
      simp only [Except.bind_ok]
      rw [h2]
      simp only [Except.bind_ok, hol]
      rfl
    · have hz : maxlen - l.length = 0 := by omega
      simp only [ps, withLabels, htl]
      simp [relabel, Transduce.getNotEntity, bind, Except.bind, Except.map, pure, Except.pure, hz]
    · have hm : ls.take l.length = ls := List.take_of_length_le (by omega)
      have hm' : ls.take maxlen = ls := List.take_of_length_le (by omega)
      simp only [ps, swap, withLabels, List.map_cons, List.map_nil, htl]
      simp [relabel, Transduce.getNotEntity, bind, Except.bind, Except.map, pure, Except.pure,
        notEntity, hm, hm']

example : ∃ a, Pad.transform SetOrder.id 3 (.str padToken) [.int 1, .int 2, .int 4, .int 5] =
    .ok ([.int 1, .int 2, .int 4], a) ∧ a.inverseTransform [7, 8, 9] = .ok [7, 8, 9, 0] := by
  obtain ⟨a, h, _, _, h'⟩ := C30_pad SetOrder.id 3 (.str padToken) [.int 1, .int 2, .int 4, .int 5]
    (Or.inr (by decide))
  exact ⟨a, h, h' [7, 8, 9] rfl⟩

/-- `add_all` converts the bounds to C `unsigned int`. -/
theorem addAll_bounds {V : Type} [DecidableEq V] [NewValue V] (σ : SetOrder) (ts : List (Int × Int × V))
    (g : ReplacementGroup V) (h : ReplacementGroup.addAll σ ts = .ok g) :
    ∀ t ∈ ts, 0 ≤ t.1 ∧ t.1 < 2 ^ 32 ∧ 0 ≤ t.2.1 ∧ t.2.1 < 2 ^ 32 := by
  have gen : ∀ (ts : List (Int × Int × V)) (g g' : ReplacementGroup V),
      ts.foldlM (fun g (r : Int × Int × V) => g.addPy r.1 r.2.1 r.2.2) g = .ok g' →
      ∀ t ∈ ts, 0 ≤ t.1 ∧ t.1 < 2 ^ 32 ∧ 0 ≤ t.2.1 ∧ t.2.1 < 2 ^ 32 := by
    intro ts
    induction ts with
    | nil => intro _ _ _ t ht; cases ht
    | cons x ts ih =>
      intro g g' h t ht
      simp only [List.foldlM_cons] at h
      unfold ReplacementGroup.addPy at h
      have hb : uintBound = 2 ^ 32 := rfl
      rcases toUInt_cases x.1 with h1 | ⟨a, h1, h1', h1''⟩
      · rw [h1] at h; simp [bind, Except.bind] at h
      · rcases toUInt_cases x.2.1 with h2 | ⟨b, h2, h2', h2''⟩
        · rw [h1, h2] at h; simp [bind, Except.bind] at h
        · rcases List.mem_cons.mp ht with rfl | ht
          · rw [hb] at h1'' h2''
            rw [h1', h2']
            omega
          · rw [h1, h2] at h
            simp only [bind, Except.bind, pure, Except.pure] at h
            exact ih _ _ h t ht
  unfold ReplacementGroup.addAll at h
  cases hf : ts.foldlM (fun g (r : Int × Int × V) => g.addPy r.1 r.2.1 r.2.2) ReplacementGroup.empty with
  | error e => rw [hf] at h; cases h
  | ok g' => exact gen ts _ g' hf

/-- C30: sequences of 2^32 or more elements, if they have to be changed, raise. -/
theorem C30_too_long (σ : SetOrder) (maxlen : Int) (pad : Tok) (l : List Tok) (h : (l.length : Int) ≠ maxlen)
    (hlen : 2 ^ 32 ≤ l.length) : ∀ r, Pad.transform σ maxlen pad l ≠ .ok r := by
  intro r hr
  unfold Pad.transform Pad.group at hr
  dsimp only at hr
  rw [if_neg h] at hr
  split at hr
  · cases ha : ReplacementGroup.addAll σ [(maxlen, (l.length : Int), ([] : List Tok))] with
    | error e => rw [ha] at hr; cases hr
    | ok g =>
      have := addAll_bounds σ _ g ha _ (List.mem_singleton.mpr rfl)
      dsimp only at this
      omega
  · cases ha : ReplacementGroup.addAll σ [((l.length : Int), (l.length : Int),
        List.replicate (maxlen - (l.length : Int)).toNat pad)] with
    | error e => rw [ha] at hr; cases hr
    | ok g =>
      have := addAll_bounds σ _ g ha _ (List.mem_singleton.mpr rfl)
      dsimp only at this
      omega

example : ∀ r, Pad.transform SetOrder.id 3 (.str padToken) (List.replicate (2 ^ 32) (.int 0)) ≠ .ok r :=
  C30_too_long _ _ _ _ (by rw [List.length_replicate]; decide) (by rw [List.length_replicate]; exact Nat.le_refl _)

/-- C30: a negative `maxlen` raises OverflowError. -/
theorem C30_negative (σ : SetOrder) (maxlen : Int) (pad : Tok) (l : List Tok) (h : maxlen < 0) :
    Pad.transform σ maxlen pad l = .error .overflowError := by
  unfold Pad.transform Pad.group
  dsimp only
  rw [if_neg (by omega), if_pos (by omega)]
  have hu : toUInt maxlen = .error .overflowError := by
    unfold toUInt
    rw [if_neg (by omega)]
  unfold ReplacementGroup.addAll
  simp only [List.foldlM, ReplacementGroup.addPy]
  rw [hu]
  rfl

example : Pad.transform SetOrder.id (-1) (.str padToken) [] = .error .overflowError :=
  C30_negative _ _ _ _ (by decide)

end Uttut
