import Verif.Lemmas.Tok
import Verif.Spec.Extend
import Verif.Lemmas.Spans
import Verif.Props.Spans
import Verif.Props.Text
import Verif.Props.Trie

/-! Properties C37 and C39-C42: the tokenizers. -/

namespace Uttut

open Spec Piece

/-! ### labels of a tokenizer -/

theorem tokenLabel_spec (seg : List Int) :
    getMostCommonLabel seg 1 = .ok [tokenLabel seg] := by
  by_cases hne : seg = []
  · subst hne; rfl
  unfold tokenLabel
  by_cases h : ∀ x ∈ seg, 0 ≤ x ∧ x < 2 ^ 32
  · rw [if_pos h, (C08_default_transducer seg 1 h).1 _ (isFirstMode_firstMode seg hne)]
    rfl
  · rw [if_neg h, C09_reduce_negative_is_zero seg 1]
    · rfl
    · simp only [Classical.not_forall] at h
      obtain ⟨x, hx, hn⟩ := h
      exact ⟨x, hx, by omega⟩

theorem relabel_gap (f : Transducer) (g : Str) (hf : g = [] ∨ ∀ x, f x 0 = .ok []) (ls : List Int)
    (ps : List (Piece Char Char)) (y : List Int)
    (h : relabel f (withLabels ps (ls.drop g.length)) = .ok y) :
    relabel f (withLabels (gapPiece g :: ps) ls) = .ok y := by
  unfold gapPiece
  by_cases hg : g = []
  · subst hg
    simp only [if_true, withLabels]
    simpa using relabel_cons_keep f (ls.take 0) _ y h
  · have hf := hf.resolve_left hg
    rw [if_neg hg]
    simp only [withLabels]
    exact relabel_cons_sub f _ [] _ [] y (hf _) h

theorem relabel_tokPieces (f : Transducer) (ps : List (Str × Str)) (tail : Str)
    (hf : ((∀ p ∈ ps, p.1 = []) ∧ tail = []) ∨ ∀ x, f x 0 = .ok []) (ls : List Int) :
    relabel f (withLabels (tokPieces ps tail) ls) = .ok (tokenSegs ps ls).flatten := by
  induction ps generalizing ls with
  | nil =>
    exact relabel_gap f tail (hf.imp (fun h => h.2) id) ls [] [] rfl
  | cons p ps ih =>
    have ih := ih (hf.imp (fun h => ⟨fun q hq => h.1 q (by simp [hq]), h.2⟩) id)
      (ls.drop (p.1.length + p.2.length))
    have e : tokPieces (p :: ps) tail = gapPiece p.1 :: keep p.2 :: tokPieces ps tail := rfl
    rw [e]
    refine relabel_gap f p.1 (hf.imp (fun h => h.1 p (by simp)) id) ls _ _ ?_
    simp only [withLabels, tokenSegs, List.flatten_cons]
    rw [List.drop_drop]
    exact relabel_cons_keep f _ _ _ ih

theorem tokenSegs_lengths (ps : List (Str × Str)) (tail : Str) (ls : List Int)
    (h : ls.length = (layout ps tail).length) :
    (tokenSegs ps ls).map List.length = ps.map fun p => p.2.length := by
  induction ps generalizing ls with
  | nil => rfl
  | cons p ps ih =>
    simp only [layout, List.flatMap_cons, List.length_append] at h
    simp only [tokenSegs, List.map_cons]
    rw [ih _ (by simp only [layout, List.length_append, List.length_drop]; omega)]
    congr 1
    simp only [List.length_take, List.length_drop]
    omega

theorem relabel_gap_back (b : Transducer) (fill : Nat → List Int) (h0 : fill 0 = []) (g : Str)
    (hb : g = [] ∨ ∀ n, b [] n = .ok (fill n))
    (ls : List Int) (ps : List (Piece Char Char)) (y : List Int)
    (h : relabel b (withLabels (ps.map swap) ls) = .ok y) :
    relabel b (withLabels ((gapPiece g :: ps).map swap) ls) = .ok (fill g.length ++ y) := by
  unfold gapPiece
  by_cases hg : g = []
  · subst hg
    simp only [if_true, List.map_cons, swap, withLabels]
    have := relabel_cons_keep b (ls.take 0) _ y h
    simpa [h0] using this
  · have hb := hb.resolve_left hg
    rw [if_neg hg]
    simp only [List.map_cons, swap, withLabels, List.length_nil, List.take_zero, List.drop_zero]
    exact relabel_cons_sub b _ g _ _ y (hb _) h

theorem relabel_tokPieces_back (b : Transducer) (fill : Nat → List Int) (h0 : fill 0 = [])
    (ps : List (Str × Str)) (tail : Str)
    (hb : ((∀ p ∈ ps, p.1 = []) ∧ tail = []) ∨ ∀ n, b [] n = .ok (fill n)) (ys : List Int)
    (hy : ys.length = ps.length) :
    relabel b (withLabels ((tokPieces ps tail).map swap)
      (((ps.map fun p => p.2.length).zip ys).flatMap fun x => List.replicate x.1 x.2)) =
        .ok (charLabelsBy fill ps tail ys) := by
  induction ps generalizing ys with
  | nil =>
    have := relabel_gap_back b fill h0 tail (hb.imp (fun h => h.2) id) [] [] [] rfl
    simp only [List.append_nil] at this
    exact this
  | cons p ps ih =>
    cases ys with
    | nil => simp at hy
    | cons y ys =>
      have ih := ih (hb.imp (fun h => ⟨fun q hq => h.1 q (by simp [hq]), h.2⟩) id) ys (by simpa using hy)
      have e : tokPieces (p :: ps) tail = gapPiece p.1 :: keep p.2 :: tokPieces ps tail := rfl
      rw [e, charLabelsBy, List.append_assoc]
      refine relabel_gap_back b fill h0 p.1 (hb.imp (fun h => h.1 p (by simp)) id) _ _ _ ?_
      simp only [List.map_cons, List.zip_cons_cons, List.flatMap_cons, swap, withLabels]
      rw [List.take_append_of_le_length (by simp), List.drop_append_of_le_length (by simp),
        List.take_of_length_le (by simp), List.drop_of_length_le (by simp)]
      exact relabel_cons_keep b _ _ _ ih

theorem charLabelsBy_zero (ps : List (Str × Str)) (tail : Str) (ys : List Int) :
    charLabelsBy (fun n => List.replicate n 0) ps tail ys = charLabels ps tail ys := by
  induction ps generalizing ys with
  | nil => rfl
  | cons p ps ih =>
    cases ys with
    | nil => rfl
    | cons y ys => simp only [charLabelsBy, charLabels, ih]

theorem charLabelsBy_length (fill : Nat → List Int) (hfill : ∀ n, (fill n).length = n) (ps : List (Str × Str))
    (tail : Str) (ys : List Int) (hy : ys.length = ps.length) :
    (charLabelsBy fill ps tail ys).length = (layout ps tail).length := by
  induction ps generalizing ys with
  | nil => simp [charLabelsBy, layout, hfill]
  | cons p ps ih =>
    cases ys with
    | nil => simp at hy
    | cons y ys =>
      have := ih ys (by simpa using hy)
      simp only [layout, List.length_append] at this
      simp only [charLabelsBy, layout, List.length_append, List.length_replicate, List.flatMap_cons, this, hfill]
      omega

theorem charLabels_length (ps : List (Str × Str)) (tail : Str) (ys : List Int) (hy : ys.length = ps.length) :
    (charLabels ps tail ys).length = (layout ps tail).length := by
  induction ps generalizing ys with
  | nil => simp [charLabels, layout]
  | cons p ps ih =>
    cases ys with
    | nil => simp at hy
    | cons y ys =>
      have := ih ys (by simpa using hy)
      simp only [layout, List.length_append] at this
      simp only [charLabels, layout, List.length_append, List.length_replicate, List.flatMap_cons, this]
      omega

theorem tokenSegs_charLabelsBy (fill : Nat → List Int) (hfill : ∀ n, (fill n).length = n) (ps : List (Str × Str))
    (tail : Str) (ys : List Int) (hy : ys.length = ps.length) :
    tokenSegs ps (charLabelsBy fill ps tail ys) =
      (ps.zip ys).map fun x => List.replicate x.1.2.length x.2 := by
  induction ps generalizing ys with
  | nil => rfl
  | cons p ps ih =>
    cases ys with
    | nil => simp at hy
    | cons y ys =>
      simp only [tokenSegs, charLabelsBy, List.zip_cons_cons, List.map_cons]
      rw [← ih ys (by simpa using hy)]
      congr 1
      · rw [List.append_assoc, List.drop_left' (hfill _), List.take_left' (by simp)]
      · rw [List.drop_left' (by simp [hfill])]

theorem tokenSegs_charLabels (ps : List (Str × Str)) (tail : Str) (ys : List Int) (hy : ys.length = ps.length) :
    tokenSegs ps (charLabels ps tail ys) =
      (ps.zip ys).map fun x => List.replicate x.1.2.length x.2 := by
  rw [← charLabelsBy_zero]
  exact tokenSegs_charLabelsBy _ (fun n => by simp) ps tail ys hy

theorem firstMode_replicate' (k : Nat) (hk : 0 < k) (x : Int) : firstMode (List.replicate k x) = x := by
  have hne : List.replicate k x ≠ [] := by
    intro e; have := congrArg List.length e; simp at this; omega
  exact List.eq_of_mem_replicate (isFirstMode_firstMode _ hne).1

theorem tokenLabel_replicate (k : Nat) (hk : 0 < k) (x : Int) (hx : 0 ≤ x ∧ x < 2 ^ 32) :
    tokenLabel (List.replicate k x) = x := by
  unfold tokenLabel
  rw [if_pos (fun y hy => by rw [List.eq_of_mem_replicate hy]; exact hx)]
  exact firstMode_replicate' k hk x

theorem map_tokenLabel_charLabelsBy (fill : Nat → List Int) (hfill : ∀ n, (fill n).length = n)
    (ps : List (Str × Str)) (tail : Str) (ys : List Int)
    (hy : ys.length = ps.length) (hne : ∀ p ∈ ps, p.2 ≠ []) (hu : uintLabels ys) :
    (tokenSegs ps (charLabelsBy fill ps tail ys)).map tokenLabel = ys := by
  rw [tokenSegs_charLabelsBy fill hfill ps tail ys hy]
  clear tail
  induction ps generalizing ys with
  | nil => simp at hy; simp [hy]
  | cons p ps ih =>
    cases ys with
    | nil => simp at hy
    | cons y ys =>
      simp only [List.zip_cons_cons, List.map_cons]
      rw [ih ys (by simpa using hy) (fun q hq => hne q (by simp [hq])) (fun x hx => hu x (by simp [hx])),
        tokenLabel_replicate _ (List.length_pos_iff.mpr (hne p (by simp))) y (hu y (by simp))]

theorem map_tokenLabel_charLabels (ps : List (Str × Str)) (tail : Str) (ys : List Int)
    (hy : ys.length = ps.length) (hne : ∀ p ∈ ps, p.2 ≠ []) (hu : uintLabels ys) :
    (tokenSegs ps (charLabels ps tail ys)).map tokenLabel = ys := by
  rw [← charLabelsBy_zero]
  exact map_tokenLabel_charLabelsBy _ (fun n => by simp) ps tail ys hy hne hu

/-- What is required of a tokenizer's result: `ps` and `tail` cut the input into tokens and dropped text. -/
structure TokenLabels (a : Aligner) (ps : List (Str × Str)) (tail : Str) : Prop where
  aligned : Aligned a (layout ps tail).length ps.length uintLabels
  forward : ∀ ls, ls.length = (layout ps tail).length →
    a.transform ls = .ok ((tokenSegs ps ls).map tokenLabel)
  backward : ∀ ys, ys.length = ps.length → uintLabels ys →
    a.inverseTransform ys = .ok (charLabels ps tail ys)
  overflow : ∀ ys, ys.length = ps.length → ¬ uintLabels ys →
    a.inverseTransform ys = .error .overflowError
  roundTrip : ∀ ys, ys.length = ps.length → uintLabels ys →
    ∃ ls, a.inverseTransform ys = .ok ls ∧ a.transform ls = .ok ys

/-- A tokenizer whose tokens have been placed. -/
theorem tokenizer_placed (σ : SetOrder) (f b : Transducer) (fill : Nat → List Int)
    (hfill : ∀ n, (fill n).length = n) (ps : List (Str × Str)) (tail : Str)
    (hplace : Str2Lst.genReplacementGroup σ (layout ps tail) (ps.map Prod.snd) =
      .ok ⟨groupOf 0 (tokPieces ps tail), true⟩) (hsolid : Solid ps)
    (hfb : ((∀ p ∈ ps, p.1 = []) ∧ tail = []) ∨
      ((∀ x, f x 0 = .ok []) ∧ ∀ n, b [] n = .ok (fill n))) :
    ∃ a, tokenizerTransform σ f b (layout ps tail) (ps.map Prod.snd) = .ok (ps.map Prod.snd, a) ∧
      Aligned a (layout ps tail).length ps.length uintLabels ∧
      (∀ ls, ls.length = (layout ps tail).length → a.transform ls = .ok ((tokenSegs ps ls).map tokenLabel)) ∧
      (∀ ys, ys.length = ps.length → uintLabels ys →
        a.inverseTransform ys = .ok (charLabelsBy fill ps tail ys)) ∧
      (∀ ys, ys.length = ps.length → ¬ uintLabels ys → a.inverseTransform ys = .error .overflowError) := by
  have h0 : fill 0 = [] := List.length_eq_zero_iff.mp (hfill 0)
  have hf := hfb.imp id (fun h => h.1)
  have hb := hfb.imp id (fun h => h.2)
  have hsrc : srcOf (tokPieces ps tail) = layout ps tail := srcOf_tokPieces ps tail
  have hdst := dstOf_tokPieces ps tail
  have hsep := separated_swap_tokPieces ps tail hsolid
  have hT : tokenizerTransform σ f b (layout ps tail) (ps.map Prod.snd) =
      .ok (ps.map Prod.snd, Aligner.ofTokens σ (layout ps tail) ⟨groupOf 0 (tokPieces ps tail), true⟩
        ⟨consecutive 0 ((ps.map Prod.snd).map List.length), true⟩ (ps.map Prod.snd).length f b) := by
    have e1 : Str2Lst.genReplacementGroup σ (layout ps tail) (ps.map Prod.snd) =
        .ok ⟨groupOf 0 (tokPieces ps tail), true⟩ := hplace
    have e2 := strApply_pieces (tokPieces ps tail)
    rw [hsrc, hdst] at e2
    unfold tokenizerTransform
    rw [e1]
    simp only [Except.bind_ok, e2, genSpanGroup_eq]
    rfl
  have hlens : (ps.map Prod.snd).map List.length = ps.map fun p => p.2.length := by simp
  have hrf : Respects f (tokPieces ps tail) := by
    rcases hf with ⟨h1, h2⟩ | h
    · intro o n hm
      exfalso
      subst h2
      have : ∀ q ∈ tokPieces ps [], ∃ l, q = keep l := by
        intro q hq
        simp only [tokPieces, pairPieces, List.mem_append, List.mem_flatMap, List.mem_cons,
          List.not_mem_nil, or_false] at hq
        rcases hq with ⟨p, hp, rfl | rfl⟩ | rfl
        · rw [h1 p hp]; exact ⟨[], rfl⟩
        · exact ⟨_, rfl⟩
        · exact ⟨[], rfl⟩
      obtain ⟨l, hl⟩ := this _ hm
      simp at hl
    · intro o n hm x y hx hy
      have : n = [] := by
        simp only [tokPieces, pairPieces, List.mem_append, List.mem_flatMap, List.mem_cons,
          List.not_mem_nil, or_false] at hm
        have hgap : ∀ g, sub o n = gapPiece g → n = [] := by
          intro g hg
          unfold gapPiece at hg
          split at hg
          · simp at hg
          · simp at hg; exact hg.2
        rcases hm with ⟨p, hp, h | h⟩ | h
        · exact hgap _ h
        · simp at h
        · exact hgap _ h
      subst this
      rw [show f x ([] : Str).length = .ok [] from h x] at hy
      injection hy with hy
      rw [← hy]
      rfl
  have hrb : Respects b ((tokPieces ps tail).map swap) := by
    rcases hb with ⟨h1, h2⟩ | h
    · intro o n hm
      exfalso
      subst h2
      have hm := mem_map_swap hm
      have : ∀ q ∈ tokPieces ps [], ∃ l, q = keep l := by
        intro q hq
        simp only [tokPieces, pairPieces, List.mem_append, List.mem_flatMap, List.mem_cons,
          List.not_mem_nil, or_false] at hq
        rcases hq with ⟨p, hp, rfl | rfl⟩ | rfl
        · rw [h1 p hp]; exact ⟨[], rfl⟩
        · exact ⟨_, rfl⟩
        · exact ⟨[], rfl⟩
      obtain ⟨l, hl⟩ := this _ hm
      simp at hl
    · intro o n hm x y hx hy
      have hm := mem_map_swap hm
      have : o = [] := by
        simp only [tokPieces, pairPieces, List.mem_append, List.mem_flatMap, List.mem_cons,
          List.not_mem_nil, or_false] at hm
        have hgap : ∀ g, sub n o = gapPiece g → o = [] := by
          intro g hg
          unfold gapPiece at hg
          split at hg
          · simp at hg
          · simp at hg; exact hg.2
        rcases hm with ⟨p, hp, h | h⟩ | h
        · exact hgap _ h
        · simp at h
        · exact hgap _ h
      subst this
      rw [List.length_eq_zero_iff.mp hx, h] at hy
      injection hy with hy
      rw [← hy]; exact hfill _
  have htiles := tiles_consecutive 0 ((ps.map Prod.snd).map List.length)
  have hspans : ∀ (ns : List Nat) (off : Nat), (consecutive off ns).map (fun s => s.stop - s.start) = ns := by
    intro ns
    induction ns with
    | nil => intro off; rfl
    | cons n ns ih => intro off; simp [consecutive, ih]
  have hfwd : ∀ ls, ls.length = (layout ps tail).length →
      (Aligner.ofTokens σ (layout ps tail) ⟨groupOf 0 (tokPieces ps tail), true⟩
        ⟨consecutive 0 ((ps.map Prod.snd).map List.length), true⟩ (ps.map Prod.snd).length f b).transform ls =
        .ok ((tokenSegs ps ls).map tokenLabel) := by
    intro ls hl
    refine Aligner.transform_of_fwd _ _ _ hl ?_ ?_
    · show (do
        let l ← propagate ls ⟨groupOf 0 (tokPieces ps tail), true⟩ f
        reduceBySpanGroup l ⟨consecutive 0 ((ps.map Prod.snd).map List.length), true⟩) = _
      rw [propagate_withLabels f _ ls hrf (by rw [hsrc]; exact hl), relabel_tokPieces f ps tail hf ls]
      simp only [Except.bind_ok]
      have hs := slices_flatten [] (tokenSegs ps ls) (consecutive 0 ((ps.map Prod.snd).map List.length))
        htiles (by rw [hspans, hlens, tokenSegs_lengths ps tail ls hl])
      simp only [List.nil_append, List.length_nil] at hs
      rw [reduce_eq _ _ (fun s => tokenLabel (slice (tokenSegs ps ls).flatten s.start s.stop)) _ hs.2]
      · have e := congrArg (List.map tokenLabel) hs.1
        rw [List.map_map] at e
        rw [← e]; rfl
      · intro s _
        exact tokenLabel_spec _
    · have := congrArg List.length (tokenSegs_lengths ps tail ls hl)
      simp only [List.length_map] at this
      simp only [List.length_map, this]
      simp [Aligner.ofTokens]
  have hexp : ∀ ys : List Int, ys.length = ps.length →
      (consecutive 0 ((ps.map Prod.snd).map List.length)).length = ys.length := by
    intro ys hy
    rw [length_consecutive]; simp [hy]
  have hspread : ∀ ys : List Int, spread (consecutive 0 ((ps.map Prod.snd).map List.length)) ys =
      ((ps.map fun p => p.2.length).zip ys).flatMap fun x => List.replicate x.1 x.2 := by
    intro ys
    have : ∀ (ns : List Nat) (off : Nat) (ys : List Int), spread (consecutive off ns) ys =
        (ns.zip ys).flatMap fun x => List.replicate x.1 x.2 := by
      intro ns
      induction ns with
      | nil => intro off ys; simp [consecutive, spread]
      | cons n ns ih =>
        intro off ys
        cases ys with
        | nil => simp [consecutive, spread]
        | cons y ys =>
          have := ih (off + n) ys
          unfold spread at this ⊢
          simp only [consecutive, List.zip_cons_cons, List.flatMap_cons, List.map_cons, List.flatten_cons, this]
          congr 2
          omega
    rw [this, hlens]
  have hbwd : ∀ ys, ys.length = ps.length → uintLabels ys →
      (Aligner.ofTokens σ (layout ps tail) ⟨groupOf 0 (tokPieces ps tail), true⟩
        ⟨consecutive 0 ((ps.map Prod.snd).map List.length), true⟩ (ps.map Prod.snd).length f b).inverseTransform ys =
        .ok (charLabelsBy fill ps tail ys) := by
    intro ys hy hu
    refine Aligner.inverse_of_bwd _ _ _ (by simpa [Aligner.ofTokens] using hy) ?_ (charLabelsBy_length fill hfill ps tail ys hy)
    show (do
        let inv ← Str2Str.inverse σ (layout ps tail) ⟨groupOf 0 (tokPieces ps tail), true⟩
        let l ← expandBySpanGroup ys ⟨consecutive 0 ((ps.map Prod.snd).map List.length), true⟩
        propagate l inv b) = _
    have hinv : Str2Str.inverse σ (layout ps tail) ⟨groupOf 0 (tokPieces ps tail), true⟩ =
        .ok ⟨groupOf 0 ((tokPieces ps tail).map swap), true⟩ := by
      rw [← hsrc]; exact editInverse_pieces σ (tokPieces ps tail) hsep
    rw [hinv]
    simp only [Except.bind_ok]
    rw [expand_eq _ ys (hexp ys hy) htiles hu]
    simp only [Except.bind_ok]
    rw [propagate_withLabels b _ _ hrb, hspread, relabel_tokPieces_back b fill h0 ps tail hb ys hy]
    rw [srcOf_swap, hdst, spread_length _ ys 0 (hexp ys hy) htiles, endOf_consecutive]
    simp [List.length_flatten]
  refine ⟨_, hT, ⟨rfl, by simp [Aligner.ofTokens], ?_, ?_⟩, hfwd, hbwd, ?_⟩
  · intro ls hl
    refine ⟨_, hfwd ls hl, ?_⟩
    have := congrArg List.length (tokenSegs_lengths ps tail ls hl)
    simpa using this
  · intro ys hy hu
    exact ⟨_, hbwd ys hy hu, charLabelsBy_length fill hfill ps tail ys hy⟩
  · intro ys hy hu
    have hov : ∃ x ∈ ys, x < 0 ∨ 2 ^ 32 ≤ x := by
      unfold uintLabels at hu
      simp only [Classical.not_forall] at hu
      obtain ⟨x, hx, hn⟩ := hu
      exact ⟨x, hx, by omega⟩
    have hinv : Str2Str.inverse σ (layout ps tail) ⟨groupOf 0 (tokPieces ps tail), true⟩ =
        .ok ⟨groupOf 0 ((tokPieces ps tail).map swap), true⟩ := by
      rw [← hsrc]; exact editInverse_pieces σ (tokPieces ps tail) hsep
    have hexpand : expandBySpanGroup ys ⟨consecutive 0 ((ps.map Prod.snd).map List.length), true⟩
        = .error .overflowError := by
      have hle := hexp ys hy
      have hpos : (consecutive 0 ((ps.map Prod.snd).map List.length)).length ≠ 0 := by
        rw [hle]
        intro h0
        obtain ⟨x, hx, _⟩ := hov
        rw [List.length_eq_zero_iff.mp h0] at hx
        simp at hx
      unfold expandBySpanGroup
      rw [if_neg (fun hn => hn hle), if_neg hpos]
      obtain ⟨l, hl1, hl2⟩ := last_eq (consecutive 0 ((ps.map Prod.snd).map List.length))
        (fun e => hpos (by rw [e]; rfl))
      rw [hl1]
      simp only [Except.bind_ok, SpanGroup.items, if_true]
      exact expandLoop_overflow _ ys [] (List.replicate l.stop notEntity) hle htiles (by simp [hl2]) hov
    unfold Aligner.inverseTransform Aligner.validateOutput
    rw [if_neg (by simp [Aligner.ofTokens, hy])]
    have : (Aligner.ofTokens σ (layout ps tail) ⟨groupOf 0 (tokPieces ps tail), true⟩
        ⟨consecutive 0 ((ps.map Prod.snd).map List.length), true⟩ (ps.map Prod.snd).length f b).bwd ys =
        .error .overflowError := by
      show (do
        let inv ← Str2Str.inverse σ (layout ps tail) ⟨groupOf 0 (tokPieces ps tail), true⟩
        let l ← expandBySpanGroup ys ⟨consecutive 0 ((ps.map Prod.snd).map List.length), true⟩
        propagate l inv b) = _
      rw [hinv, hexpand]
      rfl
    rw [this]
    rfl

theorem tokenizer_op (σ : SetOrder) (f b : Transducer) (ps : List (Str × Str)) (tail : Str)
    (hfit : ∀ p ∈ ps, FirstFit p) (hne : ∀ p ∈ ps, p.2 ≠ [])
    (hfb : ((∀ p ∈ ps, p.1 = []) ∧ tail = []) ∨
      ((∀ x, f x 0 = .ok []) ∧ ∀ n, b [] n = .ok (List.replicate n 0))) :
    ∃ a, tokenizerTransform σ f b (layout ps tail) (ps.map Prod.snd) = .ok (ps.map Prod.snd, a) ∧
      TokenLabels a ps tail := by
  obtain ⟨a, h1, h2, h3, h4, h5⟩ := tokenizer_placed σ f b (fun n => List.replicate n 0) (fun n => by simp) ps tail
    (genReplacementGroup_pairs σ ps tail hfit) (solid_of_firstFit hfit) hfb
  have h4 : ∀ ys, ys.length = ps.length → uintLabels ys → a.inverseTransform ys = .ok (charLabels ps tail ys) :=
    fun ys hy hu => by rw [h4 ys hy hu, charLabelsBy_zero]
  refine ⟨a, h1, h2, h3, h4, h5, fun ys hy hu => ⟨_, h4 ys hy hu, ?_⟩⟩
  rw [h3 _ (charLabels_length ps tail ys hy), map_tokenLabel_charLabels ps tail ys hy hne hu]

/-! ### the scanner -/

/-- A finished word, if any. -/
def emit (cur : Str) : List Str := if cur = [] then [] else [cur]

/-- Tokens of `s` after the unfinished word `cur`. -/
def scanWords (own : Char → Bool) : Str → (cur : Str) → List Str
  | [], cur => emit cur
  | c :: cs, cur =>
    if isSpace c then emit cur ++ scanWords own cs []
    else if own c then emit cur ++ [c] :: scanWords own cs []
    else scanWords own cs (cur ++ [c])

/-- Put `c` in front of the text. -/
def prependGap (c : Char) : List (Str × Str) × Str → List (Str × Str) × Str
  | ([], tail) => ([], c :: tail)
  | ((g, t) :: ps, tail) => ((c :: g, t) :: ps, tail)

theorem tokenizedBy_prepend {own : Char → Bool} {s : Str} {ps : List (Str × Str)} {tail : Str} {c : Char}
    (h : TokenizedBy own s ps tail) (hc : isSpace c = true) :
    TokenizedBy own (c :: s) (prependGap c (ps, tail)).1 (prependGap c (ps, tail)).2 ∧
      (prependGap c (ps, tail)).1.map Prod.snd = ps.map Prod.snd ∧
      ∀ p ∈ (prependGap c (ps, tail)).1.head?, p.1 ≠ [] := by
  cases ps with
  | nil =>
    refine ⟨⟨?_, by simp [prependGap], ?_, by simp [prependGap], by simp [prependGap], by simp [prependGap],
      trivial⟩, rfl, by simp [prependGap]⟩
    · simp [prependGap, layout, h.text]
    · intro d hd
      rcases List.mem_cons.mp hd with rfl | hd
      · exact hc
      · exact h.last d hd
  | cons p ps =>
    obtain ⟨g, t⟩ := p
    refine ⟨⟨?_, ?_, h.last, ?_, ?_, ?_, ?_⟩, rfl, by simp [prependGap]⟩
    · simp [prependGap, layout, h.text]
    · intro p hp d hd
      rcases List.mem_cons.mp hp with rfl | hp
      · rcases List.mem_cons.mp hd with rfl | hd
        · exact hc
        · exact h.gaps (g, t) (by simp) d hd
      · exact h.gaps p (by simp [hp]) d hd
    · intro p hp
      rcases List.mem_cons.mp hp with rfl | hp
      · exact h.nonempty (g, t) (by simp)
      · exact h.nonempty p (by simp [hp])
    · intro p hp
      rcases List.mem_cons.mp hp with rfl | hp
      · exact h.solid (g, t) (by simp)
      · exact h.solid p (by simp [hp])
    · intro p hp
      rcases List.mem_cons.mp hp with rfl | hp
      · exact h.alone (g, t) (by simp)
      · exact h.alone p (by simp [hp])
    · have := h.parted
      cases ps with
      | nil => trivial
      | cons q ps => exact this

/-- Put the token `t` in front of the text. -/
theorem tokenizedBy_cons {own : Char → Bool} {s t : Str} {ps : List (Str × Str)} {tail : Str}
    (h : TokenizedBy own s ps tail) (hne : t ≠ []) (hs : ∀ c ∈ t, isSpace c = false)
    (ha : ∀ c ∈ t, own c = true → t = [c])
    (hp : ∀ q ∈ ps.head?, q.1 = [] → (∃ c ∈ t.getLast?, own c = true) ∨ ∃ c ∈ q.2.head?, own c = true) :
    TokenizedBy own (t ++ s) (([], t) :: ps) tail where
  text := by simp [layout, h.text]
  gaps p hm := by
    rcases List.mem_cons.mp hm with rfl | hm
    · simp
    · exact h.gaps p hm
  last := h.last
  nonempty p hm := by
    rcases List.mem_cons.mp hm with rfl | hm
    · exact hne
    · exact h.nonempty p hm
  solid p hm := by
    rcases List.mem_cons.mp hm with rfl | hm
    · exact hs
    · exact h.solid p hm
  alone p hm := by
    rcases List.mem_cons.mp hm with rfl | hm
    · exact ha
    · exact h.alone p hm
  parted := by
    cases ps with
    | nil => trivial
    | cons q ps => exact ⟨hp q (by simp), h.parted⟩

theorem tokenizedBy_nil (own : Char → Bool) : TokenizedBy own [] [] [] :=
  ⟨rfl, by simp, by simp, by simp, by simp, by simp, trivial⟩

theorem scanWords_spec (own : Char → Bool) (s cur : Str) (h1 : ∀ c ∈ cur, isSpace c = false)
    (h2 : ∀ c ∈ cur, own c = false) :
    ∃ ps tail, TokenizedBy own (cur ++ s) ps tail ∧ ps.map Prod.snd = scanWords own s cur := by
  have halone : ∀ c ∈ cur, own c = true → cur = [c] := fun c hc ho => by
    rw [h2 c hc] at ho; simp at ho
  induction s generalizing cur with
  | nil =>
    by_cases hc : cur = []
    · subst hc
      exact ⟨[], [], tokenizedBy_nil own, rfl⟩
    · refine ⟨[([], cur)], [], tokenizedBy_cons (tokenizedBy_nil own) hc h1 halone (by simp), ?_⟩
      simp [scanWords, emit, hc]
  | cons c cs ih =>
    by_cases hsp : isSpace c = true
    · obtain ⟨ps, tail, e1, e2⟩ := ih [] (by simp) (by simp) (by simp)
      obtain ⟨f1, f2, f3⟩ := tokenizedBy_prepend (c := c) e1 hsp
      simp only [scanWords, if_pos hsp]
      by_cases hc : cur = []
      · subst hc
        exact ⟨_, _, f1, by rw [f2, e2]; rfl⟩
      · refine ⟨_, _, tokenizedBy_cons f1 hc h1 halone (fun q hq he => absurd he (f3 q hq)), ?_⟩
        simp only [List.map_cons, f2, e2, emit, if_neg hc, List.cons_append, List.nil_append]
    · have hsp' : isSpace c = false := by simpa using hsp
      by_cases ho : own c = true
      · obtain ⟨ps, tail, e1, e2⟩ := ih [] (by simp) (by simp) (by simp)
        have g1 : TokenizedBy own ([c] ++ cs) (([], [c]) :: ps) tail :=
          tokenizedBy_cons e1 (by simp) (by simp [hsp']) (by simp) (fun q hq _ => Or.inl ⟨c, by simp, ho⟩)
        simp only [scanWords, if_neg hsp, if_pos ho]
        by_cases hc : cur = []
        · subst hc
          exact ⟨_, _, g1, by simp [e2, emit]⟩
        · refine ⟨_, _, tokenizedBy_cons g1 hc h1 halone
            (fun q hq _ => Or.inr ⟨c, by simp at hq; subst hq; simp, ho⟩), ?_⟩
          simp only [List.map_cons, e2, emit, if_neg hc, List.cons_append, List.nil_append]
      · have ho' : own c = false := by simpa using ho
        simp only [scanWords, if_neg hsp, if_neg ho]
        have k1 : ∀ d ∈ cur ++ [c], isSpace d = false := by
          intro d hd
          rcases List.mem_append.mp hd with hd | hd
          · exact h1 d hd
          · rw [List.mem_singleton.mp hd]; exact hsp'
        have k2 : ∀ d ∈ cur ++ [c], own d = false := by
          intro d hd
          rcases List.mem_append.mp hd with hd | hd
          · exact h2 d hd
          · rw [List.mem_singleton.mp hd]; exact ho'
        have := ih (cur ++ [c]) k1 k2 (fun d hd hod => by rw [k2 d hd] at hod; simp at hod)
        rwa [List.append_assoc] at this

/-! ### the tokenizers in terms of the scanner -/

theorem splitAux_scan (s cur : Str) : splitAux cur s = scanWords (fun _ => false) s cur.reverse := by
  induction s generalizing cur with
  | nil =>
    cases cur with
    | nil => rfl
    | cons c cur => simp [splitAux, scanWords, emit]
  | cons c cs ih =>
    simp only [splitAux, scanWords]
    by_cases h : isSpace c = true
    · rw [if_pos h, if_pos h]
      cases cur with
      | nil => simp [ih, emit]
      | cons d cur => simp [ih, emit]
    · rw [if_neg h, if_neg h, if_neg (by simp), ih]
      simp

theorem pySplit_scan (s : Str) : pySplit s = scanWords (fun _ => false) s [] := splitAux_scan s []

theorem appendLast_append (out : List Str) (w : Str) (c : Char) :
    EngTokenizer.appendLast (out ++ [w]) c = out ++ [w ++ [c]] := by
  induction out with
  | nil => rfl
  | cons v out ih =>
    cases out with
    | nil => rfl
    | cons u out => exact congrArg (v :: ·) ih

theorem splitOnPuncLoop_spec (u : Unicode) (t : Str) (hs : ∀ c ∈ t, isSpace c = false) (out : List Str)
    (cur : Str) :
    EngTokenizer.splitOnPuncLoop u t (decide (cur = [])) (out ++ emit cur) =
      out ++ scanWords (isPunctuation u) t cur := by
  induction t generalizing out cur with
  | nil => rfl
  | cons c cs ih =>
    have ih := ih (fun d hd => hs d (by simp [hd]))
    have hc : isSpace c = false := hs c (by simp)
    simp only [EngTokenizer.splitOnPuncLoop, scanWords, hc, Bool.false_eq_true, if_false]
    by_cases hp : isPunctuation u c = true
    · rw [if_pos hp, if_pos hp]
      have := ih (out ++ emit cur ++ [[c]]) []
      simpa [emit] using this
    · rw [if_neg hp, if_neg hp]
      have := ih out (cur ++ [c])
      rw [show decide (cur ++ [c] = []) = false by simp, show emit (cur ++ [c]) = [cur ++ [c]] by simp [emit]] at this
      rw [← this]
      congr 1
      by_cases he : cur = []
      · subst he
        simp only [decide_true, if_true, emit, List.append_nil]
        rw [appendLast_append]
      · simp only [he, decide_false, Bool.false_eq_true, if_false, emit]
        rw [appendLast_append]

theorem runSplitOnPunc_scan (u : Unicode) (t : Str) (hs : ∀ c ∈ t, isSpace c = false) :
    EngTokenizer.runSplitOnPunc u t = scanWords (isPunctuation u) t [] := by
  have := splitOnPuncLoop_spec u t hs [] []
  simp only [emit, if_true, List.append_nil, List.nil_append, decide_true] at this
  exact this

theorem scanWords_append_emit (own : Char → Bool) (w : Str) (hs : ∀ c ∈ w, isSpace c = false) (rest cur : Str)
    (hr : ∀ c ∈ rest.head?, isSpace c = true) :
    scanWords own (w ++ rest) cur = scanWords own w cur ++ scanWords own rest [] := by
  induction w generalizing cur with
  | nil =>
    cases rest with
    | nil => simp [scanWords, emit]
    | cons d rest =>
      have : isSpace d = true := hr d (by simp)
      simp [scanWords, this, emit]
  | cons c w ih =>
    have hc : isSpace c = false := hs c (by simp)
    have ih := fun cur => ih (fun d hd => hs d (by simp [hd])) cur
    simp only [List.cons_append, scanWords, hc, Bool.false_eq_true, if_false]
    by_cases ho : own c = true
    · rw [if_pos ho, if_pos ho, ih []]
      simp
    · rw [if_neg ho, if_neg ho, ih]

theorem flatMap_scan (own : Char → Bool) (s cur : Str) (hs : ∀ c ∈ cur, isSpace c = false) :
    (scanWords (fun _ => false) s cur).flatMap (fun w => scanWords own w []) = scanWords own (cur ++ s) [] := by
  induction s generalizing cur with
  | nil =>
    simp only [scanWords, List.append_nil]
    unfold emit
    by_cases h : cur = []
    · subst h; simp [scanWords, emit]
    · rw [if_neg h]; simp
  | cons c cs ih =>
    simp only [scanWords]
    by_cases h : isSpace c = true
    · rw [if_pos h, List.flatMap_append, ih [] (by simp), scanWords_append_emit own cur hs _ _ (by simp [h])]
      congr 1
      · unfold emit
        by_cases h : cur = []
        · subst h; simp [scanWords, emit]
        · rw [if_neg h]; simp
      · simp [scanWords, h, emit]
    · have h' : isSpace c = false := by simpa using h
      rw [if_neg h, if_neg (by simp), ih (cur ++ [c])]
      · simp
      · intro d hd
        rcases List.mem_append.mp hd with hd | hd
        · exact hs d hd
        · rw [List.mem_singleton.mp hd]; exact h'

theorem scanWords_mem (own : Char → Bool) (s cur : Str) (hs : ∀ c ∈ cur, isSpace c = false) :
    ∀ w ∈ scanWords own s cur, w ≠ [] ∧ ∀ c ∈ w, isSpace c = false := by
  have hemit : ∀ cur : Str, (∀ c ∈ cur, isSpace c = false) → ∀ w ∈ emit cur, w ≠ [] ∧ ∀ c ∈ w, isSpace c = false := by
    intro cur hs w hw
    unfold emit at hw
    split at hw
    · simp at hw
    · rw [List.mem_singleton.mp hw]; exact ⟨by assumption, hs⟩
  induction s generalizing cur with
  | nil => exact hemit cur hs
  | cons c cs ih =>
    intro w hw
    simp only [scanWords] at hw
    split at hw
    · rcases List.mem_append.mp hw with hw | hw
      · exact hemit cur hs w hw
      · exact ih [] (by simp) w hw
    · rename_i hsp
      have hsp : isSpace c = false := by simpa using hsp
      split at hw
      · rcases List.mem_append.mp hw with hw | hw
        · exact hemit cur hs w hw
        · rcases List.mem_cons.mp hw with rfl | hw
          · exact ⟨by simp, by simp [hsp]⟩
          · exact ih [] (by simp) w hw
      · refine ih (cur ++ [c]) ?_ w hw
        intro d hd
        rcases List.mem_append.mp hd with hd | hd
        · exact hs d hd
        · rw [List.mem_singleton.mp hd]; exact hsp

/-- Splitting what was joined with spaces. -/
theorem pySplit_join (ws : List Str) (h : ∀ w ∈ ws, w ≠ [] ∧ ∀ c ∈ w, isSpace c = false) :
    pySplit (pyJoin [' '] ws) = ws := by
  rw [pySplit_scan]
  induction ws with
  | nil => rfl
  | cons w ws ih =>
    have ih := ih (fun v hv => h v (by simp [hv]))
    obtain ⟨h1, h2⟩ := h w (by simp)
    have hw : scanWords (fun _ => false) w [] = [w] := by
      have : ∀ (t cur : Str), (∀ c ∈ t, isSpace c = false) → scanWords (fun _ => false) t cur = emit (cur ++ t) := by
        intro t
        induction t with
        | nil => intro cur _; simp [scanWords]
        | cons c t ih =>
          intro cur ht
          simp only [scanWords, ht c (by simp), Bool.false_eq_true, if_false]
          rw [ih _ (fun d hd => ht d (by simp [hd]))]
          simp
      rw [this w [] h2]
      simp [emit, h1]
    cases ws with
    | nil => exact hw
    | cons v ws =>
      simp only [pyJoin]
      rw [List.append_assoc, scanWords_append_emit _ w h2 _ _ (by simp; decide), hw]
      have : isSpace ' ' = true := by decide
      simp only [List.cons_append, List.nil_append, scanWords, this, if_true, emit]
      rw [ih]

/-- The tokens of `EngTokenizer`. -/
theorem engTokenize_scan (u : Unicode) (s : Str) :
    EngTokenizer.tokenize u s = scanWords (isPunctuation u) s [] := by
  have e : (pySplit s).flatMap (EngTokenizer.runSplitOnPunc u) = scanWords (isPunctuation u) s [] := by
    have := flatMap_scan (isPunctuation u) s [] (by simp)
    rw [List.nil_append] at this
    rw [← this, pySplit_scan]
    refine flatMap_congr_mem (fun w hw => ?_)
    exact runSplitOnPunc_scan u w (scanWords_mem _ s [] (by simp) w hw).2
  unfold EngTokenizer.tokenize
  rw [e]
  exact pySplit_join _ (scanWords_mem _ s [] (by simp))

theorem isCJK_not_space (c : Char) (h : isCJK c = true) : isSpace c = false := by
  simp only [isCJK, Bool.or_eq_true, Bool.and_eq_true, decide_eq_true_eq, ge_iff_le] at h
  cases hs : isSpace c with
  | false => rfl
  | true =>
    simp only [isSpace, Bool.or_eq_true, Bool.and_eq_true, decide_eq_true_eq, beq_iff_eq] at hs
    omega

theorem zhSpaced_scan (u : Unicode) (s cur : Str) :
    scanWords (isPunctuation u) (ZhCharTokenizer.tokenizeChineseChars s) cur =
      scanWords (fun c => isPunctuation u c || isCJK c) s cur := by
  induction s generalizing cur with
  | nil => rfl
  | cons c cs ih =>
    have hsp : isSpace ' ' = true := by decide
    unfold ZhCharTokenizer.tokenizeChineseChars at ih ⊢
    rw [List.flatMap_cons]
    by_cases h : isCJK c = true
    · have hn := isCJK_not_space c h
      rw [if_pos h]
      simp only [List.cons_append, List.nil_append, scanWords, hsp, if_true, hn, Bool.false_eq_true, if_false, h,
        Bool.or_true, ih]
      by_cases hp : isPunctuation u c = true
      · rw [if_pos hp]; simp [emit]
      · rw [if_neg hp]; simp [emit]
    · rw [if_neg h]
      have h' : isCJK c = false := by simpa using h
      simp only [List.cons_append, List.nil_append, scanWords, h', Bool.or_false, ih]

/-! ### C39, C40, C42: the whitespace, English and Chinese tokenizers -/

theorem firstFit_of_tokenizedBy {own : Char → Bool} {s : Str} {ps : List (Str × Str)} {tail : Str}
    (h : TokenizedBy own s ps tail) : ∀ p ∈ ps, FirstFit p := by
  intro p hp
  cases ht : p.2 with
  | nil => exact absurd ht (h.nonempty p hp)
  | cons c t =>
    refine Or.inr ⟨c, t, ht, fun hc => ?_⟩
    have h1 := h.gaps p hp c hc
    have h2 := h.solid p hp c (by rw [ht]; simp)
    rw [h1] at h2
    simp at h2

theorem except_zero (x : List Int) : Transduce.getMostCommonExceptNotEntity x 0 = .ok [] := by
  rw [getMostCommonExcept_mode]; rfl

theorem except_nil (n : Nat) : Transduce.getMostCommonExceptNotEntity [] n = .ok (List.replicate n 0) := by
  rw [getMostCommonExcept_mode]; rfl

theorem scanTokenizer_op (σ : SetOrder) (own : Char → Bool) (s : Str) (toks : List Str)
    (ht : toks = scanWords own s []) :
    ∃ a ps tail, tokenizerTransform σ Transduce.getMostCommonExceptNotEntity
        Transduce.getMostCommonExceptNotEntity s toks = .ok (ps.map Prod.snd, a) ∧
      TokenizedBy own s ps tail ∧ TokenLabels a ps tail := by
  obtain ⟨ps, tail, h1, h2⟩ := scanWords_spec own s [] (by simp) (by simp)
  rw [List.nil_append] at h1
  subst ht
  rw [← h2]
  obtain ⟨a, ha, hl⟩ := tokenizer_op σ Transduce.getMostCommonExceptNotEntity
    Transduce.getMostCommonExceptNotEntity ps tail (firstFit_of_tokenizedBy h1) h1.nonempty
    (Or.inr ⟨except_zero, except_nil⟩)
  rw [← h1.text] at ha
  exact ⟨a, ps, tail, ha, h1, hl⟩

/-- C39, C42: `WhiteSpaceTokenizer` never raises; it cuts the text at whitespace only, and everywhere there
is whitespace; the labels of a token come from, and go to, its own characters. -/
theorem C39_C42_whitespace (σ : SetOrder) (s : Str) :
    ∃ a ps tail, WhiteSpaceTokenizer.transform σ s = .ok (ps.map Prod.snd, a) ∧
      TokenizedBy (fun _ => false) s ps tail ∧ TokenLabels a ps tail :=
  scanTokenizer_op σ _ s _ (pySplit_scan s)

/-- C39 (also C21, C22, C23, C40): exactly these characters are white space. -/
theorem C39_white_space (c : Char) : isSpace c = true ↔ c.toNat ∈ whiteSpaceCodes := by
  simp only [isSpace, whiteSpaceCodes, List.mem_cons, List.not_mem_nil, or_false, Bool.or_eq_true, Bool.and_eq_true,
    decide_eq_true_eq, beq_iff_eq]
  omega

example : (0x3000 : Nat) ∈ whiteSpaceCodes ∧ isSpace '\u3000' = true ∧ isSpace '\u200B' = false := by decide

/-- C40, C42: `EngTokenizer` never raises; it cuts the text at whitespace and around punctuation. -/
theorem C40_C42_eng (σ : SetOrder) (u : Unicode) (s : Str) :
    ∃ a ps tail, EngTokenizer.transform σ u s = .ok (ps.map Prod.snd, a) ∧
      TokenizedBy (fun c => isPunctuation u c) s ps tail ∧ TokenLabels a ps tail :=
  scanTokenizer_op σ _ s _ (engTokenize_scan u s)

/-- C40, C42: `ZhCharTokenizer` never raises; it cuts the text at whitespace, around punctuation and around
CJK characters. -/
theorem C40_C42_zh (σ : SetOrder) (u : Unicode) (s : Str) :
    ∃ a ps tail, ZhCharTokenizer.transform σ u s = .ok (ps.map Prod.snd, a) ∧
      TokenizedBy (fun c => isPunctuation u c || isCJK c) s ps tail ∧ TokenLabels a ps tail :=
  scanTokenizer_op σ _ s _ ((engTokenize_scan u _).trans (zhSpaced_scan u s []))

/-! `TokenizedBy` determines the tokens. -/

theorem span_unique {p : Char → Bool} {g g' t t' : Str} (hg : ∀ c ∈ g, p c = true) (hg' : ∀ c ∈ g', p c = true)
    (ht : ∀ c ∈ t.head?, p c = false) (ht' : ∀ c ∈ t'.head?, p c = false) (h : g ++ t = g' ++ t') :
    g = g' ∧ t = t' := by
  induction g generalizing g' with
  | nil =>
    cases g' with
    | nil => exact ⟨rfl, h⟩
    | cons c g' =>
      simp only [List.nil_append, List.cons_append] at h
      subst h
      have h1 := hg' c (by simp)
      have h2 := ht c (by simp)
      rw [h1] at h2; simp at h2
  | cons c g ih =>
    cases g' with
    | nil =>
      simp only [List.nil_append, List.cons_append] at h
      subst h
      have h1 := hg c (by simp)
      have h2 := ht' c (by simp)
      rw [h1] at h2; simp at h2
    | cons d g' =>
      simp only [List.cons_append, List.cons.injEq] at h
      obtain ⟨rfl, h⟩ := h
      obtain ⟨e1, e2⟩ := ih (fun x hx => hg x (by simp [hx])) (fun x hx => hg' x (by simp [hx])) h
      exact ⟨by rw [e1], e2⟩

/-- The rest of a cut text after its first token. -/
theorem tokenizedBy_tail {own : Char → Bool} {s : Str} {p : Str × Str} {ps : List (Str × Str)} {tail : Str}
    (h : TokenizedBy own s (p :: ps) tail) :
    TokenizedBy own (layout ps tail) ps tail ∧ s = p.1 ++ (p.2 ++ layout ps tail) := by
  refine ⟨⟨rfl, fun q hq => h.gaps q (by simp [hq]), h.last, fun q hq => h.nonempty q (by simp [hq]),
    fun q hq => h.solid q (by simp [hq]), fun q hq => h.alone q (by simp [hq]), ?_⟩, ?_⟩
  · have := h.parted
    cases ps with
    | nil => trivial
    | cons q ps => exact this.2
  · rw [h.text]; simp [layout]

/-- What follows the first token: nothing, whitespace, or a cut allowed by `own`. -/
theorem tokenizedBy_next {own : Char → Bool} {s : Str} {p : Str × Str} {ps : List (Str × Str)} {tail : Str}
    (h : TokenizedBy own s (p :: ps) tail) :
    ∀ d ∈ (layout ps tail).head?, isSpace d = true ∨ own d = true ∨ ∃ c ∈ p.2.getLast?, own c = true := by
  intro d hd
  cases ps with
  | nil =>
    have : d ∈ tail := by
      have : layout [] tail = tail := rfl
      rw [this] at hd
      exact List.mem_of_mem_head? hd
    exact Or.inl (h.last d this)
  | cons q ps =>
    have hq : q ∈ p :: q :: ps := by simp
    by_cases hg : q.1 = []
    · have hlay : (layout (q :: ps) tail).head? = q.2.head? := by
        cases ht : q.2 with
        | nil => exact absurd ht (h.nonempty q hq)
        | cons c t => simp [layout, hg, ht]
      rcases h.parted.1 hg with hc | ⟨c, hc, ho⟩
      · exact Or.inr (Or.inr hc)
      · rw [hlay] at hd
        rw [Option.mem_def] at hc hd
        rw [hc] at hd
        injection hd with hd
        exact Or.inr (Or.inl (hd ▸ ho))
    · obtain ⟨c, g, hgc⟩ := List.exists_cons_of_ne_nil hg
      have : d = c := by
        have : (layout (q :: ps) tail).head? = some c := by simp [layout, hgc]
        rw [this] at hd
        simpa using hd.symm
      exact Or.inl (this ▸ h.gaps q hq c (by rw [hgc]; simp))

theorem getLast?_alone {own : Char → Bool} {t : Str} (ha : ∀ c ∈ t, own c = true → t = [c]) {c : Char}
    (hc : c ∈ t.getLast?) (ho : own c = true) : t = [c] :=
  ha c (List.mem_of_getLast? hc) ho

/-- Of two possible first tokens, none is longer. -/
theorem first_token_unique {own : Char → Bool} {t t' r r' : Str} (hne : t ≠ []) (hne' : t' ≠ [])
    (hs : ∀ c ∈ t, isSpace c = false) (hs' : ∀ c ∈ t', isSpace c = false)
    (ha : ∀ c ∈ t, own c = true → t = [c]) (ha' : ∀ c ∈ t', own c = true → t' = [c])
    (hn : ∀ d ∈ r.head?, isSpace d = true ∨ own d = true ∨ ∃ c ∈ t.getLast?, own c = true)
    (hn' : ∀ d ∈ r'.head?, isSpace d = true ∨ own d = true ∨ ∃ c ∈ t'.getLast?, own c = true)
    (h : t ++ r = t' ++ r') : t = t' ∧ r = r' := by
  have key : ∀ {t t' r r' : Str}, t ≠ [] → (∀ c ∈ t', isSpace c = false) →
      (∀ c ∈ t, own c = true → t = [c]) → (∀ c ∈ t', own c = true → t' = [c]) →
      (∀ d ∈ r.head?, isSpace d = true ∨ own d = true ∨ ∃ c ∈ t.getLast?, own c = true) →
      t ++ r = t' ++ r' → t.length < t'.length → False := by
    intro t t' r r' hne hs' ha ha' hn h hlt
    have hpre : t <+: t' := by
      refine List.prefix_of_prefix_length_le (l₃ := t' ++ r') ?_ (List.prefix_append _ _) (by omega)
      rw [← h]; exact List.prefix_append _ _
    obtain ⟨m, hm⟩ := hpre
    cases m with
    | nil => simp at hm; rw [hm] at hlt; omega
    | cons d m =>
      have hr : r = d :: m ++ r' := by
        rw [← hm, List.append_assoc] at h
        exact List.append_cancel_left h
      have hd : d ∈ t' := by rw [← hm]; simp
      have hpos := List.length_pos_iff.mpr hne
      have hlen : 1 < t'.length := by omega
      rcases hn d (by rw [hr]; simp) with h1 | h1 | ⟨c, hc, ho⟩
      · rw [hs' d hd] at h1; simp at h1
      · rw [ha' d hd h1] at hlen; simp at hlen
      · have hct : c ∈ t' := by rw [← hm]; exact List.mem_append_left _ (List.mem_of_getLast? hc)
        rw [ha' c hct ho] at hlen; simp at hlen
  have hl : t.length = t'.length := by
    apply Classical.byContradiction
    intro hne''
    rcases Nat.lt_or_gt_of_ne hne'' with hlt | hlt
    · exact key hne hs' ha ha' hn h hlt
    · exact key hne' hs ha' ha hn' h.symm hlt
  exact List.append_inj h hl

/-- C40: the requirement on a tokenizer's cuts can be met in only one way. -/
theorem C40_cuts_unique (own : Char → Bool) (s : Str) (ps ps' : List (Str × Str)) (tail tail' : Str)
    (h : TokenizedBy own s ps tail) (h' : TokenizedBy own s ps' tail') : ps = ps' ∧ tail = tail' := by
  induction ps generalizing s ps' with
  | nil =>
    cases ps' with
    | nil =>
      have e1 := h.text
      have e2 := h'.text
      exact ⟨rfl, by rw [e1] at e2; exact e2⟩
    | cons p ps' =>
      exfalso
      obtain ⟨c, hc⟩ := List.exists_mem_of_ne_nil _ (h'.nonempty p (by simp))
      have hcs : c ∈ s := by rw [(tokenizedBy_tail h').2]; simp [hc]
      have h1 := h'.solid p (by simp) c hc
      have h2 := h.last c (by rw [h.text] at hcs; exact hcs)
      rw [h1] at h2; simp at h2
  | cons p ps ih =>
    cases ps' with
    | nil =>
      exfalso
      obtain ⟨c, hc⟩ := List.exists_mem_of_ne_nil _ (h.nonempty p (by simp))
      have hcs : c ∈ s := by rw [(tokenizedBy_tail h).2]; simp [hc]
      have h1 := h.solid p (by simp) c hc
      have h2 := h'.last c (by rw [h'.text] at hcs; exact hcs)
      rw [h1] at h2; simp at h2
    | cons q qs =>
      obtain ⟨a1, a2⟩ := tokenizedBy_tail h
      obtain ⟨b1, b2⟩ := tokenizedBy_tail h'
      have hhead : ∀ {p : Str × Str} {ps : List (Str × Str)} {tail : Str}, TokenizedBy own s (p :: ps) tail →
          ∀ c ∈ (p.2 ++ layout ps tail).head?, isSpace c = false := by
        intro p ps tail h c hc
        obtain ⟨d, t, ht⟩ := List.exists_cons_of_ne_nil (h.nonempty p (by simp))
        rw [ht] at hc
        have : d = c := by simpa using hc
        exact this ▸ h.solid p (by simp) d (by rw [ht]; simp)
      obtain ⟨e1, e2⟩ := span_unique (h.gaps p (by simp)) (h'.gaps q (by simp)) (hhead h) (hhead h')
        (a2.symm.trans b2)
      obtain ⟨e3, e4⟩ := first_token_unique (h.nonempty p (by simp)) (h'.nonempty q (by simp))
        (h.solid p (by simp)) (h'.solid q (by simp)) (h.alone p (by simp)) (h'.alone q (by simp))
        (tokenizedBy_next h) (tokenizedBy_next h') e2
      rw [e4] at a1
      obtain ⟨e5, e6⟩ := ih _ _ a1 b1
      exact ⟨by rw [e5, show p = q from Prod.ext e1 e3], e6⟩

/-- C40: consequences of the cuts: the tokens are the text without whitespace. -/
theorem C39_C40_join (own : Char → Bool) (s : Str) (ps : List (Str × Str)) (tail : Str)
    (h : TokenizedBy own s ps tail) : (ps.map Prod.snd).flatten = s.filter fun c => !isSpace c := by
  induction ps generalizing s with
  | nil =>
    have : s = tail := h.text
    subst this
    symm
    simp only [List.map_nil, List.flatten_nil]
    rw [List.filter_eq_nil_iff]
    intro c hc
    simp [h.last c hc]
  | cons p ps ih =>
    obtain ⟨a1, a2⟩ := tokenizedBy_tail h
    rw [a2, List.filter_append, List.filter_append, ← ih _ a1]
    have e1 : p.1.filter (fun c => !isSpace c) = [] := by
      rw [List.filter_eq_nil_iff]
      intro c hc
      simp [h.gaps p (by simp) c hc]
    have e2 : p.2.filter (fun c => !isSpace c) = p.2 := by
      rw [List.filter_eq_self]
      intro c hc
      simp [h.solid p (by simp) c hc]
    rw [e1, e2]
    simp

/-- C39: `WhiteSpaceTokenizer` returns the maximal whitespace-free runs. -/
theorem C39_words (σ : SetOrder) (s : Str) :
    ∃ a, WhiteSpaceTokenizer.transform σ s = .ok (wordsOf s, a) := by
  obtain ⟨a, ps, tail, h1, h2, h3⟩ := C39_C42_whitespace σ s
  refine ⟨a, ?_⟩
  have hp : ps.map Prod.snd = pySplit s := by
    have := h1
    unfold WhiteSpaceTokenizer.transform tokenizerTransform at this
    cases e1 : Str2Lst.genReplacementGroup σ s (pySplit s) with
    | error e => rw [e1] at this; simp [bind, Except.bind] at this
    | ok g =>
      rw [e1] at this
      simp only [Except.bind_ok] at this
      cases e2 : Str2Str.apply s g with
      | error e => rw [e2] at this; simp [bind, Except.bind] at this
      | ok t =>
        rw [e2] at this
        simp only [Except.bind_ok] at this
        cases e3 : Str2Lst.genSpanGroup t (pySplit s) with
        | error e => rw [e3] at this; simp [bind, Except.bind] at this
        | ok sp =>
          rw [e3] at this
          simp only [Except.bind_ok] at this
          injection this with this
          exact (congrArg Prod.fst this).symm
  rw [h1, hp, pySplit_eq]

example : ∃ a, WhiteSpaceTokenizer.transform SetOrder.id " a  bc ".toList = .ok (["a".toList, "bc".toList], a) :=
  C39_words SetOrder.id " a  bc ".toList

example : EngTokenizer.tokenize asciiUnicode "it's,  ok".toList =
    ["it".toList, "'".toList, "s".toList, ",".toList, "ok".toList] := by decide

example : ZhCharTokenizer.tokenize asciiUnicode "GB要 a".toList = ["GB".toList, "要".toList, "a".toList] := by decide

/-! ### C41: characters -/

/-- C41: `CharTokenizer` returns the single characters (whitespace included); labels are kept in both
directions. -/
theorem C41_char (σ : SetOrder) (s : Str) :
    ∃ a, CharTokenizer.transform σ s = .ok (s.map fun c => [c], a) ∧
      Aligned a s.length s.length uintLabels ∧
      (∀ ls, ls.length = s.length → uintLabels ls → a.transform ls = .ok ls ∧ a.inverseTransform ls = .ok ls) ∧
      (∀ ls, ls.length = s.length → a.transform ls = .ok (ls.map fun x => if 0 ≤ x ∧ x < 2 ^ 32 then x else 0)) ∧
      (∀ ls, ls.length = s.length → ¬ uintLabels ls → a.inverseTransform ls = .error .overflowError) := by
  have hlay : layout (s.map fun c => (([] : Str), [c])) [] = s := by
    simp only [layout, List.append_nil, List.flatMap_map, List.nil_append]
    induction s with
    | nil => rfl
    | cons c s ih => simp [ih]
  obtain ⟨a, h1, h2⟩ := tokenizer_op σ noneTransducer noneTransducer (s.map fun c => (([] : Str), [c])) []
    (by intro p hp; obtain ⟨c, _, rfl⟩ := List.mem_map.mp hp; exact Or.inl rfl)
    (by intro p hp; obtain ⟨c, _, rfl⟩ := List.mem_map.mp hp; simp)
    (Or.inl ⟨by intro p hp; obtain ⟨c, _, rfl⟩ := List.mem_map.mp hp; rfl, rfl⟩)
  have hal := h2.aligned
  have hfw := h2.forward
  have hbw := h2.backward
  have hov := h2.overflow
  rw [hlay] at h1 hal hfw
  rw [List.map_map] at h1
  simp only [List.length_map] at hal hbw hov
  have hseg : ∀ (s : Str) (ls : List Int), ls.length = s.length →
      tokenSegs (s.map fun c => (([] : Str), [c])) ls = ls.map fun x => [x] := by
    intro s
    induction s with
    | nil => intro ls hl; simp at hl; subst hl; rfl
    | cons c s ih =>
      intro ls hl
      cases ls with
      | nil => simp at hl
      | cons l ls =>
        simp only [List.map_cons, tokenSegs]
        rw [show (l :: ls).drop (([] : Str).length + [c].length) = ls from rfl, ih ls (by simpa using hl)]
        rfl
  have hmode : ∀ x : Int, tokenLabel [x] = if 0 ≤ x ∧ x < 2 ^ 32 then x else 0 := by
    intro x
    unfold tokenLabel
    by_cases hx : 0 ≤ x ∧ x < 2 ^ 32
    · rw [if_pos hx, if_pos (by simpa using hx)]
      exact firstMode_replicate' 1 (by omega) x
    · rw [if_neg hx, if_neg (by simpa using hx)]
  have hfw' : ∀ ls, ls.length = s.length →
      a.transform ls = .ok (ls.map fun x => if 0 ≤ x ∧ x < 2 ^ 32 then x else 0) := by
    intro ls hl
    rw [hfw ls hl, hseg s ls hl, List.map_map]
    congr 1
    exact List.map_congr_left fun x _ => hmode x
  have hback : ∀ (s : Str) (ls : List Int), ls.length = s.length →
      charLabels (s.map fun c => (([] : Str), [c])) [] ls = ls := by
    intro s
    induction s with
    | nil => intro ls hl; simp at hl; subst hl; rfl
    | cons c s ih =>
      intro ls hl
      cases ls with
      | nil => simp at hl
      | cons l ls =>
        simp only [List.map_cons, charLabels]
        rw [ih ls (by simpa using hl)]
        rfl
  refine ⟨a, h1, hal, fun ls hl hu => ⟨?_, ?_⟩, hfw', fun ls hl => hov ls hl⟩
  · rw [hfw' ls hl]
    congr 1
    conv => rhs; rw [← List.map_id ls]
    exact List.map_congr_left fun x hx => if_pos (hu x hx)
  · rw [hbw ls hl hu, hback s ls hl]

-- whitespace is kept as a token
example : ∃ a, CharTokenizer.transform SetOrder.id "a b".toList = .ok ([['a'], [' '], ['b']], a) ∧
    a.transform [1, 2, 3] = .ok [1, 2, 3] := by
  obtain ⟨a, h1, _, h2, _⟩ := C41_char SetOrder.id "a b".toList
  exact ⟨a, h1, (h2 [1, 2, 3] rfl (by unfold uintLabels; decide)).1⟩

/-! ### C37: user words -/

theorem wordSegs_flatten {ws : List Str} {sh : Bool} {s : Str} {segs : List Str} (h : WordSegs ws sh s segs) :
    segs.flatten = s := by
  induction h with
  | nil => rfl
  | char c rest segs _ _ ih => simp [ih]
  | word w rest segs _ _ ih => simp [ih]

theorem wordSegs_nonempty {ws : List Str} {sh : Bool} {s : Str} {segs : List Str} (h : WordSegs ws sh s segs) :
    ∀ t ∈ segs, t ≠ [] := by
  induction h with
  | nil => simp
  | char c rest segs _ _ ih =>
    intro t ht
    rcases List.mem_cons.mp ht with rfl | ht
    · simp
    · exact ih t ht
  | word w rest segs hb _ ih =>
    intro t ht
    rcases List.mem_cons.mp ht with rfl | ht
    · exact hb.2.1
    · exact ih t ht

/-- C37: the division into user words and characters is unique. -/
theorem C37_division_unique (ws : List Str) (sh : Bool) (s : Str) (segs segs' : List Str)
    (h : WordSegs ws sh s segs) (h' : WordSegs ws sh s segs') : segs = segs' := by
  induction h generalizing segs' with
  | nil =>
    generalize he : ([] : Str) = e at h'
    cases h' with
    | nil => rfl
    | char => cases he
    | word w rest _ hb => exact absurd (List.append_eq_nil_iff.mp he.symm).1 hb.2.1
  | char c rest segs hn _ ih =>
    generalize he : c :: rest = e at h'
    cases h' with
    | nil => cases he
    | char d rest' segs' hn' h'' =>
      injection he with e1 e2
      subst e1; subst e2
      rw [ih _ h'']
    | word w rest' segs' hb h'' =>
      rw [he] at hn
      exact absurd hb.2.2.1 (hn w hb.1 hb.2.1)
  | word w rest segs hb _ ih =>
    generalize he : w ++ rest = e at h'
    cases h' with
    | nil => exact absurd (List.append_eq_nil_iff.mp he).1 hb.2.1
    | char d rest' segs' hn' h'' =>
      rw [he] at hb
      exact absurd hb.2.2.1 (hn' w hb.1 hb.2.1)
    | word v rest' segs' hb' h'' =>
      rw [he] at hb
      have := bestWord_unique hb hb'
      injection this with this
      subst this
      rw [ih _ (List.append_cancel_left he ▸ h'')]

theorem customLoop_spec (t : Trie) (ws : List Str) (ht : Holds t ws) (sh : Bool) (n : Nat) (pre rest : Str)
    (acc : List Str) (hn : rest.length < n) :
    ∃ segs, WordSegs ws sh rest segs ∧
      CustomWordTokenizer.loop t sh (pre ++ rest) n pre.length acc = some (acc ++ segs) := by
  induction n generalizing pre rest acc with
  | zero => omega
  | succ n ih =>
    unfold CustomWordTokenizer.loop
    cases rest with
    | nil => exact ⟨[], .nil, by simp⟩
    | cons c cs =>
      rw [if_pos (by simp), List.drop_left]
      have hbest := matchPrefix_best t ws ht (c :: cs) sh
      cases hm : t.matchPrefix (c :: cs) sh with
      | none =>
        rw [hm] at hbest
        dsimp only
        obtain ⟨segs, h1, h2⟩ := ih (pre ++ [c]) cs (acc ++ [[c]]) (by simpa using hn)
        refine ⟨[c] :: segs, .char c cs segs hbest h1, ?_⟩
        have hsl : slice (pre ++ c :: cs) pre.length (pre.length + 1) = [c] := by
          have := slice_mid pre [c] cs
          simpa using this
        rw [hsl]
        simpa using h2
      | some w =>
        rw [hm] at hbest
        dsimp only
        obtain ⟨rest', hr⟩ := hbest.2.2.1
        have hpos := List.length_pos_iff.mpr hbest.2.1
        rw [← hr] at hbest hn ⊢
        obtain ⟨segs, h1, h2⟩ := ih (pre ++ w) rest' (acc ++ [w]) (by simp at hn; omega)
        refine ⟨w :: segs, .word w rest' segs hbest h1, ?_⟩
        simpa using h2

/-- Tokens without gaps. -/
theorem layout_tokens (segs : List Str) : layout (segs.map fun t => (([] : Str), t)) [] = segs.flatten := by
  simp only [layout, List.append_nil, List.flatMap_map, List.nil_append]
  induction segs with
  | nil => rfl
  | cons c s ih => simp [ih]

/-- C37, C42: `CustomWordTokenizer` never raises; the tokens are the unique division of the text into best
user words and single characters; the labels of a token come from, and go to, its own characters. -/
theorem C37_C42_custom (σ : SetOrder) (ws : List Str) (t : Trie) (ht : Trie.ofUserWords ws = .ok t) (sh : Bool)
    (s : Str) :
    ∃ a segs, CustomWordTokenizer.transform σ t sh s = .ok (segs, a) ∧ WordSegs ws sh s segs ∧
      segs.flatten = s ∧ TokenLabels a (segs.map fun t => (([] : Str), t)) [] := by
  obtain ⟨segs, h1, h2⟩ := customLoop_spec t ws (ofUserWords_holds ws t ht).1 sh (s.length + 1) [] s [] (by omega)
  simp only [List.nil_append, List.length_nil] at h2
  have hfl := wordSegs_flatten h1
  obtain ⟨a, h3, h4⟩ := tokenizer_op σ Transduce.getMostCommonExceptNotEntity
    Transduce.getMostCommonExceptNotEntity (segs.map fun t => (([] : Str), t)) []
    (by intro p hp; obtain ⟨c, _, rfl⟩ := List.mem_map.mp hp; exact Or.inl rfl)
    (by intro p hp; obtain ⟨c, hc, rfl⟩ := List.mem_map.mp hp; exact wordSegs_nonempty h1 c hc)
    (Or.inr ⟨except_zero, except_nil⟩)
  refine ⟨a, segs, ?_, h1, hfl, h4⟩
  rw [layout_tokens, hfl, List.map_map] at h3
  unfold CustomWordTokenizer.transform CustomWordTokenizer.tokenize
  rw [h2]
  dsimp only
  have e : segs.map (Prod.snd ∘ fun t => (([] : Str), t)) = segs := by
    rw [show (Prod.snd ∘ fun t : Str => (([] : Str), t)) = id from rfl, List.map_id]
  rw [e] at h3
  exact h3

-- "珍奶" is a prefix of "珍奶去冰": the longest (shortest) match decides
example : ∃ t, Trie.ofUserWords ["珍奶".toList, "珍奶去冰".toList, "去冰".toList] = .ok t ∧
    CustomWordTokenizer.tokenize t false "一杯珍奶去冰".toList =
      some ["一".toList, "杯".toList, "珍奶去冰".toList] ∧
    CustomWordTokenizer.tokenize t true "一杯珍奶去冰".toList =
      some ["一".toList, "杯".toList, "珍奶".toList, "去冰".toList] := by
  exact ⟨_, rfl, by decide, by decide⟩

end Uttut
