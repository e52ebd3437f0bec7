import Verif.Spec.Seeds
import Verif.Props.Align
import Verif.Props.Builtins

/-! Lemmas for C72: the iteration order of hash sets leaves no trace in the results of the operators. -/

namespace Uttut

open Spec Piece

theorem Spec.SameAligner.refl (a : Aligner) : SameAligner a a := ⟨rfl, rfl, fun _ => rfl, fun _ => rfl⟩

theorem Spec.SameRes.refl {α : Type} (r : Res (α × Aligner)) : SameRes r r := by
  cases r with
  | error e => exact .error e
  | ok r => exact .ok r.1 r.2 r.2 (.refl _)

theorem Spec.SameAligner.of_bwd {a b : Aligner} (hi : a.inputLength = b.inputLength)
    (ho : a.outputLength = b.outputLength) (hf : ∀ ls, a.fwd ls = b.fwd ls)
    (hb : ∀ ls, ls.length = a.outputLength → a.bwd ls = b.bwd ls) : SameAligner a b := by
  refine ⟨hi, ho, fun ls => ?_, fun ls => ?_⟩
  · unfold Aligner.transform Aligner.validateInput Aligner.validateOutput
    rw [hi, ho, hf]
  · by_cases h : ls.length = a.outputLength
    · unfold Aligner.inverseTransform Aligner.validateInput Aligner.validateOutput
      rw [hi, ← ho, hb ls h]
    · rw [C15_inverse_wrong_length a ls h, C15_inverse_wrong_length b ls (ho ▸ h)]

/-- Aligners with known answers on lists of the right lengths. -/
theorem Spec.SameAligner.of_exact {a b : Aligner} (hi : a.inputLength = b.inputLength)
    (ho : a.outputLength = b.outputLength)
    (hf : ∀ ls, ls.length = a.inputLength → a.transform ls = b.transform ls)
    (hb : ∀ ls, ls.length = a.outputLength → a.inverseTransform ls = b.inverseTransform ls) :
    SameAligner a b := by
  refine ⟨hi, ho, fun ls => ?_, fun ls => ?_⟩
  · by_cases h : ls.length = a.inputLength
    · exact hf ls h
    · rw [C15_transform_wrong_length a ls h, C15_transform_wrong_length b ls (hi ▸ h)]
  · by_cases h : ls.length = a.outputLength
    · exact hb ls h
    · rw [C15_inverse_wrong_length a ls h, C15_inverse_wrong_length b ls (ho ▸ h)]

/-- Transducers that ignore the order in which touching insertions are filled. -/
def Neutral (b : Transducer) : Prop :=
  (∃ z, ∀ n, b [] n = .ok (List.replicate n z)) ∧ ∀ x n y, b x n = .ok y → y.length = n

theorem neutral_except : Neutral Transduce.getMostCommonExceptNotEntity := by
  refine ⟨⟨0, except_nil⟩, fun x n y h => ?_⟩
  rw [← Except.ok.inj ((getMostCommonExcept_mode x n).symm.trans h)]
  simp

theorem neutral_notEntity : Neutral Transduce.getNotEntity := by
  refine ⟨⟨0, fun n => rfl⟩, fun x n y h => ?_⟩
  rw [← Except.ok.inj h]
  simp

theorem inverse_seed {β : Type} [DecidableEq β] [NewValue (List β)] [UniformKind (List β)] (σ σ' : SetOrder)
    (ps : List (Piece β β)) (b : Transducer) (h : Neutral b ∨ Separated false (ps.map swap)) (ls : List Int)
    (hl : ls.length = (dstOf ps).length) :
    (do let inv ← editInverse σ (srcOf ps) ⟨groupOf 0 ps, true⟩
        propagate ls inv b) =
    (do let inv ← editInverse σ' (srcOf ps) ⟨groupOf 0 ps, true⟩
        propagate ls inv b) := by
  rcases h with ⟨⟨z, hz⟩, hb⟩ | h
  · by_cases hd : (groupOf 0 (ps.map swap)).Nodup
    · rw [editInverse_labels σ ps hd b z hz hb ls hl, editInverse_labels σ' ps hd b z hz hb ls hl]
    · rw [editInverse_dup σ ps hd, editInverse_dup σ' ps hd]
  · rw [editInverse_pieces σ ps h, editInverse_pieces σ' ps h]

theorem same_strEdit (σ σ' : SetOrder) (ps : List (Piece Char Char)) (s : Str) (n : Nat) (f b : Transducer)
    (hs : srcOf ps = s) (hn : (dstOf ps).length = n) (h : Neutral b ∨ Separated false (ps.map swap)) :
    SameAligner (Aligner.ofStrEdit σ s ⟨groupOf 0 ps, true⟩ n f b)
      (Aligner.ofStrEdit σ' s ⟨groupOf 0 ps, true⟩ n f b) := by
  subst hs
  subst hn
  exact .of_bwd rfl rfl (fun _ => rfl) fun ls hl => inverse_seed σ σ' ps b h ls hl

theorem same_lstEdit (σ σ' : SetOrder) (ps : List (Piece Tok Tok)) (l : List Tok) (n : Nat) (f b : Transducer)
    (hs : srcOf ps = l) (hn : (dstOf ps).length = n) (h : Neutral b ∨ Separated false (ps.map swap)) :
    SameAligner (Aligner.ofLstEdit σ l ⟨groupOf 0 ps, true⟩ n f b)
      (Aligner.ofLstEdit σ' l ⟨groupOf 0 ps, true⟩ n f b) := by
  subst hs
  subst hn
  exact .of_bwd rfl rfl (fun _ => rfl) fun ls hl => inverse_seed σ σ' ps b h ls hl

theorem sub_cut_val {α β : Type} {v : List β} {o : List α} {n : List β} :
    ∀ {xs : List α} {pos : Nat} {ms : List (Nat × Nat)},
      sub o n ∈ cut xs pos (ms.map fun x => (⟨x.1, x.2, v⟩ : Rep (List β))) → n = v := by
  intro xs pos ms
  induction ms generalizing pos with
  | nil => intro h; simp [cut] at h
  | cons m ms ih =>
    intro h
    simp only [List.map_cons, cut, List.mem_cons] at h
    rcases h with h | h | h
    · cases h
    · injection h
    · exact ih h

theorem same_pattern (σ σ' : SetOrder) (m : Matcher) (token : Str) (f b : Transducer) (s : Str)
    (hs : SoundMatcher m s) (h : Neutral b ∨ token ≠ []) :
    SameRes (patternTransform σ m token f b s) (patternTransform σ' m token f b s) := by
  by_cases hst : ∀ p, Reached m s p → p < s.length → m s p ≠ some (p, p)
  · obtain ⟨ms, hscan⟩ := scan_exists hs hst s.length 0 (by omega) (by omega) .start
    have hfit := hscan.fits hs (by omega) token
    have hsrc : srcOf (cut s 0 (ms.map fun x => (⟨x.1, x.2, token⟩ : Rep Str))) = s := by
      rw [srcOf_cut s 0 _ hfit]; simp
    have hT := fun σ => patternTransform_of_scan σ m token f b s hs ms hscan _ (groupOf_cut s 0 _ hfit)
      (scan_separated hs token (by omega) hscan _) hsrc
    rw [hT σ, hT σ']
    refine .ok _ _ _ (same_strEdit σ σ' _ s _ f b hsrc rfl (h.imp_right fun hne => ?_))
    exact separated_swap_of_nonempty _ (fun o n hm => by rw [sub_cut_val hm]; exact hne) _
  · have hst : ∃ p, Reached m s p ∧ p < s.length ∧ m s p = some (p, p) := by
      apply Classical.byContradiction
      intro hc
      exact hst fun p h1 h2 h3 => hc ⟨p, h1, h2, h3⟩
    rw [((C24_fuel σ m token f b s hs).2 hst).2, ((C24_fuel σ' m token f b s hs).2 hst).2]
    exact .error _

theorem same_charwise {ι : Type} (σ σ' : SetOrder) (pr : ι → Char) (nv : ι → Option Str) (xs : List ι) (s : Str)
    (hx : xs.map pr = s) (f b : Transducer) (h : Neutral b) :
    SameRes
      (charwiseTransform σ (fun x => .ok (nv x)) xs s fun g n => Aligner.ofStrEdit σ s g n f b)
      (charwiseTransform σ' (fun x => .ok (nv x)) xs s fun g n => Aligner.ofStrEdit σ' s g n f b) := by
  subst hx
  rw [charwiseTransform_eq, charwiseTransform_eq]
  refine .ok _ _ _ (same_strEdit σ σ' _ _ _ f b (srcOf_elemPieces pr nv xs) ?_ (.inl h))
  rw [dstOf_elemPieces]

theorem same_tokenwise (σ σ' : SetOrder) (nv : Tok → Res (Option (List Tok))) (l : List Tok)
    (mk mk' : ReplacementGroup (List Tok) → Nat → Aligner)
    (h : ∀ ps : List (Piece Tok Tok), srcOf ps = l →
      SameAligner (mk ⟨groupOf 0 ps, true⟩ (dstOf ps).length) (mk' ⟨groupOf 0 ps, true⟩ (dstOf ps).length)) :
    SameRes (tokenwiseTransform σ nv l mk) (tokenwiseTransform σ' nv l mk') := by
  cases he : enumAdd nv l 0 (ReplacementGroup.empty : ReplacementGroup (List Tok)) with
  | error e =>
    unfold tokenwiseTransform
    rw [he]
    exact .error e
  | ok g =>
    have hv := enumAdd_values he
    have hv : ∀ x ∈ l, nv x = .ok (match nv x with | .ok v => v | .error _ => none) := by
      intro x hx
      obtain ⟨v, hv⟩ := hv x hx
      rw [hv]
    rw [tokenwiseTransform_congr σ nv _ l hv, tokenwiseTransform_congr σ' nv _ l hv]
    have := h (elemPieces id (fun x => match nv x with | .ok v => v | .error _ => none) l)
      (by rw [srcOf_elemPieces]; simp)
    rw [dstOf_elemPieces] at this
    exact .ok _ _ _ this

theorem genReplacementGroup_seed (σ σ' : SetOrder) (s : Str) (ts : List Str) :
    Str2Lst.genReplacementGroup σ s ts = Str2Lst.genReplacementGroup σ' s ts := by
  unfold Str2Lst.genReplacementGroup
  cases hl : Str2Lst.genRepLoop s ts 0 ReplacementGroup.empty with
  | error e => rfl
  | ok r =>
    obtain ⟨sh, g0⟩ := r
    have hl' : Str2Lst.genRepLoop ([] ++ s) ts ([] : Str).length ReplacementGroup.empty = .ok (sh, g0) := hl
    obtain ⟨ps, tail, h1, h2, h3, h4, h5⟩ := genRepLoop_ok [] s ts _ _ _ hl'
    simp only [Except.bind_ok]
    have h5 : g0 = ⟨groupOf 0 (pairPieces ps), false⟩ := by
      rw [h5]; simp [ReplacementGroup.empty]
    rw [h5, finishGroup σ ps tail s h1 sh h4, finishGroup σ' ps tail s h1 sh h4]

theorem same_tokenizer (σ σ' : SetOrder) (f b : Transducer) (s : Str) (tokens : List Str) :
    SameRes (tokenizerTransform σ f b s tokens) (tokenizerTransform σ' f b s tokens) := by
  unfold tokenizerTransform
  rw [genReplacementGroup_seed σ' σ]
  cases hg : Str2Lst.genReplacementGroup σ s tokens with
  | error e => exact .error e
  | ok g =>
    obtain ⟨ps, tail, hs, ht, hsol, hg⟩ := genReplacementGroup_ok σ s tokens g hg
    simp only [Except.bind_ok]
    cases Str2Str.apply s g with
    | error e => exact .error e
    | ok temp =>
      simp only [Except.bind_ok]
      cases Str2Lst.genSpanGroup temp tokens with
      | error e => exact .error e
      | ok spans =>
        simp only [Except.bind_ok]
        refine .ok _ _ _ (.of_bwd rfl rfl (fun _ => rfl) fun ls _ => ?_)
        have hinv : ∀ σ, Str2Str.inverse σ s g =
            .ok ⟨groupOf 0 ((tokPieces ps tail).map swap), true⟩ := by
          intro σ
          have := editInverse_pieces (α := Char) σ (tokPieces ps tail) (separated_swap_tokPieces ps tail hsol)
          rw [srcOf_tokPieces, ← hs, ← hg] at this
          exact this
        show (Str2Str.inverse σ s g >>= _) = (Str2Str.inverse σ' s g >>= _)
        rw [hinv σ, hinv σ']

end Uttut
