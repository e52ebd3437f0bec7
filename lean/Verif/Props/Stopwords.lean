import Verif.Props.Text

/-! Property C23: `StopwordsToWhitespace`. -/

namespace Uttut

open Spec Piece StopwordsToWhitespace

theorem lit_ends (w : Str) (hw : w ≠ []) (bef aft : Str) :
    (Re.lit w).ends bef aft = if w.isPrefixOf aft then [w.length] else [] := by
  induction w generalizing bef aft with
  | nil => exact absurd rfl hw
  | cons c w ih =>
    cases w with
    | nil =>
      cases aft with
      | nil => rfl
      | cons d aft =>
        by_cases h : d = c
        · subst h; simp [Re.lit, Re.ends, List.isPrefixOf]
        · have h' : ¬ c = d := fun e => h e.symm
          simp [Re.lit, Re.ends, List.isPrefixOf, h, h']
    | cons e w =>
      rw [Re.lit]
      cases aft with
      | nil => simp [Re.ends, List.isPrefixOf]
      | cons d aft =>
        rw [seq_cls_cons, ih (by simp)]
        by_cases h : d = c
        · subst h
          simp only [beq_self_eq_true, if_true, List.isPrefixOf, Bool.true_and]
          cases hp : (e :: w).isPrefixOf aft with
          | true => simp; omega
          | false => simp
        · have h' : ¬ c = d := fun e => h e.symm
          simp [List.isPrefixOf, h, h']

theorem altOf_ends (ws : List Str) (hne : ws ≠ []) (hws : ∀ w ∈ ws, w ≠ []) (bef aft : Str) :
    (altOf ws).ends bef aft = (ws.filter fun w => w.isPrefixOf aft).map List.length := by
  induction ws with
  | nil => exact absurd rfl hne
  | cons w ws ih =>
    cases ws with
    | nil =>
      rw [altOf, lit_ends w (hws w (by simp))]
      by_cases h : w.isPrefixOf aft = true <;> simp [h]
    | cons v ws =>
      rw [altOf, Re.ends, ih (by simp) (fun x hx => hws x (by simp [hx])), lit_ends w (hws w (by simp))]
      by_cases h : w.isPrefixOf aft = true
      · rw [if_pos h, List.filter_cons_of_pos (p := fun w => List.isPrefixOf w aft) h]; rfl
      · rw [if_neg h, List.filter_cons_of_neg (p := fun w => List.isPrefixOf w aft) h]; rfl

/-- The words are listed by decreasing length (a word never precedes a longer one). -/
def LongFirst (ws : List Str) : Prop := ws.Pairwise fun v w => w.length ≤ v.length

theorem first_longest (ws : List Str) (hs : LongFirst ws) (p : Str → Bool) (w : Str) (hw : w ∈ ws)
    (hp : p w = true) (hmax : ∀ v ∈ ws, p v = true → v.length ≤ w.length) :
    ((ws.filter p).map List.length).head? = some w.length := by
  induction ws with
  | nil => simp at hw
  | cons v ws ih =>
    obtain ⟨h1, h2⟩ := List.pairwise_cons.mp hs
    by_cases hv : p v = true
    · rw [List.filter_cons_of_pos hv]
      simp only [List.map_cons, List.head?_cons]
      have e1 := hmax v (by simp) hv
      rcases List.mem_cons.mp hw with rfl | hw
      · rfl
      · have := h1 w hw
        congr 1; omega
    · rw [List.filter_cons_of_neg hv]
      have hw' : w ∈ ws := by
        rcases List.mem_cons.mp hw with rfl | hw
        · exact absurd hp hv
        · exact hw
      exact ih h2 hw' (fun u hu => hmax u (by simp [hu]))

theorem segmented_exists (ws : List Str) (hws : ∀ w ∈ ws, w ≠ []) (n : Nat) :
    ∀ s : Str, s.length ≤ n → ∃ segs, Segmented ws s segs := by
  induction n with
  | zero =>
    intro s hs
    have : s = [] := List.length_eq_zero_iff.mp (by omega)
    subst this
    exact ⟨[], .nil⟩
  | succ n ih =>
    intro s hs
    cases s with
    | nil => exact ⟨[], .nil⟩
    | cons c rest =>
      by_cases h : ∃ w ∈ ws, w <+: c :: rest
      · -- a longest word
        have hmax : ∃ w ∈ ws, w <+: c :: rest ∧ ∀ v ∈ ws, v <+: c :: rest → v.length ≤ w.length := by
          clear ih hws hs
          induction ws with
          | nil => obtain ⟨w, hw, _⟩ := h; simp at hw
          | cons u us ihu =>
            by_cases hu : ∃ w ∈ us, w <+: c :: rest
            · obtain ⟨w, hw, hp, hm⟩ := ihu hu
              by_cases hup : u <+: c :: rest ∧ w.length < u.length
              · refine ⟨u, by simp, hup.1, ?_⟩
                intro v hv hvp
                rcases List.mem_cons.mp hv with rfl | hv
                · omega
                · have := hm v hv hvp; omega
              · refine ⟨w, by simp [hw], hp, ?_⟩
                intro v hv hvp
                rcases List.mem_cons.mp hv with rfl | hv
                · by_cases hlt : w.length < v.length
                  · exact absurd ⟨hvp, hlt⟩ hup
                  · omega
                · exact hm v hv hvp
            · obtain ⟨w, hw, hp⟩ := h
              rcases List.mem_cons.mp hw with rfl | hw
              · refine ⟨w, by simp, hp, ?_⟩
                intro v hv hvp
                rcases List.mem_cons.mp hv with rfl | hv
                · omega
                · exact absurd ⟨v, hv, hvp⟩ hu
              · exact absurd ⟨w, hw, hp⟩ hu
        obtain ⟨w, hw, ⟨rest', hr⟩, hm⟩ := hmax
        have hlen := List.length_pos_iff.mpr (hws w hw)
        obtain ⟨segs, hseg⟩ := ih rest' (by
          have := congrArg List.length hr
          simp at this hs
          omega)
        rw [← hr] at hm ⊢
        exact ⟨_, .word w rest' segs hw hm hseg⟩
      · obtain ⟨segs, hseg⟩ := ih rest (by simpa using hs)
        exact ⟨_, .char c rest segs (fun w hw hp => h ⟨w, hw, hp⟩) hseg⟩

theorem segmented_flatten {ws : List Str} {s : Str} {segs : List Str} (h : Segmented ws s segs) :
    segs.flatten = s := by
  induction h with
  | nil => rfl
  | char c rest segs _ _ ih => simp [ih]
  | word w rest segs _ _ _ ih => simp [ih]

theorem segmented_unique {ws : List Str} (hws : ∀ w ∈ ws, w ≠ []) {s : Str} {segs segs' : List Str}
    (h : Segmented ws s segs) (h' : Segmented ws s segs') : segs = segs' := by
  induction h generalizing segs' with
  | nil =>
    generalize he : ([] : Str) = e at h'
    cases h' with
    | nil => rfl
    | char => cases he
    | word w rest _ hw =>
      exact absurd (List.append_eq_nil_iff.mp he.symm).1 (hws w hw)
  | char c rest segs hno _ ih =>
    generalize he : c :: rest = e at h'
    cases h' with
    | nil => cases he
    | char d rest' segs' _ h' =>
      injection he with e1 e2
      subst e1; subst e2
      rw [ih h']
    | word w rest' segs' hw _ h' => exact absurd ⟨rest', he.symm⟩ (hno w hw)
  | word w rest segs hw hmax _ ih =>
    generalize he : w ++ rest = e at h'
    cases h' with
    | nil => exact absurd (List.append_eq_nil_iff.mp he).1 (hws w hw)
    | char d rest' segs' hno h' => exact absurd ⟨rest, he⟩ (hno w hw)
    | word w' rest' segs' hw' hmax' h' =>
      have h1 := hmax w' hw' ⟨rest', he.symm⟩
      have h2 := hmax' w hw ⟨rest, he⟩
      obtain ⟨e1, e2⟩ := List.append_inj he (by omega)
      subst e1; subst e2
      rw [ih h']

/-- Pieces of the stopword edit. -/
def segPieces (ws : List Str) (token : Str) (segs : List Str) : List (Piece Char Char) :=
  segs.map fun w => if w ∈ ws then sub w token else keep w

theorem segPieces_src (ws : List Str) (token : Str) (segs : List Str) :
    srcOf (segPieces ws token segs) = segs.flatten := by
  unfold segPieces srcOf
  rw [List.flatMap_map, List.flatten_eq_flatMap]
  apply flatMap_congr_mem
  intro w _
  by_cases h : w ∈ ws <;> simp [h, src]

theorem segPieces_dst (ws : List Str) (token : Str) (segs : List Str) :
    dstOf (segPieces ws token segs) = segs.flatMap fun w => if w ∈ ws then token else w := by
  unfold segPieces dstOf
  rw [List.flatMap_map]
  apply flatMap_congr_mem
  intro w _
  by_cases h : w ∈ ws <;> simp [h, dst]

theorem segPieces_cuts (ws : List Str) (hne : ws ≠ []) (hws : ∀ w ∈ ws, w ≠ []) (hs : LongFirst ws)
    (token : Str) {s : Str} {segs : List Str} (h : Segmented ws s segs) (bef : Str) :
    Cuts (altOf ws) bef (segPieces ws token segs) := by
  induction h generalizing bef with
  | nil =>
    show (altOf ws).ends bef [] = []
    rw [altOf_ends ws hne hws, List.map_eq_nil_iff, List.filter_eq_nil_iff]
    intro w hw hp
    have := hws w hw
    cases w with
    | nil => exact this rfl
    | cons => simp [List.isPrefixOf] at hp
  | char c rest segs hno hseg ih =>
    have hc : [c] ∉ ws := fun hc => hno _ hc ⟨rest, rfl⟩
    unfold segPieces at ih ⊢
    rw [List.map_cons, if_neg hc]
    refine ⟨?_, ih _⟩
    intro y z hyz hz
    have : y = [] ∧ z = [c] := by
      cases y with
      | nil => exact ⟨rfl, hyz.symm⟩
      | cons y0 y =>
        simp only [List.cons_append, List.cons.injEq] at hyz
        have := (List.append_eq_nil_iff.mp hyz.2.symm).2
        exact absurd this hz
    obtain ⟨rfl, rfl⟩ := this
    have hsrc := segPieces_src ws token segs
    unfold segPieces at hsrc
    rw [hsrc, segmented_flatten hseg, altOf_ends ws hne hws, List.map_eq_nil_iff, List.filter_eq_nil_iff]
    intro w hw hp
    exact hno w hw (List.isPrefixOf_iff_prefix.mp hp)
  | word w rest segs hw hmax hseg ih =>
    unfold segPieces at ih ⊢
    rw [List.map_cons, if_pos hw]
    refine ⟨hws w hw, ?_, ih _⟩
    have hsrc := segPieces_src ws token segs
    unfold segPieces at hsrc
    rw [hsrc, segmented_flatten hseg, altOf_ends ws hne hws]
    apply first_longest ws hs _ w hw
    · exact List.isPrefixOf_iff_prefix.mpr ⟨rest, rfl⟩
    · intro v hv hp
      exact hmax v hv (List.isPrefixOf_iff_prefix.mp hp)

theorem labelsWith_segPieces (ws : List Str) (token : Str) (F : List Int → Nat → List Int) (segs : List Str)
    (ls : List Int) : labelsWith F (segPieces ws token segs) ls =
      mapLabels (fun w => decide (w ∈ ws)) (fun _ x => F x token.length) segs (splitLike segs ls) := by
  induction segs generalizing ls with
  | nil => rfl
  | cons w segs ih =>
    unfold segPieces at ih ⊢
    rw [List.map_cons]
    by_cases h : w ∈ ws
    · simp only [h, if_true, labelsWith, splitLike, mapLabels, List.zip_cons_cons, List.flatMap_cons, decide_true]
      rw [ih]; rfl
    · simp only [h, if_false, labelsWith, splitLike, mapLabels, List.zip_cons_cons, List.flatMap_cons,
        decide_false, Bool.false_eq_true]
      rw [ih]; rfl

theorem labelsWith_segPieces_swap (ws : List Str) (token : Str) (F : List Int → Nat → List Int) (segs : List Str)
    (ls : List Int) : labelsWith F ((segPieces ws token segs).map swap) ls =
      mapLabels (fun w => decide (w ∈ ws)) (fun w x => F x w.length) segs
        (splitLike (segs.map fun w => if w ∈ ws then token else w) ls) := by
  induction segs generalizing ls with
  | nil => rfl
  | cons w segs ih =>
    unfold segPieces at ih ⊢
    rw [List.map_cons, List.map_cons]
    by_cases h : w ∈ ws
    · simp only [h, if_true, swap, labelsWith, splitLike, mapLabels, List.zip_cons_cons, List.flatMap_cons, decide_true,
        List.map_cons]
      rw [ih]; rfl
    · simp only [h, if_false, swap, labelsWith, splitLike, mapLabels, List.zip_cons_cons, List.flatMap_cons,
        decide_false, Bool.false_eq_true, List.map_cons]
      rw [ih]; rfl

/-- The operator for any non-empty list of non-empty words in which longer words come first. -/
theorem segmented_transform (σ : SetOrder) (ws : List Str) (hne : ws ≠ []) (hws : ∀ w ∈ ws, w ≠ [])
    (hs : LongFirst ws) (s : Str) (segs : List Str) (hseg : Segmented ws s segs) :
    ∃ a, patternTransform σ (altOf ws).search [' '] Transduce.getNotEntity Transduce.getNotEntity s =
        .ok (segs.flatMap fun w => if w ∈ ws then [' '] else w, a) ∧
      Aligned a s.length (segs.flatMap fun w => if w ∈ ws then [' '] else w).length anyLabels ∧
      (∀ ls, ls.length = s.length → a.transform ls =
        .ok (mapLabels (fun w => decide (w ∈ ws)) (fun _ _ => [0]) segs (splitLike segs ls))) ∧
      (∀ ls, ls.length = (segs.flatMap fun w => if w ∈ ws then [' '] else w).length → a.inverseTransform ls =
        .ok (mapLabels (fun w => decide (w ∈ ws)) (fun w _ => List.replicate w.length 0) segs
          (splitLike (segs.map fun w => if w ∈ ws then [' '] else w) ls))) := by
  have hsrc := segPieces_src ws [' '] segs
  rw [segmented_flatten hseg] at hsrc
  have hdst := segPieces_dst ws [' '] segs
  have htok : ∀ o n, sub o n ∈ segPieces ws [' '] segs → n = [' '] := by
    intro o n hm
    unfold segPieces at hm
    obtain ⟨w, _, hw⟩ := List.mem_map.mp hm
    by_cases h : w ∈ ws
    · rw [if_pos h] at hw; injection hw with _ e; exact e.symm
    · rw [if_neg h] at hw; cases hw
  have hT := patternTransform_cuts σ (altOf ws) [' '] Transduce.getNotEntity Transduce.getNotEntity s _
    (segPieces_cuts ws hne hws hs [' '] hseg []) htok hsrc
  obtain ⟨hA, hF, hB, _⟩ := strAligner_pack σ _ Transduce.getNotEntity Transduce.getNotEntity s _ hsrc hdst
    (fun o n hm x hx => ⟨_, getNotEntity_eq _ _, by simp⟩)
    (fun o n hm x hx => ⟨_, getNotEntity_eq _ _, by simp⟩)
    (separated_swap_of_nonempty _ (fun o n hm => by rw [htok o n hm]; simp) _)
  rw [hdst] at hT
  refine ⟨_, hT, hA, fun ls hl => hF ls _ hl ?_, fun ls hl => hB ls _ hl ?_⟩
  · rw [relabel_labelsWith _ (fun _ n => List.replicate n 0) _ (fun _ _ _ _ _ => rfl) ls (by rw [hsrc]; exact hl),
      labelsWith_segPieces]
    rfl
  · rw [relabel_labelsWith _ (fun _ n => List.replicate n 0) _ (fun _ _ _ _ _ => rfl) ls
      (by rw [srcOf_swap, hdst]; exact hl), labelsWith_segPieces_swap]

theorem stopwords_ne : ∀ w ∈ stopwords, w ≠ [] := by decide

theorem stopwords_longFirst : LongFirst stopwords := by unfold LongFirst; decide

theorem stopwords_no_space : ∀ w ∈ stopwords, ' ' ∉ w := by decide

/-- C23: every text has exactly one left-to-right division into stopwords (the longest at each position)
and other characters. -/
theorem C23_segments (s : Str) : ∃ segs, Segmented stopwords s segs ∧
    ∀ segs', Segmented stopwords s segs' → segs' = segs := by
  obtain ⟨segs, h⟩ := segmented_exists stopwords stopwords_ne s.length s (Nat.le_refl _)
  exact ⟨segs, h, fun segs' h' => segmented_unique stopwords_ne h' h⟩

/-- C23: the stopwords of that division are replaced by one space with label 0, everything else is kept;
backwards the stopwords get 0 and everything else keeps its label. The search terminates. -/
theorem C23_stopwords (σ : SetOrder) (s : Str) (segs : List Str) (h : Segmented stopwords s segs) :
    ∃ a, StopwordsToWhitespace.transform σ s =
        .ok (segs.flatMap fun w => if w ∈ stopwords then [' '] else w, a) ∧
      Aligned a s.length (segs.flatMap fun w => if w ∈ stopwords then [' '] else w).length anyLabels ∧
      (∀ ls, ls.length = s.length → a.transform ls =
        .ok (mapLabels (fun w => decide (w ∈ stopwords)) (fun _ _ => [0]) segs (splitLike segs ls))) ∧
      (∀ ls, ls.length = (segs.flatMap fun w => if w ∈ stopwords then [' '] else w).length →
        a.inverseTransform ls =
        .ok (mapLabels (fun w => decide (w ∈ stopwords)) (fun w _ => List.replicate w.length 0) segs
          (splitLike (segs.map fun w => if w ∈ stopwords then [' '] else w) ls))) :=
  segmented_transform σ stopwords (by decide) stopwords_ne stopwords_longFirst s segs h

theorem prefix_out {ws : List Str} {s : Str} {segs : List Str} (h : Segmented ws s segs) :
    ∀ w : Str, ' ' ∉ w → w <+: (segs.flatMap fun w => if w ∈ ws then [' '] else w) → w <+: s := by
  induction h with
  | nil => intro w _ hw; simpa using hw
  | char c rest segs hno _ ih =>
    intro w hsp hw
    have hc : [c] ∉ ws := fun hc => hno _ hc ⟨rest, rfl⟩
    simp only [List.flatMap_cons, hc, if_false, List.cons_append, List.nil_append] at hw
    cases w with
    | nil => exact List.nil_prefix
    | cons d w =>
      obtain ⟨e1, e2⟩ := List.cons_prefix_cons.mp hw
      exact List.cons_prefix_cons.mpr ⟨e1, ih w (fun h => hsp (by simp [h])) e2⟩
  | word v rest segs hv _ _ _ =>
    intro w hsp hw
    simp only [List.flatMap_cons, hv, if_true, List.cons_append, List.nil_append] at hw
    cases w with
    | nil => exact List.nil_prefix
    | cons d w =>
      obtain ⟨e1, _⟩ := List.cons_prefix_cons.mp hw
      subst e1
      exact absurd (by simp) hsp

/-- C23: the output contains no stopword. -/
theorem C23_no_stopword_left (σ : SetOrder) (s out : Str)
    (h : outputOf (StopwordsToWhitespace.transform σ s) = .ok out) : ∀ w ∈ stopwords, ¬ w <:+: out := by
  obtain ⟨segs, hseg, hu⟩ := C23_segments s
  clear hu
  obtain ⟨a, ha, hrest⟩ := C23_stopwords σ s segs hseg
  rw [ha] at h
  injection h with h
  dsimp only at h
  subst h
  clear ha hrest
  intro w hw
  have hsp := stopwords_no_space w hw
  induction hseg with
  | nil =>
    intro hi
    exact stopwords_ne w hw (by simpa using hi)
  | char c rest segs hno hseg ih =>
    have hc : [c] ∉ stopwords := fun hc => hno _ hc ⟨rest, rfl⟩
    intro hi
    have hpre := prefix_out (.char c rest segs hno hseg) w hsp
    simp only [List.flatMap_cons, hc, if_false, List.cons_append, List.nil_append] at hi hpre
    rcases List.infix_cons_iff.mp hi with hp | hi
    · exact hno w hw (hpre hp)
    · exact ih hi
  | word v rest segs hv hmax hseg ih =>
    intro hi
    simp only [List.flatMap_cons, hv, if_true, List.cons_append, List.nil_append] at hi
    rcases List.infix_cons_iff.mp hi with hp | hi
    · cases hww : w with
      | nil => exact stopwords_ne w hw hww
      | cons d w' =>
        rw [hww] at hp hsp
        obtain ⟨e1, _⟩ := List.cons_prefix_cons.mp hp
        subst e1
        exact hsp (by simp)
    · exact ih hi

/-- "你哎呀吧好": the two-character stopword wins over its first character. -/
example : Segmented stopwords "你哎呀吧好".toList (["你", "哎呀", "吧", "好"].map String.toList) := by
  refine .char _ _ _ (by decide) (.word "哎呀".toList "吧好".toList _ (by decide) (by decide)
    (.word "吧".toList "好".toList _ (by decide) (by decide) (.char _ _ _ (by decide) .nil)))

end Uttut
