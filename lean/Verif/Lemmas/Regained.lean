import Verif.Spec.Regained
import Verif.Lemmas.OnePiece
import Verif.Lemmas.Honest

/-! Labels on the way back: each segment of the input gets its labels from one segment of the output. -/

namespace Uttut

open Spec

/-- The label, or white space without a label. -/
def Fitting (l : Int) (q : Bool × Int) : Prop := q.2 = l ∨ q = (false, 0)

/-- As `Gapless`, for marked labels. -/
def Firm (l : Int) (P : Marked) : Prop :=
  ∀ i j k : Nat, i < j → j < k → (P[i]?.map Prod.snd) = some l → (P[k]?.map Prod.snd) = some l → ∃ q, P[j]? = some q ∧ Fitting l q

/-- A segment `x` with labels from a segment `y`. -/
structure Segment (l : Int) (y x : Marked) : Prop where
  source : (∃ q ∈ x, q.2 = l) → ∃ q ∈ y, q.2 = l
  pure : (∃ q ∈ x, q.2 = l) → ∀ q ∈ x, Fitting l q
  keep : (∀ q ∈ y, Fitting l q) → ∀ q ∈ x, Fitting l q

/-- Labels `X` made of labels `Y`, segment by segment. -/
def Regained (l : Int) (Y X : Marked) : Prop :=
  ∃ L : List (Marked × Marked), Y = L.flatMap Prod.fst ∧ X = L.flatMap Prod.snd ∧ ∀ p ∈ L, Segment l p.1 p.2

theorem flat_place {α β : Type} {f : α → List β} {L : List α} {j : Nat} {q : β} (h : (L.flatMap f)[j]? = some q) :
    ∃ b z, L[b]? = some z ∧ q ∈ f z ∧ ((L.take b).flatMap f).length ≤ j ∧ j < ((L.take (b + 1)).flatMap f).length := by
  induction L generalizing j with
  | nil => cases h
  | cons z L ih =>
    rw [List.flatMap_cons] at h
    by_cases hj : j < (f z).length
    · rw [List.getElem?_append_left hj] at h
      refine ⟨0, z, rfl, List.mem_of_getElem? h, Nat.zero_le _, ?_⟩
      simpa using hj
    · rw [List.getElem?_append_right (by omega)] at h
      obtain ⟨b, z', h1, h2, h3, h4⟩ := ih h
      refine ⟨b + 1, z', h1, h2, ?_, ?_⟩
      · rw [List.take_succ_cons, List.flatMap_cons, List.length_append]
        omega
      · rw [List.take_succ_cons, List.flatMap_cons, List.length_append]
        omega

theorem place_flat {α β : Type} {f : α → List β} {L : List α} {b : Nat} {z : α} {q : β} (h : L[b]? = some z) (hq : q ∈ f z) :
    ∃ j : Nat, (L.flatMap f)[j]? = some q ∧ ((L.take b).flatMap f).length ≤ j ∧ j < ((L.take (b + 1)).flatMap f).length := by
  induction L generalizing b with
  | nil => cases h
  | cons y L ih =>
    cases b with
    | zero =>
      cases h
      obtain ⟨j, hj⟩ := List.getElem?_of_mem hq
      have hlt := (List.getElem?_eq_some_iff.mp hj).1
      refine ⟨j, ?_, Nat.zero_le _, by simpa using hlt⟩
      rw [List.flatMap_cons, List.getElem?_append_left hlt]
      exact hj
    | succ b =>
      obtain ⟨j, h1, h2, h3⟩ := ih h
      refine ⟨(f y).length + j, ?_, ?_, ?_⟩
      · rw [List.flatMap_cons, List.getElem?_append_right (by omega), Nat.add_sub_cancel_left]
        exact h1
      · rw [List.take_succ_cons, List.flatMap_cons, List.length_append]
        omega
      · rw [List.take_succ_cons, List.flatMap_cons, List.length_append]
        omega

theorem flat_mono {α β : Type} (f : α → List β) (L : List α) {a b : Nat} (h : a ≤ b) :
    ((L.take a).flatMap f).length ≤ ((L.take b).flatMap f).length := by
  have : L.take b = L.take a ++ (L.drop a).take (b - a) := by
    rw [← List.take_add, Nat.add_sub_cancel' h]
  rw [this, List.flatMap_append, List.length_append]
  omega

theorem Regained.firm {l : Int} {Y X : Marked} (h : Regained l Y X) (hY : Firm l Y) : Firm l X := by
  obtain ⟨L, rfl, rfl, hL⟩ := h
  intro i j k hij hjk hi hk
  simp only [Option.map_eq_some_iff] at hi hk
  obtain ⟨qi, ei, vi⟩ := hi
  obtain ⟨qk, ek, vk⟩ := hk
  have hlt : j < (L.flatMap Prod.snd).length := by have := (List.getElem?_eq_some_iff.mp ek).1; omega
  refine ⟨_, List.getElem?_eq_getElem hlt, ?_⟩
  have ej := List.getElem?_eq_getElem hlt
  generalize (L.flatMap Prod.snd)[j] = qj at ej
  obtain ⟨a, za, a1, a2, a3, a4⟩ := flat_place ei
  obtain ⟨b, zb, b1, b2, b3, b4⟩ := flat_place ej
  obtain ⟨c, zc, c1, c2, c3, c4⟩ := flat_place ek
  have hab : a ≤ b := by
    by_contra hn
    have := flat_mono Prod.snd L (show b + 1 ≤ a by omega)
    omega
  have hbc : b ≤ c := by
    by_contra hn
    have := flat_mono Prod.snd L (show c + 1 ≤ b by omega)
    omega
  have sa := hL za (List.mem_of_getElem? a1)
  have sb := hL zb (List.mem_of_getElem? b1)
  have sc := hL zc (List.mem_of_getElem? c1)
  rcases Nat.eq_or_lt_of_le hab with e | hab
  · subst e
    cases a1.symm.trans b1
    exact sa.pure ⟨qi, a2, vi⟩ qj b2
  rcases Nat.eq_or_lt_of_le hbc with e | hbc
  · subst e
    cases c1.symm.trans b1
    exact sc.pure ⟨qk, c2, vk⟩ qj b2
  obtain ⟨pa, ma, va⟩ := sa.source ⟨qi, a2, vi⟩
  obtain ⟨pc, mc, vc⟩ := sc.source ⟨qk, c2, vk⟩
  refine sb.keep (fun q hq => ?_) qj b2
  obtain ⟨i', i1, _, i3⟩ := place_flat (f := Prod.fst) a1 ma
  obtain ⟨j', j1, j2, j3⟩ := place_flat (f := Prod.fst) b1 hq
  obtain ⟨k', k1, k2, _⟩ := place_flat (f := Prod.fst) c1 mc
  have m1 := flat_mono Prod.fst L (show a + 1 ≤ b by omega)
  have m2 := flat_mono Prod.fst L (show b + 1 ≤ c by omega)
  obtain ⟨q', e1, e2⟩ := hY i' j' k' (by omega) (by omega) (by rw [i1, ← va]; rfl) (by rw [k1, ← vc]; rfl)
  rw [j1] at e1
  cases e1
  exact e2

theorem Regained.append {l : Int} {Y Y' X X' : Marked} (h : Regained l Y X) (h' : Regained l Y' X') :
    Regained l (Y ++ Y') (X ++ X') := by
  obtain ⟨L, rfl, rfl, hL⟩ := h
  obtain ⟨L', rfl, rfl, hL'⟩ := h'
  refine ⟨L ++ L', by rw [List.flatMap_append], by rw [List.flatMap_append], fun p hp => ?_⟩
  rcases List.mem_append.mp hp with hp | hp
  · exact hL p hp
  · exact hL' p hp

theorem Segment.regained {l : Int} {y x : Marked} (h : Segment l y x) : Regained l y x :=
  ⟨[(y, x)], by simp, by simp, fun p hp => by cases List.mem_singleton.mp hp; exact h⟩

theorem Regained.map {l : Int} {α : Type} (L : List α) (f g : α → Bool × Int)
    (h : ∀ x ∈ L, ((g x).2 = l → (f x).2 = l) ∧ (Fitting l (f x) → Fitting l (g x))) : Regained l (L.map f) (L.map g) := by
  refine ⟨L.map fun x => ([f x], [g x]), ?_, ?_, fun p hp => ?_⟩
  · rw [List.flatMap_map]
    induction L with
    | nil => rfl
    | cons x L ih => rw [List.map_cons, List.flatMap_cons, ih fun y hy => h y (List.mem_cons_of_mem _ hy)]; rfl
  · rw [List.flatMap_map]
    induction L with
    | nil => rfl
    | cons x L ih => rw [List.map_cons, List.flatMap_cons, ih fun y hy => h y (List.mem_cons_of_mem _ hy)]; rfl
  · obtain ⟨x, hx, rfl⟩ := List.mem_map.mp hp
    obtain ⟨h1, h2⟩ := h x hx
    refine ⟨fun ⟨q, hq, e⟩ => ?_, fun ⟨q, hq, e⟩ => ?_, fun hg q hq => ?_⟩
    · cases List.mem_singleton.mp hq
      exact ⟨f x, List.mem_singleton.mpr rfl, h1 e⟩
    · cases List.mem_singleton.mp hq
      intro q hq
      cases List.mem_singleton.mp hq
      exact Or.inl e
    · cases List.mem_singleton.mp hq
      exact h2 (hg _ (List.mem_singleton.mpr rfl))

theorem Regained.refl (l : Int) (P : Marked) : Regained l P P := by
  have := Regained.map (l := l) P id id fun x _ => ⟨fun h => h, fun h => h⟩
  rwa [List.map_id] at this

/-- What is left out on the way back. -/
theorem Regained.drop (l : Int) (P : Marked) : Regained l P [] :=
  Segment.regained ⟨fun ⟨_, h, _⟩ => (by cases h), fun ⟨_, h, _⟩ => (by cases h), fun _ _ h => (by cases h)⟩

/-- White space that gets the label 0. -/
theorem Regained.blank {l : Int} (h0 : l ≠ 0) {X : Marked} (h : ∀ q ∈ X, q = (false, 0)) : Regained l [] X :=
  Segment.regained ⟨fun ⟨q, hq, e⟩ => by rw [h q hq] at e; exact absurd e.symm h0,
    fun _ q hq => Or.inr (h q hq), fun _ q hq => Or.inr (h q hq)⟩

/-- One label for the whole segment. -/
theorem Segment.one {l : Int} {y x : Marked} (v : Int) (hx : ∀ q ∈ x, q.2 = v) (h1 : v = l → ∃ q ∈ y, q.2 = l)
    (h2 : (∀ q ∈ y, Fitting l q) → v ≠ l → v = 0 ∧ ∀ q ∈ x, q.1 = false) : Segment l y x := by
  refine ⟨fun ⟨q, hq, e⟩ => h1 ((hx q hq).symm.trans e), fun ⟨q, hq, e⟩ q' hq' => Or.inl ((hx q' hq').trans ((hx q hq).symm.trans e)),
    fun hg q hq => ?_⟩
  by_cases hv : v = l
  · exact Or.inl ((hx q hq).trans hv)
  · obtain ⟨e1, e2⟩ := h2 hg hv
    refine Or.inr (Prod.ext (e2 q hq) ?_)
    rw [hx q hq, e1]

theorem marks_good {l : Int} {cnt : Char → Bool} {s : Str} {ls : List Int} (h : s.length = ls.length)
    (hg : ∀ q ∈ marks cnt s ls, Fitting l q) : ∀ v ∈ ls, v = l ∨ v = 0 := by
  intro v hv
  obtain ⟨b, hb⟩ := marks_mem' (cnt := cnt) h hv
  rcases hg _ hb with e | e
  · exact Or.inl e
  · exact Or.inr (congrArg Prod.snd e)

theorem marks_at {cnt : Char → Bool} {s : Str} {ls : List Int} (h : s.length = ls.length) {c : Char} (hc : c ∈ s) :
    ∃ v ∈ ls, (cnt c, v) ∈ marks cnt s ls := by
  obtain ⟨i, hi⟩ := List.getElem?_of_mem hc
  have hlt := (List.getElem?_eq_some_iff.mp hi).1
  refine ⟨ls[i]'(by omega), List.getElem_mem _, List.mem_map.mpr ⟨(c, ls[i]'(by omega)), ?_, rfl⟩⟩
  refine List.mem_of_getElem? (i := i) ?_
  rw [List.getElem?_zip_eq_some]
  exact ⟨hi, List.getElem?_eq_getElem _⟩

theorem firstNonzeroMode_good {l : Int} {x : List Int} (h : ∀ v ∈ x, v = l ∨ v = 0) :
    (firstNonzeroMode x = l ∧ l ∈ x) ∨ (firstNonzeroMode x = 0 ∧ ∀ v ∈ x, v = 0) := by
  unfold firstNonzeroMode
  by_cases hf : x.filter (fun x => decide (x ≠ 0)) = []
  · refine Or.inr ⟨by rw [hf]; rfl, fun v hv => ?_⟩
    have := List.filter_eq_nil_iff.mp hf v hv
    simpa using this
  · have hm := List.mem_filter.mp (isFirstMode_firstMode _ hf).1
    have : firstMode (x.filter fun x => decide (x ≠ 0)) ≠ 0 := by simpa using hm.2
    rcases h _ hm.1 with e | e
    · refine Or.inl ⟨e, ?_⟩
      have h1 := hm.1
      rw [e] at h1
      exact h1
    · exact absurd e this

theorem firstNonzeroMode_mem (l : List Int) : firstNonzeroMode l = 0 ∨ firstNonzeroMode l ∈ l := by
  unfold firstNonzeroMode
  by_cases h : l.filter (fun x => decide (x ≠ 0)) = []
  · rw [h]
    exact Or.inl rfl
  · exact Or.inr (List.mem_filter.mp (isFirstMode_firstMode _ h).1).1

/-- The most common label other than 0 of the segment that stands for this one. -/
theorem segment_nonzero {l : Int} (h0 : l ≠ 0) {cnt : Char → Bool} {t w : Str} {ys : List Int} (hy : ys.length = t.length)
    (hc : (∃ c ∈ t, cnt c = true) ∨ ∀ c ∈ w, cnt c = false) :
    Segment l (marks cnt t ys) (marks cnt w (List.replicate w.length (firstNonzeroMode ys))) := by
  refine .one (firstNonzeroMode ys) (fun q hq => List.eq_of_mem_replicate (marks_of_mem hq).2) (fun e => ?_) fun hg hne => ?_
  · rcases firstNonzeroMode_mem ys with h | h
    · exact absurd (e.symm.trans h) h0
    · rw [e] at h
      obtain ⟨b, hb⟩ := marks_mem' (cnt := cnt) hy.symm h
      exact ⟨_, hb, rfl⟩
  · rcases firstNonzeroMode_good (marks_good hy.symm hg) with h | ⟨h, hz⟩
    · exact absurd h.1 hne
    refine ⟨h, fun q hq => ?_⟩
    obtain ⟨⟨c, hcw, e⟩, _⟩ := marks_of_mem hq
    rcases hc with ⟨d, hd, hd2⟩ | hc
    · obtain ⟨v, hv, hm⟩ := marks_at (cnt := cnt) hy.symm hd
      rcases hg _ hm with e | e
      · have := hz v hv
        dsimp only at e
        exact absurd (e.symm.trans this) h0
      · rw [hd2] at e
        cases e
    · rw [← e]
      exact hc c hcw

/-- Segments of the text and what stands for them. -/
theorem regained_segments {l : Int} {cnt : Char → Bool} {rec : Str → Bool} {new : Str → Str} {B : Str → List Int → List Int}
    (segs : List Str) (h : ∀ w ∈ segs, rec w = true → ∀ y : List Int, y.length = (new w).length → (B w y).length = w.length ∧
      Regained l (marks cnt (new w) y) (marks cnt w (B w y))) (ys : List Int)
    (hl : ys.length = ((segs.map fun w => if rec w then new w else w).flatten).length) :
    Regained l (marks cnt ((segs.map fun w => if rec w then new w else w).flatten) ys)
      (marks cnt segs.flatten (mapLabels rec B segs (splitLike (segs.map fun w => if rec w then new w else w) ys))) := by
  induction segs generalizing ys with
  | nil => exact .drop _ _
  | cons w segs ih =>
    rw [List.map_cons, List.flatten_cons, List.length_append] at hl
    rw [List.map_cons, List.flatten_cons, List.flatten_cons, splitLike]
    generalize hn : (if rec w then new w else w) = n at hl ⊢
    have hw : (ys.take n.length).length = n.length := by rw [List.length_take]; omega
    have hrest := ih (fun v hv => h v (List.mem_cons_of_mem _ hv)) (ys.drop n.length) (by rw [List.length_drop]; omega)
    have e : mapLabels rec B (w :: segs) (ys.take n.length ::
          splitLike (segs.map fun w => if rec w then new w else w) (ys.drop n.length)) =
        (if rec w then B w (ys.take n.length) else ys.take n.length) ++
          mapLabels rec B segs (splitLike (segs.map fun w => if rec w then new w else w) (ys.drop n.length)) := by
      unfold mapLabels
      rw [List.zip_cons_cons, List.flatMap_cons]
    rw [e]
    conv => arg 2; rw [← List.take_append_drop n.length ys]
    rw [marks_append hw.symm, marks_append]
    · refine Regained.append ?_ hrest
      by_cases hr : rec w = true
      · rw [if_pos hr] at hn ⊢
        subst hn
        exact (h w (by simp) hr _ hw).2
      · rw [if_neg hr] at hn ⊢
        subst hn
        exact .refl _ _
    · by_cases hr : rec w = true
      · rw [if_pos hr] at hn ⊢
        subst hn
        exact ((h w (by simp) hr _ hw).1).symm
      · rw [if_neg hr] at hn ⊢
        subst hn
        exact hw.symm

theorem firm_text {l : Int} {s : Str} {ls : List Int} (h : ls.length = s.length) :
    Firm l (marks (fun c => !isSpace c) s ls) ↔ Gapless l (.str s) ls := by
  have key : ∀ i : Nat, (marks (fun c => !isSpace c) s ls)[i]?.map Prod.snd = ls[i]? := by
    intro i
    unfold marks
    rw [List.getElem?_map, Option.map_map]
    have : (Prod.snd ∘ fun p : Char × Int => ((!isSpace p.1, p.2) : Bool × Int)) = Prod.snd := rfl
    rw [this, ← List.getElem?_map, List.map_snd_zip (by omega)]
  have key' : ∀ i : Nat, i < ls.length → ((∃ q, (marks (fun c => !isSpace c) s ls)[i]? = some q ∧ Fitting l q) ↔
      (ls[i]? = some l ∨ ls[i]? = some 0 ∧ ¬ Counts (.str s) i)) := by
    intro i hi
    unfold marks Counts Fitting
    have hz : (s.zip ls)[i]? = some (s[i]'(by omega), ls[i]) := by
      rw [List.getElem?_zip_eq_some]
      exact ⟨List.getElem?_eq_getElem (by omega), List.getElem?_eq_getElem _⟩
    rw [List.getElem?_map, hz]
    simp [List.getElem?_eq_getElem (show i < s.length by omega), List.getElem?_eq_getElem hi, and_comm]
  constructor
  · intro hw i j k hij hjk hi hk
    have hlt : k < ls.length := (List.getElem?_eq_some_iff.mp hk).1
    exact (key' j (by omega)).mp (hw i j k hij hjk (by rw [key]; exact hi) (by rw [key]; exact hk))
  · intro hw i j k hij hjk hi hk
    rw [key] at hi hk
    have hlt : k < ls.length := (List.getElem?_eq_some_iff.mp hk).1
    exact (key' j (by omega)).mpr (hw i j k hij hjk hi hk)

theorem solid_list {l : Int} {t : List Tok} {ls : List Int} : Gapless l (.list t) ls ↔ Unbroken l ls :=
  ⟨fun h i j k hij hjk hi hk => (h i j k hij hjk hi hk).elim id fun h => absurd trivial h.2,
    fun h i j k hij hjk hi hk => Or.inl (h i j k hij hjk hi hk)⟩

theorem firm_all {l : Int} {ls : List Int} : Firm l (allMarks ls) ↔ Unbroken l ls := by
  have key : ∀ i : Nat, (allMarks ls)[i]? = ls[i]?.map fun v => (true, v) := by
    intro i
    unfold allMarks
    rw [List.getElem?_map]
  constructor
  · intro hw i j k hij hjk hi hk
    obtain ⟨q, h1, h2⟩ := hw i j k hij hjk (by rw [key, hi]; rfl) (by rw [key, hk]; rfl)
    rw [key, Option.map_eq_some_iff] at h1
    obtain ⟨v, e, rfl⟩ := h1
    rcases h2 with h2 | h2
    · dsimp only at h2
      rw [e, h2]
    · cases h2
  · intro hw i j k hij hjk hi hk
    have e : ∀ i : Nat, (allMarks ls)[i]?.map Prod.snd = ls[i]? := by
      intro i
      rw [key, Option.map_map]
      exact Option.map_id_apply
    rw [e] at hi hk
    exact ⟨(true, l), by rw [key, hw i j k hij hjk hi hk]; rfl, Or.inl rfl⟩

theorem Firm.before {l : Int} {P B : Marked} (hB : ∀ q ∈ B, q.2 ≠ l) (h : Firm l P) : Firm l (P ++ B) := by
  have key : ∀ i : Nat, (P ++ B)[i]?.map Prod.snd = some l → i < P.length := by
    intro i hi
    by_contra hn
    simp only [Option.map_eq_some_iff] at hi
    obtain ⟨q, hq, e⟩ := hi
    rw [List.getElem?_append_right (by omega)] at hq
    exact hB q (List.mem_of_getElem? hq) e
  intro i j k hij hjk hi hk
  have := key k hk
  rw [List.getElem?_append_left (by omega)] at hi hk ⊢
  exact h _ _ _ hij hjk hi hk

end Uttut
