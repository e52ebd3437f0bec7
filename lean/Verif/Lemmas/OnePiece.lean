import Verif.Spec.OnePiece
import Verif.Lemmas.Parts
import Mathlib.Tactic.SplitIfs

/-! Labelled sequences in one piece: each place of the result has a source. -/

namespace Uttut

open Spec

/-- Labels with a mark for the places that count. -/
abbrev Marked := List (Bool × Int)

/-- As `OnePiece`, for marked labels. -/
def Whole (l : Int) (P : Marked) : Prop :=
  ∀ i j k : Nat, i < j → j < k → (P[i]?.map Prod.snd) = some l → (P[k]?.map Prod.snd) = some l →
    (P[j]?.map Prod.fst) = some true → (P[j]?.map Prod.snd) = some l

/-- Places of `Q` come from places of `P`: those with the label from places with the label, those that count and do not have
it from such places, in order. -/
def Sourced (l : Int) (P Q : Marked) : Prop :=
  ∃ place : Nat → Nat, (∀ i j, i ≤ j → place i ≤ place j) ∧ ∀ (j : Nat) b v, Q[j]? = some (b, v) →
    (v = l → ∃ b', P[place j]? = some (b', l)) ∧
    (b = true → v ≠ l → ∃ v', P[place j]? = some (true, v') ∧ v' ≠ l)

theorem Sourced.whole {l : Int} {P Q : Marked} (h : Sourced l P Q) (hP : Whole l P) : Whole l Q := by
  obtain ⟨f, hf, h⟩ := h
  intro i j k hij hjk hi hk hj
  simp only [Option.map_eq_some_iff] at hi hk hj
  obtain ⟨⟨b1, v1⟩, e1, rfl⟩ := hi
  obtain ⟨⟨b3, v3⟩, e3, h3⟩ := hk
  obtain ⟨⟨b2, v2⟩, e2, rfl⟩ := hj
  dsimp only at h3 ⊢
  by_contra hne
  have hv : v2 ≠ v1 := by
    intro e
    subst e
    exact hne (by rw [e2]; rfl)
  obtain ⟨c1, s1⟩ := (h i _ _ e1).1 rfl
  obtain ⟨c3, s3⟩ := (h k _ _ e3).1 h3
  obtain ⟨v', s2, hv'⟩ := (h j _ _ e2).2 rfl hv
  have m1 := hf i j (by omega)
  have m2 := hf j k (by omega)
  have n1 : f i ≠ f j := by
    intro e
    rw [e, s2] at s1
    cases s1
    exact hv' rfl
  have n2 : f j ≠ f k := by
    intro e
    rw [← e, s2] at s3
    cases s3
    exact hv' rfl
  have := hP (f i) (f j) (f k) (by omega) (by omega) (by rw [s1]; rfl) (by rw [s3]; rfl) (by rw [s2]; rfl)
  rw [s2] at this
  exact hv' (Option.some.inj this)

theorem Sourced.append {l : Int} {P P' Q Q' : Marked} (h : Sourced l P Q) (h' : Sourced l P' Q') :
    Sourced l (P ++ P') (Q ++ Q') := by
  obtain ⟨f, hf, h1⟩ := h
  obtain ⟨g, hg, h2⟩ := h'
  refine ⟨fun j => if j < Q.length then min (f j) P.length else g (j - Q.length) + P.length, fun i j hij => ?_,
    fun j b v hy => ?_⟩
  · dsimp only
    have a1 := hf i j hij
    have a2 := hg (i - Q.length) (j - Q.length) (by omega)
    split_ifs <;> omega
  · dsimp only
    by_cases hj : j < Q.length
    · rw [if_pos hj]
      rw [List.getElem?_append_left hj] at hy
      have key : ∀ x, P[f j]? = some x → (P ++ P')[min (f j) P.length]? = some x := by
        intro x hx
        obtain ⟨hlt, _⟩ := List.getElem?_eq_some_iff.mp hx
        rw [Nat.min_eq_left (by omega), List.getElem?_append_left hlt]
        exact hx
      obtain ⟨k1, k2⟩ := h1 j b v hy
      refine ⟨fun e => ?_, fun e1 e2 => ?_⟩
      · obtain ⟨b', hb⟩ := k1 e
        exact ⟨b', key _ hb⟩
      · obtain ⟨v', hv, hn⟩ := k2 e1 e2
        exact ⟨v', key _ hv, hn⟩
    · rw [if_neg hj]
      rw [List.getElem?_append_right (by omega)] at hy
      have key : ∀ x, P'[g (j - Q.length)]? = some x → (P ++ P')[g (j - Q.length) + P.length]? = some x := by
        intro x hx
        rw [List.getElem?_append_right (by omega), Nat.add_sub_cancel]
        exact hx
      obtain ⟨k1, k2⟩ := h2 _ b v hy
      refine ⟨fun e => ?_, fun e1 e2 => ?_⟩
      · obtain ⟨b', hb⟩ := k1 e
        exact ⟨b', key _ hb⟩
      · obtain ⟨v', hv, hn⟩ := k2 e1 e2
        exact ⟨v', key _ hv, hn⟩

theorem Sourced.refl (l : Int) (P : Marked) : Sourced l P P :=
  ⟨id, fun _ _ h => h, fun _ b v h => ⟨fun e => ⟨b, by rw [← e]; exact h⟩, fun e hv => ⟨v, by rw [← e]; exact h, hv⟩⟩⟩

/-- Nothing that counts, nothing with the label. -/
theorem Sourced.unseen {l : Int} {P Q : Marked} (h : ∀ q ∈ Q, q.1 = false ∧ q.2 ≠ l) : Sourced l P Q :=
  ⟨fun _ => 0, fun _ _ _ => Nat.le_refl _, fun j b v hj => by
    obtain ⟨h1, h2⟩ := h _ (List.mem_of_getElem? hj)
    exact ⟨fun e => absurd e h2, fun e => by rw [e] at h1; cases h1⟩⟩

theorem Sourced.nil (l : Int) (P : Marked) : Sourced l P [] := .unseen (by simp)

/-- All places have one label that some place has that counts, unless they do not count. -/
theorem Sourced.one {l : Int} {P Q : Marked} (v : Int) (hQ : ∀ q ∈ Q, q.2 = v ∨ q.1 = false ∧ q.2 ≠ l)
    (h1 : v = l → ∃ b, (b, l) ∈ P) (h2 : v ≠ l → ∃ w, (true, w) ∈ P ∧ w ≠ l) : Sourced l P Q := by
  by_cases hv : v = l
  · obtain ⟨b, hb⟩ := h1 hv
    obtain ⟨i, hi⟩ := List.getElem?_of_mem hb
    refine ⟨fun _ => i, fun _ _ _ => Nat.le_refl _, fun j b' v' hj => ⟨fun _ => ⟨b, hi⟩, fun e hn => ?_⟩⟩
    rcases hQ _ (List.mem_of_getElem? hj) with h | h
    · exact absurd (h.trans hv) hn
    · rw [e] at h; cases h.1
  · obtain ⟨w, hw, hne⟩ := h2 hv
    obtain ⟨i, hi⟩ := List.getElem?_of_mem hw
    refine ⟨fun _ => i, fun _ _ _ => Nat.le_refl _, fun j b' v' hj => ⟨fun e => ?_, fun _ _ => ⟨w, hi, hne⟩⟩⟩
    rcases hQ _ (List.mem_of_getElem? hj) with h | h
    · exact absurd (h.symm.trans e) hv
    · exact absurd e h.2

/-- The labels of a text, marked. -/
def marks (cnt : Char → Bool) (s : Str) (ls : List Int) : Marked := (s.zip ls).map fun p => (cnt p.1, p.2)

theorem marks_append {cnt : Char → Bool} {s t : Str} {ls ms : List Int} (h : s.length = ls.length) :
    marks cnt (s ++ t) (ls ++ ms) = marks cnt s ls ++ marks cnt t ms := by
  unfold marks
  rw [List.zip_append h, List.map_append]

theorem marks_mem {cnt : Char → Bool} {s : Str} {ls : List Int} (h : s.length = ls.length) (hc : ∀ c ∈ s, cnt c = true)
    {v : Int} (hv : v ∈ ls) : (true, v) ∈ marks cnt s ls := by
  obtain ⟨i, hi⟩ := List.getElem?_of_mem hv
  obtain ⟨hlt, _⟩ := List.getElem?_eq_some_iff.mp hi
  unfold marks
  refine List.mem_map.mpr ⟨(s[i]'(by omega), v), ?_, ?_⟩
  · refine List.mem_of_getElem? (i := i) ?_
    rw [List.getElem?_zip_eq_some]
    exact ⟨List.getElem?_eq_getElem (by omega), hi⟩
  · dsimp only
    rw [hc _ (List.getElem_mem _)]

theorem marks_mem' {cnt : Char → Bool} {s : Str} {ls : List Int} (h : s.length = ls.length)
    {v : Int} (hv : v ∈ ls) : ∃ b, (b, v) ∈ marks cnt s ls := by
  obtain ⟨i, hi⟩ := List.getElem?_of_mem hv
  obtain ⟨hlt, _⟩ := List.getElem?_eq_some_iff.mp hi
  unfold marks
  refine ⟨cnt (s[i]'(by omega)), List.mem_map.mpr ⟨(s[i]'(by omega), v), ?_, rfl⟩⟩
  refine List.mem_of_getElem? (i := i) ?_
  rw [List.getElem?_zip_eq_some]
  exact ⟨List.getElem?_eq_getElem (by omega), hi⟩

theorem marks_of_mem {cnt : Char → Bool} {s : Str} {ls : List Int} {q : Bool × Int} (h : q ∈ marks cnt s ls) :
    (∃ c ∈ s, cnt c = q.1) ∧ q.2 ∈ ls := by
  unfold marks at h
  obtain ⟨p, hp, rfl⟩ := List.mem_map.mp h
  exact ⟨⟨p.1, (List.of_mem_zip hp).1, rfl⟩, (List.of_mem_zip hp).2⟩

/-- The operator that replaces segments. -/
theorem sourced_segments {l : Int} {cnt : Char → Bool} {rec : Str → Bool} {new : Str → Str} {F : Str → List Int → List Int}
    (segs : List Str) (h : ∀ w ∈ segs, rec w = true → ∀ x : List Int, x.length = w.length → (F w x).length = (new w).length ∧
      Sourced l (marks cnt w x) (marks cnt (new w) (F w x))) (ls : List Int) (hl : ls.length = segs.flatten.length) :
    Sourced l (marks cnt segs.flatten ls)
      (marks cnt ((segs.map fun w => if rec w then new w else w).flatten) (mapLabels rec F segs (splitLike segs ls))) := by
  induction segs generalizing ls with
  | nil => exact .nil _ _
  | cons w segs ih =>
    rw [List.flatten_cons, List.length_append] at hl
    have hw : (ls.take w.length).length = w.length := by rw [List.length_take]; omega
    have hrest := ih (fun v hv => h v (List.mem_cons_of_mem _ hv)) (ls.drop w.length) (by rw [List.length_drop]; omega)
    have e : mapLabels rec F (w :: segs) (splitLike (w :: segs) ls) =
        (if rec w then F w (ls.take w.length) else ls.take w.length) ++ mapLabels rec F segs (splitLike segs (ls.drop w.length)) := by
      unfold mapLabels
      rw [splitLike, List.zip_cons_cons, List.flatMap_cons]
    rw [e, List.flatten_cons, List.map_cons, List.flatten_cons]
    conv => arg 2; rw [← List.take_append_drop w.length ls]
    rw [marks_append hw.symm, marks_append]
    · refine Sourced.append ?_ hrest
      by_cases hr : rec w = true
      · rw [if_pos hr, if_pos hr]
        exact (h w (by simp) hr _ hw).2
      · rw [if_neg hr, if_neg hr]
        exact .refl _ _
    · by_cases hr : rec w = true
      · rw [if_pos hr, if_pos hr]
        exact ((h w (by simp) hr _ hw).1).symm
      · rw [if_neg hr, if_neg hr]
        exact hw.symm

theorem whole_text {l : Int} {s : Str} {ls : List Int} (h : ls.length = s.length) :
    Whole l (marks (fun c => !isSpace c) s ls) ↔ OnePiece l (.str s) ls := by
  have key : ∀ i : Nat, (marks (fun c => !isSpace c) s ls)[i]?.map Prod.snd = ls[i]? := by
    intro i
    unfold marks
    rw [List.getElem?_map, Option.map_map]
    have : (Prod.snd ∘ fun p : Char × Int => ((!isSpace p.1, p.2) : Bool × Int)) = Prod.snd := rfl
    rw [this, ← List.getElem?_map, List.map_snd_zip (by omega)]
  have key' : ∀ i : Nat, i < ls.length → ((marks (fun c => !isSpace c) s ls)[i]?.map Prod.fst = some true ↔
      Counts (.str s) i) := by
    intro i hi
    unfold marks Counts
    have hz : (s.zip ls)[i]? = some (s[i]'(by omega), ls[i]) := by
      rw [List.getElem?_zip_eq_some]
      exact ⟨List.getElem?_eq_getElem (by omega), List.getElem?_eq_getElem _⟩
    rw [List.getElem?_map, hz]
    simp [List.getElem?_eq_getElem (show i < s.length by omega)]
  constructor
  · intro hw i j k hij hjk hi hk hc
    have hlt : k < ls.length := (List.getElem?_eq_some_iff.mp hk).1
    have := hw i j k hij hjk (by rw [key]; exact hi) (by rw [key]; exact hk) ((key' j (by omega)).mpr hc)
    rwa [key] at this
  · intro hw i j k hij hjk hi hk hc
    rw [key] at hi hk ⊢
    have hlt : k < ls.length := (List.getElem?_eq_some_iff.mp hk).1
    exact hw i j k hij hjk hi hk ((key' j (by omega)).mp hc)

/-- Labels where all places count. -/
def allMarks (ls : List Int) : Marked := ls.map fun v => (true, v)

theorem whole_all {l : Int} {ls : List Int} : Whole l (allMarks ls) ↔ Unbroken l ls := by
  have key : ∀ i : Nat, (allMarks ls)[i]?.map Prod.snd = ls[i]? := by
    intro i
    unfold allMarks
    rw [List.getElem?_map, Option.map_map]
    exact Option.map_id_apply
  have key' : ∀ i : Nat, i < ls.length → (allMarks ls)[i]?.map Prod.fst = some true := by
    intro i hi
    unfold allMarks
    rw [List.getElem?_map, List.getElem?_eq_getElem hi]
    rfl
  constructor
  · intro hw i j k hij hjk hi hk
    have hlt : k < ls.length := (List.getElem?_eq_some_iff.mp hk).1
    have := hw i j k hij hjk (by rw [key]; exact hi) (by rw [key]; exact hk) (key' j (by omega))
    rwa [key] at this
  · intro hw i j k hij hjk hi hk _
    rw [key] at hi hk ⊢
    exact hw i j k hij hjk hi hk

theorem marks_all {s : Str} {ls : List Int} (h : ls.length = s.length) : marks (fun _ => true) s ls = allMarks ls := by
  unfold marks allMarks
  have : (fun p : Char × Int => (true, p.2)) = (fun v => (true, v)) ∘ Prod.snd := rfl
  rw [this, ← List.map_map, List.map_snd_zip (by omega)]

theorem whole_strict {l : Int} {s : Str} {ls : List Int} (h : ls.length = s.length) :
    Whole l (marks (fun _ => true) s ls) ↔ Unbroken l ls := by
  rw [marks_all h, whole_all]

theorem onePiece_list {l : Int} {t : List Tok} {ls : List Int} : OnePiece l (.list t) ls ↔ Unbroken l ls :=
  ⟨fun h i j k hij hjk hi hk => h i j k hij hjk hi hk trivial, fun h i j k hij hjk hi hk _ => h i j k hij hjk hi hk⟩

theorem Spec.Unbroken.onePiece {l : Int} {ls : List Int} (h : Unbroken l ls) (s : Seq) : OnePiece l s ls :=
  fun i j k hij hjk hi hk _ => h i j k hij hjk hi hk

/-- Tokens cut out of a text. -/
theorem sourced_tokens {l : Int} (hl : 0 < l ∧ l < 2 ^ 32) {cnt : Char → Bool} (ps : List (Str × Str)) (tail : Str)
    (hn : ∀ p ∈ ps, p.2 ≠ []) (hc : ∀ p ∈ ps, ∀ c ∈ p.2, cnt c = true) (ls : List Int)
    (hlen : ls.length = (layout ps tail).length) :
    Sourced l (marks cnt (layout ps tail) ls) (allMarks ((tokenSegs ps ls).map tokenLabel)) := by
  induction ps generalizing ls with
  | nil => exact .nil _ _
  | cons p ps ih =>
    obtain ⟨g, t⟩ := p
    have hlay : layout ((g, t) :: ps) tail = g ++ (t ++ layout ps tail) := by
      unfold layout
      simp
    rw [hlay] at hlen ⊢
    simp only [List.length_append] at hlen
    have e1 : ls = ls.take g.length ++ ((ls.drop g.length).take t.length ++ ls.drop (g.length + t.length)) := by
      rw [← List.drop_drop, List.take_append_drop, List.take_append_drop]
    have hx : ((ls.drop g.length).take t.length).length = t.length := by
      rw [List.length_take, List.length_drop]; omega
    have hrest := ih (fun p hp => hn p (List.mem_cons_of_mem _ hp)) (fun p hp => hc p (List.mem_cons_of_mem _ hp))
      (ls.drop (g.length + t.length)) (by rw [List.length_drop]; omega)
    rw [tokenSegs, List.map_cons]
    have e2 : allMarks (tokenLabel ((ls.drop g.length).take t.length) :: (tokenSegs ps (ls.drop (g.length + t.length))).map tokenLabel) =
        [] ++ (allMarks [tokenLabel ((ls.drop g.length).take t.length)] ++
          allMarks ((tokenSegs ps (ls.drop (g.length + t.length))).map tokenLabel)) := rfl
    rw [e2]
    generalize (ls.drop g.length).take t.length = x at *
    generalize ls.drop (g.length + t.length) = r at *
    rw [e1, marks_append (by rw [List.length_take]; omega), marks_append hx.symm]
    refine (Sourced.nil _ _).append (Sourced.append ?_ hrest)
    have hx0 : x ≠ [] := by
      intro e
      rw [e] at hx
      exact hn _ (List.mem_cons_self ..) (List.length_eq_zero_iff.mp hx.symm)
    have hct := hc _ (List.mem_cons_self ..)
    refine .one (tokenLabel x) (fun q hq => ?_) (fun e => ?_) (fun e => ?_)
    · left
      cases List.mem_singleton.mp hq
      rfl
    · unfold tokenLabel at e
      split at e
      · exact ⟨true, marks_mem hx.symm hct (by rw [← e]; exact (isFirstMode_firstMode x hx0).1)⟩
      · omega
    · unfold tokenLabel at e
      split at e
      · exact ⟨_, marks_mem hx.symm hct (isFirstMode_firstMode x hx0).1, e⟩
      · rename_i hu
        push Not at hu
        obtain ⟨v, hv, hv2⟩ := hu
        refine ⟨v, marks_mem hx.symm hct hv, fun e => ?_⟩
        subst e
        have := hv2 (by omega)
        omega

theorem whole_absent {l : Int} {P : Marked} (h : ∀ q ∈ P, q.2 ≠ l) : Whole l P := by
  intro i j k _ _ hi
  simp only [Option.map_eq_some_iff] at hi
  obtain ⟨q, hq, e⟩ := hi
  exact absurd e (h q (List.mem_of_getElem? hq))

/-- A part of the sequence. -/
theorem Sourced.infix_ (l : Int) (P : Marked) (i n : Nat) : Sourced l P ((P.drop i).take n) := by
  refine ⟨fun j => i + j, fun _ _ h => Nat.add_le_add_left h i, fun j b v hj => ?_⟩
  have e : P[i + j]? = some (b, v) := by
    rw [List.getElem?_take] at hj
    split at hj
    · rwa [List.getElem?_drop] at hj
    · cases hj
  exact ⟨fun h => ⟨b, by rw [← h]; exact e⟩, fun h hv => ⟨v, by rw [← h]; exact e, hv⟩⟩

theorem Whole.after {l : Int} {A P : Marked} (hA : ∀ q ∈ A, q.2 ≠ l) (h : Whole l P) : Whole l (A ++ P) := by
  have key : ∀ i : Nat, (A ++ P)[i]?.map Prod.snd = some l → A.length ≤ i := by
    intro i hi
    by_contra hn
    simp only [Option.map_eq_some_iff] at hi
    obtain ⟨q, hq, e⟩ := hi
    rw [List.getElem?_append_left (by omega)] at hq
    exact hA q (List.mem_of_getElem? hq) e
  intro i j k hij hjk hi hk hj
  have := key i hi
  rw [List.getElem?_append_right (by omega)] at hi hj hk ⊢
  exact h _ _ _ (by omega) (by omega) hi hk hj

theorem Whole.before {l : Int} {P B : Marked} (hB : ∀ q ∈ B, q.2 ≠ l) (h : Whole l P) : Whole l (P ++ B) := by
  have key : ∀ i : Nat, (P ++ B)[i]?.map Prod.snd = some l → i < P.length := by
    intro i hi
    by_contra hn
    simp only [Option.map_eq_some_iff] at hi
    obtain ⟨q, hq, e⟩ := hi
    rw [List.getElem?_append_right (by omega)] at hq
    exact hB q (List.mem_of_getElem? hq) e
  intro i j k hij hjk hi hk hj
  have := key k hk
  rw [List.getElem?_append_left (by omega)] at hi hj hk ⊢
  exact h _ _ _ hij hjk hi hk hj

theorem sourced_map {l : Int} {α : Type} (L : List α) (f g : α → Bool × Int)
    (h : ∀ x ∈ L, ((g x).2 = l → (f x).2 = l) ∧ ((g x).1 = true → (g x).2 ≠ l → (f x).1 = true ∧ (f x).2 ≠ l)) :
    Sourced l (L.map f) (L.map g) := by
  refine ⟨id, fun _ _ h => h, fun j b v hj => ?_⟩
  rw [List.getElem?_map, Option.map_eq_some_iff] at hj
  obtain ⟨x, hx, e⟩ := hj
  obtain ⟨h1, h2⟩ := h x (List.mem_of_getElem? hx)
  rw [e] at h1 h2
  refine ⟨fun hv => ⟨(f x).1, ?_⟩, fun hb hv => ⟨(f x).2, ?_, (h2 hb hv).2⟩⟩
  · rw [id, List.getElem?_map, hx, ← h1 hv]
    rfl
  · rw [id, List.getElem?_map, hx, ← (h2 hb hv).1]
    rfl

theorem sourced_around {l : Int} (h0 : l ≠ 0) {cnt : Char → Bool} (hs : cnt ' ' = false) (valid : Char → Bool) (s : Str)
    (ls : List Int) (hl : ls.length = s.length) :
    Sourced l (marks cnt s ls) (marks cnt (s.flatMap fun c => if valid c then [' ', c, ' '] else [c])
      ((s.zip ls).flatMap fun p => if valid p.1 then [0, p.2, 0] else [p.2])) := by
  induction s generalizing ls with
  | nil => exact .nil _ _
  | cons c s ih =>
    cases ls with
    | nil => cases hl
    | cons v ls =>
      rw [List.zip_cons_cons, List.flatMap_cons, List.flatMap_cons, marks_append (by dsimp only; split <;> rfl)]
      have e : marks cnt (c :: s) (v :: ls) = [(cnt c, v)] ++ marks cnt s ls := rfl
      rw [e]
      refine Sourced.append ?_ (ih ls (by simpa using hl))
      dsimp only
      split
      · have h1 : Sourced l [] [(cnt ' ', (0 : Int))] := .unseen (by
          intro q hq
          cases List.mem_singleton.mp hq
          exact ⟨hs, fun e => h0 e.symm⟩)
        have := (h1.append (Sourced.refl l [(cnt c, v)])).append h1
        exact this
      · exact .refl _ _

theorem sourced_spaced {l : Int} (h0 : l ≠ 0) {cnt : Char → Bool} (hs : cnt ' ' = false) {P : Marked} {w : Str} {x : List Int}
    (hw : w.length = x.length) (h : Sourced l P (marks cnt w x)) :
    Sourced l P (marks cnt ([' '] ++ w ++ [' ']) ([0] ++ x ++ [0])) := by
  have h1 : Sourced l [] (marks cnt [' '] [0]) := .unseen (by
    intro q hq
    cases List.mem_singleton.mp hq
    exact ⟨hs, fun e => h0 e.symm⟩)
  rw [marks_append (by simp [hw]), marks_append rfl]
  have := (h1.append h).append h1
  rwa [List.nil_append, List.append_nil] at this

theorem sourced_mode {l : Int} {cnt : Char → Bool} {w t : Str} {x : List Int} (hx : x.length = w.length) (hw : w ≠ [])
    (hc : ∀ c ∈ w, cnt c = true) (n : Nat) :
    Sourced l (marks cnt w x) (marks cnt t (List.replicate n (firstMode x))) := by
  have hm : firstMode x ∈ x := (isFirstMode_firstMode x (by
    intro e
    rw [e] at hx
    exact hw (List.length_eq_zero_iff.mp hx.symm))).1
  refine .one (firstMode x) (fun q hq => Or.inl (List.eq_of_mem_replicate (marks_of_mem hq).2)) (fun e => ?_) fun e => ?_
  · exact ⟨true, marks_mem hx.symm hc (by rw [← e]; exact hm)⟩
  · exact ⟨_, marks_mem hx.symm hc hm, e⟩

/-- White space that becomes one blank. -/
theorem sourced_blank {l : Int} {cnt : Char → Bool} {w : Str} {x : List Int} (hx : x.length = w.length) (hw : w ≠ [])
    (hc : cnt ' ' = true → ∀ c ∈ w, cnt c = true) :
    Sourced l (marks cnt w x) (marks cnt [' '] [firstMode x]) := by
  have hm : firstMode x ∈ x := (isFirstMode_firstMode x (by
    intro e
    rw [e] at hx
    exact hw (List.length_eq_zero_iff.mp hx.symm))).1
  by_cases hs : cnt ' ' = true
  · exact sourced_mode hx hw (hc hs) 1
  · by_cases hv : firstMode x = l
    · obtain ⟨b, hb⟩ := marks_mem' (cnt := cnt) hx.symm hm
      rw [hv] at hb ⊢
      exact .one l (fun q hq => Or.inl (List.mem_singleton.mp (marks_of_mem hq).2)) (fun _ => ⟨b, hb⟩) (fun h => absurd rfl h)
    · refine .unseen fun q hq => ?_
      cases List.mem_singleton.mp hq
      exact ⟨by simpa using hs, hv⟩

/-- A search that has found an empty match finds it again and again, except at the end of the text. -/
theorem scan_steady {m : Matcher} {s : Str} (hm : SteadyMatcher m s) {pos : Nat} {ms : List (Nat × Nat)}
    (h : Scan m s pos ms) : (∀ x ∈ ms, x.1 = x.2 → s.length ≤ x.1) ∧ (pos < s.length → m s pos ≠ some (pos, pos)) := by
  induction h with
  | atEnd pos hp => exact ⟨by simp, fun h => absurd h (by omega)⟩
  | noMatch pos hp hn => exact ⟨by simp, fun _ e => by rw [hn] at e; cases e⟩
  | match_ pos a b ms h1 h2 h3 ih =>
    refine ⟨fun x hx e => ?_, fun _ e => ?_⟩
    · rcases List.mem_cons.mp hx with rfl | hx
      · dsimp only at e ⊢
        subst e
        by_contra hlt
        exact ih.2 (by omega) (hm pos a a (by omega) h2)
      · exact ih.1 x hx e
    · rw [h2] at e
      injection e with e
      injection e with e1 e2
      subst e1; subst e2
      exact ih.2 h1 h2

theorem slice_three {ls : List Int} {pos a b : Nat} (m1 : pos ≤ a) (m2 : a ≤ b) :
    ls.drop pos = slice ls pos a ++ slice ls a b ++ ls.drop b := by
  have es : ∀ i j, slice ls i j = (ls.drop i).take (j - i) := fun i j => List.drop_take
  rw [es, es]
  have e : ls.drop a = (ls.drop a).take (b - a) ++ ls.drop b := by
    conv => lhs; rw [← List.take_append_drop (b - a) (ls.drop a)]
    rw [List.drop_drop, Nat.add_sub_cancel' m2]
  rw [List.append_assoc, ← e]
  conv => lhs; rw [← List.take_append_drop (a - pos) (ls.drop pos)]
  rw [List.drop_drop, Nat.add_sub_cancel' m1]

theorem sourced_replace {l : Int} (h0 : l ≠ 0) {m : Matcher} {s : Str} (hm : SoundMatcher m s) {ms : List (Nat × Nat)}
    {pos n : Nat} {ls : List Int} (hl : ls.length = s.length) (hscan : Scan m s pos ms) (hpos : pos ≤ s.length)
    (hne : ∀ x ∈ ms, x.1 = x.2 → s.length ≤ x.1) :
    ∃ front k, replaceLabels ls n pos ms = front ++ List.replicate k 0 ∧ Sourced l (allMarks (ls.drop pos)) (allMarks front) := by
  induction hscan with
  | atEnd pos _ => exact ⟨ls.drop pos, 0, by rw [List.replicate_zero, List.append_nil]; rfl, .refl _ _⟩
  | noMatch pos _ _ => exact ⟨ls.drop pos, 0, by rw [List.replicate_zero, List.append_nil]; rfl, .refl _ _⟩
  | match_ pos a b ms h1 h2 h3 ih =>
    obtain ⟨m1, m2, m3⟩ := hm pos a b hpos h2
    have e2 : ∀ x y : List Int, allMarks (x ++ y) = allMarks x ++ allMarks y := fun _ _ => List.map_append
    have e1 := slice_three (ls := ls) m1 m2
    have hlen : (slice ls a b).length = b - a := by
      unfold slice
      rw [List.length_drop, List.length_take]
      omega
    rcases Nat.eq_or_lt_of_le m2 with hab | hab
    · subst hab
      have hend : s.length ≤ a := hne (a, a) (List.mem_cons_self ..) rfl
      have hms : ms = [] := by
        cases h3 with
        | atEnd => rfl
        | noMatch => rfl
        | match_ _ a' b' ms' q1 _ _ => omega
      subst hms
      have hx : slice ls a a = [] := List.length_eq_zero_iff.mp (by omega)
      have hd : ls.drop a = [] := List.drop_eq_nil_of_le (by omega)
      refine ⟨slice ls pos a, n, ?_, ?_⟩
      · show slice ls pos a ++ List.replicate n (firstNonzeroMode (slice ls a a)) ++ ls.drop a = _
        rw [hx, hd, List.append_nil]
        rfl
      · rw [e1, hx, hd, List.append_nil, List.append_nil]
        exact .refl _ _
    · obtain ⟨front, k, f1, f2⟩ := ih m3 fun x hx => hne x (List.mem_cons_of_mem _ hx)
      have hx : slice ls a b ≠ [] := by
        intro e
        rw [e] at hlen
        simp at hlen
        omega
      refine ⟨slice ls pos a ++ List.replicate n (firstNonzeroMode (slice ls a b)) ++ front, k, ?_, ?_⟩
      · rw [replaceLabels, f1, List.append_assoc _ front]
      rw [e1, e2, e2, e2, e2]
      refine ((Sourced.refl _ _).append ?_).append f2
      generalize slice ls a b = x at hx
      have hmem : ∀ v ∈ x, (true, v) ∈ allMarks x := fun v hv => List.mem_map.mpr ⟨v, hv, rfl⟩
      refine .one (firstNonzeroMode x) (fun q hq => Or.inl ?_) (fun e => ?_) fun e => ?_
      · obtain ⟨v, hv, rfl⟩ := List.mem_map.mp hq
        exact List.eq_of_mem_replicate hv
      · refine ⟨true, hmem l ?_⟩
        unfold firstNonzeroMode at e
        by_cases hf : x.filter (fun x => decide (x ≠ 0)) = []
        · rw [hf] at e
          exact absurd e.symm h0
        · have := (isFirstMode_firstMode _ hf).1
          rw [e] at this
          exact (List.mem_filter.mp this).1
      · unfold firstNonzeroMode at e
        by_cases hf : x.filter (fun x => decide (x ≠ 0)) = []
        · obtain ⟨v, hv⟩ := List.exists_mem_of_ne_nil x hx
          refine ⟨v, hmem v hv, fun e => ?_⟩
          have := List.filter_eq_nil_iff.mp hf v hv
          subst e
          exact this (by simpa using h0)
        · have := (isFirstMode_firstMode _ hf).1
          exact ⟨_, hmem _ (List.mem_filter.mp this).1, e⟩

theorem sourced_flat {l : Int} {α : Type} (k : α → Nat) (L : List α) (ls : List Int) :
    Sourced l (allMarks ls) (allMarks ((L.zip ls).flatMap fun p => List.replicate (k p.1) p.2)) := by
  induction L generalizing ls with
  | nil => exact .nil _ _
  | cons x L ih =>
    cases ls with
    | nil => exact .nil _ _
    | cons v ls =>
      rw [List.zip_cons_cons, List.flatMap_cons]
      have e1 : allMarks (v :: ls) = allMarks [v] ++ allMarks ls := rfl
      have e2 : ∀ x y : List Int, allMarks (x ++ y) = allMarks x ++ allMarks y := fun _ _ => List.map_append
      rw [e1, e2]
      refine Sourced.append ?_ (ih ls)
      refine .one v (fun q hq => Or.inl ?_) (fun e => ⟨true, by rw [e]; exact List.mem_singleton.mpr rfl⟩)
        fun e => ⟨v, List.mem_singleton.mpr rfl, e⟩
      obtain ⟨w, hw, rfl⟩ := List.mem_map.mp hq
      exact List.eq_of_mem_replicate hw

end Uttut
