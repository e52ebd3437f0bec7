import Verif.Spec.Survive
import Verif.Props.Align
import Verif.Props.Numbers
import Verif.Lemmas.Words

/-! Labels carried through an operator that rewrites its input part by part, and back. -/

namespace Uttut

open Spec

theorem Spec.Settles.of_roundTrip {a : Aligner}
    (h : ∀ ls ys, a.transform ls = .ok ys → a.inverseTransform ys = .ok ls) : Settles a := by
  refine ⟨fun ls ys xs h1 h2 => ?_, fun ys xs zs _ h2 => h xs zs h2⟩
  rw [h ls ys h1] at h2
  injection h2 with h2
  rw [← h2]
  exact h1

/-- Aligners given by a function each way. -/
theorem Spec.Settles.of_maps {a : Aligner} {n m : Nat} {F B : List Int → List Int} (hn : a.inputLength = n)
    (hm : a.outputLength = m) (hF : ∀ ls, ls.length = n → a.transform ls = .ok (F ls))
    (hB : ∀ ls, ls.length = m → a.inverseTransform ls = .ok (B ls))
    (h1 : ∀ ls, ls.length = n → F (B (F ls)) = F ls) (h2 : ∀ ls, ls.length = m → B (F (B ls)) = B ls) :
    Settles a := by
  refine ⟨fun ls ys xs e1 e2 => ?_, fun ys xs zs e1 e2 => ?_⟩
  · have l1 := C15_transform_length a ls ys e1
    have l2 := C15_inverse_length a ys xs e2
    rw [hn, hm] at l1 l2
    have f1 : F ls = ys := Except.ok.inj ((hF ls l1.1).symm.trans e1)
    have f2 : B ys = xs := Except.ok.inj ((hB ys l2.1).symm.trans e2)
    rw [hF xs l2.2, ← f2, ← f1, h1 ls l1.1]
  · have l1 := C15_inverse_length a ys xs e1
    have l2 := C15_transform_length a xs zs e2
    rw [hn, hm] at l1 l2
    have f1 : B ys = xs := Except.ok.inj ((hB ys l1.1).symm.trans e1)
    have f2 : F xs = zs := Except.ok.inj ((hF xs l2.1).symm.trans e2)
    rw [hB zs l2.2, ← f2, ← f1, h2 ys l1.1]

theorem survives_iff {a : Aligner} {n m : Nat} {F B : List Int → List Int}
    (hm : a.outputLength = m) (hF : ∀ ls, ls.length = n → a.transform ls = .ok (F ls))
    (hB : ∀ ls, ls.length = m → a.inverseTransform ls = .ok (B ls)) (ls : List Int) (hl : ls.length = n) :
    Survives a ls ↔ B (F ls) = ls := by
  have hlen : (F ls).length = m := by
    rw [← hm]; exact (C15_transform_length a ls _ (hF ls hl)).2
  refine ⟨fun ⟨ys, h1, h2⟩ => ?_, fun h => ⟨F ls, hF ls hl, by rw [hB _ hlen, h]⟩⟩
  have f1 : F ls = ys := Except.ok.inj ((hF ls hl).symm.trans h1)
  rw [← f1, hB _ hlen] at h2
  exact Except.ok.inj h2

/-! ### part by part -/

variable {ι : Type}

theorem segments_len (ns : List Nat) (ls : List Int) : (segments ns ls).length = ns.length := by
  induction ns generalizing ls with
  | nil => rfl
  | cons n ns ih => simp [segments, ih]

theorem splitLike_segments (rs : List Str) (ls : List Int) : splitLike rs ls = segments (rs.map List.length) ls := by
  induction rs generalizing ls with
  | nil => rfl
  | cons r rs ih => rw [splitLike, List.map_cons, segments, ih]

theorem sum_lengths (rs : List Str) : (rs.map List.length).sum = rs.flatten.length := by
  rw [List.length_flatten]

/-- Cutting the concatenation of lists of known lengths gives the lists back. -/
theorem segments_flatMap (len : ι → Nat) (g : ι × List Int → List Int) (parts : List ι) (xs : List (List Int))
    (hx : xs.length = parts.length) (hg : ∀ x ∈ parts.zip xs, (g x).length = len x.1) :
    segments (parts.map len) ((parts.zip xs).flatMap g) = (parts.zip xs).map g := by
  induction parts generalizing xs with
  | nil => rfl
  | cons w parts ih =>
    cases xs with
    | nil => cases hx
    | cons x xs =>
      have e := hg (w, x) (by simp)
      dsimp only at e
      rw [List.zip_cons_cons, List.flatMap_cons, List.map_cons, List.map_cons, segments, List.take_left' e,
        List.drop_left' e, ih xs (by simpa using hx) fun y hy => hg y (by simp [hy])]

theorem zip_zip_map (parts : List ι) (xs : List (List Int)) (g : ι × List Int → List Int) :
    parts.zip ((parts.zip xs).map g) = (parts.zip xs).map fun x => (x.1, g x) := by
  induction parts generalizing xs with
  | nil => rfl
  | cons w parts ih => cases xs with
    | nil => rfl
    | cons x xs => simp [ih]

theorem segments_join (len : ι → Nat) (parts : List ι) (ls : List Int) (hl : ls.length = (parts.map len).sum) :
    (parts.zip (segments (parts.map len) ls)).flatMap (fun x => x.2) = ls := by
  induction parts generalizing ls with
  | nil => exact (List.length_eq_zero_iff.mp hl).symm
  | cons w parts ih =>
    have : ls.length = len w + (parts.map len).sum := by simpa using hl
    rw [List.map_cons, segments, List.zip_cons_cons, List.flatMap_cons, ih _ (by rw [List.length_drop]; omega),
      List.take_append_drop]

theorem segments_mem (len : ι → Nat) (parts : List ι) (ls : List Int) (hl : ls.length = (parts.map len).sum) :
    ∀ x ∈ parts.zip (segments (parts.map len) ls), x.2.length = len x.1 ∧ x.1 ∈ parts := by
  induction parts generalizing ls with
  | nil => simp
  | cons w parts ih =>
    have : ls.length = len w + (parts.map len).sum := by simpa using hl
    intro x hx
    rw [List.map_cons, segments, List.zip_cons_cons] at hx
    rcases List.mem_cons.mp hx with rfl | hx
    · exact ⟨by simp; omega, by simp⟩
    · obtain ⟨h1, h2⟩ := ih _ (by rw [List.length_drop]; omega) x hx
      exact ⟨h1, by simp [h2]⟩

/-- Two concatenations of lists of the same lengths are equal exactly if the lists are. -/
theorem flatMap_eq_iff {α β : Type} (l : List α) (f g : α → List β) (h : ∀ x ∈ l, (f x).length = (g x).length) :
    l.flatMap f = l.flatMap g ↔ ∀ x ∈ l, f x = g x := by
  induction l with
  | nil => simp
  | cons x l ih =>
    rw [List.flatMap_cons, List.flatMap_cons]
    have := ih fun y hy => h y (by simp [hy])
    constructor
    · intro e
      obtain ⟨e1, e2⟩ := List.append_inj e (h x (by simp))
      intro y hy
      rcases List.mem_cons.mp hy with rfl | hy
      · exact e1
      · exact this.mp e2 y hy
    · intro e
      rw [e x (by simp), this.mpr fun y hy => e y (by simp [hy])]

/-- An aligner that works part by part: the part `w` of the input, `len w` long, becomes one of `new w`. -/
structure PartByPart (a : Aligner) (parts : List ι) (len new : ι → Nat) (F B : ι → List Int → List Int) : Prop where
  input : a.inputLength = (parts.map len).sum
  output : a.outputLength = (parts.map new).sum
  fwd : ∀ ls, ls.length = (parts.map len).sum →
    a.transform ls = .ok ((parts.zip (segments (parts.map len) ls)).flatMap fun x => F x.1 x.2)
  bwd : ∀ ls, ls.length = (parts.map new).sum →
    a.inverseTransform ls = .ok ((parts.zip (segments (parts.map new) ls)).flatMap fun x => B x.1 x.2)
  fwdLen : ∀ w ∈ parts, ∀ x, x.length = len w → (F w x).length = new w
  bwdLen : ∀ w ∈ parts, ∀ x, x.length = new w → (B w x).length = len w

variable {a : Aligner} {parts : List ι} {len new : ι → Nat} {F B : ι → List Int → List Int}

/-- The way back undoes the cutting of the way forth. -/
theorem PartByPart.recut (h : PartByPart a parts len new F B) (ls : List Int) (hl : ls.length = (parts.map len).sum) :
    parts.zip (segments (parts.map new) ((parts.zip (segments (parts.map len) ls)).flatMap fun x => F x.1 x.2)) =
      (parts.zip (segments (parts.map len) ls)).map fun x => (x.1, F x.1 x.2) := by
  rw [segments_flatMap new _ parts _ (by rw [segments_len, List.length_map]), zip_zip_map]
  intro x hx
  obtain ⟨h1, h2⟩ := segments_mem len parts ls hl x hx
  exact h.fwdLen _ h2 _ h1

theorem PartByPart.recut_back (h : PartByPart a parts len new F B) (ls : List Int)
    (hl : ls.length = (parts.map new).sum) :
    parts.zip (segments (parts.map len) ((parts.zip (segments (parts.map new) ls)).flatMap fun x => B x.1 x.2)) =
      (parts.zip (segments (parts.map new) ls)).map fun x => (x.1, B x.1 x.2) := by
  rw [segments_flatMap len _ parts _ (by rw [segments_len, List.length_map]), zip_zip_map]
  intro x hx
  obtain ⟨h1, h2⟩ := segments_mem new parts ls hl x hx
  exact h.bwdLen _ h2 _ h1

theorem PartByPart.survives (h : PartByPart a parts len new F B) (ls : List Int)
    (hl : ls.length = (parts.map len).sum) :
    Survives a ls ↔ ∀ x ∈ parts.zip (segments (parts.map len) ls), B x.1 (F x.1 x.2) = x.2 := by
  rw [survives_iff h.output h.fwd h.bwd ls hl, h.recut ls hl, List.flatMap_map]
  have e := segments_join len parts ls hl
  rw [← flatMap_eq_iff (parts.zip (segments (parts.map len) ls)) (fun x => B x.1 (F x.1 x.2)) (fun x => x.2), e]
  intro x hx
  obtain ⟨h1, h2⟩ := segments_mem len parts ls hl x hx
  rw [h1]
  exact h.bwdLen _ h2 _ (h.fwdLen _ h2 _ h1)

theorem PartByPart.settles (h : PartByPart a parts len new F B)
    (h1 : ∀ w ∈ parts, ∀ x, x.length = len w → F w (B w (F w x)) = F w x)
    (h2 : ∀ w ∈ parts, ∀ x, x.length = new w → B w (F w (B w x)) = B w x) : Settles a := by
  refine .of_maps h.input h.output h.fwd h.bwd (fun ls hl => ?_) fun ls hl => ?_
  · have e : ((parts.zip (segments (parts.map len) ls)).flatMap fun x => F x.1 x.2).length = (parts.map new).sum := by
      rw [← h.output]; exact (C15_transform_length a ls _ (h.fwd ls hl)).2
    rw [h.recut_back _ e, h.recut ls hl, List.flatMap_map, List.flatMap_map]
    refine flatMap_congr_mem fun x hx => ?_
    obtain ⟨g1, g2⟩ := segments_mem len parts ls hl x hx
    exact h1 _ g2 _ g1
  · have e : ((parts.zip (segments (parts.map new) ls)).flatMap fun x => B x.1 x.2).length = (parts.map len).sum := by
      rw [← h.input]; exact (C15_inverse_length a ls _ (h.bwd ls hl)).2
    rw [h.recut _ e, h.recut_back ls hl, List.flatMap_map, List.flatMap_map]
    refine flatMap_congr_mem fun x hx => ?_
    obtain ⟨g1, g2⟩ := segments_mem new parts ls hl x hx
    exact h2 _ g2 _ g1

/-- The same for an aligner described on parts of a text. -/
theorem partByPart_text {segs : List Str} {news : Str → Str} {F B : Str → List Int → List Int}
    (input : a.inputLength = segs.flatten.length) (output : a.outputLength = (segs.map news).flatten.length)
    (fwd : ∀ ls, ls.length = segs.flatten.length →
      a.transform ls = .ok ((segs.zip (splitLike segs ls)).flatMap fun x => F x.1 x.2))
    (bwd : ∀ ls, ls.length = (segs.map news).flatten.length →
      a.inverseTransform ls = .ok ((segs.zip (splitLike (segs.map news) ls)).flatMap fun x => B x.1 x.2))
    (fwdLen : ∀ w ∈ segs, ∀ x, x.length = w.length → (F w x).length = (news w).length)
    (bwdLen : ∀ w ∈ segs, ∀ x, x.length = (news w).length → (B w x).length = w.length) :
    PartByPart a segs List.length (fun w => (news w).length) F B := by
  have hn : (segs.map fun w => (news w).length) = (segs.map news).map List.length := by rw [List.map_map]; rfl
  refine ⟨by rw [sum_lengths]; exact input, by rw [hn, sum_lengths]; exact output, fun ls hl => ?_, fun ls hl => ?_,
    fwdLen, bwdLen⟩
  · rw [sum_lengths] at hl
    rw [fwd ls hl, splitLike_segments]
  · rw [hn, sum_lengths] at hl
    rw [bwd ls hl, splitLike_segments, hn]

end Uttut
