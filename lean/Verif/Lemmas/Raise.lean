import Verif.Spec.Raise
import Verif.Lemmas.Runs
import Mathlib.Tactic.SplitIfs

/-! Sizes of sequences. -/

namespace Uttut

open Spec

theorem tokSize_pos (t : Tok) : 1 ≤ tokSize t := by
  cases t with
  | str w => exact Nat.le_max_left _ _
  | int i => exact Nat.le_refl _

theorem length_le_size (l : List Tok) : l.length ≤ (l.map tokSize).sum := by
  induction l with
  | nil => simp
  | cons t l ih =>
    have := tokSize_pos t
    simp only [List.length_cons, List.map_cons, List.sum_cons]
    omega

theorem seq_length_le_size (x : Seq) : x.length ≤ seqSize x := by
  cases x with
  | str s => exact Nat.le_refl _
  | list l => exact length_le_size l

theorem words_size {l : List Str} (h : ∀ w ∈ l, w ≠ []) : seqSize (.list (l.map Tok.str)) = l.flatten.length := by
  show ((l.map Tok.str).map tokSize).sum = _
  induction l with
  | nil => rfl
  | cons w l ih =>
    have h1 : 0 < w.length := List.length_pos_iff.mpr (h w (by simp))
    have h2 := ih fun v hv => h v (by simp [hv])
    simp only [List.map_cons, List.sum_cons, List.flatten_cons, List.length_append, tokSize, h2]
    omega

theorem Kind.not_text {q : Kind} {t : Tok} (h : q.Allows t) : q ≠ .text := by
  rintro rfl
  exact h

theorem Kind.allows_word {q : Kind} (hq : q ≠ .text) {w : Str} (h : w ≠ []) : q.Allows (.str w) := by
  cases q with
  | text => exact absurd rfl hq
  | words => exact ⟨w, h, rfl⟩
  | tokens => trivial

theorem Kind.holds_list {q : Kind} (hq : q ≠ .text) (x : Seq) :
    q.Holds x ↔ ∃ l, x = .list l ∧ ∀ t ∈ l, q.Allows t := by
  cases q with
  | text => exact absurd rfl hq
  | tokens => exact ⟨fun ⟨l, h⟩ => ⟨l, h, fun _ _ => trivial⟩, fun ⟨l, h, _⟩ => ⟨l, h⟩⟩
  | words =>
    constructor
    · rintro ⟨l, h, hl⟩
      refine ⟨_, h, fun t ht => ?_⟩
      obtain ⟨w, hw, rfl⟩ := List.mem_map.mp ht
      exact ⟨w, hl w hw, rfl⟩
    · rintro ⟨l, h, hl⟩
      subst h
      clear hq
      have : ∃ l' : List Str, l = l'.map Tok.str ∧ ∀ w ∈ l', w ≠ [] := by
        induction l with
        | nil => exact ⟨[], rfl, by simp⟩
        | cons t l ih =>
          obtain ⟨l', h1, h2⟩ := ih fun t ht => hl t (by simp [ht])
          obtain ⟨w, hw, rfl⟩ := hl t (by simp)
          exact ⟨w :: l', by rw [h1]; rfl, by simpa using ⟨hw, h2⟩⟩
      obtain ⟨l', h1, h2⟩ := this
      exact ⟨l', by rw [h1], h2⟩

theorem Kind.Fits.holds {q r : Kind} (h : q.Fits r) {x : Seq} (hx : q.Holds x) : r.Holds x := by
  cases h with
  | same => exact hx
  | words =>
    obtain ⟨l, h, _⟩ := hx
    exact ⟨_, h⟩

theorem flatMap_length_le {α : Type} (f : α → Str) (k : Nat) (size : α → Nat) (l : List α)
    (h : ∀ x ∈ l, (f x).length ≤ k * size x) : (l.flatMap f).length ≤ k * (l.map size).sum := by
  induction l with
  | nil => simp
  | cons x l ih =>
    have h1 := h x (by simp)
    have h2 := ih fun y hy => h y (by simp [hy])
    simp only [List.flatMap_cons, List.length_append, List.map_cons, List.sum_cons, Nat.mul_add]
    omega

theorem flatten_length_sum (l : List Str) : l.flatten.length = (l.map List.length).sum := List.length_flatten

theorem chars_length_le (f : Char → Str) (k : Nat) (h : ∀ c, (f c).length ≤ k) (s : Str) :
    (s.flatMap f).length ≤ k * s.length := by
  have := flatMap_length_le f k (fun _ => 1) s (fun c _ => by simpa using h c)
  have e : ∀ s : Str, (s.map fun _ => 1).sum = s.length := by
    intro s
    induction s with
    | nil => rfl
    | cons c s ih => rw [List.map_cons, List.sum_cons, ih, List.length_cons]; omega
  rwa [e] at this

theorem isFloat_length (u : Unicode) (r : Str) (h : isFloat u r = true) : 3 ≤ r.length := by
  unfold isFloat at h
  split at h
  · rename_i t ht
    simp only [Bool.and_eq_true, Bool.not_eq_true'] at h
    have h1 : 0 < (r.takeWhile (digit u)).length := by
      rw [List.length_pos_iff]
      intro e
      rw [e] at h
      exact absurd h.1.1 (by simp)
    have h2 : 0 < t.length := by
      rw [List.length_pos_iff]
      intro e
      rw [e] at h
      exact absurd h.1.2 (by simp)
    have e := congrArg List.length (List.takeWhile_append_dropWhile (p := digit u) (l := r))
    rw [ht, List.length_append, List.length_cons] at e
    omega
  · cases h

theorem dropWhile_length_le (p : Char → Bool) (s : Str) : (s.dropWhile p).length ≤ s.length :=
  (List.dropWhile_suffix p).length_le

theorem strip_length_le (s : Str) : (strip s).length ≤ s.length := by
  unfold strip
  rw [List.length_reverse]
  refine Nat.le_trans (dropWhile_length_le _ _) ?_
  rw [List.length_reverse]
  exact dropWhile_length_le _ _

/-- Each search starts behind the one before. -/
theorem replaceMatches_length_le {m : Matcher} {s v : Str} (hs : SoundMatcher m s) {pos : Nat} {ms : List (Nat × Nat)}
    (h : Scan m s pos ms) (hp : pos ≤ s.length) :
    (replaceMatches s v pos ms).length ≤ (v.length + 1) * (s.length - pos) := by
  induction h with
  | atEnd pos _ =>
    show (s.drop pos).length ≤ _
    rw [List.length_drop]
    exact Nat.le_mul_of_pos_left _ (by omega)
  | noMatch pos _ _ =>
    show (s.drop pos).length ≤ _
    rw [List.length_drop]
    exact Nat.le_mul_of_pos_left _ (by omega)
  | match_ pos a b ms hlt hm hscan ih =>
    obtain ⟨h1, h2, h3⟩ := hs pos a b hp hm
    have hb : pos < b := by
      rcases Nat.lt_or_ge pos b with h | h
      · exact h
      · have : a = pos := by omega
        have : b = pos := by omega
        subst this
        subst a
        exfalso
        clear ih
        generalize hq : b = q at hscan
        induction hscan with
        | atEnd q h => omega
        | noMatch q _ h => subst hq; rw [hm] at h; cases h
        | match_ q a' b' ms' _ hm' _ ih =>
          subst hq
          rw [hm] at hm'
          injection hm' with hm'
          injection hm' with _ e
          exact ih e
    have ih := ih h3
    have h4 : (slice s pos a).length ≤ a - pos := by
      unfold slice
      rw [List.length_drop, List.length_take]
      omega
    show (slice s pos a ++ v ++ replaceMatches s v b ms).length ≤ _
    rw [List.length_append, List.length_append]
    obtain ⟨d, rfl⟩ : ∃ d, b = pos + 1 + d := ⟨b - pos - 1, by omega⟩
    have e : s.length - pos = (s.length - (pos + 1 + d)) + (1 + d) := by omega
    rw [e, Nat.mul_add]
    have h5 : v.length + (1 + d) ≤ (v.length + 1) * (1 + d) := by
      rw [Nat.mul_add, Nat.mul_one, Nat.add_mul, Nat.one_mul]
      have : 0 ≤ v.length * d := Nat.zero_le _
      omega
    omega

end Uttut
