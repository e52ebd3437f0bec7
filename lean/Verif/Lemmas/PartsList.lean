import Verif.Lemmas.Parts
import Verif.Props.WordPiece
import Verif.Props.Hash

/-! Operators part by part: characters and tokens treated one by one, sub-words, outer whitespace and patterns. -/

namespace Uttut

open Spec

/-! ### One by one -/

theorem tokenwise_parts (σ : SetOrder) (nv : Tok → Res (Option (List Tok))) (e : Exc)
    (he : ∀ t e', nv t = .error e' → e' = e) (h1 : ∀ t v, nv t = .ok (some v) → v.length = 1) (x y : List Tok) :
    FnParts (fun l => tokenwiseTransform σ nv l fun _ n => Aligner.null l.length n) x y := by
  have hbad : ∀ l : List Tok, (∃ t ∈ l, ∃ e', nv t = .error e') →
      (tokenwiseTransform σ nv l fun _ n => Aligner.null l.length n) = .error e := by
    rintro l ⟨t, ht, e', h⟩
    unfold tokenwiseTransform
    rw [enumAdd_error nv l e ⟨t, ht, by rw [h, he t e' h]⟩ fun t _ e' h => he t e' h]
    rfl
  let val : Tok → Option (List Tok) := fun t => match nv t with
    | .ok v => v
    | .error _ => none
  let g : List Tok → List Tok := fun l => l.flatMap fun t => (val t).getD [t]
  have hgood : ∀ l : List Tok, (¬ ∃ t ∈ l, ∃ e', nv t = .error e') →
      (g l).length = l.length ∧ ∃ a, (tokenwiseTransform σ nv l fun _ n => Aligner.null l.length n) = .ok (g l, a) ∧
        PassThrough a l.length := by
    intro l hl
    have hv : ∀ t ∈ l, nv t = .ok (val t) := by
      intro t ht
      cases h : nv t with
      | error e' => exact absurd ⟨t, ht, e', h⟩ hl
      | ok v => simp only [val, h]
    have hlen : (g l).length = l.length := by
      clear hl
      induction l with
      | nil => rfl
      | cons t l ih =>
        simp only [g, List.flatMap_cons, List.length_append, List.length_cons]
        have := ih fun t ht => hv t (by simp [ht])
        simp only [g] at this
        rw [this]
        have ht := hv t (by simp)
        cases hvt : val t with
        | none => simp; omega
        | some v =>
          rw [hvt] at ht
          have := h1 t v ht
          simp [this]; omega
    refine ⟨hlen, _, tokenwiseTransform_congr σ nv val l hv _, ?_⟩
    have : (l.flatMap fun x => (val x).getD [x]).length = l.length := hlen
    rw [this]
    exact null_passThrough _
  by_cases hx : ∃ t ∈ x, ∃ e', nv t = .error e'
  · refine .fails e (hbad _ hx) (hbad _ ?_)
    obtain ⟨t, ht, h⟩ := hx
    exact ⟨t, List.mem_append_left _ ht, h⟩
  · obtain ⟨lx, a, ha, px⟩ := hgood x hx
    by_cases hy : ∃ t ∈ y, ∃ e', nv t = .error e'
    · refine .failsThen _ e ha (hbad _ hy) (hbad _ ?_)
      obtain ⟨t, ht, h⟩ := hy
      exact ⟨t, List.mem_append_right _ ht, h⟩
    · refine passThrough_parts (g := g) List.flatMap_append fun s hs => hgood s ?_
      simp only [List.mem_cons, List.not_mem_nil, or_false] at hs
      rcases hs with rfl | rfl | rfl
      · exact hx
      · exact hy
      · rintro ⟨t, ht, h⟩
        rcases List.mem_append.mp ht with ht | ht
        · exact hx ⟨t, ht, h⟩
        · exact hy ⟨t, ht, h⟩

theorem segments_append (ns ms : List Nat) (l m : List Int) (h : l.length = ns.sum) :
    segments (ns ++ ms) (l ++ m) = segments ns l ++ segments ms m := by
  induction ns generalizing l with
  | nil =>
    simp at h
    subst h
    rfl
  | cons n ns ih =>
    simp only [List.sum_cons] at h
    simp only [List.cons_append, segments]
    rw [List.take_append_of_le_length (by omega), List.drop_append_of_le_length (by omega),
      ih (l.drop n) (by rw [List.length_drop]; omega)]

theorem around_parts (σ : SetOrder) (valid : Char → Bool) (x y : Str) :
    FnParts (AddWhitespaceAroundChar.transform σ valid) x y := by
  obtain ⟨a1, h1, _, f1, b1, _⟩ := C17_around σ valid x
  obtain ⟨a2, h2, _, f2, b2, _⟩ := C17_around σ valid y
  obtain ⟨a, h3, _, f3, b3, _⟩ := C17_around σ valid (x ++ y)
  rw [List.flatMap_append] at h3 b3
  refine .gives _ _ _ _ _ h1 h2 h3 (fun l m e1 e2 => ?_) (fun l m e1 e2 => ?_)
  · rw [f3 _ (by simp [e1, e2]), bothAnswers_ok (f1 l e1) (f2 m e2), List.zip_append e1.symm, List.flatMap_append]
  · rw [b3 _ (by simp only [List.length_append, e1, e2]), bothAnswers_ok (b1 l e1) (b2 m e2), List.map_append,
      segments_append _ _ _ _ ?_, List.map_append]
    rw [e1, List.length_flatMap]
    congr 1
    apply List.map_congr_left
    intro c _
    by_cases h : valid c = true <;> simp [h]

theorem blank_parts (σ : SetOrder) (u : Unicode) (x y : Str) :
    FnParts (PunctuationExceptEndpointToWhitespace.transform σ u) x y := by
  obtain ⟨a1, h1, _, f1⟩ := C26_transform σ u x
  obtain ⟨a2, h2, _, f2⟩ := C26_transform σ u y
  obtain ⟨a, h3, _, f3⟩ := C26_transform σ u (x ++ y)
  rw [List.map_append] at h3
  refine .gives _ _ _ _ _ h1 h2 h3 (fun l m e1 e2 => ?_) (fun l m e1 e2 => ?_)
  · rw [(f3 _ (by simp [e1, e2])).1, bothAnswers_ok (f1 l e1).1 (f2 m e2).1, List.zip_append e1.symm, List.map_append]
  · rw [List.length_map] at e1 e2
    rw [(f3 _ (by simp [e1, e2])).2, bothAnswers_ok (f1 l e1).2 (f2 m e2).2, List.zip_append e1.symm, List.map_append]

theorem uintLabels_append (l m : List Int) : uintLabels (l ++ m) ↔ uintLabels l ∧ uintLabels m := by
  unfold uintLabels
  constructor
  · exact fun h => ⟨fun x hx => h x (List.mem_append_left _ hx), fun x hx => h x (List.mem_append_right _ hx)⟩
  · rintro ⟨h1, h2⟩ x hx
    rcases List.mem_append.mp hx with hx | hx
    · exact h1 x hx
    · exact h2 x hx

theorem charTokenizer_parts (σ : SetOrder) (x y : Str) : FnParts (CharTokenizer.transform σ) x y := by
  obtain ⟨a1, h1, _, b1, f1, o1⟩ := C41_char σ x
  obtain ⟨a2, h2, _, b2, f2, o2⟩ := C41_char σ y
  obtain ⟨a, h3, _, b3, f3, o3⟩ := C41_char σ (x ++ y)
  rw [List.map_append] at h3
  refine .gives _ _ _ _ _ h1 h2 h3 (fun l m e1 e2 => ?_) (fun l m e1 e2 => ?_)
  · rw [f3 _ (by simp [e1, e2]), bothAnswers_ok (f1 l e1) (f2 m e2), List.map_append]
  · rw [List.length_map] at e1 e2
    have hl : (l ++ m).length = (x ++ y).length := by simp [e1, e2]
    by_cases u1 : uintLabels l
    · by_cases u2 : uintLabels m
      · rw [(b3 _ hl ((uintLabels_append l m).mpr ⟨u1, u2⟩)).2, bothAnswers_ok (b1 l e1 u1).2 (b2 m e2 u2).2]
      · rw [o3 _ hl (fun h => u2 ((uintLabels_append l m).mp h).2), (b1 l e1 u1).2, o2 m e2 u2]
        rfl
    · rw [o3 _ hl (fun h => u1 ((uintLabels_append l m).mp h).1), o1 l e1 u1]
      rfl

/-! ### Sub-words -/

theorem not_noTwoEmpty (l : List Str) (h : ¬ NoTwoEmpty l) : ∃ pre post, l = pre ++ [] :: [] :: post := by
  induction l with
  | nil => exact absurd trivial h
  | cons a l ih =>
    cases l with
    | nil => exact absurd trivial h
    | cons b l =>
      by_cases hab : a ≠ [] ∨ b ≠ []
      · obtain ⟨pre, post, e⟩ := ih fun h' => h ⟨hab, h'⟩
        exact ⟨a :: pre, post, by rw [e]; rfl⟩
      · rw [not_or, Decidable.not_not, Decidable.not_not] at hab
        exact ⟨[], l, by rw [hab.1, hab.2]; rfl⟩

theorem noTwoEmpty_append (l m : List Str) (h : NoTwoEmpty l) (h' : NoTwoEmpty m)
    (hj : ¬ (l.getLast? = some [] ∧ m.head? = some [])) : NoTwoEmpty (l ++ m) := by
  induction l with
  | nil => exact h'
  | cons a l ih =>
    cases l with
    | nil =>
      cases m with
      | nil => trivial
      | cons b m =>
        refine ⟨?_, h'⟩
        by_cases ha : a = []
        · by_cases hb : b = []
          · subst ha; subst hb
            exact absurd ⟨rfl, rfl⟩ hj
          · exact Or.inr hb
        · exact Or.inl ha
    | cons b l => exact ⟨h.1, ih h.2 fun hh => hj ⟨by simpa using hh.1, hh.2⟩⟩

theorem tok_strs (l : List Tok) : (∃ i, Tok.int i ∈ l) ∨ ∃ ws : List Str, l = ws.map Tok.str := by
  induction l with
  | nil => exact Or.inr ⟨[], rfl⟩
  | cons t l ih =>
    rcases ih with ⟨i, h⟩ | ⟨ws, rfl⟩
    · exact Or.inl ⟨i, by simp [h]⟩
    · cases t with
      | int i => exact Or.inl ⟨i, by simp⟩
      | str s => exact Or.inr ⟨s :: ws, rfl⟩

theorem spanSubwords_non_string (σ : SetOrder) (vocab : Str → Bool) (unk : Str) (maxChars : Int) (l : List Tok) (i : Int)
    (h : Tok.int i ∈ l) : SpanSubwords.transform σ vocab unk maxChars l = .error .typeError := by
  unfold SpanSubwords.transform tokenwiseTransform
  rw [enumAdd_error _ l .typeError ⟨_, h, rfl⟩]
  · rfl
  · intro t _ e he
    cases t with
    | int j => simp only [SpanSubwords.newValue] at he; injection he with he; exact he.symm
    | str s =>
      obtain ⟨subs, hs, _⟩ := spanSubwords_ok vocab unk maxChars s
      simp only [SpanSubwords.newValue, hs, Except.bind_ok] at he
      cases he

theorem subwords_parts (σ : SetOrder) (vocab : Str → Bool) (unk : Str) (maxChars : Int) (x y : List Tok)
    (hj : 0 ≤ maxChars → ¬ (x.getLast? = some (.str []) ∧ y.head? = some (.str []))) :
    FnParts (SpanSubwords.transform σ vocab unk maxChars) x y := by
  classical
  have hex : ∃ subs : Str → List Str, ∀ s, SpanSubwords.spanSubwords vocab unk maxChars s = .ok (subs s) :=
    ⟨fun s => (spanSubwords_ok vocab unk maxChars s).choose,
      fun s => (spanSubwords_ok vocab unk maxChars s).choose_spec.1⟩
  obtain ⟨subs, hs⟩ := hex
  rcases tok_strs x with ⟨i, hx⟩ | ⟨xs, rfl⟩
  · exact .fails _ (spanSubwords_non_string σ vocab unk maxChars _ i hx)
      (spanSubwords_non_string σ vocab unk maxChars _ i (List.mem_append_left _ hx))
  obtain ⟨a1, h1, f1, _, b1, _⟩ := C34_transform σ vocab unk maxChars xs subs fun s _ => hs s
  rcases tok_strs y with ⟨i, hy⟩ | ⟨ys, rfl⟩
  · exact .failsThen _ _ h1 (spanSubwords_non_string σ vocab unk maxChars _ i hy)
      (spanSubwords_non_string σ vocab unk maxChars _ i (List.mem_append_right _ hy))
  obtain ⟨a2, h2, f2, _, b2, _⟩ := C34_transform σ vocab unk maxChars ys subs fun s _ => hs s
  obtain ⟨a, h3, f3, _, b3, _⟩ := C34_transform σ vocab unk maxChars (xs ++ ys) subs fun s _ => hs s
  have ho : ∀ l : List Str, (l.flatMap fun s => (subs s).map Tok.str).length = (l.flatMap fun s => subs s).length := by
    intro l
    simp [List.length_flatMap]
  rw [List.flatMap_append, List.map_append] at h3
  refine .gives _ _ _ _ _ h1 h2 h3 (fun l m e1 e2 => ?_) (fun l m e1 e2 => ?_)
  · rw [List.length_map] at e1 e2
    rw [f3 _ (by simp [e1, e2]), bothAnswers_ok (f1 l e1) (f2 m e2), List.zip_append e1.symm, List.flatMap_append]
  · rw [ho] at e1 e2
    have hl : (l ++ m).length = ((xs ++ ys).flatMap fun s => subs s).length := by
      rw [List.flatMap_append, List.length_append, List.length_append, e1, e2]
    have hdup : ∀ (ws : List Str) (o : List Tok) (b : Aligner) (k : List Int), 0 ≤ maxChars → ¬ NoTwoEmpty ws →
        SpanSubwords.transform σ vocab unk maxChars (ws.map Tok.str) = .ok (o, b) → k.length = o.length →
        b.inverseTransform k = .error .assertionError := by
      intro ws o b k hm hn h hk
      obtain ⟨pre, post, rfl⟩ := not_noTwoEmpty ws hn
      exact C34_adjacent_empty σ vocab unk maxChars hm pre post o b h k hk
    have hsub : ∀ pre l post : List Str, NoTwoEmpty (pre ++ l ++ post) → NoTwoEmpty l := by
      intro pre l post h
      induction pre with
      | nil =>
        rw [List.nil_append] at h
        clear e1 e2 hl
        induction l with
        | nil => trivial
        | cons a l ih =>
          cases l with
          | nil => trivial
          | cons b l => exact ⟨h.1, ih h.2⟩
      | cons p pre ih =>
        apply ih
        cases hp : pre ++ l ++ post with
        | nil => trivial
        | cons q qs =>
          rw [List.cons_append, List.cons_append, hp] at h
          exact h.2
    by_cases hm : maxChars < 0
    · rw [b3 (Or.inl hm) _ hl, bothAnswers_ok (b1 (Or.inl hm) l e1) (b2 (Or.inl hm) m e2), List.map_append,
        segments_append _ _ _ _ (by rw [e1, List.length_flatMap]), List.map_append]
    · have hm0 : 0 ≤ maxChars := by omega
      by_cases n1 : NoTwoEmpty xs
      · by_cases n2 : NoTwoEmpty ys
        · have n3 : NoTwoEmpty (xs ++ ys) := noTwoEmpty_append xs ys n1 n2 fun hh => hj hm0 (by
            simp only [List.getLast?_map, List.head?_map, hh.1, hh.2]
            exact ⟨rfl, rfl⟩)
          rw [b3 (Or.inr n3) _ hl, bothAnswers_ok (b1 (Or.inr n1) l e1) (b2 (Or.inr n2) m e2), List.map_append,
            segments_append _ _ _ _ (by rw [e1, List.length_flatMap]), List.map_append]
        · have n3 : ¬ NoTwoEmpty (xs ++ ys) := fun h => n2 (hsub xs ys [] (by simpa using h))
          rw [← List.map_append, ← List.flatMap_append] at h3
          rw [hdup _ _ _ _ hm0 n3 h3 (by rw [ho]; exact hl), b1 (Or.inr n1) l e1, hdup _ _ _ _ hm0 n2 h2 (by rw [ho]; exact e2)]
          rfl
      · have n3 : ¬ NoTwoEmpty (xs ++ ys) := fun h => n1 (hsub [] xs ys (by simpa using h))
        rw [← List.map_append, ← List.flatMap_append] at h3
        rw [hdup _ _ _ _ hm0 n3 h3 (by rw [ho]; exact hl), hdup _ _ _ _ hm0 n1 h1 (by rw [ho]; exact e1)]
        rfl

/-! ### Patterns -/

theorem slice_append_left {α : Type} (x y : List α) (a b : Nat) (h : b ≤ x.length) : slice (x ++ y) a b = slice x a b := by
  unfold slice
  rw [List.take_append_of_le_length h]

theorem slice_append_over {α : Type} (x y : List α) (a b : Nat) (h : a ≤ x.length) :
    slice (x ++ y) a (x.length + b) = x.drop a ++ slice y 0 b := by
  unfold slice
  rw [List.take_length_add_append, List.drop_append_of_le_length h, List.drop_zero]

theorem slice_append_right {α : Type} (x y : List α) (a b : Nat) :
    slice (x ++ y) (x.length + a) (x.length + b) = slice y a b := by
  unfold slice
  rw [List.take_length_add_append, List.drop_length_add_append]

theorem replaceMatches_after (x y v : Str) (p : Nat) (ns : List (Nat × Nat)) :
    replaceMatches (x ++ y) v (x.length + p) (matchesAfter x.length ns) = replaceMatches y v p ns := by
  induction ns generalizing p with
  | nil => exact List.drop_length_add_append ..
  | cons n ns ih =>
    have := ih n.2
    simp only [matchesAfter] at this ⊢
    simp only [List.map_cons, replaceMatches, slice_append_right, this]

theorem replaceMatches_append {m : Matcher} {x : Str} (hs : SoundMatcher m x) {pos : Nat} {ms : List (Nat × Nat)}
    (h : Scan m x pos ms) (hp : pos ≤ x.length) (y v : Str) (ns : List (Nat × Nat)) :
    replaceMatches (x ++ y) v pos (ms ++ matchesAfter x.length ns) =
      replaceMatches x v pos ms ++ replaceMatches y v 0 ns := by
  have base : ∀ pos, pos ≤ x.length → replaceMatches (x ++ y) v pos (matchesAfter x.length ns) =
      x.drop pos ++ replaceMatches y v 0 ns := by
    intro pos hp
    cases ns with
    | nil => exact List.drop_append_of_le_length hp
    | cons n ns =>
      have := replaceMatches_after x y v n.2 ns
      simp only [matchesAfter] at this ⊢
      simp only [List.map_cons, replaceMatches, slice_append_over _ _ _ _ hp, this, List.append_assoc]
  induction h with
  | atEnd pos _ => exact base pos hp
  | noMatch pos _ _ => exact base pos hp
  | match_ pos a b ms h0 hm _ ih =>
    obtain ⟨h1, h2, h3⟩ := hs pos a b hp hm
    simp only [List.cons_append, replaceMatches, ih h3, slice_append_left x y pos a (by omega), List.append_assoc]

theorem replaceLabels_after (l k : List Int) (n p : Nat) (ns : List (Nat × Nat)) :
    replaceLabels (l ++ k) n (l.length + p) (matchesAfter l.length ns) = replaceLabels k n p ns := by
  induction ns generalizing p with
  | nil => exact List.drop_length_add_append ..
  | cons n ns ih =>
    have := ih n.2
    simp only [matchesAfter] at this ⊢
    simp only [List.map_cons, replaceLabels, slice_append_right, this]

theorem replaceLabels_append {m : Matcher} {x : Str} (hs : SoundMatcher m x) {pos : Nat} {ms : List (Nat × Nat)}
    (h : Scan m x pos ms) (hp : pos ≤ x.length) (l k : List Int) (hl : l.length = x.length) (n : Nat)
    (ns : List (Nat × Nat)) :
    replaceLabels (l ++ k) n pos (ms ++ matchesAfter x.length ns) =
      replaceLabels l n pos ms ++ replaceLabels k n 0 ns := by
  have base : ∀ pos, pos ≤ x.length → replaceLabels (l ++ k) n pos (matchesAfter x.length ns) =
      l.drop pos ++ replaceLabels k n 0 ns := by
    intro pos hp
    rw [← hl] at hp ⊢
    cases ns with
    | nil => exact List.drop_append_of_le_length hp
    | cons q ns =>
      have := replaceLabels_after l k n q.2 ns
      simp only [matchesAfter] at this ⊢
      simp only [List.map_cons, replaceLabels, slice_append_over _ _ _ _ hp, slice_append_right, this, List.append_assoc]
  induction h with
  | atEnd pos _ => exact base pos hp
  | noMatch pos _ _ => exact base pos hp
  | match_ pos a b ms h0 hm _ ih =>
    obtain ⟨h1, h2, h3⟩ := hs pos a b hp hm
    simp only [List.cons_append, replaceLabels, ih h3, slice_append_left l k pos a (by omega),
      slice_append_left l k a b (by omega), List.append_assoc]

theorem restoreLabels_after (N n p : Nat) (ns : List (Nat × Nat)) (k : List Int) :
    restoreLabels n (N + p) (matchesAfter N ns) k = restoreLabels n p ns k := by
  induction ns generalizing p k with
  | nil => rfl
  | cons q ns ih =>
    have := ih q.2
    simp only [matchesAfter] at this ⊢
    simp only [List.map_cons, restoreLabels, this, Nat.add_sub_add_left]

theorem restoreLabels_append {m : Matcher} {x : Str} (hs : SoundMatcher m x) {pos : Nat} {ms : List (Nat × Nat)}
    (h : Scan m x pos ms) (hp : pos ≤ x.length) (v : Str) (l k : List Int)
    (hl : l.length = (replaceMatches x v pos ms).length) (ns : List (Nat × Nat)) :
    restoreLabels v.length pos (ms ++ matchesAfter x.length ns) (l ++ k) =
      restoreLabels v.length pos ms l ++ restoreLabels v.length 0 ns k := by
  have base : ∀ pos, pos ≤ x.length → ∀ l : List Int, l.length = x.length - pos →
      restoreLabels v.length pos (matchesAfter x.length ns) (l ++ k) = l ++ restoreLabels v.length 0 ns k := by
    intro pos hp l hl
    cases ns with
    | nil => rfl
    | cons q ns =>
      have := restoreLabels_after x.length v.length q.2 ns
      simp only [matchesAfter] at this ⊢
      have e1 : x.length + q.1 - pos = l.length + q.1 := by omega
      have e2 : x.length + q.2 - (x.length + q.1) = q.2 - q.1 := by omega
      simp only [List.map_cons, restoreLabels, this, e1, e2, List.take_length_add_append, List.drop_length_add_append,
        Nat.sub_zero, List.append_assoc]
  induction h generalizing l with
  | atEnd pos _ => exact base pos hp l (by simpa [replaceMatches] using hl)
  | noMatch pos _ _ => exact base pos hp l (by simpa [replaceMatches] using hl)
  | match_ pos a b ms h0 hm _ ih =>
    obtain ⟨h1, h2, h3⟩ := hs pos a b hp hm
    have hsl : (slice x pos a).length = a - pos := by
      unfold slice
      rw [List.length_drop, List.length_take]
      omega
    simp only [replaceMatches, List.length_append, hsl] at hl
    simp only [List.cons_append, restoreLabels]
    rw [List.take_append_of_le_length (by omega), List.drop_append_of_le_length (by omega),
      List.take_append_of_le_length (by rw [List.length_drop]; omega),
      List.drop_append_of_le_length (by rw [List.length_drop]; omega),
      ih h3 ((l.drop (a - pos)).drop v.length) (by rw [List.length_drop, List.length_drop]; omega)]
    simp only [List.append_assoc]

theorem replace_parts (σ : SetOrder) (m : Matcher) (v x y : Str) (ms ns : List (Nat × Nat)) (h : MatchesApart m x y ms ns)
    (hv : v ≠ [] ∨ DistinctMatches x ms ∧ DistinctMatches y ns ∧
      DistinctMatches (x ++ y) (ms ++ matchesAfter x.length ns)) :
    FnParts (ReplaceAwithB.transform σ m v) x y := by
  obtain ⟨⟨s1, s2, s3⟩, c1, c2, c3⟩ := h
  obtain ⟨a1, h1, _, _, f1, b1⟩ := C25_replace σ m v x s1 ms c1
  obtain ⟨a2, h2, _, _, f2, b2⟩ := C25_replace σ m v y s2 ns c2
  obtain ⟨a, h3, _, _, f3, b3⟩ := C25_replace σ m v (x ++ y) s3 _ c3
  have b1 := (b1 (hv.imp_right fun h => h.1)).2
  have b2 := (b2 (hv.imp_right fun h => h.2.1)).2
  have b3 := (b3 (hv.imp_right fun h => h.2.2)).2
  rw [replaceMatches_append s1 c1 (Nat.zero_le _)] at h3 b3
  refine .gives _ _ _ _ _ h1 h2 h3 (fun l k e1 e2 => ?_) (fun l k e1 e2 => ?_)
  · rw [(f3 _ (by simp [e1, e2])).1, bothAnswers_ok (f1 l e1).1 (f2 k e2).1,
      replaceLabels_append s1 c1 (Nat.zero_le _) l k e1]
  · rw [b3 _ (by simp [e1, e2]), bothAnswers_ok (b1 l e1) (b2 k e2), restoreLabels_append s1 c1 (Nat.zero_le _) v l k e1]

/-! ### Outer whitespace -/

theorem strip_of_split (a m b : Str) (ha : ∀ c ∈ a, isSpace c = true) (hb : ∀ c ∈ b, isSpace c = true)
    (hh : ∀ c ∈ m.head?, isSpace c = false) (hl : ∀ c ∈ m.getLast?, isSpace c = false) : strip (a ++ m ++ b) = m := by
  have hdrop : ∀ (a r : Str), (∀ c ∈ a, isSpace c = true) → (a ++ r).dropWhile isSpace = r.dropWhile isSpace := by
    intro a r h
    induction a with
    | nil => rfl
    | cons c a ih => rw [List.cons_append, List.dropWhile_cons_of_pos (h c (by simp)), ih fun c hc => h c (by simp [hc])]
  have hkeep : ∀ r : Str, (∀ c ∈ r.head?, isSpace c = false) → r.dropWhile isSpace = r := by
    intro r h
    cases r with
    | nil => rfl
    | cons c r => exact List.dropWhile_cons_of_neg (by simp [h c (by simp)])
  unfold strip
  rw [List.append_assoc, hdrop _ _ ha]
  cases m with
  | nil =>
    have := hdrop b [] hb
    rw [List.append_nil] at this
    rw [List.nil_append, this]
    rfl
  | cons c m =>
    rw [hkeep ((c :: m) ++ b) (by simpa using hh), List.reverse_append, hdrop _ _ (by simpa using hb),
      hkeep _ (fun d hd => hl d (by rw [List.head?_reverse] at hd; exact hd)), List.reverse_reverse]

/-- What stripping does to a text given as kept text between whitespace. -/
theorem strip_law (σ : SetOrder) (a m b : Str) (ha : ∀ c ∈ a, isSpace c = true) (hb : ∀ c ∈ b, isSpace c = true)
    (hh : ∀ c ∈ m.head?, isSpace c = false) (hl : ∀ c ∈ m.getLast?, isSpace c = false) :
    ∃ al, StripWhiteSpaceCharacters.transform σ (a ++ m ++ b) = .ok (m, al) ∧
      (∀ l1 l2 l3, l1.length = a.length → l2.length = m.length → l3.length = b.length →
        al.transform (l1 ++ l2 ++ l3) = .ok l2) ∧
      (∀ ls, ls.length = m.length →
        al.inverseTransform ls = .ok (List.replicate a.length 0 ++ ls ++ List.replicate b.length 0)) := by
  obtain ⟨al, h1, _, lead, trail, h2, h3, h4, h5, f, g⟩ := C22_strip σ (a ++ m ++ b)
  have hst := strip_of_split a m b ha hb hh hl
  rw [hst] at h1 h2 h4 h5 f g
  simp only [List.length_append] at h2
  have hlead : m ≠ [] → lead = a.length := by
    intro hm
    obtain ⟨c, m', rfl⟩ := List.exists_cons_of_ne_nil hm
    have hc : isSpace c = false := hh c (by simp)
    rcases Nat.lt_trichotomy lead a.length with hlt | rfl | hgt
    · exfalso
      have hx : (List.take (c :: m').length (List.drop lead (a ++ (c :: m') ++ b)))[0]? = some c := by rw [h4]; rfl
      rw [List.getElem?_take_of_lt (by simp), List.getElem?_drop, List.append_assoc,
        List.getElem?_append_left (by omega)] at hx
      have := ha c (List.mem_of_getElem? hx)
      rw [this] at hc
      cases hc
    · rfl
    · exfalso
      have : c ∈ List.take lead (a ++ (c :: m') ++ b) := by
        refine List.mem_of_getElem? (i := a.length) ?_
        rw [List.getElem?_take_of_lt hgt, List.append_assoc, List.getElem?_append_right (by omega)]
        simp
      rw [h3 c this] at hc
      cases hc
  refine ⟨al, h1, fun l1 l2 l3 e1 e2 e3 => ?_, fun ls e => ?_⟩
  · rw [f _ (by simp [e1, e2, e3])]
    by_cases hm : m = []
    · subst hm
      simp at e2
      subst e2
      simp
    · have := hlead hm
      rw [this, List.append_assoc, List.drop_left' e1, List.take_left' e2]
  · rw [g _ e]
    by_cases hm : m = []
    · subst hm
      simp at e
      subst e
      simp only [List.append_nil, List.replicate_append_replicate]
      congr 2
      simp at h2
      omega
    · have := hlead hm
      rw [this, show trail = b.length by omega]

theorem strip_parts (σ : SetOrder) (x y : Str)
    (h : (∀ c ∈ x, isSpace c = true) ∨ (∀ c ∈ y, isSpace c = true) ∨
      (∀ c ∈ x.getLast?, isSpace c = false) ∧ ∀ c ∈ y.head?, isSpace c = false) :
    FnParts (StripWhiteSpaceCharacters.transform σ) x y := by
  obtain ⟨a, b, hx, a1, a2, _, a3, a4, a5⟩ := strip_split x
  obtain ⟨c, d, hy, c1, c2, _, c3, c4, c5⟩ := strip_split y
  generalize hm : strip x = m at *
  generalize hn : strip y = n at *
  subst hx
  subst hy
  obtain ⟨al, h1, f1, b1⟩ := strip_law σ a m b a1 a2 a3 a4
  obtain ⟨bl, h2, f2, b2⟩ := strip_law σ c n d c1 c2 c3 c4
  have hf : ∀ (p q r : Str) (l : List Int), l.length = (p ++ q ++ r).length → ∃ l1 l2 l3, l = l1 ++ l2 ++ l3 ∧
      l1.length = p.length ∧ l2.length = q.length ∧ l3.length = r.length := by
    intro p q r l hl
    simp only [List.length_append] at hl
    refine ⟨l.take p.length, (l.drop p.length).take q.length, (l.drop p.length).drop q.length, ?_, ?_, ?_, ?_⟩
    · rw [List.append_assoc, List.take_append_drop, List.take_append_drop]
    · rw [List.length_take]; omega
    · rw [List.length_take, List.length_drop]; omega
    · rw [List.length_drop, List.length_drop]; omega
  -- one of the parts is whitespace only, or the parts meet in kept text
  have hz : ∀ (p q r : Str), (∀ c ∈ p ++ q ++ r, isSpace c = true) → (∀ c ∈ q.head?, isSpace c = false) → q = [] := by
    intro p q r hs hh
    cases q with
    | nil => rfl
    | cons c q =>
      have := hs c (by simp)
      rw [hh c (by simp)] at this
      cases this
  by_cases hm0 : m = []
  · subst hm0
    have hs : ∀ z ∈ a ++ [] ++ b ++ c, isSpace z = true := by
      intro z hz
      simp only [List.append_nil, List.mem_append] at hz
      rcases hz with (hz | hz) | hz
      · exact a1 z hz
      · exact a2 z hz
      · exact c1 z hz
    obtain ⟨cl, h3, f3, b3⟩ := strip_law σ (a ++ [] ++ b ++ c) n d hs c2 c3 c4
    have e : a ++ [] ++ b ++ c ++ n ++ d = a ++ [] ++ b ++ (c ++ n ++ d) := by simp
    rw [e] at h3
    refine .gives _ _ _ _ _ h1 h2 h3 (fun l k e1 e2 => ?_) (fun l k e1 e2 => ?_)
    · obtain ⟨l1, l2, l3, rfl, g1, g2, g3⟩ := hf a [] b l e1
      obtain ⟨k1, k2, k3, rfl, g4, g5, g6⟩ := hf c n d k e2
      have hl2 : l2 = [] := by simpa using g2
      have := f3 (l1 ++ l2 ++ l3 ++ k1) k2 k3 (by simp [g1, g2, g3, g4]) g5 g6
      rw [bothAnswers_ok (f1 l1 l2 l3 g1 g2 g3) (f2 k1 k2 k3 g4 g5 g6)]
      simp only [List.append_assoc] at this ⊢
      rw [this, hl2]
      rfl
    · have hl : l = [] := by simpa using e1
      subst hl
      rw [bothAnswers_ok (b1 [] rfl) (b2 k e2), List.nil_append, b3 k e2]
      simp only [List.append_nil, List.length_append, List.replicate_add, List.append_assoc]
  · by_cases hn0 : n = []
    · subst hn0
      have hs : ∀ z ∈ b ++ (c ++ [] ++ d), isSpace z = true := by
        intro z hz
        simp only [List.append_nil, List.mem_append] at hz
        rcases hz with hz | hz | hz
        · exact a2 z hz
        · exact c1 z hz
        · exact c2 z hz
      obtain ⟨cl, h3, f3, b3⟩ := strip_law σ a m (b ++ (c ++ [] ++ d)) a1 hs a3 a4
      have e : a ++ m ++ (b ++ (c ++ [] ++ d)) = a ++ m ++ b ++ (c ++ [] ++ d) := by simp
      rw [e] at h3
      have h3 : StripWhiteSpaceCharacters.transform σ (a ++ m ++ b ++ (c ++ [] ++ d)) = .ok (m ++ [], cl) := by
        rw [List.append_nil m]; exact h3
      refine .gives _ _ _ _ _ h1 h2 h3 (fun l k e1 e2 => ?_) (fun l k e1 e2 => ?_)
      · obtain ⟨l1, l2, l3, rfl, g1, g2, g3⟩ := hf a m b l e1
        obtain ⟨k1, k2, k3, rfl, g4, g5, g6⟩ := hf c [] d k e2
        have hk2 : k2 = [] := by simpa using g5
        have := f3 l1 l2 (l3 ++ (k1 ++ k2 ++ k3)) g1 g2 (by simp [g3, g4, g5, g6])
        rw [bothAnswers_ok (f1 l1 l2 l3 g1 g2 g3) (f2 k1 k2 k3 g4 g5 g6)]
        simp only [List.append_assoc] at this ⊢
        rw [this, hk2, List.append_nil]
      · have hk : k = [] := by simpa using e2
        subst hk
        rw [bothAnswers_ok (b1 l e1) (b2 [] rfl), List.append_nil, b3 l e1]
        simp only [List.append_nil, List.length_append, List.replicate_add, List.append_assoc]
    · have hj : b = [] ∧ c = [] := by
        rcases h with h | h | ⟨h1, h2⟩
        · exact absurd (hz a m b h a3) hm0
        · exact absurd (hz c n d h c3) hn0
        · constructor
          · cases hb : b.getLast? with
            | none => exact List.getLast?_eq_none_iff.mp hb
            | some z =>
              have := h1 z (by rw [List.getLast?_append, hb]; rfl)
              rw [a2 z (List.mem_of_getLast? hb)] at this
              cases this
          · cases c with
            | nil => rfl
            | cons z c =>
              have := h2 z (by simp)
              rw [c1 z (by simp)] at this
              cases this
      obtain ⟨rfl, rfl⟩ := hj
      obtain ⟨cl, h3, f3, b3⟩ := strip_law σ a (m ++ n) d a1 c2
        (by
          cases m with
          | nil => exact absurd rfl hm0
          | cons z m => exact a3)
        (by
          intro z hz
          rw [List.getLast?_append] at hz
          cases hn : n.getLast? with
          | none => exact absurd (List.getLast?_eq_none_iff.mp hn) hn0
          | some w =>
            rw [hn] at hz
            cases hz
            exact c4 z hn)
      have e : a ++ (m ++ n) ++ d = a ++ m ++ [] ++ ([] ++ n ++ d) := by simp
      rw [e] at h3
      refine .gives _ _ _ _ _ h1 h2 h3 (fun l k e1 e2 => ?_) (fun l k e1 e2 => ?_)
      · obtain ⟨l1, l2, l3, rfl, g1, g2, g3⟩ := hf a m [] l e1
        obtain ⟨k1, k2, k3, rfl, g4, g5, g6⟩ := hf [] n d k e2
        have hl3 : l3 = [] := by simpa using g3
        have hk1 : k1 = [] := by simpa using g4
        have := f3 l1 (l2 ++ k2) k3 g1 (by simp [g2, g5]) g6
        rw [bothAnswers_ok (f1 l1 l2 l3 g1 g2 g3) (f2 k1 k2 k3 g4 g5 g6)]
        subst hl3
        subst hk1
        simp only [List.append_assoc, List.nil_append] at this ⊢
        exact this
      · rw [bothAnswers_ok (b1 l e1) (b2 k e2), b3 _ (by simp [e1, e2])]
        simp

end Uttut
