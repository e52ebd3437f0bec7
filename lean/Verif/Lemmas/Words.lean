import Verif.Props.Tokenizers

/-!
Words of a labelled text: cutting a list of (character, label) pairs at whitespace, and what the steps of a pipe do
to the words.
-/

namespace Uttut

open Spec

/-- The collected characters as a word, if there are any. -/
def flush (cur : List (Char × Int)) : List (List (Char × Int)) := if cur.isEmpty then [] else [cur]

theorem flush_nil : flush [] = [] := rfl

theorem flush_ne {cur : List (Char × Int)} (h : cur ≠ []) : flush cur = [cur] := by
  cases cur with
  | nil => exact absurd rfl h
  | cons a l => rfl

/-- Cut a labelled text at whitespace; characters in `own` are words of their own. -/
def cutWords (own : Char → Bool) : List (Char × Int) → (cur : List (Char × Int)) → List (List (Char × Int))
  | [], cur => flush cur
  | x :: xs, cur =>
    if isSpace x.1 then flush cur ++ cutWords own xs []
    else if own x.1 then flush cur ++ [x] :: cutWords own xs []
    else cutWords own xs (cur ++ [x])

theorem cutWords_space (own : Char → Bool) (z rest cur : List (Char × Int)) (hz : ∀ x ∈ z, isSpace x.1 = true) :
    cutWords own (z ++ rest) cur = if z = [] then cutWords own rest cur else flush cur ++ cutWords own rest [] := by
  induction z generalizing cur with
  | nil => rfl
  | cons x z ih =>
    rw [if_neg (by simp)]
    show cutWords own (x :: (z ++ rest)) cur = _
    rw [cutWords, if_pos (hz x (by simp)), ih [] (fun y hy => hz y (by simp [hy])), flush_nil]
    split <;> rfl

theorem cutWords_space_nil (own : Char → Bool) (z rest : List (Char × Int)) (hz : ∀ x ∈ z, isSpace x.1 = true) :
    cutWords own (z ++ rest) [] = cutWords own rest [] := by
  rw [cutWords_space own z rest [] hz, flush_nil]
  split <;> rfl

theorem cutWords_solid (own : Char → Bool) (z rest cur : List (Char × Int))
    (hz : ∀ x ∈ z, isSpace x.1 = false ∧ own x.1 = false) :
    cutWords own (z ++ rest) cur = cutWords own rest (cur ++ z) := by
  induction z generalizing cur with
  | nil => simp
  | cons x z ih =>
    obtain ⟨h1, h2⟩ := hz x (by simp)
    show cutWords own (x :: (z ++ rest)) cur = _
    rw [cutWords, if_neg (by simp [h1]), if_neg (by simp [h2]), ih _ (fun y hy => hz y (by simp [hy]))]
    simp

theorem cutWords_flush (own : Char → Bool) (rest cur : List (Char × Int)) (hc : cur ≠ [])
    (h : ∀ x ∈ rest.head?, isSpace x.1 = true ∨ own x.1 = true) :
    cutWords own rest cur = cur :: cutWords own rest [] := by
  cases rest with
  | nil => simp [cutWords, flush_ne hc, flush_nil]
  | cons x rest =>
    rw [cutWords, cutWords]
    rcases h x (by simp) with h | h
    · rw [if_pos h, if_pos h, flush_ne hc, flush_nil]; rfl
    · by_cases hs : isSpace x.1 = true
      · rw [if_pos hs, if_pos hs, flush_ne hc, flush_nil]; rfl
      · rw [if_neg hs, if_neg hs, if_pos h, if_pos h, flush_ne hc, flush_nil]; rfl

/-- The labelled tokens, by position. -/
def tokenParts : List (Str × Str) → List (Char × Int) → List (List (Char × Int))
  | [], _ => []
  | p :: ps, z => (z.drop p.1.length).take p.2.length :: tokenParts ps (z.drop (p.1.length + p.2.length))

theorem tokenParts_labels (ps : List (Str × Str)) (z : List (Char × Int)) :
    (tokenParts ps z).map (List.map Prod.snd) = tokenSegs ps (z.map Prod.snd) := by
  induction ps generalizing z with
  | nil => rfl
  | cons p ps ih =>
    simp only [tokenParts, tokenSegs, List.map_cons, ih, List.map_take, List.map_drop]

theorem tokenParts_tokens (ps : List (Str × Str)) (tail : Str) (z : List (Char × Int))
    (h : z.map Prod.fst = layout ps tail) : (tokenParts ps z).map (List.map Prod.fst) = ps.map Prod.snd := by
  induction ps generalizing z with
  | nil => rfl
  | cons p ps ih =>
    have e : layout (p :: ps) tail = p.1 ++ (p.2 ++ layout ps tail) := by simp [layout]
    simp only [tokenParts, List.map_cons]
    rw [ih (z.drop (p.1.length + p.2.length))]
    · rw [List.map_take, List.map_drop, h, e, List.drop_left' rfl, List.take_left' rfl]
    · rw [List.map_drop, h, e, ← List.append_assoc, List.drop_left' (by simp)]

/-- The words are the tokens. -/
theorem cutWords_tokens (own : Char → Bool) (s : Str) (ps : List (Str × Str)) (tail : Str)
    (h : TokenizedBy own s ps tail) (z : List (Char × Int)) (hz : z.map Prod.fst = s) :
    cutWords own z [] = tokenParts ps z := by
  induction ps generalizing s z with
  | nil =>
    have hs : s = tail := h.text
    have := cutWords_space_nil own z [] (fun x hx => h.last x.1 (by
      rw [← hs, ← hz]; exact List.mem_map.mpr ⟨x, hx, rfl⟩))
    rw [List.append_nil] at this
    rw [this]
    rfl
  | cons p ps ih =>
    obtain ⟨h1, h2⟩ := tokenizedBy_tail h
    have hnext := tokenizedBy_next h
    have hz1 : (z.take p.1.length).map Prod.fst = p.1 := by rw [List.map_take, hz, h2, List.take_left' rfl]
    have hz2 : ((z.drop p.1.length).take p.2.length).map Prod.fst = p.2 := by
      rw [List.map_take, List.map_drop, hz, h2, List.drop_left' rfl, List.take_left' rfl]
    have hz3 : (z.drop (p.1.length + p.2.length)).map Prod.fst = layout ps tail := by
      rw [List.map_drop, hz, h2, ← List.append_assoc, List.drop_left' (by simp)]
    have hz0 : z = z.take p.1.length ++ ((z.drop p.1.length).take p.2.length ++ z.drop (p.1.length + p.2.length)) := by
      rw [← List.drop_drop, List.take_append_drop, List.take_append_drop]
    have ih' := ih _ h1 _ hz3
    show _ = (z.drop p.1.length).take p.2.length :: tokenParts ps (z.drop (p.1.length + p.2.length))
    conv => lhs; rw [hz0]
    rw [cutWords_space_nil own _ _ (fun x hx => h.gaps p (by simp) x.1 (by
      rw [← hz1]; exact List.mem_map.mpr ⟨x, hx, rfl⟩))]
    generalize (z.drop p.1.length).take p.2.length = w at hz2 ⊢
    generalize z.drop (p.1.length + p.2.length) = r at hz3 ih' ⊢
    have hmem : ∀ x ∈ w, x.1 ∈ p.2 := fun x hx => by rw [← hz2]; exact List.mem_map.mpr ⟨x, hx, rfl⟩
    have hsolid := h.solid p (by simp)
    by_cases ho : ∃ x ∈ w, own x.1 = true
    · obtain ⟨x, hx, hxo⟩ := ho
      have ha := h.alone p (by simp) x.1 (hmem x hx) hxo
      rw [ha] at hz2
      obtain ⟨y, rfl⟩ := List.length_eq_one_iff.mp (show w.length = 1 by
        have := congrArg List.length hz2
        simpa using this)
      have : x = y := by simpa using hx
      subst this
      show cutWords own (x :: r) [] = _
      rw [cutWords, if_neg (by simp [hsolid x.1 (hmem x (by simp))]), if_pos hxo, ih']
      rfl
    · have hw : ∀ x ∈ w, isSpace x.1 = false ∧ own x.1 = false := fun x hx =>
        ⟨hsolid x.1 (hmem x hx), by
          cases hq : own x.1 with
          | false => rfl
          | true => exact absurd ⟨x, hx, hq⟩ ho⟩
      rw [cutWords_solid own w r [] hw, List.nil_append, ← ih']
      refine cutWords_flush own r w ?_ ?_
      · intro e
        rw [e] at hz2
        exact h.nonempty p (by simp) hz2.symm
      · intro x hx
        have hx' : x.1 ∈ (layout ps tail).head? := by
          rw [← hz3, List.head?_map]
          rw [Option.mem_def] at hx
          rw [hx]
          rfl
        rcases hnext x.1 hx' with h | h | ⟨c, hc, hco⟩
        · exact Or.inl h
        · exact Or.inr h
        · exfalso
          have hc' := List.mem_of_getLast? hc
          rw [← hz2] at hc'
          obtain ⟨y, hy, rfl⟩ := List.mem_map.mp hc'
          exact ho ⟨y, hy, hco⟩

/-! ### what the steps do to the words -/

/-- Putting spaces around the characters of `v` makes them words of their own. -/
theorem cutWords_around (own v : Char → Bool) (z cur : List (Char × Int)) :
    cutWords own (z.flatMap fun x => if v x.1 then [(' ', 0), x, (' ', 0)] else [x]) cur =
      cutWords (fun c => own c || v c) z cur := by
  have hsp : isSpace ' ' = true := by decide
  induction z generalizing cur with
  | nil => rfl
  | cons x z ih =>
    rw [List.flatMap_cons]
    by_cases hv : v x.1 = true
    · rw [if_pos hv]
      show cutWords own ((' ', 0) :: x :: (' ', 0) :: (z.flatMap _)) cur = _
      simp only [cutWords, hsp, if_true, hv, Bool.or_true, ih, flush_nil, List.nil_append]
      by_cases hs : isSpace x.1 = true
      · simp [hs]
      · simp only [hs]
        by_cases ho : own x.1 = true
        · simp [ho]
        · simp [ho, flush]
    · rw [if_neg hv]
      show cutWords own (x :: (z.flatMap _)) cur = _
      have hv' : v x.1 = false := by simpa using hv
      simp only [cutWords, ih, hv', Bool.or_false]

/-- Replacing the characters, whitespace by whitespace and others by others. -/
theorem cutWords_map (f : Char → Char) (z cur : List (Char × Int)) (h : ∀ x ∈ z, isSpace (f x.1) = isSpace x.1) :
    cutWords (fun _ => false) (z.map fun x => (f x.1, x.2)) (cur.map fun x => (f x.1, x.2)) =
      (cutWords (fun _ => false) z cur).map (List.map fun x => (f x.1, x.2)) := by
  have hflush : ∀ cur : List (Char × Int), flush (cur.map fun x => (f x.1, x.2)) =
      (flush cur).map (List.map fun x => (f x.1, x.2)) := by
    intro cur; cases cur <;> rfl
  induction z generalizing cur with
  | nil => exact hflush cur
  | cons x z ih =>
    have ih' := fun cur => ih cur (fun y hy => h y (by simp [hy]))
    simp only [List.map_cons, cutWords, h x (by simp)]
    by_cases hs : isSpace x.1 = true
    · simp only [hs, if_true, List.map_append, hflush]
      rw [← ih' []]; rfl
    · simp only [hs]
      have := ih' (cur ++ [x])
      simp only [List.map_append, List.map_cons, List.map_nil] at this
      simpa using this

/-- Removing whitespace at both ends. -/
theorem cutWords_trim (own : Char → Bool) (a m b : List (Char × Int)) (ha : ∀ x ∈ a, isSpace x.1 = true)
    (hb : ∀ x ∈ b, isSpace x.1 = true) : cutWords own (a ++ m ++ b) [] = cutWords own m [] := by
  rw [List.append_assoc, cutWords_space_nil own a _ ha]
  have gen : ∀ (m cur : List (Char × Int)), cutWords own (m ++ b) cur = cutWords own m cur := by
    intro m
    induction m with
    | nil =>
      intro cur
      have := cutWords_space own b [] cur hb
      rw [List.append_nil] at this
      show cutWords own b cur = _
      rw [this]
      split
      · rfl
      · simp [cutWords, flush_nil]
    | cons x m ih =>
      intro cur
      show cutWords own (x :: (m ++ b)) cur = _
      simp only [cutWords, ih]
  exact gen m []

theorem cutWords_congr (own : Char → Bool) (z r r' cur : List (Char × Int))
    (h : ∀ cur, cutWords own r cur = cutWords own r' cur) : cutWords own (z ++ r) cur = cutWords own (z ++ r') cur := by
  induction z generalizing cur with
  | nil => exact h cur
  | cons x z ih =>
    show cutWords own (x :: (z ++ r)) cur = cutWords own (x :: (z ++ r')) cur
    simp only [cutWords, ih]

/-- Making every run of whitespace one space. -/
theorem cutWords_merge (own : Char → Bool) (b : Bool) (rs : List Str) (hr : IsRuns isSpace b rs) (ls : List Int)
    (hl : ls.length = rs.flatten.length) (cur : List (Char × Int)) :
    cutWords own ((rs.flatMap fun r => if isRunOf isSpace r then [' '] else r).zip
        (mapLabels (isRunOf isSpace) (fun _ seg => [firstMode seg]) rs (splitLike rs ls))) cur =
      cutWords own (rs.flatten.zip ls) cur := by
  have hsp : isSpace ' ' = true := by decide
  induction rs generalizing b ls cur with
  | nil => rfl
  | cons r rs ih =>
    obtain ⟨h1, h2, h3⟩ := hr
    have hlen : ls.length = r.length + rs.flatten.length := by simpa using hl
    have hl1 : (ls.take r.length).length = r.length := by simp; omega
    have ih' := ih (!b) h3 (ls.drop r.length) (by rw [List.length_drop]; omega)
    have e2 : (r :: rs).flatten.zip ls = r.zip (ls.take r.length) ++ rs.flatten.zip (ls.drop r.length) := by
      rw [List.flatten_cons, ← List.zip_append hl1.symm, List.take_append_drop]
    rw [e2]
    have hu : isRunOf isSpace r = b := isRunOf_uniform h1 h2
    have hm : ∀ x ∈ r.zip (ls.take r.length), isSpace x.1 = b := fun x hx =>
      h2 x.1 (List.of_mem_zip hx).1
    cases b with
    | true =>
      have e1 : ((r :: rs).flatMap fun r => if isRunOf isSpace r then [' '] else r).zip
          (mapLabels (isRunOf isSpace) (fun _ seg => [firstMode seg]) (r :: rs) (splitLike (r :: rs) ls)) =
          (' ', firstMode (ls.take r.length)) ::
            (rs.flatMap fun r => if isRunOf isSpace r then [' '] else r).zip
              (mapLabels (isRunOf isSpace) (fun _ seg => [firstMode seg]) rs (splitLike rs (ls.drop r.length))) := by
        simp only [List.flatMap_cons, mapLabels, splitLike, List.zip_cons_cons, hu, if_true, List.singleton_append]
      rw [e1, cutWords_space own _ _ _ hm, if_neg]
      · rw [cutWords, if_pos hsp, ih']
      · intro e
        have := congrArg List.length e
        rw [List.length_zip, hl1] at this
        simp at this
        exact h1 this
    | false =>
      have e1 : ((r :: rs).flatMap fun r => if isRunOf isSpace r then [' '] else r).zip
          (mapLabels (isRunOf isSpace) (fun _ seg => [firstMode seg]) (r :: rs) (splitLike (r :: rs) ls)) =
          r.zip (ls.take r.length) ++
            (rs.flatMap fun r => if isRunOf isSpace r then [' '] else r).zip
              (mapLabels (isRunOf isSpace) (fun _ seg => [firstMode seg]) rs (splitLike rs (ls.drop r.length))) := by
        rw [← List.zip_append hl1.symm]
        simp only [List.flatMap_cons, mapLabels, splitLike, List.zip_cons_cons, hu]
        rfl
      rw [e1]
      exact cutWords_congr own _ _ _ _ ih'

/-! ### labels that are 0 on whitespace -/

/-- Whitespace has label 0. -/
def ZeroSpace (z : List (Char × Int)) : Prop := ∀ x ∈ z, isSpace x.1 = true → x.2 = 0

theorem zip_append' {α β : Type} (a b : List α) (l : List β) :
    (a ++ b).zip l = a.zip (l.take a.length) ++ b.zip (l.drop a.length) := by
  induction a generalizing l with
  | nil => simp
  | cons x a ih =>
    cases l with
    | nil => simp
    | cons y l => simp [ih]

theorem zip_replicate_mem {a : Str} {n : Nat} {v : Int} {x : Char × Int} (h : x ∈ a.zip (List.replicate n v)) :
    x.1 ∈ a ∧ x.2 = v :=
  ⟨(List.of_mem_zip h).1, List.eq_of_mem_replicate (List.of_mem_zip h).2⟩

theorem zeroSpace_charLabels (ps : List (Str × Str)) (tail : Str) (ys : List Int) (hy : ys.length = ps.length)
    (hsolid : ∀ p ∈ ps, ∀ c ∈ p.2, isSpace c = false) :
    ZeroSpace ((layout ps tail).zip (charLabels ps tail ys)) := by
  induction ps generalizing ys with
  | nil =>
    intro x hx _
    exact (zip_replicate_mem (show x ∈ tail.zip (List.replicate tail.length 0) from hx)).2
  | cons p ps ih =>
    cases ys with
    | nil => simp at hy
    | cons y ys =>
      have e : layout (p :: ps) tail = p.1 ++ (p.2 ++ layout ps tail) := by simp [layout]
      intro x hx hs
      rw [e, charLabels, List.append_assoc, List.zip_append (by simp), List.zip_append (by simp)] at hx
      rcases List.mem_append.mp hx with hx | hx
      · exact (zip_replicate_mem hx).2
      · rcases List.mem_append.mp hx with hx | hx
        · have := hsolid p (by simp) x.1 (zip_replicate_mem hx).1
          rw [hs] at this
          cases this
        · exact ih ys (by simpa using hy) (fun q hq => hsolid q (by simp [hq])) x hx hs

theorem eq_replicate_zero (g : Str) (l : List Int) (hl : l.length = g.length) (hg : ∀ c ∈ g, isSpace c = true)
    (h : ZeroSpace (g.zip l)) : l = List.replicate g.length 0 := by
  refine List.eq_replicate_iff.mpr ⟨hl, fun y hy => ?_⟩
  obtain ⟨i, hi, rfl⟩ := List.mem_iff_getElem.mp hy
  have hm : (g[i]'(by omega), l[i]) ∈ g.zip l := by
    rw [← List.getElem_zip (h := by simp; omega)]
    exact List.getElem_mem _
  exact h _ hm (hg _ (List.getElem_mem _))

/-- Labels that are 0 on whitespace are determined by the labels of the tokens. -/
theorem eq_charLabels (ps : List (Str × Str)) (tail : Str) (ys L : List Int) (hy : ys.length = ps.length)
    (hg : ∀ p ∈ ps, ∀ c ∈ p.1, isSpace c = true) (ht : ∀ c ∈ tail, isSpace c = true)
    (hL : L.length = (layout ps tail).length) (hz : ZeroSpace ((layout ps tail).zip L))
    (hs : tokenSegs ps L = (ps.zip ys).map fun x => List.replicate x.1.2.length x.2) :
    L = charLabels ps tail ys := by
  induction ps generalizing ys L with
  | nil => exact eq_replicate_zero tail L (by simpa [layout] using hL) ht (by simpa [layout] using hz)
  | cons p ps ih =>
    cases ys with
    | nil => simp at hy
    | cons y ys =>
      have e : layout (p :: ps) tail = p.1 ++ (p.2 ++ layout ps tail) := by simp [layout]
      rw [e] at hL hz
      simp only [List.length_append] at hL
      rw [zip_append', zip_append'] at hz
      simp only [tokenSegs, List.zip_cons_cons, List.map_cons, List.cons.injEq] at hs
      have h1 := eq_replicate_zero p.1 (L.take p.1.length) (by simp; omega) (hg p (by simp))
        (fun x hx => hz x (List.mem_append_left _ hx))
      have h3 := ih ys (L.drop (p.1.length + p.2.length)) (by simpa using hy) (fun q hq => hg q (by simp [hq]))
        (by simp; omega)
        (fun x hx => hz x (List.mem_append_right _ (List.mem_append_right _ (by rw [List.drop_drop]; exact hx)))) hs.2
      rw [charLabels, ← h1, ← hs.1, ← h3, List.append_assoc]
      rw [← List.drop_drop, List.take_append_drop, List.take_append_drop]

/-! ### steps that keep the words -/

/-- The step from `s` to `t` turns the words of `s` (characters in `own` alone) into the words of `t` (characters in
`own'` alone), changing characters by `f`, and keeps their labels; labels that are 0 on whitespace come back. -/
def WordStep (own own' : Char → Bool) (f : Char → Char) (a : Aligner) (s t : Str) : Prop :=
  ∀ ls, ls.length = s.length → ∃ L, a.transform ls = .ok L ∧ L.length = t.length ∧
    cutWords own' (t.zip L) [] = (cutWords own (s.zip ls) []).map (List.map fun x => (f x.1, x.2)) ∧
    (ZeroSpace (s.zip ls) → ZeroSpace (t.zip L) ∧ a.inverseTransform L = .ok ls)

theorem map_id_words (w : List (List (Char × Int))) : (w.map (List.map fun x => (id x.1, x.2))) = w := by
  have : (fun x : Char × Int => (id x.1, x.2)) = id := rfl
  rw [this]
  simp

/-- A step that changes characters one by one and passes labels on. -/
theorem wordStep_map (f : Char → Char) (a : Aligner) (s : Str) (hp : PassThrough a s.length)
    (h : ∀ c ∈ s, isSpace (f c) = isSpace c) :
    WordStep (fun _ => false) (fun _ => false) f a s (s.map f) := by
  intro ls hl
  obtain ⟨h1, h2⟩ := hp ls hl
  have e : (s.map f).zip ls = (s.zip ls).map fun x => (f x.1, x.2) := by
    rw [List.zip_map_left]
    rfl
  refine ⟨ls, h1, by simpa using hl, ?_, fun hz => ⟨?_, h2⟩⟩
  · rw [e]
    exact cutWords_map f (s.zip ls) [] (fun x hx => h x.1 (List.of_mem_zip hx).1)
  · rw [e]
    intro x hx hs
    obtain ⟨y, hy, rfl⟩ := List.mem_map.mp hx
    exact hz y hy (by rw [← h y.1 (List.of_mem_zip hy).1]; exact hs)

theorem zip_around (v : Char → Bool) (s : Str) (ls : List Int) :
    (s.flatMap (fun c => if v c then [' ', c, ' '] else [c])).zip
      ((s.zip ls).flatMap fun p => if v p.1 then [0, p.2, 0] else [p.2]) =
    (s.zip ls).flatMap fun x => if v x.1 then [(' ', 0), x, (' ', 0)] else [x] := by
  induction s generalizing ls with
  | nil => rfl
  | cons c s ih =>
    cases ls with
    | nil => simp
    | cons l ls =>
      simp only [List.flatMap_cons, List.zip_cons_cons, ← ih ls]
      split <;> simp

theorem length_around (v : Char → Bool) (s : Str) (ls : List Int) (h : ls.length = s.length) :
    ((s.zip ls).flatMap fun p => if v p.1 then [0, p.2, 0] else [p.2]).length =
      (s.flatMap (fun c => if v c then [' ', c, ' '] else [c])).length := by
  induction s generalizing ls with
  | nil => rfl
  | cons c s ih =>
    cases ls with
    | nil => simp at h
    | cons l ls =>
      simp only [List.flatMap_cons, List.zip_cons_cons, List.length_append, ih ls (by simpa using h)]
      split <;> rfl

theorem wordStep_around (own v : Char → Bool) (a : Aligner) (s : Str)
    (h1 : ∀ ls : List Int, ls.length = s.length → a.transform ls =
      .ok ((s.zip ls).flatMap fun p => if v p.1 then [0, p.2, 0] else [p.2]))
    (h2 : ∀ ls y : List Int, a.transform ls = .ok y → a.inverseTransform y = .ok ls) :
    WordStep (fun c => own c || v c) own id a s (s.flatMap (fun c => if v c then [' ', c, ' '] else [c])) := by
  intro ls hl
  refine ⟨_, h1 ls hl, length_around v s ls hl, ?_, fun hz => ⟨?_, h2 _ _ (h1 ls hl)⟩⟩
  · rw [zip_around, cutWords_around, map_id_words]
  · rw [zip_around]
    intro x hx hs
    obtain ⟨y, hy, hx⟩ := List.mem_flatMap.mp hx
    split at hx
    · simp only [List.mem_cons, List.not_mem_nil, or_false] at hx
      rcases hx with rfl | rfl | rfl
      · rfl
      · exact hz _ hy hs
      · rfl
    · simp only [List.mem_cons, List.not_mem_nil, or_false] at hx
      exact hz _ hy (hx ▸ hs) |> fun h => by rw [hx]; exact h

theorem zip_runs (rs : List Str) (ls : List Int) (hl : ls.length = rs.flatten.length) :
    rs.flatten.zip ls = (rs.zip (splitLike rs ls)).flatMap fun x => x.1.zip x.2 := by
  induction rs generalizing ls with
  | nil => rfl
  | cons r rs ih =>
    have hlen : ls.length = r.length + rs.flatten.length := by simpa using hl
    rw [List.flatten_cons, zip_append', ih _ (by rw [List.length_drop]; omega)]
    rfl

theorem splitLike_length (rs : List Str) (ls : List Int) : (splitLike rs ls).length = rs.length := by
  induction rs generalizing ls with
  | nil => rfl
  | cons r rs ih => simp [splitLike, ih]

theorem splitLike_mem (rs : List Str) (ls : List Int) (hl : ls.length = rs.flatten.length) :
    ∀ x ∈ rs.zip (splitLike rs ls), x.2.length = x.1.length := by
  induction rs generalizing ls with
  | nil => intro x hx; simp at hx
  | cons r rs ih =>
    have hlen : ls.length = r.length + rs.flatten.length := by simpa using hl
    intro x hx
    rcases List.mem_cons.mp hx with rfl | hx
    · simp; omega
    · exact ih _ (by rw [List.length_drop]; omega) x hx

theorem zip_merged (rs : List Str) (ls : List Int) (hl : ls.length = rs.flatten.length) :
    (rs.flatMap fun r => if isRunOf isSpace r then [' '] else r).zip
        (mapLabels (isRunOf isSpace) (fun _ seg => [firstMode seg]) rs (splitLike rs ls)) =
      (rs.zip (splitLike rs ls)).flatMap fun x =>
        if isRunOf isSpace x.1 then [(' ', firstMode x.2)] else x.1.zip x.2 := by
  induction rs generalizing ls with
  | nil => rfl
  | cons r rs ih =>
    have hlen : ls.length = r.length + rs.flatten.length := by simpa using hl
    have ih' := ih (ls.drop r.length) (by rw [List.length_drop]; omega)
    unfold mapLabels at ih' ⊢
    simp only [List.flatMap_cons, splitLike, List.zip_cons_cons]
    rw [← ih']
    split
    · rfl
    · rw [List.zip_append (by simp; omega)]

theorem wordStep_merge (σ : SetOrder) (own : Char → Bool) (s : Str) :
    ∃ a, MergeWhiteSpaceCharacters.transform σ s = .ok (mapRuns isSpace (fun _ => [' ']) s, a) ∧
      WordStep own own id a s (mapRuns isSpace (fun _ => [' ']) s) := by
  obtain ⟨a, h1, h2, h3, _, h5⟩ := C21_merge σ s
  refine ⟨a, h1, fun ls hl => ?_⟩
  obtain ⟨b, _, hr⟩ := runs_isRuns isSpace s
  have hf := runs_flatten isSpace s
  have hl' : ls.length = (runs isSpace s).flatten.length := by rw [hf]; exact hl
  obtain ⟨L, hL, hLlen⟩ := h2.forward ls hl
  have hL' := hL
  rw [h3 ls hl] at hL'
  injection hL' with hL'
  have hall : ∀ x ∈ (runs isSpace s).zip (splitLike (runs isSpace s) ls), isRunOf isSpace x.1 = true →
      ZeroSpace (s.zip ls) → x.2 ≠ [] ∧ ∀ l ∈ x.2, l = 0 := by
    intro x hx hrun hz
    have hm := mem_runs isSpace s x.1 (List.of_mem_zip hx).1
    have hxl := splitLike_mem _ ls hl' x hx
    have hsp : ∀ c ∈ x.1, isSpace c = true := by
      intro c hc
      rw [hm.2 c hc]
      exact hrun
    have hzz : ZeroSpace (x.1.zip x.2) := by
      intro y hy hs
      refine hz y ?_ hs
      have e := zip_runs (runs isSpace s) ls hl'
      rw [hf] at e
      rw [e]
      exact List.mem_flatMap.mpr ⟨x, hx, hy⟩
    have h0 := eq_replicate_zero x.1 x.2 hxl hsp hzz
    refine ⟨fun e => hm.1 (List.eq_nil_of_length_eq_zero (by rw [← hxl, e]; rfl)), fun l hl => ?_⟩
    rw [h0] at hl
    exact List.eq_of_mem_replicate hl
  refine ⟨L, hL, hLlen, ?_, fun hz => ⟨?_, ?_⟩⟩
  · rw [map_id_words, ← hL']
    have := cutWords_merge own b _ hr ls hl' []
    rw [hf] at this
    exact this
  · rw [← hL']
    unfold mapRuns
    rw [zip_merged _ ls hl']
    intro x hx hs
    obtain ⟨y, hy, hx⟩ := List.mem_flatMap.mp hx
    split at hx
    · rename_i hrun
      have : x = (' ', firstMode y.2) := by simpa using hx
      rw [this]
      obtain ⟨hne, h0⟩ := hall y hy hrun hz
      exact h0 _ (isFirstMode_firstMode _ hne).1
    · refine hz x ?_ hs
      have e := zip_runs (runs isSpace s) ls hl'
      rw [hf] at e
      rw [e]
      exact List.mem_flatMap.mpr ⟨y, hy, hx⟩
  · obtain ⟨y, hy1, hy2⟩ := h5 ls hl (fun x hx hrun => ⟨0, (hall x hx hrun hz).2⟩)
    rw [hL] at hy1
    injection hy1 with hy1
    rw [hy1]
    exact hy2

theorem wordStep_strip (σ : SetOrder) (own : Char → Bool) (s : Str) :
    ∃ a, StripWhiteSpaceCharacters.transform σ s = .ok (strip s, a) ∧
      WordStep own own id a s (strip s) := by
  obtain ⟨a, h1, h2, lead, trail, hlen, ha, hm, hb, h3, h4⟩ := C22_strip σ s
  refine ⟨a, h1, fun ls hl => ?_⟩
  have hzip : s.zip ls = (s.take lead).zip (ls.take lead) ++
      (strip s).zip ((ls.drop lead).take (strip s).length) ++
      (s.drop (lead + (strip s).length)).zip (ls.drop (lead + (strip s).length)) := by
    have e : s = s.take lead ++ (strip s ++ s.drop (lead + (strip s).length)) := by
      rw [← hm, List.length_take_of_le (by simp; omega), ← List.drop_drop, List.take_append_drop,
        List.take_append_drop]
    conv => lhs; rw [e]
    rw [zip_append', zip_append', List.drop_drop, List.length_take_of_le (by omega), List.append_assoc]
  have hLlen : ((ls.drop lead).take (strip s).length).length = (strip s).length := by simp; omega
  refine ⟨_, h3 ls hl, hLlen, ?_, fun hz => ⟨?_, ?_⟩⟩
  · rw [map_id_words, hzip]
    exact (cutWords_trim _ _ _ _ (fun x hx => ha x.1 (List.of_mem_zip hx).1)
      (fun x hx => hb x.1 (List.of_mem_zip hx).1)).symm
  · intro x hx hs
    refine hz x ?_ hs
    rw [hzip]
    exact List.mem_append_left _ (List.mem_append_right _ hx)
  · rw [h4 _ hLlen]
    have z1 := eq_replicate_zero (s.take lead) (ls.take lead) (by simp; omega) ha
      (fun x hx => hz x (by rw [hzip]; exact List.mem_append_left _ (List.mem_append_left _ hx)))
    have z2 := eq_replicate_zero (s.drop (lead + (strip s).length)) (ls.drop (lead + (strip s).length))
      (by simp; omega) hb (fun x hx => hz x (by rw [hzip]; exact List.mem_append_right _ hx))
    rw [List.length_take_of_le (by omega)] at z1
    rw [show (s.drop (lead + (strip s).length)).length = trail by simp; omega] at z2
    rw [← z1, ← z2, List.append_assoc, ← List.drop_drop, List.take_append_drop, List.take_append_drop]

end Uttut
