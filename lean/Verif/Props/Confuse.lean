import Verif.Props.Disjoint
import Verif.Props.Arguments
import Verif.Spec.Confuse

/-!
C114: which inputs a step does not tell apart.
-/

namespace Uttut

open Spec

theorem confuses_of {op : Op} {x y ox oy : Seq} {a b : Aligner} (hx : op.transform x = .ok (ox, a))
    (hy : op.transform y = .ok (oy, b)) : Confuses op x y ↔ ox = oy := by
  constructor
  · rintro ⟨out, a', b', h1, h2⟩
    rw [hx] at h1
    rw [hy] at h2
    cases h1
    cases h2
    rfl
  · rintro rfl
    exact ⟨_, _, _, hx, hy⟩

theorem confuses_gives {op : Op} {x y ox oy : Seq} (hx : Gives op x ox) (hy : Gives op y oy) : Confuses op x y ↔ ox = oy := by
  obtain ⟨_, hx⟩ := hx
  obtain ⟨_, hy⟩ := hy
  exact confuses_of hx hy

theorem map_eq_iff_forall₂ {α β : Type} (f : α → β) : ∀ (s t : List α), s.map f = t.map f ↔ List.Forall₂ (fun x y => f x = f y) s t
  | [], [] => by simp
  | [], _ :: _ => by simp
  | _ :: _, [] => by simp
  | x :: s, y :: t => by
    rw [List.map_cons, List.map_cons, List.forall₂_cons, ← map_eq_iff_forall₂ f s t, List.cons.injEq]

theorem forall₂_iff {α : Type} {R S : α → α → Prop} (h : ∀ x y, R x y ↔ S x y) (s t : List α) :
    List.Forall₂ R s t ↔ List.Forall₂ S s t := by
  have : R = S := funext fun x => funext fun y => propext (h x y)
  rw [this]

/-! ### texts -/

theorem seq_str_inj {s t : Str} : Seq.str s = Seq.str t ↔ s = t := ⟨fun h => by cases h; rfl, fun h => by rw [h]⟩

theorem seq_list_inj {s t : List Tok} : Seq.list s = Seq.list t ↔ s = t := ⟨fun h => by cases h; rfl, fun h => by rw [h]⟩

theorem tok_map_inj {s t : List Str} : s.map Tok.str = t.map Tok.str ↔ s = t :=
  ⟨fun h => (List.map_injective_iff.mpr fun _ _ h => by cases h; rfl) h, fun h => by rw [h]⟩

theorem int_map_inj {s t : List Int} : s.map Tok.int = t.map Tok.int ↔ s = t :=
  ⟨fun h => (List.map_injective_iff.mpr fun _ _ h => by cases h; rfl) h, fun h => by rw [h]⟩

theorem sameLetter_iff (c d : Char) : asciiLower c = asciiLower d ↔ SameLetter c d := by
  have hz : ∀ c ∈ capitals, (c, asciiLower c) ∈ capitals.zip smalls := by decide
  have hp : ∀ p ∈ capitals.zip smalls, asciiLower p.1 = p.2 ∧ asciiLower p.2 = p.2 := by decide
  constructor
  · intro h
    rcases asciiLower_cases c with hc | hc <;> rcases asciiLower_cases d with hd | hd
    · exact .inl (by rw [← hc, h, hd])
    · exact .inr ⟨_, hz d hd, .inr (by rw [← hc, h]), .inl rfl⟩
    · exact .inr ⟨_, hz c hc, .inl rfl, .inr (by rw [← hd, h])⟩
    · exact .inl ((by decide : ∀ c ∈ capitals, ∀ d ∈ capitals, asciiLower c = asciiLower d → c = d) c hc d hd h)
  · rintro (rfl | ⟨p, hm, hc, hd⟩)
    · rfl
    · have hl : ∀ x, x = p.1 ∨ x = p.2 → asciiLower x = p.2 := fun x hx => by
        rcases hx with rfl | rfl
        · exact (hp p hm).1
        · exact (hp p hm).2
      rw [hl c hc, hl d hd]

/-- C114: `Lowercase` makes the same of two texts exactly when they differ in the case of ASCII letters only. -/
theorem C114_lowercase (env : Env) (op : Op) (h : Made env "Lowercase" op) (s t : Str) :
    Confuses op (.str s) (.str t) ↔ List.Forall₂ SameLetter s t := by
  have ho := made_simple (env := env) (name := "Lowercase") rfl h
  subst ho
  obtain ⟨a, h1, _⟩ := C16_lowercase env.σ s
  obtain ⟨b, h2, _⟩ := C16_lowercase env.σ t
  rw [confuses_of (strOp_transform h1) (strOp_transform h2), seq_str_inj, map_eq_iff_forall₂]
  exact forall₂_iff sameLetter_iff s t

/-- C114: `PunctuationExceptEndpointToWhitespace` makes the same of two texts exactly when they differ in blanks and marks only. -/
theorem C114_punctuation (env : Env) (op : Op) (h : Made env "PunctuationExceptEndpointToWhitespace" op) (s t : Str) :
    Confuses op (.str s) (.str t) ↔
      List.Forall₂ (fun c d => c = d ∨ BlankOrMark env.u c ∧ BlankOrMark env.u d) s t := by
  have ho := made_simple (env := env) (name := "PunctuationExceptEndpointToWhitespace") rfl h
  subst ho
  obtain ⟨a, h1, _⟩ := C26_transform env.σ env.u s
  obtain ⟨b, h2, _⟩ := C26_transform env.σ env.u t
  rw [confuses_of (strOp_transform h1) (strOp_transform h2), seq_str_inj, map_eq_iff_forall₂]
  have blank : ∀ c, BlankOrMark env.u c ↔ punctuationBlanked env.u c = ' ' := fun c => by
    unfold BlankOrMark punctuationBlanked
    split
    · rename_i h
      exact ⟨fun _ => rfl, fun _ => .inr h⟩
    · rename_i h
      exact ⟨fun h' => h'.resolve_right h, .inl⟩
  have other : ∀ c, punctuationBlanked env.u c = c ∨ punctuationBlanked env.u c = ' ' := fun c => by
    unfold punctuationBlanked
    split
    · exact .inr rfl
    · exact .inl rfl
  refine forall₂_iff (fun c d => ?_) s t
  rw [blank, blank]
  constructor
  · intro e
    rcases other c with hc | hc
    · rcases other d with hd | hd
      · exact .inl (by rw [← hc, e, hd])
      · exact .inr ⟨e.trans hd, hd⟩
    · exact .inr ⟨hc, e.symm.trans hc⟩
  · rintro (rfl | ⟨h1, h2⟩)
    · rfl
    · rw [h1, h2]

theorem around_injective {valid : Char → Bool} (hb : valid ' ' = false) : ∀ s t : Str,
    (s.flatMap fun c => if valid c then [' ', c, ' '] else [c]) = (t.flatMap fun c => if valid c then [' ', c, ' '] else [c]) →
    s = t := by
  have head : ∀ {t : Str} {c : Char} {r : Str}, valid c = true →
      (t.flatMap fun c => if valid c then [' ', c, ' '] else [c]) ≠ c :: r := by
    intro t c r hc h
    cases t with
    | nil => cases h
    | cons e t =>
      rw [List.flatMap_cons] at h
      cases he : valid e with
      | true =>
        rw [he] at h
        injection h with h _
        rw [← h, hb] at hc
        cases hc
      | false =>
        rw [he] at h
        injection h with h _
        rw [← h, he] at hc
        cases hc
  intro s
  induction s with
  | nil =>
    intro t h
    cases t with
    | nil => rfl
    | cons d t => rw [List.flatMap_cons] at h; cases hd : valid d <;> rw [hd] at h <;> cases h
  | cons c s ih =>
    intro t h
    cases t with
    | nil => rw [List.flatMap_cons] at h; cases hd : valid c <;> rw [hd] at h <;> cases h
    | cons d t =>
      rw [List.flatMap_cons, List.flatMap_cons] at h
      cases hc : valid c <;> cases hd : valid d <;> rw [hc, hd] at h
      · injection h with h1 h2
        rw [h1, ih t h2]
      · injection h with _ h2
        exact absurd h2 (head hd)
      · injection h with _ h2
        exact absurd h2.symm (head hc)
      · injection h with _ h2
        injection h2 with h1 h2
        injection h2 with _ h2
        rw [h1, ih t h2]

/-- C114: putting white space around ideographs or punctuation marks loses nothing. -/
theorem C114_around (env : Env) (hsp : env.u.isCatP ' ' = false) (op : Op)
    (h : Made env "AddWhitespaceAroundCJK" op ∨ Made env "AddWhitespaceAroundPunctuation" op) (s t : Str) :
    Confuses op (.str s) (.str t) ↔ s = t := by
  rcases h with h | h
  · have ho := made_simple (env := env) (name := "AddWhitespaceAroundCJK") rfl h
    subst ho
    obtain ⟨a, h1, _⟩ := C17_around env.σ isCJK s
    obtain ⟨b, h2, _⟩ := C17_around env.σ isCJK t
    refine (confuses_of (strOp_transform h1) (strOp_transform h2)).trans ?_
    rw [seq_str_inj]
    exact ⟨around_injective (by decide) s t, fun h => by rw [h]⟩
  · have ho := made_simple (env := env) (name := "AddWhitespaceAroundPunctuation") rfl h
    subst ho
    obtain ⟨a, h1, _⟩ := C17_around env.σ (isPunctuation env.u) s
    obtain ⟨b, h2, _⟩ := C17_around env.σ (isPunctuation env.u) t
    refine (confuses_of (strOp_transform h1) (strOp_transform h2)).trans ?_
    rw [seq_str_inj]
    refine ⟨around_injective ?_ s t, fun h => by rw [h]⟩
    refine bool_false_of (C17_punctuation env.u ' ') fun h => ?_
    rcases h with h | h
    · exact absurd h (by decide)
    · rw [hsp] at h
      cases h

theorem isRuns_merged : ∀ {b : Bool} {rs : List Str}, IsRuns isSpace b rs →
    IsRuns isSpace b (rs.map fun r => if isRunOf isSpace r then [' '] else r)
  | _, [], _ => trivial
  | b, r :: rs, ⟨h1, h2, h3⟩ => by
    refine ⟨?_, ?_, isRuns_merged h3⟩ <;> dsimp only
    · split
      · simp
      · exact h1
    · cases b with
      | true =>
        rw [if_pos (isRunOf_uniform h1 h2)]
        intro c hc
        rw [List.mem_singleton.mp hc]
        decide
      | false =>
        rw [isRunOf_uniform h1 h2, if_neg (by decide)]
        exact h2

/-- C114: `MergeWhiteSpaceCharacters` makes the same of two texts exactly when they differ in how much white space and which
stands at the same places. -/
theorem C114_merge (env : Env) (op : Op) (h : Made env "MergeWhiteSpaceCharacters" op) (s t : Str) :
    Confuses op (.str s) (.str t) ↔ List.Forall₂ SameButSpace (runs isSpace s) (runs isSpace t) := by
  have ho := made_simple (env := env) (name := "MergeWhiteSpaceCharacters") rfl h
  subst ho
  obtain ⟨a, h1, _⟩ := C21_merge env.σ s
  obtain ⟨b, h2, _⟩ := C21_merge env.σ t
  rw [confuses_of (strOp_transform h1) (strOp_transform h2), seq_str_inj]
  have flat : ∀ s : Str, mapRuns isSpace (fun _ => [' ']) s =
      ((runs isSpace s).map fun r => if isRunOf isSpace r then [' '] else r).flatten := fun s => by
    unfold mapRuns
    rw [← List.flatMap_def]
  have again : ∀ s : Str, runs isSpace (mapRuns isSpace (fun _ => [' ']) s) =
      (runs isSpace s).map fun r => if isRunOf isSpace r then [' '] else r := fun s => by
    obtain ⟨b, _, hr⟩ := runs_isRuns isSpace s
    rw [flat]
    exact isRuns_unique _ b _ (isRuns_merged hr)
  have key : mapRuns isSpace (fun _ => [' ']) s = mapRuns isSpace (fun _ => [' ']) t ↔
      (runs isSpace s).map (fun r => if isRunOf isSpace r then [' '] else r) =
        (runs isSpace t).map fun r => if isRunOf isSpace r then [' '] else r :=
    ⟨fun h => by rw [← again, ← again, h], fun h => by rw [flat, flat, h]⟩
  rw [key, map_eq_iff_forall₂]
  have white : ∀ (s r : Str), r ∈ runs isSpace s → (isRunOf isSpace r = true ↔ ∀ c ∈ r, isSpace c = true) := fun s r hr => by
    obtain ⟨h1, h2⟩ := mem_runs isSpace s r hr
    constructor
    · intro h c hc
      rw [h2 c hc, h]
    · exact fun h => isRunOf_uniform h1 h
  have blank : ∀ (s r : Str), r ∈ runs isSpace s → isRunOf isSpace r = false → r ≠ [' '] := fun s r hr hf e => by
    rw [e] at hf
    cases hf
  have both : ∀ {l m : List Str}, (∀ r ∈ l, r ∈ runs isSpace s) → (∀ r ∈ m, r ∈ runs isSpace t) →
      (List.Forall₂ (fun r r' => (if isRunOf isSpace r then [' '] else r) = if isRunOf isSpace r' then [' '] else r') l m ↔
        List.Forall₂ SameButSpace l m) := by
    intro l
    induction l with
    | nil => intro m _ _; cases m <;> simp
    | cons r l ih =>
      intro m hl hm
      cases m with
      | nil => simp
      | cons r' m =>
        rw [List.forall₂_cons, List.forall₂_cons, ih (fun x hx => hl x (List.mem_cons_of_mem _ hx))
          fun x hx => hm x (List.mem_cons_of_mem _ hx)]
        refine and_congr_left fun _ => ?_
        have w1 := white s r (hl r (List.mem_cons_self ..))
        have w2 := white t r' (hm r' (List.mem_cons_self ..))
        unfold SameButSpace
        rw [← w1, ← w2]
        cases hr : isRunOf isSpace r <;> cases hr' : isRunOf isSpace r'
        · simp
        · have := blank s r (hl r (List.mem_cons_self ..)) hr
          simp [this]
          rintro rfl
          rw [hr] at hr'
          cases hr'
        · have := blank t r' (hm r' (List.mem_cons_self ..)) hr'
          simp [Ne.symm this]
          rintro rfl
          rw [hr] at hr'
          cases hr'
        · simp
  exact both (fun _ h => h) fun _ h => h

/-- C114: `StripWhiteSpaceCharacters` makes the same of two texts exactly when they differ in the white space at the ends. -/
theorem C114_strip (env : Env) (op : Op) (h : Made env "StripWhiteSpaceCharacters" op) (s t : Str) :
    Confuses op (.str s) (.str t) ↔ ∃ m a b a' b', s = a ++ m ++ b ∧ t = a' ++ m ++ b' ∧
      ∀ c ∈ a ++ b ++ a' ++ b', isSpace c = true := by
  have ho := made_simple (env := env) (name := "StripWhiteSpaceCharacters") rfl h
  subst ho
  obtain ⟨_, h1, _⟩ := C22_strip env.σ s
  obtain ⟨_, h2, _⟩ := C22_strip env.σ t
  rw [confuses_of (strOp_transform h1) (strOp_transform h2), seq_str_inj]
  constructor
  · intro h
    obtain ⟨⟨a, b, e1, ha, hb⟩, _⟩ := (C22_strip_form s _).mp rfl
    obtain ⟨⟨a', b', e2, ha', hb'⟩, _⟩ := (C22_strip_form t _).mp rfl
    refine ⟨strip s, a, b, a', b', e1, by rw [h]; exact e2, fun c hc => ?_⟩
    simp only [List.mem_append] at hc
    rcases hc with ((hc | hc) | hc) | hc
    · exact ha c hc
    · exact hb c hc
    · exact ha' c hc
    · exact hb' c hc
  · rintro ⟨m, a, b, a', b', rfl, rfl, hw⟩
    have key : ∀ a b : Str, (∀ c ∈ a ++ b, isSpace c = true) → strip (a ++ m ++ b) = strip m := by
      intro a b hw
      obtain ⟨⟨x, y, e, hx, hy⟩, h2, h3⟩ := (C22_strip_form m _).mp rfl
      refine (C22_strip_form _ _).mpr ⟨⟨a ++ x, y ++ b, ?_, fun c hc => ?_, fun c hc => ?_⟩, h2, h3⟩
      · conv => lhs; rw [e]
        simp only [List.append_assoc]
      · rcases List.mem_append.mp hc with hc | hc
        · exact hw c (List.mem_append_left _ hc)
        · exact hx c hc
      · rcases List.mem_append.mp hc with hc | hc
        · exact hy c hc
        · exact hw c (List.mem_append_right _ hc)
    rw [key a b fun c hc => hw c (by simp only [List.mem_append] at hc ⊢; tauto),
      key a' b' fun c hc => hw c (by simp only [List.mem_append] at hc ⊢; tauto)]

/-- C114: a number recogniser makes the same of two texts that differ in the numbers it recognises. -/
theorem C114_numbers (env : Env) (hdot : env.u.isDecimal '.' = false) (name : String) (op : Op) (h : Made env name op)
    (q : Str → Bool) (hq : name ∈ wholeNames ∧ q = isInteger env.u ∨ name ∈ decimalNames ∧ q = isFloat env.u) (s t : Str)
    (hst : List.Forall₂ (fun r r' => r = r' ∨ isRunOf (numeric env.u) r = true ∧ isRunOf (numeric env.u) r' = true ∧
      q r = true ∧ q r' = true) (runs (numeric env.u) s) (runs (numeric env.u) t)) :
    Confuses op (.str s) (.str t) := by
  have out : ∀ s, ∃ a, op.transform (.str s) =
      .ok (.str (mapRuns (numeric env.u) (fun r => if q r then written name else r) s), a) := by
    intro s
    unfold wholeNames decimalNames at hq
    simp only [List.mem_cons, List.not_mem_nil, or_false] at hq
    rcases hq with ⟨rfl | rfl | rfl, rfl⟩ | ⟨rfl | rfl, rfl⟩
    · have ho := made_simple (env := env) (name := "IntToken") rfl h
      obtain ⟨a, h1, _⟩ := (C18_C19_int_token env.σ env.u s).run
      subst ho
      exact ⟨a, strOp_transform h1⟩
    · have ho := made_simple (env := env) (name := "IntTokenWithSpace") rfl h
      obtain ⟨a, h1, _⟩ := (C18_C19_int_token_with_space env.σ env.u s).run
      subst ho
      exact ⟨a, strOp_transform h1⟩
    · have ho := made_simple (env := env) (name := "NumTokenWithSpace") rfl h
      obtain ⟨a, h1, _⟩ := (C18_C19_num_token_with_space env.σ env.u s).run
      subst ho
      exact ⟨a, strOp_transform h1⟩
    · have ho := made_simple (env := env) (name := "FloatToken") rfl h
      obtain ⟨a, h1, _⟩ := (C18_C19_float_token env.σ env.u hdot s).run
      subst ho
      exact ⟨a, strOp_transform h1⟩
    · have ho := made_simple (env := env) (name := "FloatTokenWithSpace") rfl h
      obtain ⟨a, h1, _⟩ := (C18_C19_float_token_with_space env.σ env.u hdot s).run
      subst ho
      exact ⟨a, strOp_transform h1⟩
  obtain ⟨a, h1⟩ := out s
  obtain ⟨b, h2⟩ := out t
  rw [confuses_of h1 h2, seq_str_inj]
  unfold mapRuns
  generalize runs (numeric env.u) s = l at hst
  generalize runs (numeric env.u) t = m at hst
  induction hst with
  | nil => rfl
  | cons h1 _ ih =>
    rw [List.flatMap_cons, List.flatMap_cons, ih]
    congr 1
    rcases h1 with rfl | ⟨h1, h2, h3, h4⟩
    · rfl
    · simp [h1, h2, h3, h4]

/-- C114: but also of a number and the token that stands for numbers. -/
theorem C114_token : ∃ op, Made exEnv "IntToken" op ∧ Confuses op (.str "a 1".toList) (.str "a _int_".toList) ∧
    Confuses op (.str "a 1".toList) (.str "a 2".toList) :=
  ⟨_, ⟨[], [], rfl⟩, ⟨_, _, _, rfl, rfl⟩, ⟨_, _, _, rfl, rfl⟩⟩

/-! ### tokens -/

/-- C114: `CharTokenizer` and `CustomWordTokenizer` lose nothing. -/
theorem C114_lossless_tokens (env : Env) (op : Op) (h : Made env "CharTokenizer" op ∨ ∃ args kwargs v sh ws,
      bound wordParams args kwargs = some [v, sh] ∧ WordsIn v ws ∧ GoodWords ws ∧
        create env "CustomWordTokenizer" args kwargs = .ok op) (s t : Str) :
    Confuses op (.str s) (.str t) ↔ s = t := by
  rcases h with h | ⟨args, kwargs, v, sh, ws, hb, hw, hg, h⟩
  · have ho := made_simple (env := env) (name := "CharTokenizer") rfl h
    subst ho
    obtain ⟨a, h1, _⟩ := C41_char env.σ s
    obtain ⟨b, h2, _⟩ := C41_char env.σ t
    rw [confuses_of (tokOp_transform h1) (tokOp_transform h2), seq_list_inj, tok_map_inj]
    exact ⟨fun h => (List.map_injective_iff.mpr fun _ _ h => by cases h; rfl) h, fun h => by rw [h]⟩
  · obtain ⟨short, hs⟩ : ∃ short : Bool, short = true ↔ ¬ Falsy sh := by
      by_cases h : Falsy sh
      · exact ⟨false, by simp [h]⟩
      · exact ⟨true, by simp [h]⟩
    obtain ⟨op', h', hout⟩ := ((C84_custom_tokenizer env args kwargs v sh hb).1 ws short hw hs).1 hg
    rw [h] at h'
    cases h'
    obtain ⟨tr, ht⟩ := (C36_build ws).1.mpr hg
    obtain ⟨_, segs, _, d1, _⟩ := C37_C42_custom env.σ ws tr ht short s
    obtain ⟨_, segs', _, d2, _⟩ := C37_C42_custom env.σ ws tr ht short t
    rw [confuses_gives (hout s segs d1) (hout t segs' d2), seq_list_inj, tok_map_inj]
    constructor
    · rintro rfl
      rw [← wordSegs_flatten d1, wordSegs_flatten d2]
    · rintro rfl
      exact C37_division_unique ws short _ _ _ d1 d2

theorem drop_run {r : Str} {l : List Str} (h : isRunOf isSpace r = true) :
    ((r :: l).filter fun r => !isRunOf isSpace r) = l.filter fun r => !isRunOf isSpace r :=
  List.filter_cons_of_neg (by simp [h])

theorem keep_run {r : Str} {l : List Str} (h : isRunOf isSpace r = false) :
    ((r :: l).filter fun r => !isRunOf isSpace r) = r :: l.filter fun r => !isRunOf isSpace r :=
  List.filter_cons_of_pos (by simp [h])

theorem words_blank_before (s : Str) : wordsOf (' ' :: s) = wordsOf s := by
  unfold wordsOf
  rw [runs]
  cases hr : runs isSpace s with
  | nil => rfl
  | cons r rs =>
    dsimp only
    split
    · rename_i h
      have hs : isSpace ' ' = true := by decide
      rw [hs] at h
      have h1 : isRunOf isSpace r = true := by
        cases r with
        | nil => cases h
        | cons c r => simpa [isRunOf] using h
      have h2 : isRunOf isSpace (' ' :: r) = true := rfl
      rw [drop_run (h1), drop_run (h2)]
    · have h2 : isRunOf isSpace [' '] = true := rfl
      rw [drop_run (h2)]

theorem runs_blank_after : ∀ (b : Bool) (rs : List Str), IsRuns isSpace b rs → (rs = [] → b = true) →
    ∃ rs', IsRuns isSpace b rs' ∧ rs'.flatten = rs.flatten ++ [' '] ∧
      (rs'.filter fun r => !isRunOf isSpace r) = rs.filter fun r => !isRunOf isSpace r
  | b, [], _, hb => by
    rw [hb rfl]
    exact ⟨[[' ']], ⟨by simp, by intro c hc; rw [List.mem_singleton.mp hc]; decide, trivial⟩, rfl, rfl⟩
  | true, [r], ⟨h1, h2, _⟩, _ => by
    have hu : Uniform isSpace true (r ++ [' ']) := fun c hc => by
      rcases List.mem_append.mp hc with hc | hc
      · exact h2 c hc
      · rw [List.mem_singleton.mp hc]; decide
    have e1 := isRunOf_uniform h1 h2
    have e2 := isRunOf_uniform (by simp) hu
    exact ⟨[r ++ [' ']], ⟨by simp, hu, trivial⟩, by simp, by simp [e1, e2]⟩
  | false, [r], ⟨h1, h2, _⟩, _ =>
    ⟨[r, [' ']], ⟨h1, h2, by simp, by intro c hc; rw [List.mem_singleton.mp hc]; decide, trivial⟩, by simp, by
      have e : isRunOf isSpace [' '] = true := rfl
      simp [List.filter_cons, e]⟩
  | b, r :: r2 :: rs, ⟨h1, h2, h3⟩, _ => by
    obtain ⟨rs', g1, g2, g3⟩ := runs_blank_after (!b) (r2 :: rs) h3 (by simp)
    refine ⟨r :: rs', ⟨h1, h2, g1⟩, by rw [List.flatten_cons, g2]; simp, ?_⟩
    cases hr : isRunOf isSpace r
    · rw [keep_run hr, keep_run hr, g3]
    · rw [drop_run hr, drop_run hr, g3]

theorem words_blank_after (s : Str) : wordsOf (s ++ [' ']) = wordsOf s := by
  obtain ⟨b, _, h⟩ := runs_isRuns isSpace s
  have hb : ∃ b, IsRuns isSpace b (runs isSpace s) ∧ (runs isSpace s = [] → b = true) := by
    by_cases he : runs isSpace s = []
    · exact ⟨true, by rw [he]; trivial, fun _ => rfl⟩
    · exact ⟨b, h, fun h => absurd h he⟩
  obtain ⟨b, h, he⟩ := hb
  obtain ⟨rs', g1, g2, g3⟩ := runs_blank_after b _ h he
  have := isRuns_unique isSpace b rs' g1
  rw [g2, runs_flatten] at this
  unfold wordsOf
  rw [this, g3]

theorem same_words_runs : ∀ (rs ts : List Str), IsRuns isSpace true rs → IsRuns isSpace true ts → rs ≠ [] → ts ≠ [] →
    (∀ r ∈ rs.getLast?, isRunOf isSpace r = true) → (∀ r ∈ ts.getLast?, isRunOf isSpace r = true) →
    (rs.filter fun r => !isRunOf isSpace r) = (ts.filter fun r => !isRunOf isSpace r) → List.Forall₂ SameButSpace rs ts
  | [], _, _, _, h, _, _, _, _ => absurd rfl h
  | _ :: _, [], _, _, _, h, _, _, _ => absurd rfl h
  | [a], [b], ⟨_, h1, _⟩, ⟨_, h2, _⟩, _, _, _, _, _ => .cons (.inr ⟨h1, h2⟩) .nil
  | [a], b :: w :: ts, ⟨ha, h1, _⟩, ⟨hb, h2, hw, h3, _⟩, _, _, _, _, e => by
    rw [drop_run (isRunOf_uniform ha h1), drop_run (isRunOf_uniform hb h2),
      keep_run (isRunOf_uniform hw h3)] at e
    cases e
  | a :: w :: rs, [b], ⟨ha, h1, hw, h3, _⟩, ⟨hb, h2, _⟩, _, _, _, _, e => by
    rw [drop_run (isRunOf_uniform ha h1),
      keep_run (isRunOf_uniform hw h3), drop_run (isRunOf_uniform hb h2)] at e
    cases e
  | a :: w :: rs, b :: v :: ts, ⟨ha, h1, hw, h2, h3⟩, ⟨hb, g1, hv, g2, g3⟩, _, _, l1, l2, e => by
    have nr : rs ≠ [] := by
      rintro rfl
      have := l1 w rfl
      rw [isRunOf_uniform hw h2] at this
      cases this
    have nt : ts ≠ [] := by
      rintro rfl
      have := l2 v rfl
      rw [isRunOf_uniform hv g2] at this
      cases this
    rw [drop_run (isRunOf_uniform ha h1), drop_run (isRunOf_uniform hb g1),
      keep_run (isRunOf_uniform hw h2), keep_run (isRunOf_uniform hv g2)] at e
    injection e with e1 e2
    have last : ∀ {x y : Str} {l : List Str}, l ≠ [] → (x :: y :: l).getLast? = l.getLast? := by
      intro x y l hl
      cases l with
      | nil => exact absurd rfl hl
      | cons z l => rw [List.getLast?_cons_cons, List.getLast?_cons_cons]
    rw [last nr] at l1
    rw [last nt] at l2
    exact .cons (.inr ⟨h1, g1⟩) (.cons (.inl e1) (same_words_runs rs ts h3 g3 nr nt l1 l2 e2))

theorem same_runs_words {rs ts : List Str} (hr : ∀ r ∈ rs, r ≠ [] ∧ Uniform isSpace (isRunOf isSpace r) r)
    (ht : ∀ r ∈ ts, r ≠ [] ∧ Uniform isSpace (isRunOf isSpace r) r) (h : List.Forall₂ SameButSpace rs ts) :
    (rs.filter fun r => !isRunOf isSpace r) = ts.filter fun r => !isRunOf isSpace r := by
  induction h with
  | nil => rfl
  | cons h1 _ ih =>
    have ih := ih (fun r hr' => hr r (List.mem_cons_of_mem _ hr')) fun r hr' => ht r (List.mem_cons_of_mem _ hr')
    rcases h1 with rfl | ⟨g1, g2⟩
    · rw [List.filter_cons, List.filter_cons, ih]
    · rw [drop_run (isRunOf_uniform (hr _ (List.mem_cons_self ..)).1 g1),
        drop_run (isRunOf_uniform (ht _ (List.mem_cons_self ..)).1 g2), ih]

/-- C114: `WhiteSpaceTokenizer` makes the same of two texts exactly when they differ in white space only, next to white space or
at the ends. -/
theorem C114_words (env : Env) (op : Op) (h : Made env "WhiteSpaceTokenizer" op) (s t : Str) :
    Confuses op (.str s) (.str t) ↔
      List.Forall₂ SameButSpace (runs isSpace (' ' :: s ++ [' '])) (runs isSpace (' ' :: t ++ [' '])) := by
  have ho := made_simple (env := env) (name := "WhiteSpaceTokenizer") rfl h
  subst ho
  obtain ⟨a, h1⟩ := C39_words env.σ s
  obtain ⟨b, h2⟩ := C39_words env.σ t
  rw [confuses_of (tokOp_transform h1) (tokOp_transform h2), seq_list_inj, tok_map_inj]
  have e : ∀ s, wordsOf s = (runs isSpace (' ' :: s ++ [' '])).filter fun r => !isRunOf isSpace r := fun s => by
    show _ = wordsOf (' ' :: s ++ [' '])
    rw [words_blank_after, words_blank_before]
  rw [e s, e t]
  have fact : ∀ s : Str, IsRuns isSpace true (runs isSpace (' ' :: s ++ [' '])) ∧ runs isSpace (' ' :: s ++ [' ']) ≠ [] ∧
      ∀ r ∈ (runs isSpace (' ' :: s ++ [' '])).getLast?, isRunOf isSpace r = true := fun s => by
    obtain ⟨b, hb, hr⟩ := runs_isRuns isSpace (' ' :: s ++ [' '])
    have hb : isSpace ' ' = b := hb ' ' rfl
    have hf := runs_flatten isSpace (' ' :: s ++ [' '])
    rw [← hb] at hr
    refine ⟨hr, (fun h => by rw [h] at hf; cases hf), fun r hl => ?_⟩
    obtain ⟨ys, hy⟩ := List.getLast?_eq_some_iff.mp hl
    have hm : r ∈ runs isSpace (' ' :: s ++ [' ']) := by rw [hy]; simp
    obtain ⟨m1, m2⟩ := mem_runs isSpace _ r hm
    rw [hy, List.flatten_append, List.flatten_singleton] at hf
    have hlast := congrArg List.getLast? hf
    rw [List.getLast?_append_of_ne_nil _ m1, List.getLast?_append_of_ne_nil _ (by simp)] at hlast
    obtain ⟨zs, hz⟩ := List.getLast?_eq_some_iff.mp hlast
    have := m2 ' ' (by rw [hz]; simp)
    rw [← this]
    rfl
  refine ⟨fun h => ?_, fun h => same_runs_words (fun r hr => mem_runs _ _ r hr) (fun r hr => mem_runs _ _ r hr) h⟩
  obtain ⟨f1, f2, f3⟩ := fact s
  obtain ⟨g1, g2, g3⟩ := fact t
  exact same_words_runs _ _ f1 g1 f2 g2 f3 g3 h

/-- C114: `AddSosEos` and `AddEndToken` lose nothing. -/
theorem C114_framed (env : Env) (args : List PyVal) (kwargs : List (Str × PyVal)) (op : Op) (l m : List Tok)
    (hl : l.length < 2 ^ 32) (hm : m.length < 2 ^ 32) :
    (∀ v w b e, bound sosEosParams args kwargs = some [v, w] → IsToken v b → IsToken w e → l ≠ [] → m ≠ [] →
      create env "AddSosEos" args kwargs = .ok op → (Confuses op (.list l) (.list m) ↔ l = m)) ∧
    (∀ e, bound endTokenParams args kwargs = some [.str e] → e ≠ [] →
      create env "AddEndToken" args kwargs = .ok op → (Confuses op (.list l) (.list m) ↔ l = m)) := by
  refine ⟨fun v w b e hb hv hw hl' hm' h => ?_, fun e hb he h => ?_⟩
  · obtain ⟨op', h', hg⟩ := C84_sos_eos env args kwargs v w b e hb hv hw
    rw [h] at h'
    cases h'
    rw [confuses_gives (hg l ⟨hl', hl⟩) (hg m ⟨hm', hm⟩), seq_list_inj]
    simp
  · obtain ⟨op', h', hg⟩ := (C74_end_token env args kwargs).1 e he hb
    rw [h] at h'
    cases h'
    rw [confuses_gives (hg l hl) (hg m hm), seq_list_inj]
    simp

theorem padded_prefix {α : Type} {p : α} {l m : List α} {i j : Nat} (hlm : l.length ≤ m.length)
    (h : l ++ List.replicate i p = m ++ List.replicate j p) : m = l ++ List.replicate (m.length - l.length) p := by
  have h1 : m = (l ++ List.replicate i p).take m.length := by rw [h, List.take_left]
  rw [List.take_append, List.take_of_length_le hlm, List.take_replicate] at h1
  have h2 := congrArg List.length h
  simp only [List.length_append, List.length_replicate] at h2
  rw [Nat.min_eq_left (by omega)] at h1
  exact h1

/-- C114: `Pad` makes the same of two lists exactly when what fits differs in padding tokens at the end only. -/
theorem C114_pad (env : Env) (args : List PyVal) (kwargs : List (Str × PyVal)) (v w : PyVal) (n : Nat) (p : Tok) (op : Op)
    (hb : bound padParams args kwargs = some [v, w]) (hv : IsNumber v n) (hw : IsToken w p)
    (h : create env "Pad" args kwargs = .ok op) (l m : List Tok) (hl : l.length < 2 ^ 32) (hm : m.length < 2 ^ 32) :
    Confuses op (.list l) (.list m) ↔
      ∃ core i j, l.take n = core ++ List.replicate i p ∧ m.take n = core ++ List.replicate j p := by
  obtain ⟨op', h', hg⟩ := (C84_pad env args kwargs v w p hb hw).1 n hv
  rw [h] at h'
  cases h'
  rw [confuses_gives (hg l hl) (hg m hm), seq_list_inj]
  have len : ∀ l : List Tok, (l.take n).length = min n l.length := fun l => List.length_take ..
  constructor
  · intro e
    rcases Nat.le_total (l.take n).length (m.take n).length with hle | hle
    · exact ⟨l.take n, 0, _, by simp, padded_prefix hle e⟩
    · exact ⟨m.take n, _, 0, padded_prefix hle e.symm, by simp⟩
  · rintro ⟨core, i, j, e1, e2⟩
    have l1 := len l
    have l2 := len m
    rw [e1, List.length_append, List.length_replicate] at l1
    rw [e2, List.length_append, List.length_replicate] at l2
    dsimp only
    rw [e1, e2, List.append_assoc, List.append_assoc, List.replicate_append_replicate, List.replicate_append_replicate]
    congr 2
    omega

/-- C114: `PureNum2Token` makes the same of two lists of texts exactly when they differ in texts of digits and the token. -/
theorem C114_pure_num (env : Env) (args : List PyVal) (kwargs : List (Str × PyVal)) (v : PyVal) (p : Tok) (op : Op)
    (hb : bound pureNumParams args kwargs = some [v]) (hv : IsToken v p) (h : create env "PureNum2Token" args kwargs = .ok op)
    (l m : List Str) :
    Confuses op (.list (l.map Tok.str)) (.list (m.map Tok.str)) ↔ List.Forall₂ (fun x y => x = y ∨
      ((x ≠ [] ∧ ∀ c ∈ x, isDigit env.u c = true) ∨ .str x = p) ∧
      ((y ≠ [] ∧ ∀ c ∈ y, isDigit env.u c = true) ∨ .str y = p)) l m := by
  obtain ⟨op', h', hg⟩ := C84_pure_num env args kwargs v p hb hv
  rw [h] at h'
  cases h'
  rw [confuses_gives (hg l trivial) (hg m trivial), seq_list_inj, map_eq_iff_forall₂]
  refine forall₂_iff (fun x y => ?_) l m
  by_cases hx : x ≠ [] ∧ ∀ c ∈ x, isDigit env.u c = true <;> by_cases hy : y ≠ [] ∧ ∀ c ∈ y, isDigit env.u c = true
  · simp only [if_pos hx, if_pos hy, true_iff]
    exact .inr ⟨.inl hx, .inl hy⟩
  · rw [if_pos hx, if_neg hy]
    refine ⟨fun e => .inr ⟨.inl hx, .inr e.symm⟩, ?_⟩
    rintro (rfl | ⟨_, h | h⟩)
    · exact absurd hx hy
    · exact absurd h hy
    · exact h.symm
  · rw [if_neg hx, if_pos hy]
    refine ⟨fun e => .inr ⟨.inr e, .inl hy⟩, ?_⟩
    rintro (rfl | ⟨h | h, _⟩)
    · exact absurd hy hx
    · exact absurd h hx
    · exact h
  · rw [if_neg hx, if_neg hy]
    refine ⟨fun e => .inl (by cases e; rfl), ?_⟩
    rintro (rfl | ⟨h | h, h' | h'⟩)
    · rfl
    · exact absurd h hx
    · exact absurd h hx
    · exact absurd h' hy
    · exact h.trans h'.symm

/-! ### numbers of tokens -/

theorem dict_index {d : List (Str × Int)} {i : Int} (hd : (d.map Prod.snd).Nodup) {a b : Str} (ha : (a, i) ∈ d) (hb : (b, i) ∈ d) :
    a = b := by
  have := eq_of_nodup_map Prod.snd hd ha hb rfl
  cases this
  rfl

theorem dict_key {d : List (Str × Int)} (hd : (d.map Prod.fst).Nodup) {a : Str} {i j : Int} (hi : (a, i) ∈ d) (hj : (a, j) ∈ d) :
    i = j := by
  have := eq_of_nodup_map Prod.fst hd hi hj rfl
  cases this
  rfl

/-- C114: `Token2Index` makes the same of two lists exactly when they differ in tokens that are not listed and the token for
those. -/
theorem C114_index (env : Env) (args : List PyVal) (kwargs : List (Str × PyVal)) (d : List (Str × Int)) (unk : Str) (op : Op)
    (hd : (d.map Prod.fst).Nodup)
    (hb : bound token2indexParams args kwargs = some [.dict (d.map fun kv => (kv.1, .int kv.2)), .str unk])
    (h : create env "Token2Index" args kwargs = .ok op) (l m : List Tok) :
    Confuses op (.list l) (.list m) ↔
      List.Forall₂ (fun x y => x = y ∨ Unlisted (d.map Prod.fst) unk x ∧ Unlisted (d.map Prod.fst) unk y) l m := by
  obtain ⟨k1, k2, k3⟩ := (C74_token2index env args kwargs).1 d unk hd hb
  have hc : Continuous d := by
    by_contra hc
    rw [k2 hc] at h
    cases h
  have hu : unk ∈ d.map Prod.fst := by
    by_contra hu
    rw [k3 hc hu] at h
    cases h
  obtain ⟨op', h', hg⟩ := k1 hc hu
  rw [h] at h'
  cases h'
  obtain ⟨ui, hui⟩ : ∃ ui, (unk, ui) ∈ d := by
    obtain ⟨⟨_, ui⟩, hui, rfl⟩ := List.mem_map.mp hu
    exact ⟨ui, hui⟩
  -- the number of every token
  have num : ∀ t : Tok, ∃ i, IndexOf d unk t i := fun t => by
    cases t with
    | str s =>
      by_cases hs : s ∈ d.map Prod.fst
      · obtain ⟨⟨_, i⟩, hi, rfl⟩ := List.mem_map.mp hs
        exact ⟨i, .inl hi⟩
      · exact ⟨ui, .inr ⟨hs, hui⟩⟩
    | int j => exact ⟨ui, hui⟩
  obtain ⟨f, hf⟩ := Classical.axiom_of_choice num
  have gives : ∀ l : List Tok, Gives op (.list l) (.list ((l.map f).map Tok.int)) := fun l =>
    hg l (l.map f) (List.length_map ..) fun p hp => by
      have : p.2 = f p.1 := by
        have key : ∀ l : List Tok, p ∈ l.zip (l.map f) → p.2 = f p.1 := fun l => by
          induction l with
          | nil => intro h; cases h
          | cons a l ih =>
            intro h
            rcases List.mem_cons.mp h with rfl | h
            · rfl
            · exact ih h
        exact key l hp
      rw [this]
      exact hf p.1
  rw [confuses_gives (gives l) (gives m), seq_list_inj, int_map_inj, map_eq_iff_forall₂]
  have unl : ∀ t, Unlisted (d.map Prod.fst) unk t ↔ f t = ui := fun t => by
    have ht := hf t
    constructor
    · intro hn
      cases t with
      | str s =>
        rcases hn s rfl with h | h
        · rcases ht with ht | ⟨_, ht⟩
          · exact absurd (List.mem_map.mpr ⟨_, ht, rfl⟩) h
          · exact dict_key hd ht hui
        · subst h
          rcases ht with ht | ⟨_, ht⟩ <;> exact dict_key hd ht hui
      | int j => exact dict_key hd ht hui
    · rintro e s rfl
      rcases ht with ht | ⟨hs, _⟩
      · rw [e] at ht
        exact .inr (dict_index hc.2.1 ht hui)
      · exact .inl hs
  refine forall₂_iff (fun x y => ?_) l m
  rw [unl, unl]
  constructor
  · intro e
    by_cases hx : f x = ui
    · exact .inr ⟨hx, e.symm.trans hx⟩
    · have hy : f y ≠ ui := fun h => hx (e.trans h)
      have listed : ∀ t, f t ≠ ui → ∃ s, t = .str s ∧ (s, f t) ∈ d := fun t ht => by
        have hn := fun h => ht ((unl t).mp h)
        have ht := hf t
        cases t with
        | str s =>
          rcases ht with ht | ⟨hs, _⟩
          · exact ⟨s, rfl, ht⟩
          · exact absurd (fun s' e => by cases e; exact .inl hs) hn
        | int j => exact absurd (fun s' e => by cases e) hn
      obtain ⟨s, rfl, h1⟩ := listed x hx
      obtain ⟨s', rfl, h2⟩ := listed y hy
      rw [e] at h1
      exact .inl (by rw [dict_index hc.2.1 h1 h2])
  · rintro (rfl | ⟨h1, h2⟩)
    · rfl
    · rw [h1, h2]

/-- C114: `Token2IndexwithHash` takes every token for one of the listed tokens, the listed ones for themselves, and makes the
same of two lists exactly when it takes them for the same. -/
theorem C114_hash (env : Env) (args : List PyVal) (kwargs : List (Str × PyVal)) (d : List (Str × Int)) (op : Op)
    (hd : (d.map Prod.fst).Nodup)
    (hb : bound token2indexHashParams args kwargs = some [.dict (d.map fun kv => (kv.1, .int kv.2))])
    (h : create env "Token2IndexwithHash" args kwargs = .ok op) :
    ∃ known : Str → Str, (∀ s, known s ∈ d.map Prod.fst) ∧ (∀ s ∈ d.map Prod.fst, known s = s) ∧
      ∀ l m : List Str, Confuses op (.list (l.map Tok.str)) (.list (m.map Tok.str)) ↔ l.map known = m.map known := by
  obtain ⟨k1, k2⟩ := (C74_token2index_hash env args kwargs).1 d hd hb
  have hc : Continuous d := by
    by_contra hc
    rw [k2 hc] at h
    cases h
  obtain ⟨op', h', hg⟩ := k1 hc
  rw [h] at h'
  cases h'
  have hpos : 0 < d.length := List.length_pos_iff.mpr hc.1
  have key : ∀ s, ∃ w i, (w, i) ∈ d ∧ (s ∈ d.map Prod.fst → w = s) ∧
      (s ∉ d.map Prod.fst → i = ((Murmur.x86_32 (s.flatMap String.utf8EncodeChar) 0#32).toNat % d.length : Nat)) := by
    intro s
    by_cases hs : s ∈ d.map Prod.fst
    · obtain ⟨⟨_, i⟩, hi, rfl⟩ := List.mem_map.mp hs
      exact ⟨_, i, hi, fun _ => rfl, fun h => absurd hs h⟩
    · have := (hc.2.2 ((Murmur.x86_32 (s.flatMap String.utf8EncodeChar) 0#32).toNat % d.length : Nat)).mpr
        ⟨Int.natCast_nonneg _, Int.ofNat_lt.mpr (Nat.mod_lt _ hpos)⟩
      obtain ⟨⟨w, i⟩, hi, e⟩ := List.mem_map.mp this
      exact ⟨w, i, hi, fun h => absurd h hs, fun _ => e⟩
  obtain ⟨known, hk⟩ := Classical.axiom_of_choice key
  obtain ⟨f, hf⟩ := Classical.axiom_of_choice hk
  have gives : ∀ l : List Str, Gives op (.list (l.map Tok.str)) (.list ((l.map f).map Tok.int)) := fun l => by
    obtain ⟨idx, g1, g2, g3⟩ := hg l
    have e : idx = f := funext fun s => by
      obtain ⟨f1, f2, f3⟩ := hf s
      by_cases hs : s ∈ d.map Prod.fst
      · rw [f2 hs] at f1
        exact g2 s _ f1
      · rw [g3 s hs, f3 hs]
    rw [e] at g1
    rw [List.map_map]
    exact g1
  refine ⟨known, fun s => List.mem_map.mpr ⟨_, (hf s).1, rfl⟩, fun s hs => (hf s).2.1 hs, fun l m => ?_⟩
  rw [confuses_gives (gives l) (gives m), seq_list_inj, int_map_inj, map_eq_iff_forall₂,
    map_eq_iff_forall₂]
  refine forall₂_iff (fun x y => ⟨fun e => ?_, fun e => ?_⟩) l m
  · have h1 := (hf x).1
    rw [e] at h1
    exact dict_index hc.2.1 h1 (hf y).1
  · have h1 := (hf x).1
    rw [e] at h1
    exact dict_key hd h1 (hf y).1

/-! ### pipes -/

/-- C114: a pipe of steps that tell all inputs apart tells all inputs apart. -/
theorem C114_pipe (p : Pipe) (hp : ∀ op ∈ p.steps, ∀ x y, Confuses op x y → x = y) (x y : Seq) (h : PipeConfuses p x y) :
    x = y := by
  obtain ⟨out, as, coll, as', coll', h1, h2⟩ := h
  obtain ⟨rs, r1, e1, z1⟩ := (C58_composition p x out as coll).mp h1
  obtain ⟨rs', r2, e2, z2⟩ := (C58_composition p y out as' coll').mp h2
  have hf : finalOf x rs = finalOf y rs' := by rw [← e1, ← e2]
  clear h1 h2 e1 e2 z1 z2
  generalize p.steps = ops at hp r1 r2
  induction r1 generalizing y rs' with
  | nil s => cases r2; exact hf
  | cons h1 _ ih =>
    cases r2 with
    | cons h2 r2 =>
      rw [finalOf_cons, finalOf_cons] at hf
      have e := ih _ _ hf (fun op hop => hp op (List.mem_cons_of_mem _ hop)) r2
      subst e
      exact hp _ (List.mem_cons_self ..) _ _ ⟨_, _, _, h1, h2⟩

/-- C114: what the first steps do not tell apart the pipe does not tell apart: the same output or the same exception. -/
theorem C114_stays (pre post : List Op) (cks : List (Str × Int)) (x y : Seq) (h : PipeConfuses ⟨pre, []⟩ x y) :
    (Pipe.transformSequence ⟨pre ++ post, cks⟩ x).map Prod.fst = (Pipe.transformSequence ⟨pre ++ post, cks⟩ y).map Prod.fst := by
  obtain ⟨out, as, coll, as', coll', h1, h2⟩ := h
  obtain ⟨rs, r1, e1, _⟩ := (C58_composition _ x out as coll).mp h1
  obtain ⟨rs', r2, e2, _⟩ := (C58_composition _ y out as' coll').mp h2
  cases hq : Pipe.transformSequence ⟨post, []⟩ out with
  | error e =>
    obtain ⟨p, op, q, qs, g1, g2, g3⟩ := (C58_error _ out e).mp hq
    have g1 : post = p ++ op :: q := g1
    have key : ∀ z rs, Runs pre z rs → out = finalOf z rs → Pipe.transformSequence ⟨pre ++ post, cks⟩ z = .error e :=
      fun z rs r ez => (C58_error _ z e).mpr ⟨pre ++ p, op, q, rs ++ qs, by rw [g1]; simp, r.append (ez ▸ g2), by
        rw [finalOf_append, ← ez]; exact g3⟩
    rw [key x rs r1 e1, key y rs' r2 e2]
  | ok res =>
    obtain ⟨o, bs, coll2⟩ := res
    obtain ⟨qs, g1, g2, _⟩ := (C58_composition _ out o bs coll2).mp hq
    have key : ∀ z rs, Runs pre z rs → out = finalOf z rs →
        (Pipe.transformSequence ⟨pre ++ post, cks⟩ z).map Prod.fst = .ok o := fun z rs r ez => by
      rw [(C58_composition ⟨pre ++ post, cks⟩ z o _ _).mpr
        ⟨rs ++ qs, r.append (ez ▸ g1), by rw [finalOf_append, ← ez]; exact g2, rfl, rfl⟩]
      rfl
    rw [key x rs r1 e1, key y rs' r2 e2]

/-! ### examples -/

/-- `Lowercase`, `MergeWhiteSpaceCharacters`, `StripWhiteSpaceCharacters` and `PunctuationExceptEndpointToWhitespace` lose
something. -/
example : (∃ op, Made exEnv "Lowercase" op ∧ Confuses op (.str "aB".toList) (.str "Ab".toList)) ∧
    (∃ op, Made exEnv "MergeWhiteSpaceCharacters" op ∧ Confuses op (.str "a  b".toList) (.str "a\tb".toList)) ∧
    (∃ op, Made exEnv "StripWhiteSpaceCharacters" op ∧ Confuses op (.str " a".toList) (.str "a".toList)) ∧
    (∃ op, Made exEnv "WhiteSpaceTokenizer" op ∧ Confuses op (.str " a".toList) (.str "a".toList)) ∧
    ∃ op, Made exEnv "PunctuationExceptEndpointToWhitespace" op ∧ Confuses op (.str "a,b".toList) (.str "a b".toList) :=
  ⟨⟨_, ⟨[], [], rfl⟩, ⟨_, _, _, rfl, rfl⟩⟩, ⟨_, ⟨[], [], rfl⟩, ⟨_, _, _, rfl, rfl⟩⟩, ⟨_, ⟨[], [], rfl⟩, ⟨_, _, _, rfl, rfl⟩⟩,
    ⟨_, ⟨[], [], rfl⟩, ⟨_, _, _, rfl, rfl⟩⟩, ⟨_, ⟨[], [], rfl⟩, ⟨_, _, _, rfl, rfl⟩⟩⟩

/-- `AddWhitespaceAroundCJK` and `CharTokenizer` lose nothing, and so the pipe of both. -/
example : exEnv.u.isCatP ' ' = false ∧ (∃ op, Made exEnv "AddWhitespaceAroundCJK" op) ∧ (∃ op, Made exEnv "CharTokenizer" op) ∧
    ∃ op, create exEnv "CustomWordTokenizer" [.list [.str "ab".toList]] [] = .ok op ∧ GoodWords ["ab".toList] :=
  ⟨rfl, ⟨_, [], [], rfl⟩, ⟨_, [], [], rfl⟩, _, rfl, by unfold GoodWords; decide⟩

/-- Numbers. -/
example : List.Forall₂ (fun r r' => r = r' ∨ isRunOf (numeric asciiUnicode) r = true ∧ isRunOf (numeric asciiUnicode) r' = true ∧
      isInteger asciiUnicode r = true ∧ isInteger asciiUnicode r' = true)
    (runs (numeric asciiUnicode) "a 12".toList) (runs (numeric asciiUnicode) "a 7".toList) := by decide

/-- `Pad(3)` loses a padding token at the end and what does not fit. -/
example : ∃ op, create exEnv "Pad" [.int 3, .str "<pad>".toList] [] = .ok op ∧
    Confuses op (.list [.str ['a']]) (.list [.str ['a'], .str "<pad>".toList]) ∧
    Confuses op (.list [.int 1, .int 2, .int 3]) (.list [.int 1, .int 2, .int 3, .int 4]) :=
  ⟨_, rfl, ⟨_, _, _, rfl, rfl⟩, ⟨_, _, _, rfl, rfl⟩⟩

/-- `Token2Index({"<unk>": 0, "a": 1})`, and `PureNum2Token()`. -/
example : ∃ op op', create exEnv "Token2Index" [.dict [("<unk>".toList, .int 0), ("a".toList, .int 1)], .str "<unk>".toList] [] =
      .ok op ∧ Confuses op (.list [.str ['b'], .str ['a']]) (.list [.int 5, .str ['a']]) ∧
    create exEnv "PureNum2Token" [.str ['#']] [] = .ok op' ∧
    Confuses op' (.list [.str ['1']]) (.list [.str ['#']]) :=
  ⟨_, _, rfl, ⟨_, _, _, rfl, rfl⟩, rfl, ⟨_, _, _, rfl, rfl⟩⟩

/-- `Token2IndexwithHash({"x": 0, "y": 1})` is made. -/
example : ∃ op, create exEnv "Token2IndexwithHash" [.dict [("x".toList, .int 0), ("y".toList, .int 1)]] [] = .ok op := ⟨_, rfl⟩

/-- `AddSosEos()` and `AddEndToken()` are made. -/
example : (∃ op, create exEnv "AddSosEos" [] [] = .ok op) ∧ ∃ op, create exEnv "AddEndToken" [] [] = .ok op :=
  ⟨⟨_, rfl⟩, _, rfl⟩

/-- A pipe of `AddWhitespaceAroundCJK` and `CharTokenizer` tells all texts apart. -/
example : ∃ a b, Made exEnv "AddWhitespaceAroundCJK" a ∧ Made exEnv "CharTokenizer" b ∧
    ∀ op ∈ [a, b], ∀ x y, Confuses op x y → x = y := by
  refine ⟨_, _, ⟨[], [], rfl⟩, ⟨[], [], rfl⟩, ?_⟩
  intro op hop x y hc
  have hop' : Made exEnv "AddWhitespaceAroundCJK" op ∨ Made exEnv "CharTokenizer" op := by
    simp only [List.mem_cons, List.not_mem_nil, or_false] at hop
    rcases hop with rfl | rfl
    · exact .inl ⟨[], [], rfl⟩
    · exact .inr ⟨[], [], rfl⟩
  have ht : ∀ l res, op.transform (.list l) ≠ .ok res := by
    intro l res h
    simp only [List.mem_cons, List.not_mem_nil, or_false] at hop
    rcases hop with rfl | rfl <;> cases h
  obtain ⟨out, p, q, h1, h2⟩ := hc
  cases x with
  | list l => exact absurd h1 (ht _ _)
  | str s =>
    cases y with
    | list l => exact absurd h2 (ht _ _)
    | str t =>
      rcases hop' with h | h
      · rw [(C114_around exEnv rfl op (.inl h) s t).mp ⟨out, p, q, h1, h2⟩]
      · rw [(C114_lossless_tokens exEnv op (.inl h) s t).mp ⟨out, p, q, h1, h2⟩]

end Uttut
