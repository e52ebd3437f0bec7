import Verif.Props.Confuse
import Verif.Props.Twice
import Verif.Spec.Produce

/-!
C117: what a step can produce.
-/

namespace Uttut

open Spec

theorem cleans_of {name : String} {F : Str → Res (Str × Aligner)} {op : Op}
    (ho : op = ⟨Builtin.simple name .str .str (strOp F), [], strOp F⟩) {f : Str → Str} {clean : Str → Prop}
    (hF : ∀ s, ∃ a, F s = .ok (f s, a)) (hout : ∀ s, clean (f s)) (hfix : ∀ t, clean t → f t = t) : Cleans op clean := by
  subst ho
  have gives : ∀ s, Gives ⟨Builtin.simple name .str .str (strOp F), [], strOp F⟩ (.str s) (.str (f s)) := fun s => by
    obtain ⟨a, h⟩ := hF s
    exact ⟨a, strOp_transform h⟩
  have back : ∀ s t, Gives ⟨Builtin.simple name .str .str (strOp F), [], strOp F⟩ (.str s) (.str t) → clean t := by
    rintro s t ⟨b, h⟩
    obtain ⟨a, h'⟩ := gives s
    rw [h'] at h
    cases h
    exact hout s
  intro t
  refine ⟨⟨?_, fun h => ⟨.str t, ?_⟩⟩, back t t, fun h => ?_⟩
  · rintro ⟨s | l, h⟩
    · exact back s t h
    · obtain ⟨a, h⟩ := h
      cases h
  · have := gives t
    rwa [hfix t h] at this
  · have := gives t
    rwa [hfix t h] at this

/-- C117: `Lowercase` produces the texts without ASCII capitals. -/
theorem C117_lowercase (env : Env) (op : Op) (h : Made env "Lowercase" op) : Cleans op fun t => ∀ c ∈ t, c ∉ capitals := by
  refine cleans_of (made_simple (env := env) (name := "Lowercase") rfl h)
    (fun s => ⟨_, (C16_lowercase env.σ s).choose_spec.1⟩) (fun s c hc => ?_) fun t ht => ?_
  · obtain ⟨d, _, rfl⟩ := List.mem_map.mp hc
    rcases asciiLower_cases d with hd | hd
    · intro hcap
      rw [hd] at hcap
      exact absurd hd ((by decide : ∀ c ∈ capitals, asciiLower c ≠ c) d hcap)
    · exact (by decide : ∀ c ∈ capitals, asciiLower c ∉ capitals) d hd
  · exact (List.map_congr_left fun c hc => (asciiLower_cases c).resolve_right (ht c hc)).trans (List.map_id t)

/-- "ab." is produced and kept, "aB" is not produced. -/
example : ∃ op, Made exEnv "Lowercase" op ∧ Produces op (.str "ab.".toList) ∧ ¬ Produces op (.str "aB".toList) :=
  ⟨_, ⟨[], [], rfl⟩, ((C117_lowercase exEnv _ ⟨[], [], rfl⟩ _).1.mpr (by decide)),
    fun h => absurd ((C117_lowercase exEnv _ ⟨[], [], rfl⟩ _).1.mp h) (by decide)⟩

/-- C117: `PunctuationExceptEndpointToWhitespace` produces the texts with no punctuation mark but points. -/
theorem C117_punctuation (env : Env) (hsp : env.u.isCatP ' ' = false) (op : Op)
    (h : Made env "PunctuationExceptEndpointToWhitespace" op) :
    Cleans op fun t => ∀ c ∈ t, c ∈ asciiPunctuation ∨ env.u.isCatP c = true → c = '.' := by
  refine cleans_of (made_simple (env := env) (name := "PunctuationExceptEndpointToWhitespace") rfl h)
    (fun s => ⟨_, (C26_transform env.σ env.u s).choose_spec.1⟩) (fun s c hc hp => ?_) fun t ht => ?_
  · obtain ⟨d, _, rfl⟩ := List.mem_map.mp hc
    unfold punctuationBlanked at hp ⊢
    split at hp
    · rcases hp with hp | hp
      · exact absurd hp (by decide)
      · rw [hsp] at hp
        cases hp
    · rename_i hd
      rw [if_neg hd]
      by_contra hne
      exact hd ⟨hp, hne⟩
  · refine (List.map_congr_left fun c hc => ?_).trans (List.map_id t)
    unfold punctuationBlanked
    exact if_neg fun hd => hd.2 (ht c hc hd.1)

/-- "a. b" is produced, "a, b" is not. -/
example : ∃ op, Made exEnv "PunctuationExceptEndpointToWhitespace" op ∧ Produces op (.str "a. b".toList) ∧
    ¬ Produces op (.str "a, b".toList) := by
  refine ⟨_, ⟨[], [], rfl⟩, ⟨.str "a.,b".toList, _, rfl⟩, fun h => ?_⟩
  have := (C117_punctuation exEnv (by decide) _ ⟨[], [], rfl⟩ _).1.mp h ',' (by decide) (by decide)
  exact absurd this (by decide)

theorem mapRuns_fixed {p : Char → Bool} {g : Str → Str} {t : Str} (h : ∀ r ∈ runs p t, isRunOf p r = true → g r = r) :
    mapRuns p g t = t := by
  unfold mapRuns
  conv => rhs; rw [← runs_flatten p t]
  generalize runs p t = rs at h
  induction rs with
  | nil => rfl
  | cons r rs ih =>
    rw [List.flatMap_cons, List.flatten_cons, ih fun r' hr => h r' (List.mem_cons_of_mem _ hr)]
    congr 1
    by_cases hr : isRunOf p r = true
    · rw [if_pos hr, h r (List.mem_cons_self ..) hr]
    · rw [if_neg hr]

theorem runs_infix {p : Char → Bool} {t r : Str} (h : r ∈ runs p t) : ∃ x y, t = x ++ r ++ y := by
  obtain ⟨pre, post, e⟩ := List.append_of_mem h
  have := runs_flatten p t
  rw [e, List.flatten_append, List.flatten_cons] at this
  exact ⟨pre.flatten, post.flatten, by rw [← this, List.append_assoc]⟩

/-- C117: `MergeWhiteSpaceCharacters` produces the texts whose white space is single blanks. -/
theorem C117_merge (env : Env) (op : Op) (h : Made env "MergeWhiteSpaceCharacters" op) :
    Cleans op fun t => (∀ x c d y, t = x ++ c :: d :: y → ¬ (isSpace c = true ∧ isSpace d = true)) ∧
      ∀ c ∈ t, isSpace c = true → c = ' ' := by
  refine cleans_of (made_simple (env := env) (name := "MergeWhiteSpaceCharacters") rfl h)
    (fun s => ⟨_, (C21_merge env.σ s).choose_spec.1⟩) (fun s => ?_) fun t ht => ?_
  · refine C21_no_adjacent env.σ s _ ?_
    rw [(C21_merge env.σ s).choose_spec.1]
    rfl
  · refine mapRuns_fixed fun r hr hsp => ?_
    obtain ⟨hne, hu⟩ := mem_runs isSpace t r hr
    rw [hsp] at hu
    obtain ⟨x, y, e⟩ := runs_infix hr
    match r, hne with
    | [c], _ => rw [ht.2 c (by rw [e]; simp) (hu c (by simp))]
    | c :: d :: r', _ =>
      exact absurd ⟨hu c (by simp), hu d (by simp)⟩ (ht.1 x c d (r' ++ y) (by rw [e]; simp))

/-- "a b" is produced; "a  b" and a tabulator are not. -/
example : ∃ op, Made exEnv "MergeWhiteSpaceCharacters" op ∧ Produces op (.str "a b".toList) ∧
    ¬ Produces op (.str "a  b".toList) ∧ ¬ Produces op (.str "a\tb".toList) := by
  refine ⟨_, ⟨[], [], rfl⟩, ⟨.str "a \tb".toList, _, rfl⟩, fun h => ?_, fun h => ?_⟩
  · have := ((C117_merge exEnv _ ⟨[], [], rfl⟩ _).1.mp h).1 ['a'] ' ' ' ' ['b'] rfl
    exact this (by decide)
  · have := ((C117_merge exEnv _ ⟨[], [], rfl⟩ _).1.mp h).2 '\t' (by decide)
    exact absurd (this (by decide)) (by decide)

/-- C117: `StripWhiteSpaceCharacters` produces the texts without white space at the ends. -/
theorem C117_strip (env : Env) (op : Op) (h : Made env "StripWhiteSpaceCharacters" op) :
    Cleans op fun t => (∀ c ∈ t.head?, isSpace c = false) ∧ ∀ c ∈ t.getLast?, isSpace c = false := by
  refine cleans_of (made_simple (env := env) (name := "StripWhiteSpaceCharacters") rfl h)
    (fun s => ⟨_, (C22_strip env.σ s).choose_spec.1⟩) (fun s => ((C22_strip_form s _).mp rfl).2) fun t ht => ?_
  exact (C22_strip_form t t).mpr ⟨⟨[], [], by simp, by simp, by simp⟩, ht⟩

/-- "a b" is produced, " a" is not. -/
example : ∃ op, Made exEnv "StripWhiteSpaceCharacters" op ∧ Produces op (.str "a b".toList) ∧
    ¬ Produces op (.str " a".toList) := by
  refine ⟨_, ⟨[], [], rfl⟩, ⟨.str " a b ".toList, _, rfl⟩, fun h => ?_⟩
  have := ((C117_strip exEnv _ ⟨[], [], rfl⟩ _).1.mp h).1 ' ' rfl
  exact absurd this (by decide)

/-! ### numbers and stop words -/

theorem token_fresh {u : Unicode} (hd : AsciiDigits u) : ∀ c ∈ "_ ".toList ++ "intumfloa".toList, numeric u c = false := by
  intro c hc
  have hlt := (by decide : ∀ c ∈ "_ ".toList ++ "intumfloa".toList, c.toNat < 128) c hc
  have hno := (by decide : ∀ c ∈ "_ ".toList ++ "intumfloa".toList, c ∉ "0123456789".toList) c hc
  have hno' := (by decide : ∀ c ∈ "_ ".toList ++ "intumfloa".toList, c ≠ '.' ∧
    "０１２３４５６７８９".toList.contains c = false) c hc
  have : u.isDecimal c = false := by
    by_contra h
    exact hno ((hd c hlt).mp (by simpa using h))
  unfold numeric digit
  rw [this, hno'.2]
  simp [hno'.1]

/-- What a recogniser leaves: no number that it recognises. -/
theorem number_cleans {u : Unicode} {q : Str → Bool} {tok : Str} (hne : tok ≠ []) (htok : ∀ c ∈ tok, numeric u c = false)
    {name : String} {F : Str → Res (Str × Aligner)} {op : Op}
    (ho : op = ⟨Builtin.simple name .str .str (strOp F), [], strOp F⟩)
    (hF : ∀ s, ∃ a, F s = .ok (mapRuns (numeric u) (fun r => if q r then tok else r) s, a)) :
    Cleans op fun t => ∀ r ∈ runs (numeric u) t, isRunOf (numeric u) r = true → q r = false := by
  refine cleans_of ho hF (fun s => ?_) fun t ht => mapRuns_fixed fun r hr hn => by rw [if_neg (by simp [ht r hr hn])]
  -- a second call changes nothing
  have idem := mapRuns_token_idem (numeric u) q tok htok s
  generalize mapRuns (numeric u) (fun r => if q r then tok else r) s = t at idem
  have key : ∀ rs : List Str, (∀ r ∈ rs, r ≠ [] ∧ Uniform (numeric u) (isRunOf (numeric u) r) r) →
      (rs.flatMap fun r => if isRunOf (numeric u) r then (if q r then tok else r) else r) = rs.flatten →
      ∀ r ∈ rs, isRunOf (numeric u) r = true → q r = false := by
    intro rs hrs
    induction rs with
    | nil => intro _ r hr; cases hr
    | cons r rs ih =>
      intro e
      rw [List.flatMap_cons, List.flatten_cons] at e
      obtain ⟨h1, h2⟩ := hrs r (List.mem_cons_self ..)
      by_cases hr : isRunOf (numeric u) r = true ∧ q r = true
      · rw [if_pos hr.1, if_pos hr.2] at e
        rw [hr.1] at h2
        obtain ⟨c, r', rfl⟩ := List.exists_cons_of_ne_nil h1
        obtain ⟨d, tok', rfl⟩ := List.exists_cons_of_ne_nil hne
        have e : d = c := (List.cons.inj e).1
        subst e
        have := htok d (by simp)
        rw [h2 d (by simp)] at this
        cases this
      · have hk : (if isRunOf (numeric u) r then (if q r then tok else r) else r) = r := by
          by_cases hr1 : isRunOf (numeric u) r = true
          · rw [if_pos hr1, if_neg fun h => hr ⟨hr1, h⟩]
          · rw [if_neg hr1]
        rw [hk] at e
        intro x hx hn
        rcases List.mem_cons.mp hx with rfl | hx
        · by_contra hq
          exact hr ⟨hn, by simpa using hq⟩
        · exact ih (fun r' h' => hrs r' (List.mem_cons_of_mem _ h')) (List.append_cancel_left e) x hx hn
  refine key _ (fun r hr => mem_runs _ _ r hr) ?_
  rw [runs_flatten]
  exact idem

/-- C117: a number recogniser produces the texts without a number that it recognises. -/
theorem C117_numbers (env : Env) (hd : AsciiDigits env.u) (name : String) (op : Op) (h : Made env name op)
    (q : Str → Bool) (hq : name ∈ wholeNames ∧ q = isInteger env.u ∨ name ∈ decimalNames ∧ q = isFloat env.u) :
    Cleans op fun t => ∀ r ∈ runs (numeric env.u) t, isRunOf (numeric env.u) r = true → q r = false := by
  have hdot : env.u.isDecimal '.' = false := by
    by_contra h
    exact absurd ((hd '.' (by decide)).mp (by simpa using h)) (by decide)
  have fresh : ∀ tok : Str, tok ⊆ "_ ".toList ++ "intumfloa".toList → ∀ c ∈ tok, numeric env.u c = false :=
    fun tok ht c hc => token_fresh hd c (ht hc)
  unfold wholeNames decimalNames at hq
  simp only [List.mem_cons, List.not_mem_nil, or_false] at hq
  rcases hq with ⟨rfl | rfl | rfl, rfl⟩ | ⟨rfl | rfl, rfl⟩
  · exact number_cleans (by decide) (fresh _ (by decide)) (made_simple (env := env) (name := "IntToken") rfl h)
      fun s => ⟨_, (C18_C19_int_token env.σ env.u s).run.choose_spec.1⟩
  · exact number_cleans (by decide) (fresh _ (by decide)) (made_simple (env := env) (name := "IntTokenWithSpace") rfl h)
      fun s => ⟨_, (C18_C19_int_token_with_space env.σ env.u s).run.choose_spec.1⟩
  · exact number_cleans (by decide) (fresh _ (by decide)) (made_simple (env := env) (name := "NumTokenWithSpace") rfl h)
      fun s => ⟨_, (C18_C19_num_token_with_space env.σ env.u s).run.choose_spec.1⟩
  · exact number_cleans (by decide) (fresh _ (by decide)) (made_simple (env := env) (name := "FloatToken") rfl h)
      fun s => ⟨_, (C18_C19_float_token env.σ env.u hdot s).run.choose_spec.1⟩
  · exact number_cleans (by decide) (fresh _ (by decide)) (made_simple (env := env) (name := "FloatTokenWithSpace") rfl h)
      fun s => ⟨_, (C18_C19_float_token_with_space env.σ env.u hdot s).run.choose_spec.1⟩

/-- "a _int_" is produced and "1.5" too, "a 12" is not. -/
example : ∃ op, Made exEnv "IntToken" op ∧ Produces op (.str "a _int_".toList) ∧ Produces op (.str "1.5".toList) ∧
    ¬ Produces op (.str "a 12".toList) := by
  refine ⟨_, ⟨[], [], rfl⟩, ⟨.str "a 7".toList, _, rfl⟩, ⟨.str "1.5".toList, _, rfl⟩, fun h => ?_⟩
  have := (C117_numbers exEnv asciiUnicode_digits "IntToken" _ ⟨[], [], rfl⟩ _ (.inl ⟨by decide, rfl⟩) _).1.mp h "12".toList (by decide)
    (by decide)
  exact absurd this (by decide)

/-- C117: `StopwordsToWhitespace` produces the texts in which no stop word occurs. -/
theorem C117_stopwords (env : Env) (op : Op) (h : Made env "StopwordsToWhitespace" op) :
    Cleans op fun t => ∀ w ∈ StopwordsToWhitespace.stopwords, ¬ w <:+: t := by
  have segs : ∀ s, ∃ segs, Segmented StopwordsToWhitespace.stopwords s segs := fun s => by
    obtain ⟨segs, h, _⟩ := C23_segments s
    exact ⟨segs, h⟩
  refine cleans_of (made_simple (env := env) (name := "StopwordsToWhitespace") rfl h)
    (f := fun s => (segs s).choose.flatMap fun w => if w ∈ StopwordsToWhitespace.stopwords then [' '] else w)
    (fun s => ⟨_, (C23_stopwords env.σ s _ (segs s).choose_spec).choose_spec.1⟩) (fun s => ?_) fun t ht => ?_
  · refine C23_no_stopword_left env.σ s _ ?_
    rw [(C23_stopwords env.σ s _ (segs s).choose_spec).choose_spec.1]
    rfl
  · have h1 := segmented_flatten (segs t).choose_spec
    generalize (segs t).choose = l at h1
    have key : ∀ w ∈ l, w ∉ StopwordsToWhitespace.stopwords := fun w hw hs => by
      obtain ⟨pre, post, e⟩ := List.append_of_mem hw
      refine ht w hs ⟨pre.flatten, post.flatten, ?_⟩
      rw [← h1, e, List.flatten_append, List.flatten_cons, List.append_assoc]
    conv => rhs; rw [← h1]
    rw [List.flatten_eq_flatMap]
    exact List.flatMap_congr fun w hw => if_neg (key w hw)

/-- "ok" is produced, a text with a stop word is not. -/
example (w : Str) (hw : w ∈ StopwordsToWhitespace.stopwords) : ∃ op, Made exEnv "StopwordsToWhitespace" op ∧
    Produces op (.str "ok".toList) ∧ ¬ Produces op (.str ("ok".toList ++ w)) :=
  ⟨_, ⟨[], [], rfl⟩, ⟨.str "ok".toList, _, rfl⟩, fun h =>
    (C117_stopwords exEnv _ ⟨[], [], rfl⟩ _).1.mp h w hw (List.suffix_append ..).isInfix⟩

/-! ### lists of tokens -/

theorem tokens_from_text {name : String} {F : Str → Res (List Str × Aligner)} {f : Str → List Str}
    (hF : ∀ s, ∃ a, F s = .ok (f s, a)) (t : List Tok) :
    Produces ⟨Builtin.simple name .str .list (tokOp F), [], tokOp F⟩ (.list t) ↔ ∃ s, t = (f s).map Tok.str := by
  constructor
  · rintro ⟨s | l, a, h⟩
    · obtain ⟨b, h'⟩ := hF s
      rw [tokOp_transform h'] at h
      cases h
      exact ⟨s, rfl⟩
    · cases h
  · rintro ⟨s, rfl⟩
    obtain ⟨b, h'⟩ := hF s
    exact ⟨.str s, b, tokOp_transform h'⟩

/-- C117: `WhiteSpaceTokenizer` produces the lists of words: texts that are not empty and have no white space. `CharTokenizer`
produces the lists of single characters. -/
theorem C117_words (env : Env) (op : Op) (t : List Tok) :
    (Made env "WhiteSpaceTokenizer" op →
      (Produces op (.list t) ↔ ∀ x ∈ t, ∃ w, x = .str w ∧ w ≠ [] ∧ ∀ c ∈ w, isSpace c = false)) ∧
    (Made env "CharTokenizer" op → (Produces op (.list t) ↔ ∀ x ∈ t, ∃ c, x = .str [c])) := by
  refine ⟨fun h => ?_, fun h => ?_⟩
  · rw [made_simple (env := env) (name := "WhiteSpaceTokenizer") rfl h, tokens_from_text (fun s => C39_words env.σ s)]
    constructor
    · rintro ⟨s, rfl⟩ x hx
      obtain ⟨w, hw, rfl⟩ := List.mem_map.mp hx
      exact ⟨w, rfl, wordsOf_nonempty s w hw⟩
    · intro ht
      have : ∃ ws : List Str, t = ws.map Tok.str ∧ ∀ w ∈ ws, w ≠ [] ∧ ∀ c ∈ w, isSpace c = false := by
        clear h
        induction t with
        | nil => exact ⟨[], rfl, by simp⟩
        | cons x t ih =>
          obtain ⟨ws, rfl, hws⟩ := ih fun y hy => ht y (List.mem_cons_of_mem _ hy)
          obtain ⟨w, rfl, hw⟩ := ht x (List.mem_cons_self ..)
          exact ⟨w :: ws, rfl, List.forall_mem_cons.mpr ⟨hw, hws⟩⟩
      obtain ⟨ws, rfl, hws⟩ := this
      exact ⟨_, by rw [wordsOf_split, pySplit_join ws hws]⟩
  · rw [made_simple (env := env) (name := "CharTokenizer") rfl h,
      tokens_from_text (fun s => ⟨_, (C41_char env.σ s).choose_spec.1⟩)]
    constructor
    · rintro ⟨s, rfl⟩ x hx
      obtain ⟨w, hw, rfl⟩ := List.mem_map.mp hx
      obtain ⟨c, _, rfl⟩ := List.mem_map.mp hw
      exact ⟨c, rfl⟩
    · intro ht
      clear h
      induction t with
      | nil => exact ⟨[], rfl⟩
      | cons x t ih =>
        obtain ⟨s, rfl⟩ := ih fun y hy => ht y (List.mem_cons_of_mem _ hy)
        obtain ⟨c, rfl⟩ := ht x (List.mem_cons_self ..)
        exact ⟨c :: s, rfl⟩

/-- "ab" is a word, "a b" is not, nor is a number. -/
example : ∃ op, Made exEnv "WhiteSpaceTokenizer" op ∧ Produces op (.list [.str "ab".toList]) ∧
    ¬ Produces op (.list [.str "a b".toList]) ∧ ¬ Produces op (.list [.int 1]) := by
  refine ⟨_, ⟨[], [], rfl⟩, ⟨.str " ab ".toList, _, rfl⟩, fun h => ?_, fun h => ?_⟩
  · obtain ⟨w, e, _, hw⟩ := ((C117_words exEnv _ _).1 ⟨[], [], rfl⟩).mp h _ (List.mem_cons_self ..)
    cases e
    exact absurd (hw ' ' (by decide)) (by decide)
  · obtain ⟨w, e, _, hw⟩ := ((C117_words exEnv _ _).1 ⟨[], [], rfl⟩).mp h _ (List.mem_cons_self ..)
    cases e

/-- The lists of words in which the characters of a class stand alone. -/
theorem tokens_of_class {name : String} {F : Str → Res (List Str × Aligner)} {own : Char → Bool}
    (hF : ∀ s, ∃ a ps tail, F s = .ok (ps.map Prod.snd, a) ∧ TokenizedBy own s ps tail ∧ TokenLabels a ps tail) (t : List Tok) :
    Produces ⟨Builtin.simple name .str .list (tokOp F), [], tokOp F⟩ (.list t) ↔
      ∀ x ∈ t, ∃ w, x = .str w ∧ w ≠ [] ∧ (∀ c ∈ w, isSpace c = false) ∧ ∀ c ∈ w, own c = true → w = [c] := by
  constructor
  · rintro ⟨s | l, a, h⟩
    · obtain ⟨b, ps, tail, h', ht, _⟩ := hF s
      rw [tokOp_transform h'] at h
      cases h
      intro x hx
      obtain ⟨w, hw, rfl⟩ := List.mem_map.mp hx
      obtain ⟨p, hp, rfl⟩ := List.mem_map.mp hw
      exact ⟨_, rfl, ht.nonempty p hp, ht.solid p hp, ht.alone p hp⟩
    · cases h
  · intro ht
    have : ∃ ws : List Str, t = ws.map Tok.str ∧
        ∀ w ∈ ws, w ≠ [] ∧ (∀ c ∈ w, isSpace c = false) ∧ ∀ c ∈ w, own c = true → w = [c] := by
      induction t with
      | nil => exact ⟨[], rfl, by simp⟩
      | cons x t ih =>
        obtain ⟨ws, rfl, hws⟩ := ih fun y hy => ht y (List.mem_cons_of_mem _ hy)
        obtain ⟨w, rfl, hw⟩ := ht x (List.mem_cons_self ..)
        exact ⟨w :: ws, rfl, List.forall_mem_cons.mpr ⟨hw, hws⟩⟩
    obtain ⟨ws, rfl, hws⟩ := this
    -- every word after a blank
    have mem : ∀ p ∈ ws.map fun w => ([' '], w), p.1 = [' '] ∧ p.2 ∈ ws := fun p hp => by
      obtain ⟨w, hw, rfl⟩ := List.mem_map.mp hp
      exact ⟨rfl, hw⟩
    have hp : ∀ ws : List Str, Parted own (ws.map fun w => ([' '], w)) := fun ws => by
      induction ws with
      | nil => exact trivial
      | cons w ws ih =>
        cases ws with
        | nil => exact trivial
        | cons v ws => exact ⟨fun h => (by cases h), ih⟩
    have cut : TokenizedBy own (layout (ws.map fun w => ([' '], w)) []) (ws.map fun w => ([' '], w)) [] :=
      ⟨rfl, fun p hp c hc => by
        rw [(mem p hp).1, List.mem_singleton] at hc
        rw [hc]
        decide, by simp, fun p hp => (hws _ (mem p hp).2).1, fun p hp => (hws _ (mem p hp).2).2.1,
        fun p hp => (hws _ (mem p hp).2).2.2, hp ws⟩
    obtain ⟨b, ps, tail, h', ht, _⟩ := hF (layout (ws.map fun w => ([' '], w)) [])
    have e := (C40_cuts_unique own _ _ _ _ _ ht cut).1
    rw [e, List.map_map] at h'
    have e2 : (ws.map (Prod.snd ∘ fun w => (([' '] : Str), w))) = ws := List.map_id ws
    rw [e2] at h'
    exact ⟨.str _, b, tokOp_transform h'⟩

/-- C117: `EngTokenizer` produces the lists of words in which punctuation marks stand alone, `ZhCharTokenizer` those in which
ideographs stand alone as well. -/
theorem C117_alone (env : Env) (op : Op) (t : List Tok) :
    (Made env "EngTokenizer" op → (Produces op (.list t) ↔ ∀ x ∈ t, ∃ w, x = .str w ∧ w ≠ [] ∧ (∀ c ∈ w, isSpace c = false) ∧
      ∀ c ∈ w, c ∈ asciiPunctuation ∨ env.u.isCatP c = true → w = [c])) ∧
    (Made env "ZhCharTokenizer" op → (Produces op (.list t) ↔ ∀ x ∈ t, ∃ w, x = .str w ∧ w ≠ [] ∧
      (∀ c ∈ w, isSpace c = false) ∧ ∀ c ∈ w, (c ∈ asciiPunctuation ∨ env.u.isCatP c = true) ∨
        (∃ b ∈ cjkBlocks, b.1 ≤ c.toNat ∧ c.toNat ≤ b.2) → w = [c])) := by
  refine ⟨fun h => ?_, fun h => ?_⟩
  · rw [made_simple (env := env) (name := "EngTokenizer") rfl h, tokens_of_class (C40_C42_eng env.σ env.u)]
    simp only [C17_punctuation]
  · rw [made_simple (env := env) (name := "ZhCharTokenizer") rfl h, tokens_of_class (C40_C42_zh env.σ env.u)]
    simp only [Bool.or_eq_true, C17_punctuation, C17_cjk]

/-- "it", "'", "s" is produced, "it's" is not. -/
example : ∃ op, Made exEnv "EngTokenizer" op ∧ Produces op (.list [.str "it".toList, .str "'".toList, .str "s".toList]) ∧
    ¬ Produces op (.list [.str "it's".toList]) := by
  refine ⟨_, ⟨[], [], rfl⟩, ⟨.str "it's".toList, _, rfl⟩, fun h => ?_⟩
  obtain ⟨w, e, _, _, hw⟩ := ((C117_alone exEnv _ _).1 ⟨[], [], rfl⟩).mp h _ (List.mem_cons_self ..)
  cases e
  exact absurd (hw '\'' (by decide) (by decide)) (by decide)

theorem produces_list {op : Op} (hi : op.cls.inputType = .list) {t : Seq} : Produces op t ↔ ∃ l, Gives op (.list l) t := by
  constructor
  · rintro ⟨s | l, a, h⟩
    · rw [((C57_type_check op).2.1 hi s).1] at h
      cases h
    · exact ⟨l, a, h⟩
  · rintro ⟨l, h⟩
    exact ⟨_, h⟩

/-- C117: `Pad` produces the lists of the length asked for, whatever is in them. -/
theorem C117_pad (env : Env) (args : List PyVal) (kwargs : List (Str × PyVal)) (v w : PyVal) (n : Nat) (p : Tok) (op : Op)
    (hb : bound padParams args kwargs = some [v, w]) (hv : IsNumber v n) (hw : IsToken w p)
    (h : create env "Pad" args kwargs = .ok op) (t : List Tok) : Produces op (.list t) ↔ t.length = n := by
  obtain ⟨h1, _, _⟩ := create_eq (env := env) (name := "Pad") (c := Builtin.pad env) rfl padParams rfl
    rfl (by decide) args kwargs
  have hc := h1 _ (lstOp fun l => v.asInt >>= fun n => Pad.transform env.σ n p l) hb (by
    show (w.asTok >>= _) = _
    rw [asTok_of hw]
    rfl)
  rw [h] at hc
  have hc := Except.ok.inj hc
  subst hc
  rw [produces_list rfl]
  have asInt : (v.asInt >>= fun k => Pad.transform env.σ k p t) = Pad.transform env.σ n p t := by
    rw [(asInt_iff v n).mpr hv]
    rfl
  constructor
  · rintro ⟨l, a, hl⟩
    obtain ⟨_, _, e1, e2, h2⟩ := list_call_inv rfl hl
    cases e1; cases e2
    rw [(asInt_iff v n).mpr hv, Except.bind_ok] at h2
    by_cases hlen : l.length = n ∨ l.length < 2 ^ 32
    · obtain ⟨b, h3, _⟩ := C30_pad env.σ n p l hlen
      rw [h3] at h2
      cases h2
      simp only [List.length_append, List.length_take, List.length_replicate]
      omega
    · rw [not_or] at hlen
      exact absurd h2 (C30_too_long env.σ n p l (fun e => hlen.1 (Int.ofNat.inj e)) (Nat.le_of_not_lt hlen.2) _)
  · intro e
    obtain ⟨b, h3, _⟩ := C30_pad env.σ n p t (.inl e)
    rw [List.take_of_length_le (Nat.le_of_eq e), e, Nat.sub_self] at h3
    refine ⟨t, b, ?_⟩
    have h3 : Pad.transform env.σ n p t = .ok (t, b) := by rw [h3]; simp
    exact list_call rfl rfl rfl (by rw [asInt]; exact h3)

/-- Any two tokens. -/
example (x y : Tok) : ∃ op, create exEnv "Pad" [.int 2] [] = .ok op ∧ Produces op (.list [x, y]) ∧
    ¬ Produces op (.list [x]) :=
  ⟨_, rfl, (C117_pad exEnv [.int 2] [] _ _ 2 _ _ rfl (.int 2) (.str _) rfl _).mpr rfl, fun h =>
    absurd ((C117_pad exEnv [.int 2] [] _ _ 2 _ _ rfl (.int 2) (.str _) rfl _).mp h) (by simp)⟩

/-- Some list of tokens goes to any list of numbers that single tokens go to. -/
theorem tokens_numbered {d : List (Str × Int)} (hc : Continuous d) {t : List Tok}
    (ht : ∀ x ∈ t, ∃ i : Int, x = .int i ∧ 0 ≤ i ∧ i < d.length) :
    ∃ (ws : List Str) (ns : List Int), t = ns.map Tok.int ∧ ns.length = ws.length ∧ ∀ p ∈ ws.zip ns, p ∈ d := by
  induction t with
  | nil => exact ⟨[], [], rfl, rfl, by simp⟩
  | cons x t ih =>
    obtain ⟨ws, ns, rfl, hl, hw⟩ := ih fun y hy => ht y (List.mem_cons_of_mem _ hy)
    obtain ⟨i, rfl, hi⟩ := ht x (List.mem_cons_self ..)
    obtain ⟨⟨w, _⟩, hm, rfl⟩ := List.mem_map.mp ((hc.2.2 i).mpr hi)
    refine ⟨w :: ws, _ :: ns, rfl, by simp [hl], fun p hp => ?_⟩
    rw [List.zip_cons_cons] at hp
    rcases List.mem_cons.mp hp with rfl | hp
    · exact hm
    · exact hw p hp

/-- C117: `Token2Index` produces the lists of numbers from zero to one below the size of the dictionary. -/
theorem C117_index (env : Env) (args : List PyVal) (kwargs : List (Str × PyVal)) (d : List (Str × Int)) (unk : Str) (op : Op)
    (hd : (d.map Prod.fst).Nodup)
    (hb : bound token2indexParams args kwargs = some [.dict (d.map fun kv => (kv.1, .int kv.2)), .str unk])
    (h : create env "Token2Index" args kwargs = .ok op) (t : List Tok) :
    Produces op (.list t) ↔ ∀ x ∈ t, ∃ i : Int, x = .int i ∧ 0 ≤ i ∧ i < d.length := by
  obtain ⟨k1, k2, k3⟩ := (C74_token2index env args kwargs).1 d unk hd hb
  have hc : Continuous d := by
    by_contra hc
    rw [k2 hc] at h
    cases h
  have hu : unk ∈ d.map Prod.fst := by
    by_contra hu
    rw [k3 hc hu] at h
    cases h
  obtain ⟨hcls, vals, _⟩ := made_any (c := Builtin.token2index env) rfl ⟨args, kwargs, h⟩
  obtain ⟨op', h', hg⟩ := k1 hc hu
  rw [h] at h'
  cases h'
  rw [produces_list (by rw [hcls]; rfl)]
  constructor
  · rintro ⟨l, a, hl⟩
    obtain ⟨ns, b, j1, j2, _, _, j3, j4⟩ := C31_transform env.σ d unk hd ((C31_init d unk).1.mpr ⟨hc, hu⟩) l
    obtain ⟨b', hn⟩ := hg l ns j2 fun p hp => (j3 p hp).1
    rw [hn] at hl
    cases hl
    intro x hx
    obtain ⟨i, hi, rfl⟩ := List.mem_map.mp hx
    exact ⟨i, rfl, j4 i hi⟩
  · intro ht
    obtain ⟨ws, ns, rfl, hl, hw⟩ := tokens_numbered hc ht
    refine ⟨ws.map Tok.str, hg _ ns (by rw [List.length_map, hl]) fun p hp => ?_⟩
    rw [List.zip_map_left] at hp
    obtain ⟨⟨w, i⟩, hm, rfl⟩ := List.mem_map.mp hp
    exact .inl (hw _ hm)

/-- The dictionary has two entries: the numbers are 0 and 1. -/
example : ∃ op, create exEnv "Token2Index" [.dict [("a".toList, .int 1), ("?".toList, .int 0)], .str "?".toList] [] = .ok op ∧
    Produces op (.list [.int 1, .int 0]) ∧ ¬ Produces op (.list [.int 2]) := by
  refine ⟨_, rfl, (C117_index exEnv
    [.dict [("a".toList, .int 1), ("?".toList, .int 0)], .str "?".toList] [] [("a".toList, 1), ("?".toList, 0)] "?".toList _ (by decide) rfl rfl _).mpr ?_, fun h => ?_⟩
  · intro x hx
    simp only [List.mem_cons, List.not_mem_nil, or_false] at hx
    rcases hx with rfl | rfl
    · exact ⟨1, rfl, by decide, by decide⟩
    · exact ⟨0, rfl, by decide, by decide⟩
  · obtain ⟨i, e, _, hi⟩ := (C117_index exEnv
    [.dict [("a".toList, .int 1), ("?".toList, .int 0)], .str "?".toList] [] [("a".toList, 1), ("?".toList, 0)] "?".toList _ (by decide) rfl rfl _).mp h _
      (List.mem_cons_self ..)
    cases e
    exact absurd hi (by decide)

/-- C117: so does `Token2IndexwithHash`. -/
theorem C117_hash (env : Env) (args : List PyVal) (kwargs : List (Str × PyVal)) (d : List (Str × Int)) (op : Op)
    (hd : (d.map Prod.fst).Nodup)
    (hb : bound token2indexHashParams args kwargs = some [.dict (d.map fun kv => (kv.1, .int kv.2))])
    (h : create env "Token2IndexwithHash" args kwargs = .ok op) (t : List Tok) :
    Produces op (.list t) ↔ ∀ x ∈ t, ∃ i : Int, x = .int i ∧ 0 ≤ i ∧ i < d.length := by
  obtain ⟨k1, k2⟩ := (C74_token2index_hash env args kwargs).1 d hd hb
  have hc : Continuous d := by
    by_contra hc
    rw [k2 hc] at h
    cases h
  have hini : Token2IndexwithHash.init d = .ok () := (C31_continuity d).mpr hc
  obtain ⟨h1, _, _⟩ := create_eq (env := env) (name := "Token2IndexwithHash") (c := Builtin.token2indexHash env) rfl
    token2indexHashParams rfl rfl (by decide) args kwargs
  have hc1 := h1 _ (lstOp (Token2IndexwithHash.transform env.σ d)) hb (by
    show ((PyVal.dict _).asIndex >>= _) = _
    rw [asIndex_ok, Except.bind_ok]
    show (Token2IndexwithHash.init d >>= _) = _
    rw [hini]
    rfl)
  rw [h] at hc1
  have hc1 := Except.ok.inj hc1
  subst hc1
  rw [produces_list rfl]
  constructor
  · rintro ⟨l, a, hl⟩
    obtain ⟨_, _, e1, e2, h2⟩ := list_call_inv rfl hl
    cases e1; cases e2
    rcases tokens_cases l with ⟨ws, rfl⟩ | ⟨i, hi⟩
    · obtain ⟨idx, b, j1, _, _, j4, _⟩ := C32_transform env.σ d hd hini ws
      rw [j1] at h2
      cases h2
      intro x hx
      obtain ⟨w, _, rfl⟩ := List.mem_map.mp hx
      exact ⟨idx w, rfl, j4 w⟩
    · rw [C32_non_string _ _ _ i hi] at h2
      cases h2
  · intro ht
    obtain ⟨ws, ns, rfl, hl, hw⟩ := tokens_numbered hc ht
    obtain ⟨idx, b, j1, j2, -⟩ := C32_transform env.σ d hd hini ws
    have e : (ws.map fun s => Tok.int (idx s)) = ns.map Tok.int := by
      clear j1 ht h hb
      induction ws generalizing ns with
      | nil => cases ns with
        | nil => rfl
        | cons _ _ => cases hl
      | cons w ws ih =>
        cases ns with
        | nil => cases hl
        | cons n ns =>
          rw [List.map_cons, List.map_cons, ih ns (by simpa using hl) fun p hp => hw p (by
            rw [List.zip_cons_cons]; exact List.mem_cons_of_mem _ hp), j2 w n (hw _ (by rw [List.zip_cons_cons]; simp))]
    rw [e] at j1
    exact ⟨ws.map Tok.str, b, list_call rfl rfl rfl j1⟩

/-- C117: `PureNum2Token` produces the lists of its token and of texts that are not digits only. -/
theorem C117_pure_num (env : Env) (hz : isDigit env.u '0' = true) (args : List PyVal) (kwargs : List (Str × PyVal)) (v : PyVal)
    (p : Tok) (op : Op) (hb : bound pureNumParams args kwargs = some [v]) (hv : IsToken v p)
    (h : create env "PureNum2Token" args kwargs = .ok op) (t : List Tok) :
    Produces op (.list t) ↔ ∀ x ∈ t, x = p ∨ ∃ s, x = .str s ∧ (s = [] ∨ ∃ c ∈ s, isDigit env.u c = false) := by
  obtain ⟨h1, _, _⟩ := create_eq (env := env) (name := "PureNum2Token") (c := Builtin.pureNum env)
    rfl pureNumParams rfl rfl (by decide) args kwargs
  have hini : (Builtin.pureNum env).init [v] = .ok (lstOp (PureNum2Token.transform env.σ env.u p)) := by
    cases hv with
    | str s => rfl
    | num _ i h => cases h <;> rfl
  have hc1 := h1 _ _ hb hini
  rw [h] at hc1
  have hc1 := Except.ok.inj hc1
  subst hc1
  rw [produces_list rfl]
  have other : ∀ s : Str, ¬ (s ≠ [] ∧ ∀ c ∈ s, isDigit env.u c = true) ↔ s = [] ∨ ∃ c ∈ s, isDigit env.u c = false := by
    intro s
    by_cases h : s = []
    · simp [h]
    · simp [h]
  constructor
  · rintro ⟨l, a, hl⟩
    obtain ⟨_, _, e1, e2, h2⟩ := list_call_inv rfl hl
    cases e1; cases e2
    rcases tokens_cases l with ⟨ws, rfl⟩ | ⟨i, hi⟩
    · obtain ⟨b, j1, _⟩ := C35_transform env.σ env.u p ws
      rw [j1] at h2
      cases h2
      intro x hx
      obtain ⟨w, _, rfl⟩ := List.mem_map.mp hx
      by_cases hw : w ≠ [] ∧ ∀ c ∈ w, isDigit env.u c = true
      · rw [if_pos hw]
        exact .inl rfl
      · rw [if_neg hw]
        exact .inr ⟨w, rfl, (other w).mp hw⟩
    · rw [C35_non_string _ _ _ _ i hi] at h2
      cases h2
  · intro ht
    have : ∃ ws : List Str, (ws.map fun s => if s ≠ [] ∧ ∀ c ∈ s, isDigit env.u c = true then p else Tok.str s) = t := by
      clear h hb
      induction t with
      | nil => exact ⟨[], rfl⟩
      | cons x t ih =>
        obtain ⟨ws, rfl⟩ := ih fun y hy => ht y (List.mem_cons_of_mem _ hy)
        rcases ht x (List.mem_cons_self ..) with rfl | ⟨s, rfl, hs⟩
        · exact ⟨['0'] :: ws, by rw [List.map_cons, if_pos ⟨by simp, by simpa using hz⟩]⟩
        · exact ⟨s :: ws, by rw [List.map_cons, if_neg ((other s).mpr hs)]⟩
    obtain ⟨ws, rfl⟩ := this
    obtain ⟨b, j1, _⟩ := C35_transform env.σ env.u p ws
    exact ⟨ws.map Tok.str, b, list_call rfl rfl rfl j1⟩

/-- "_num_" and "a1" are produced, "12" is not. -/
example : ∃ op, create exEnv "PureNum2Token" [.str "_num_".toList] [] = .ok op ∧
    Produces op (.list [.str "_num_".toList, .str "a1".toList]) ∧ ¬ Produces op (.list [.str "12".toList]) := by
  refine ⟨_, rfl, ⟨.list [.str "7".toList, .str "a1".toList], _, rfl⟩, fun h => ?_⟩
  have := (C117_pure_num exEnv (by decide) [.str "_num_".toList] [] _ (.str "_num_".toList) _ rfl (.str _) rfl _).mp h _ (List.mem_cons_self ..)
  rcases this with e | ⟨s, e, hs⟩
  · exact absurd e (by decide)
  · cases e
    exact absurd hs (by decide)

/-- C117: what a pipe returns is produced by its last step: whatever the steps before it do, the output is as clean as the
last step makes it, and doing this step once more changes nothing. -/
theorem C117_pipe (pre : List Op) (op : Op) (cks cks' : List (Str × Int)) (s o : Seq) (as : List Aligner) (coll : List Seq)
    (h : (⟨pre ++ [op], cks⟩ : Pipe).transformSequence s = .ok (o, as, coll)) :
    Produces op o ∧
    ∀ clean t, Cleans op clean → o = .str t → clean t ∧
      ∃ as' coll', (⟨pre ++ [op, op], cks'⟩ : Pipe).transformSequence s = .ok (o, as', coll') := by
  obtain ⟨rs, r, e, _⟩ := (C58_composition _ s o as coll).mp h
  obtain ⟨qs, qs', rfl, r1, r2⟩ := r.split
  cases r2 with
  | cons h1 r2 =>
    cases r2
    rw [finalOf_append_cons] at e
    subst e
    refine ⟨⟨_, _, h1⟩, fun clean t hc et => ?_⟩
    subst et
    have ht := (hc t).1.mp ⟨_, _, h1⟩
    obtain ⟨b, h2⟩ := (hc t).2.mpr ht
    refine ⟨ht, _, _, (C58_composition ⟨pre ++ [op, op], cks'⟩ s _ _ _).mpr
      ⟨qs ++ [(.str t, _), (.str t, b)], r1.append (.cons h1 (.cons h2 (.nil _))), ?_, rfl, rfl⟩⟩
    rw [finalOf_append]
    rfl

/-- A pipe that ends with `StripWhiteSpaceCharacters`. -/
example : ∃ x y, Made exEnv "Lowercase" x ∧ Made exEnv "StripWhiteSpaceCharacters" y ∧
    ∃ as coll, (⟨[x, y, y], []⟩ : Pipe).transformSequence (.str " AB ".toList) = .ok (.str "ab".toList, as, coll) :=
  ⟨_, _, ⟨[], [], rfl⟩, ⟨[], [], rfl⟩, ((C117_pipe [_] _ [] [] _ _ _ _ rfl).2 _ "ab".toList
    (C117_strip exEnv _ ⟨[], [], rfl⟩) rfl).2⟩

end Uttut
