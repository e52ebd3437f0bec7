import Verif.Props.Disjoint

/-!
C113: exactly which of the steps can be exchanged.
-/

namespace Uttut

open Spec

/-- The text that a step makes. -/
def outText (u : Unicode) (name : String) (s : Str) : Str :=
  if name ∈ wholeNames then mapRuns (numeric u) (fun r => if isInteger u r then written name else r) s
  else if name ∈ decimalNames then mapRuns (numeric u) (fun r => if isFloat u r then written name else r) s
  else if name = "MergeWhiteSpaceCharacters" then mapRuns isSpace (fun _ => [' ']) s
  else if name = "Lowercase" then s.map asciiLower
  else if name = "AddWhitespaceAroundCJK" then s.flatMap (fun c => if isCJK c then [' ', c, ' '] else [c])
  else if name = "AddWhitespaceAroundPunctuation" then
    s.flatMap (fun c => if isPunctuation u c then [' ', c, ' '] else [c])
  else s.map (punctuationBlanked u)

theorem outText_made {env : Env} (hdot : env.u.isDecimal '.' = false) {name : String} (hn : name ∈ dealingNames) {op : Op}
    (h : Made env name op) (s : Str) : ∃ a, op.transform (.str s) = .ok (.str (outText env.u name s), a) := by
  unfold dealingNames wholeNames decimalNames at hn
  simp only [List.mem_append, List.mem_cons, List.not_mem_nil, or_false] at hn
  rcases hn with ((rfl | rfl | rfl) | (rfl | rfl)) | (rfl | rfl | rfl | rfl | rfl)
  · have ho := made_simple (env := env) (name := "IntToken") rfl h
    obtain ⟨a, h1, _⟩ := (C18_C19_int_token env.σ env.u s).run
    subst ho
    exact ⟨a, strOp_transform h1⟩
  · have ho := made_simple (env := env) (name := "IntTokenWithSpace") rfl h
    obtain ⟨a, h1, _⟩ := (C18_C19_int_token_with_space env.σ env.u s).run
    subst ho
    exact ⟨a, strOp_transform h1⟩
  · have ho := made_simple (env := env) (name := "NumTokenWithSpace") rfl h
    obtain ⟨a, h1, _⟩ := (C18_C19_num_token_with_space env.σ env.u s).run
    subst ho
    exact ⟨a, strOp_transform h1⟩
  · have ho := made_simple (env := env) (name := "FloatToken") rfl h
    obtain ⟨a, h1, _⟩ := (C18_C19_float_token env.σ env.u hdot s).run
    subst ho
    exact ⟨a, strOp_transform h1⟩
  · have ho := made_simple (env := env) (name := "FloatTokenWithSpace") rfl h
    obtain ⟨a, h1, _⟩ := (C18_C19_float_token_with_space env.σ env.u hdot s).run
    subst ho
    exact ⟨a, strOp_transform h1⟩
  · have ho := made_simple (env := env) (name := "MergeWhiteSpaceCharacters") rfl h
    obtain ⟨a, h1, _⟩ := C21_merge env.σ s
    subst ho
    exact ⟨a, strOp_transform h1⟩
  · have ho := made_simple (env := env) (name := "Lowercase") rfl h
    obtain ⟨a, h1, _⟩ := C16_lowercase env.σ s
    subst ho
    exact ⟨a, strOp_transform h1⟩
  · have ho := made_simple (env := env) (name := "AddWhitespaceAroundCJK") rfl h
    obtain ⟨a, h1, _⟩ := C17_around env.σ isCJK s
    subst ho
    exact ⟨a, strOp_transform h1⟩
  · have ho := made_simple (env := env) (name := "AddWhitespaceAroundPunctuation") rfl h
    obtain ⟨a, h1, _⟩ := C17_around env.σ (isPunctuation env.u) s
    subst ho
    exact ⟨a, strOp_transform h1⟩
  · have ho := made_simple (env := env) (name := "PunctuationExceptEndpointToWhitespace") rfl h
    obtain ⟨a, h1, _⟩ := C26_transform env.σ env.u s
    subst ho
    exact ⟨a, strOp_transform h1⟩

/-! ### the text depends on the classes of its own characters only -/

theorem runs_congr {p q : Char → Bool} : ∀ {s : Str}, (∀ c ∈ s, p c = q c) → runs p s = runs q s
  | [], _ => rfl
  | c :: cs, h => by
    have ih := runs_congr (p := p) (q := q) (s := cs) fun d hd => h d (List.mem_cons_of_mem _ hd)
    have hf := runs_flatten q cs
    unfold runs
    rw [ih]
    cases hr : runs q cs with
    | nil => rfl
    | cons r rs =>
      have he : r.head?.map p = r.head?.map q := by
        cases r with
        | nil => rfl
        | cons d r =>
          have : d ∈ cs := by rw [← hf, hr]; simp
          simp [h d (List.mem_cons_of_mem _ this)]
      simp only [he, h c (List.mem_cons_self ..)]

theorem mapRuns_agree {p q : Char → Bool} {f g : Str → Str} {s : Str} (h : ∀ c ∈ s, p c = q c)
    (hfg : ∀ r, (∀ c ∈ r, c ∈ s) → f r = g r) : mapRuns p f s = mapRuns q g s := by
  unfold mapRuns
  rw [runs_congr h]
  refine flatMap_congr_mem fun r hr => ?_
  have hsub : ∀ c ∈ r, c ∈ s := fun c hc => by
    rw [← runs_flatten q s]
    exact List.mem_flatten.mpr ⟨r, hr, hc⟩
  have he : isRunOf p r = isRunOf q r := by
    unfold isRunOf
    cases r with
    | nil => rfl
    | cons d r => simp [h d (hsub d (List.mem_cons_self ..))]
  rw [he, hfg r hsub]

theorem takeWhile_agree {p q : Char → Bool} : ∀ {s : Str}, (∀ c ∈ s, p c = q c) → s.takeWhile p = s.takeWhile q
  | [], _ => rfl
  | c :: cs, h => by
    rw [List.takeWhile_cons, List.takeWhile_cons, h c (List.mem_cons_self ..),
      takeWhile_agree fun d hd => h d (List.mem_cons_of_mem _ hd)]

theorem dropWhile_agree {p q : Char → Bool} : ∀ {s : Str}, (∀ c ∈ s, p c = q c) → s.dropWhile p = s.dropWhile q
  | [], _ => rfl
  | c :: cs, h => by
    rw [List.dropWhile_cons, List.dropWhile_cons, h c (List.mem_cons_self ..),
      dropWhile_agree fun d hd => h d (List.mem_cons_of_mem _ hd)]

theorem all_agree {p q : Char → Bool} : ∀ {s : Str}, (∀ c ∈ s, p c = q c) → s.all p = s.all q
  | [], _ => rfl
  | c :: cs, h => by
    rw [List.all_cons, List.all_cons, h c (List.mem_cons_self ..), all_agree fun d hd => h d (List.mem_cons_of_mem _ hd)]

/-- Two tables say the same of a character. -/
def SameClasses (u v : Unicode) (c : Char) : Prop :=
  digit u c = digit v c ∧ (c ∈ asciiPunctuation ∨ u.isCatP c = v.isCatP c)

theorem SameClasses.marks {u v : Unicode} {c : Char} (h : SameClasses u v c) :
    (c ∈ asciiPunctuation ∨ u.isCatP c = true) ↔ (c ∈ asciiPunctuation ∨ v.isCatP c = true) := by
  rcases h.2 with h | h
  · simp [h]
  · rw [h]

theorem outText_agree {u v : Unicode} (name : String) {s : Str} (h : ∀ c ∈ s, SameClasses u v c) :
    outText u name s = outText v name s := by
  have hnum : ∀ c ∈ s, numeric u c = numeric v c := fun c hc => by unfold numeric; rw [(h c hc).1]
  have hdig : ∀ r : Str, (∀ c ∈ r, c ∈ s) → ∀ c ∈ r, digit u c = digit v c := fun r hr c hc => (h c (hr c hc)).1
  unfold outText
  refine ite_congr rfl (fun _ => ?_) fun _ => ite_congr rfl (fun _ => ?_) fun _ => ite_congr rfl (fun _ => rfl) fun _ =>
    ite_congr rfl (fun _ => rfl) fun _ => ite_congr rfl (fun _ => rfl) fun _ => ite_congr rfl (fun _ => ?_) fun _ => ?_
  · refine mapRuns_agree hnum fun r hr => ?_
    have : isInteger u r = isInteger v r := all_agree (hdig r hr)
    rw [this]
  · refine mapRuns_agree hnum fun r hr => ?_
    have : isFloat u r = isFloat v r := by
      unfold isFloat
      rw [dropWhile_agree (hdig r hr), takeWhile_agree (hdig r hr)]
      have hd : ∀ t, r.dropWhile (digit v) = '.' :: t → t.all (digit u) = t.all (digit v) := fun t ht =>
        all_agree fun c hc => hdig r hr c ((List.dropWhile_sublist _).subset (by rw [ht]; exact List.mem_cons_of_mem _ hc))
      split
      · rename_i t ht
        rw [hd t ht]
      · rfl
    rw [this]
  · refine flatMap_congr_mem fun c hc => ?_
    have : isPunctuation u c = isPunctuation v c := by
      rw [Bool.eq_iff_iff, C17_punctuation, C17_punctuation]
      exact (h c hc).marks
    rw [this]
  · refine List.map_congr_left fun c hc => ?_
    unfold punctuationBlanked
    simp only [(h c hc).marks]

/-! ### one text for all the pairs -/

/-- The text: a number, a decimal, a mark, an ideograph, white space by each of them. -/
def tellingText : Str := "a 1 1.5, 一 ".toList

/-- The characters that the steps make of it. -/
def tellingChars : Str := "a 15.,一_intfloum".toList

set_option maxRecDepth 10000 in
theorem telling_chars : ∀ n ∈ dealingNames, ∀ c ∈ outText asciiUnicode n tellingText, c ∈ tellingChars := by decide

set_option maxRecDepth 10000 in
theorem telling_differ : ∀ n ∈ dealingNames, ∀ m ∈ dealingNames,
    n = m ∨ (n, m) ∈ exchangePairs ∨ (m, n) ∈ exchangePairs ∨
    outText asciiUnicode m (outText asciiUnicode n tellingText) ≠ outText asciiUnicode n (outText asciiUnicode m tellingText) := by
  decide

theorem telling_same (u : Unicode) (hd : AsciiDigits u) (hu : UsualClasses u)
    (hone : ∀ c, u.isDecimal c = true → u.isCatP c = false) : ∀ c ∈ tellingChars, SameClasses u asciiUnicode c := by
  intro c hc
  have ascii : c ≠ '一' → digit u c = digit asciiUnicode c := fun h => by
    have h1 := (by decide : ∀ c ∈ tellingChars, c ≠ '一' → c.toNat < 128) c hc h
    unfold digit
    congr 1
    rw [Bool.eq_iff_iff, hd c h1, asciiUnicode_digits c h1]
  have hi : '一' = c → (u.isDecimal c = true ∨ u.isCatP c = true) → False := fun e h => by
    refine hu.ideographs c h ?_
    rw [← e]
    exact (C17_cjk _).mp (by decide)
  have hcat : c ∉ asciiPunctuation → u.isCatP c = false := fun h => by
    rw [Bool.eq_false_iff]
    intro hp
    rcases (by decide : ∀ c ∈ tellingChars, c ∉ asciiPunctuation → '一' = c ∨ c ∈ capitals ++ smalls ∨ isSpace c = true ∨
      c.toNat < 128 ∧ c ∈ "0123456789".toList) c hc h with h | h | h | ⟨h, h'⟩
    · exact hi h (.inr hp)
    · exact hu.letters c hp h
    · rw [hu.spaces c hp] at h
      cases h
    · rw [hone c ((hd c h).mpr h')] at hp
      cases hp
  refine ⟨?_, ?_⟩
  · by_cases h : c = '一'
    · subst h
      have : u.isDecimal '一' = false := by
        rw [Bool.eq_false_iff]
        exact fun h => hi rfl (.inl h)
      unfold digit
      rw [this]
      rfl
    · exact ascii h
  · by_cases h : c ∈ asciiPunctuation
    · exact .inl h
    · exact .inr (hcat h)

/-- C113: two of the steps can be exchanged exactly when they are the same step or one of the listed pairs. -/
theorem C113_exact (env : Env) (hd : AsciiDigits env.u) (hu : UsualClasses env.u)
    (hone : ∀ c, env.u.isDecimal c = true → env.u.isCatP c = false) (n m : String) (x y : Op) (hn : n ∈ dealingNames)
    (hm : m ∈ dealingNames) (hx : Made env n x) (hy : Made env m y) :
    Interchangeable [x, y] [y, x] ↔ n = m ∨ (n, m) ∈ exchangePairs ∨ (m, n) ∈ exchangePairs := by
  have hdot := dot_of env.u hd
  constructor
  · intro h
    rcases telling_differ n hn m hm with e | e | e | e
    · exact .inl e
    · exact .inr (.inl e)
    · exact .inr (.inr e)
    · exfalso
      have same := telling_same env.u hd hu hone
      have h0 : ∀ c ∈ tellingText, c ∈ tellingChars := by decide
      have once : ∀ k, outText env.u k tellingText = outText asciiUnicode k tellingText := fun k =>
        outText_agree k fun c hc => same c (h0 c hc)
      obtain ⟨a1, h1⟩ := outText_made hdot hn hx tellingText
      obtain ⟨a2, h2⟩ := outText_made hdot hm hy (outText env.u n tellingText)
      obtain ⟨a3, h3⟩ := outText_made hdot hm hy tellingText
      obtain ⟨a4, h4⟩ := outText_made hdot hn hx (outText env.u m tellingText)
      have hs := h (.str tellingText)
      rw [run_two h1 h2, run_two h3 h4] at hs
      have : outText env.u m (outText env.u n tellingText) = outText env.u n (outText env.u m tellingText) := by
        generalize outText env.u m (outText env.u n tellingText) = o at hs
        generalize outText env.u n (outText env.u m tellingText) = o' at hs
        cases hs
        rfl
      rw [once, once, outText_agree m fun c hc => same c (telling_chars n hn c hc),
        outText_agree n fun c hc => same c (telling_chars m hm c hc)] at this
      exact e this
  · have listed : ∀ {n m : String} {x y : Op}, Made env n x → Made env m y → (n, m) ∈ exchangePairs →
        Interchangeable [x, y] [y, x] := by
      intro n m x y hx hy h
      obtain ⟨k1, k2, k3, k4⟩ := C113_pairs env.u hd hu
      have sub : n ∈ dealingNames ∧ m ∈ dealingNames :=
        (by decide : ∀ p ∈ exchangePairs, p.1 ∈ dealingNames ∧ p.2 ∈ dealingNames) (n, m) h
      have apart : KeepApart env.u n m → Interchangeable [x, y] [y, x] := C113_swap env hdot n m x y sub.1 sub.2 hx hy
      unfold exchangePairs at h
      rcases List.mem_append.mp h with h | h
      · apply apart
        rcases List.mem_append.mp h with h | h
        · rcases List.mem_append.mp h with h | h
          · rcases List.mem_append.mp h with h | h
            · obtain ⟨k, hk, h⟩ := List.mem_flatMap.mp h
              simp only [List.mem_cons, List.not_mem_nil, or_false, Prod.mk.injEq] at h
              rcases h with ⟨rfl, rfl⟩ | ⟨rfl, rfl⟩
              · exact (k1 _ hk).1
              · exact (k1 _ hk).2
            · obtain ⟨k, hk, h⟩ := List.mem_map.mp h
              cases h
              exact k2 _ hk
          · obtain ⟨k, hk, h⟩ := List.mem_map.mp h
            cases h
            exact k3 _ hk
        · obtain ⟨k, hk, h⟩ := List.mem_map.mp h
          cases h
          exact k4 _ hk
      · obtain ⟨k, hk, h⟩ := List.mem_flatMap.mp h
        obtain ⟨l, hl, h⟩ := List.mem_map.mp h
        cases h
        exact C113_numbers env hd _ _ x y hk hl hx hy
    rintro (rfl | h | h)
    · have e : x = y := by
        unfold dealingNames wholeNames decimalNames at hn
        simp only [List.mem_append, List.mem_cons, List.not_mem_nil, or_false] at hn
        rcases hn with ((rfl | rfl | rfl) | (rfl | rfl)) | (rfl | rfl | rfl | rfl | rfl) <;>
          exact (made_simple (env := env) rfl hx).trans (made_simple (env := env) rfl hy).symm
      subst e
      exact C76_equivalence.1 _
    · exact listed hx hy h
    · exact C76_equivalence.2.1 _ _ (listed hy hx h)

/-- The hypotheses of `C113_exact`. -/
example : AsciiDigits exEnv.u ∧ UsualClasses exEnv.u ∧ (∀ c, exEnv.u.isDecimal c = true → exEnv.u.isCatP c = false) ∧
    (∃ x y, Made exEnv "IntToken" x ∧ Made exEnv "Lowercase" y) ∧ ("IntToken", "Lowercase") ∈ exchangePairs ∧
    ("NumTokenWithSpace", "MergeWhiteSpaceCharacters") ∉ exchangePairs :=
  ⟨asciiUnicode_digits, asciiUnicode_usual, fun _ _ => rfl, ⟨_, _, ⟨[], [], rfl⟩, [], [], rfl⟩, by decide, by decide⟩

end Uttut
