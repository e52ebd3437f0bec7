import Verif.Lemmas.PartsList
import Verif.Props.Builtins
import Verif.Props.Interchange

/-! C79: applying operators and pipes to a sequence part by part. -/

namespace Uttut

open Spec

theorem made_any {env : Env} {name : String} {c : OpClass} {op : Op}
    (hc : (Builtin.registry env).get name.toList = .ok c) (h : Made env name op) :
    op.cls = c ∧ ∃ vals, c.init vals = .ok op.run := by
  obtain ⟨args, kwargs, h⟩ := h
  unfold create at h
  rw [hc, Except.bind_ok] at h
  unfold OpClass.call at h
  obtain ⟨vals, _, h⟩ := bind_eq_ok h
  obtain ⟨run, h2, h⟩ := bind_eq_ok h
  cases h
  exact ⟨rfl, vals, h2⟩

theorem inParts_str {op : Op} (hi : op.cls.inputType = .str) (h : ∀ x y : Str, InParts (opOutcome op) (.str x) (.str y))
    (x y : Seq) : InParts (opOutcome op) x y := by
  cases x with
  | list l => exact inParts_wrong_type (by rw [hi]; exact fun h => nomatch h)
  | str x =>
    cases y with
    | list l => exact inParts_mixed fun h => nomatch h
    | str y => exact h x y

theorem inParts_list {op : Op} (hi : op.cls.inputType = .list)
    (h : ∀ x y : List Tok, InParts (opOutcome op) (.list x) (.list y)) (x y : Seq) : InParts (opOutcome op) x y := by
  cases x with
  | str s => exact inParts_wrong_type (by rw [hi]; exact fun h => nomatch h)
  | list x =>
    cases y with
    | str s => exact inParts_mixed fun h => nomatch h
    | list y => exact h x y

/-- C79: these operators treat every character or token by itself, so they may be applied to any parts. -/
theorem C79_any_parts (env : Env) (name : String) (op : Op) (h : Made env name op)
    (hn : name ∈ ["Lowercase", "AddWhitespaceAroundCJK", "AddWhitespaceAroundPunctuation",
      "PunctuationExceptEndpointToWhitespace", "CharTokenizer", "Token2Index", "Token2IndexwithHash", "PureNum2Token"])
    (x y : Seq) : InParts (opOutcome op) x y := by
  simp only [List.mem_cons, List.not_mem_nil, or_false] at hn
  rcases hn with rfl | rfl | rfl | rfl | rfl | rfl | rfl | rfl
  · rw [made_simple rfl h]
    refine inParts_str rfl (fun x y => inParts_strOp rfl rfl rfl ?_) x y
    refine passThrough_parts (g := List.map asciiLower) List.map_append fun s _ => ⟨List.length_map .., ?_⟩
    obtain ⟨a, h1, _, h2⟩ := C16_lowercase env.σ s
    exact ⟨a, h1, h2⟩
  · rw [made_simple rfl h]
    exact inParts_str rfl (fun x y => inParts_strOp rfl rfl rfl (around_parts env.σ _ x y)) x y
  · rw [made_simple rfl h]
    exact inParts_str rfl (fun x y => inParts_strOp rfl rfl rfl (around_parts env.σ _ x y)) x y
  · rw [made_simple rfl h]
    exact inParts_str rfl (fun x y => inParts_strOp rfl rfl rfl (blank_parts env.σ env.u x y)) x y
  · rw [made_simple rfl h]
    exact inParts_str rfl (fun x y => inParts_tokOp rfl rfl rfl (charTokenizer_parts env.σ x y)) x y
  · obtain ⟨hc, vals, hi⟩ := made_any (c := Builtin.token2index env) rfl h
    refine inParts_list (by rw [hc]; rfl) (fun x y => ?_) x y
    unfold Builtin.token2index Builtin.token2indexInit at hi
    dsimp only at hi
    split at hi
    · obtain ⟨d, _, hi⟩ := bind_eq_ok hi
      split at hi
      · obtain ⟨_, _, hi⟩ := bind_eq_ok hi
        refine inParts_lstOp (by rw [hc]; rfl) (by rw [hc]; rfl) (Except.ok.inj hi).symm ?_
        refine tokenwise_parts env.σ _ .keyError (fun t e' he => ?_) (fun t v hv => ?_) x y
        · unfold Token2Index.newValue at he
          dsimp only at he
          split at he
          · cases he
          · split at he <;> cases he
            rfl
        · unfold Token2Index.newValue at hv
          dsimp only at hv
          split at hv
          · cases hv; rfl
          · split at hv <;> cases hv
            rfl
      · obtain ⟨_, _, hi⟩ := bind_eq_ok hi
        split at hi <;> cases hi
    · cases hi
  · obtain ⟨hc, vals, hi⟩ := made_any (c := Builtin.token2indexHash env) rfl h
    refine inParts_list (by rw [hc]; rfl) (fun x y => ?_) x y
    unfold Builtin.token2indexHash Builtin.token2indexHashInit at hi
    dsimp only at hi
    split at hi
    · obtain ⟨d, _, hi⟩ := bind_eq_ok hi
      obtain ⟨_, _, hi⟩ := bind_eq_ok hi
      refine inParts_lstOp (by rw [hc]; rfl) (by rw [hc]; rfl) (Except.ok.inj hi).symm ?_
      refine tokenwise_parts env.σ _ .typeError (fun t e' he => ?_) (fun t v hv => ?_) x y
      · unfold Token2IndexwithHash.newValue at he
        split at he
        · cases he; rfl
        · split at he <;> cases he
      · unfold Token2IndexwithHash.newValue at hv
        split at hv
        · cases hv
        · split at hv <;> cases hv <;> rfl
    · cases hi
  · obtain ⟨hc, vals, hi⟩ := made_any (c := Builtin.pureNum env) rfl h
    refine inParts_list (by rw [hc]; rfl) (fun x y => ?_) x y
    have key : ∀ tk, op.run = lstOp (PureNum2Token.transform env.σ env.u tk) → InParts (opOutcome op) (.list x) (.list y) := by
      intro tk hr
      refine inParts_lstOp (by rw [hc]; rfl) (by rw [hc]; rfl) hr ?_
      refine tokenwise_parts env.σ _ .typeError (fun t e' he => ?_) (fun t v hv => ?_) x y
      · unfold PureNum2Token.newValue at he
        split at he <;> cases he
        rfl
      · unfold PureNum2Token.newValue at hv
        split at hv
        · cases hv
        · split at hv <;> cases hv
          rfl
    unfold Builtin.pureNum Builtin.pureNumInit at hi
    dsimp only at hi
    split at hi
    · exact key _ (Except.ok.inj hi).symm
    · obtain ⟨t, _, hi⟩ := bind_eq_ok hi
      exact key _ (Except.ok.inj hi).symm
    · cases hi

theorem number_segLaw {u : Unicode} {q : Str → Bool} {token : Str} {F : List Int → List Int} {f : Str → Res (Str × Aligner)}
    (h : ∀ s, NumberOp u q token F f s) (s : Str) :
    SegLaw f (fun r => isRunOf (numeric u) r && q r) (fun _ => token) (fun _ seg => F seg)
      (fun r seg => List.replicate r.length (firstNonzeroMode seg)) s (runs (numeric u) s) := by
  obtain ⟨a, h1, _, h2, h3, _⟩ := (h s).run
  have hout : mapRuns (numeric u) (fun r => if q r then token else r) s =
      ((runs (numeric u) s).map fun r => if isRunOf (numeric u) r && q r then token else r).flatten := by
    unfold mapRuns
    rw [← List.flatMap_def]
    refine flatMap_congr_mem fun r _ => ?_
    cases isRunOf (numeric u) r <;> simp
  rw [hout] at h1 h3
  exact ⟨runs_flatten _ _, a, h1, h2, h3⟩

/-- C79: the number recognisers, where no number goes on from one part to the other (a number character — digit or
point — meets a number character). -/
theorem C79_numbers (env : Env) (hdot : env.u.isDecimal '.' = false) (name : String) (op : Op) (h : Made env name op)
    (hn : name ∈ ["IntToken", "FloatToken", "IntTokenWithSpace", "FloatTokenWithSpace", "NumTokenWithSpace"]) (x y : Str)
    (hxy : PartedAt (numeric env.u) x y) : InParts (opOutcome op) (.str x) (.str y) := by
  simp only [List.mem_cons, List.not_mem_nil, or_false] at hn
  rcases hn with rfl | rfl | rfl | rfl | rfl
  · rw [made_simple rfl h]
    exact inParts_strOp rfl rfl rfl (runs_parts (number_segLaw fun s => C18_C19_int_token env.σ env.u s) x y hxy)
  · rw [made_simple rfl h]
    exact inParts_strOp rfl rfl rfl (runs_parts (number_segLaw fun s => C18_C19_float_token env.σ env.u hdot s) x y hxy)
  · rw [made_simple rfl h]
    exact inParts_strOp rfl rfl rfl (runs_parts (number_segLaw fun s => C18_C19_int_token_with_space env.σ env.u s) x y hxy)
  · rw [made_simple rfl h]
    exact inParts_strOp rfl rfl rfl (runs_parts (number_segLaw fun s => C18_C19_float_token_with_space env.σ env.u hdot s) x y hxy)
  · rw [made_simple rfl h]
    exact inParts_strOp rfl rfl rfl (runs_parts (number_segLaw fun s => C18_C19_num_token_with_space env.σ env.u s) x y hxy)

theorem merge_segLaw (σ : SetOrder) (s : Str) :
    SegLaw (MergeWhiteSpaceCharacters.transform σ) (fun r => isRunOf isSpace r && (fun _ => true) r) (fun _ => [' '])
      (fun _ seg => [firstMode seg]) (fun r seg => List.replicate r.length (firstMode seg)) s (runs isSpace s) := by
  obtain ⟨a, h1, _, h2, h3, _⟩ := C21_merge σ s
  have hout : mapRuns isSpace (fun _ => [' ']) s =
      ((runs isSpace s).map fun r => if isRunOf isSpace r then [' '] else r).flatten := by
    unfold mapRuns
    rw [← List.flatMap_def]
  rw [hout] at h1 h3
  simp only [Bool.and_true]
  exact ⟨runs_flatten _ _, a, h1, h2, h3⟩

/-- C79: `MergeWhiteSpaceCharacters`, where no white space goes on from one part to the other. -/
theorem C79_merge (env : Env) (op : Op) (h : Made env "MergeWhiteSpaceCharacters" op) (x y : Str)
    (hxy : PartedAt isSpace x y) : InParts (opOutcome op) (.str x) (.str y) := by
  rw [made_simple rfl h]
  exact inParts_strOp rfl rfl rfl (runs_parts (q := fun _ => true) (merge_segLaw env.σ) x y hxy)

/-- C79: `StripWhiteSpaceCharacters`, where one of the parts is white space only, or the characters that meet are
none. -/
theorem C79_strip (env : Env) (op : Op) (h : Made env "StripWhiteSpaceCharacters" op) (x y : Str)
    (hxy : (∀ c ∈ x, isSpace c = true) ∨ (∀ c ∈ y, isSpace c = true) ∨
      (∀ c ∈ x.getLast?, isSpace c = false) ∧ ∀ c ∈ y.head?, isSpace c = false) :
    InParts (opOutcome op) (.str x) (.str y) := by
  rw [made_simple rfl h]
  exact inParts_strOp rfl rfl rfl (strip_parts env.σ x y hxy)

/-- C79: `StripAccentToken`, where decomposing and dropping accents works part by part and keeps the lengths. -/
theorem C79_strip_accent (env : Env) (op : Op) (h : Made env "StripAccentToken" op) (x y : Str)
    (hxy : withoutAccents env.u (x ++ y) = withoutAccents env.u x ++ withoutAccents env.u y)
    (hx : (withoutAccents env.u x).length = x.length)
    (hy : (withoutAccents env.u y).length = y.length) :
    InParts (opOutcome op) (.str x) (.str y) := by
  rw [made_simple rfl h]
  refine inParts_strOp rfl rfl rfl (passThrough_parts hxy fun s hs => ?_)
  have hl : (withoutAccents env.u s).length = s.length := by
    simp only [List.mem_cons, List.not_mem_nil, or_false] at hs
    rcases hs with rfl | rfl | rfl
    · exact hx
    · exact hy
    · rw [hxy, List.length_append, List.length_append, hx, hy]
  obtain ⟨a, h1, _, h2⟩ := C27_transform env.σ env.u s hl
  exact ⟨hl, a, h1, h2⟩

/-- C79: `StopwordsToWhitespace`, where no stop word goes on from one part to the other. -/
theorem C79_stopwords (env : Env) (op : Op) (h : Made env "StopwordsToWhitespace" op) (x y : Str)
    (hxy : NoneAcross StopwordsToWhitespace.stopwords x y) : InParts (opOutcome op) (.str x) (.str y) := by
  rw [made_simple rfl h]
  refine inParts_strOp rfl rfl rfl ?_
  have hlaw : ∀ s segs, Segmented StopwordsToWhitespace.stopwords s segs →
      SegLaw (StopwordsToWhitespace.transform env.σ) (fun w => decide (w ∈ StopwordsToWhitespace.stopwords)) (fun _ => [' '])
        (fun _ _ => [0]) (fun w _ => List.replicate w.length 0) s segs := by
    intro s segs hs
    obtain ⟨a, h1, _, h2, h3⟩ := C23_stopwords env.σ s segs hs
    rw [List.flatMap_def] at h1 h3
    exact ⟨segmented_flatten hs, a, by simpa using h1, h2, fun ls hl => by simpa using h3 ls (by simpa using hl)⟩
  obtain ⟨rs, h1, _⟩ := C23_segments x
  obtain ⟨ss, h2, _⟩ := C23_segments y
  exact (hlaw _ _ h1).parts (hlaw _ _ h2) (hlaw _ _ (segmented_append stopwords_ne h1 h2 hxy))

theorem userWords_strings (ws : List Str) : Builtin.userWords (.list (ws.map PyVal.str)) = Trie.ofUserWords ws := by
  exact userWords_list ws

theorem create_init {env : Env} {name : String} {c : OpClass} {args : List PyVal} {kwargs : List (Str × PyVal)} {op : Op}
    {vals : List PyVal} (hc : (Builtin.registry env).get name.toList = .ok c) (h : create env name args kwargs = .ok op) (hv : c.bindArgs args kwargs = .ok vals) : op.cls = c ∧ c.init vals = .ok op.run := by
  unfold create at h
  rw [hc, Except.bind_ok] at h
  unfold OpClass.call at h
  rw [hv, Except.bind_ok] at h
  obtain ⟨run, h2, h⟩ := bind_eq_ok h
  cases h
  exact ⟨rfl, h2⟩

/-- C79: `AddWhitespaceAroundWordnZhChar(user_words, shortest)`, where none of the words goes on from one part to the
other. -/
theorem C79_around_words (env : Env) (op : Op) (ws : List Str) (sh : Bool)
    (h : create env "AddWhitespaceAroundWordnZhChar" [.list (ws.map PyVal.str), .bool sh] [] = .ok op) (x y : Str)
    (hxy : NoneAcross ws x y) : InParts (opOutcome op) (.str x) (.str y) := by
  obtain ⟨hc, hi⟩ := create_init (c := Builtin.aroundWord env) (vals := [.list (ws.map PyVal.str), .bool sh]) rfl h rfl
  have hi : (Builtin.userWords (.list (ws.map PyVal.str)) >>= fun t =>
    (.ok (strOp (AddWhitespaceAroundWordnZhChar.transform env.σ t sh)) : Res _)) = .ok op.run := hi
  rw [userWords_strings] at hi
  obtain ⟨t, ht, hi⟩ := bind_eq_ok hi
  have hr := (Except.ok.inj hi).symm
  refine inParts_strOp (by rw [hc]; rfl) (by rw [hc]; rfl) hr ?_
  have hlaw : ∀ s, ∃ segs, WordSegs ws sh s segs ∧ SegLaw (AddWhitespaceAroundWordnZhChar.transform env.σ t sh) (spacedSeg ws)
      (fun w => [' '] ++ w ++ [' ']) (fun _ x => 0 :: x ++ [0]) (fun _ x => (x.drop 1).dropLast) s segs := by
    intro s
    obtain ⟨a, segs, h1, h2, h3, _, h4, h5, _⟩ := C38_spaces env.σ ws t ht sh s
    rw [List.flatMap_def] at h3 h5
    exact ⟨segs, h1, h2, a, h3, h4, h5⟩
  obtain ⟨rs, h1, l1⟩ := hlaw x
  obtain ⟨ss, h2, l2⟩ := hlaw y
  obtain ⟨ts, h3, l3⟩ := hlaw (x ++ y)
  rw [C37_division_unique ws sh _ _ _ h3 (wordSegs_append h1 h2 hxy)] at l3
  exact l1.parts l2 l3

/-- C79: `CustomWordTokenizer(user_words, shortest)`, where none of the words goes on from one part to the other. -/
theorem C79_custom_words (env : Env) (op : Op) (ws : List Str) (sh : Bool)
    (h : create env "CustomWordTokenizer" [.list (ws.map PyVal.str), .bool sh] [] = .ok op) (x y : Str)
    (hxy : NoneAcross ws x y) : InParts (opOutcome op) (.str x) (.str y) := by
  obtain ⟨hc, hi⟩ := create_init (c := Builtin.customTok env) (vals := [.list (ws.map PyVal.str), .bool sh]) rfl h rfl
  have hi : (Builtin.userWords (.list (ws.map PyVal.str)) >>= fun t =>
    (.ok (tokOp (CustomWordTokenizer.transform env.σ t sh)) : Res _)) = .ok op.run := hi
  rw [userWords_strings] at hi
  obtain ⟨t, ht, hi⟩ := bind_eq_ok hi
  have hr := (Except.ok.inj hi).symm
  refine inParts_tokOp (by rw [hc]; rfl) (by rw [hc]; rfl) hr ?_
  obtain ⟨a1, rs, h1, w1, f1, l1⟩ := C37_C42_custom env.σ ws t ht sh x
  obtain ⟨a2, ss, h2, w2, f2, l2⟩ := C37_C42_custom env.σ ws t ht sh y
  obtain ⟨a3, ts, h3, w3, f3, l3⟩ := C37_C42_custom env.σ ws t ht sh (x ++ y)
  have e := C37_division_unique ws sh _ _ _ w3 (wordSegs_append w1 w2 hxy)
  subst e
  have hj : joinCuts (rs.map fun t => (([] : Str), t)) [] (ss.map fun t => (([] : Str), t)) [] =
      ((rs ++ ss).map fun t => (([] : Str), t), []) := by
    cases ss <;> simp [joinCuts]
  have hs : ∀ rs : List Str, (rs.map fun t => (([] : Str), t)).map Prod.snd = rs := by
    intro rs
    rw [List.map_map]
    exact List.map_id _
  have hlay : ∀ rs : List Str, rs.flatten = layout (rs.map fun t => (([] : Str), t)) [] := by
    intro rs
    rw [layout, List.append_nil, List.flatMap_map]
    exact List.flatMap_id.symm
  exact tokens_parts (ps := rs.map fun t => (([] : Str), t)) (qs := ss.map fun t => (([] : Str), t)) (t := []) (t' := [])
    (by rw [hs]; exact h1) (by rw [hs]; exact h2) (by rw [hj, hs]; exact h3) (by rw [← hlay, f1]) (by rw [← hlay, f2]) l1 l2
    (by rw [hj]; exact l3)

/-- C79: the tokenizers, where the parts meet at a character that ends a token: white space, and for `EngTokenizer`
punctuation, for `ZhCharTokenizer` punctuation and Chinese characters. -/
theorem C79_tokenizers (env : Env) (op : Op) (x y : Str) :
    (Made env "WhiteSpaceTokenizer" op → CutAt isSpace x y → InParts (opOutcome op) (.str x) (.str y)) ∧
    (Made env "EngTokenizer" op → CutAt (fun c => isSpace c || isPunctuation env.u c) x y →
      InParts (opOutcome op) (.str x) (.str y)) ∧
    (Made env "ZhCharTokenizer" op → CutAt (fun c => isSpace c || (isPunctuation env.u c || isCJK c)) x y →
      InParts (opOutcome op) (.str x) (.str y)) := by
  refine ⟨fun h hxy => ?_, fun h hxy => ?_, fun h hxy => ?_⟩
  · rw [made_simple rfl h]
    exact inParts_tokOp rfl rfl rfl (cutter_parts (C39_C42_whitespace env.σ) x y (by simpa only [Bool.or_false] using hxy))
  · rw [made_simple rfl h]
    exact inParts_tokOp rfl rfl rfl (cutter_parts (C40_C42_eng env.σ env.u) x y hxy)
  · rw [made_simple rfl h]
    exact inParts_tokOp rfl rfl rfl (cutter_parts (C40_C42_zh env.σ env.u) x y hxy)

/-- C79: `ReplaceAwithB(a, b)`, where the matches in the whole are those in the parts. -/
theorem C79_replace (env : Env) (op : Op) (p v : Str) (m : Matcher) (hm : env.compile p = some m)
    (h : create env "ReplaceAwithB" [.str p, .str v] [] = .ok op) (x y : Str) (ms ns : List (Nat × Nat))
    (hxy : MatchesApart m x y ms ns)
    (hv : v ≠ [] ∨ DistinctMatches x ms ∧ DistinctMatches y ns ∧ DistinctMatches (x ++ y) (ms ++ matchesAfter x.length ns)) :
    InParts (opOutcome op) (.str x) (.str y) := by
  obtain ⟨hc, hi⟩ := create_init (c := Builtin.replace env) (vals := [.str p, .str v]) rfl h rfl
  have hi : Builtin.replaceInit env [.str p, .str v] = .ok op.run := hi
  simp only [Builtin.replaceInit, PyVal.asStr, hm, Except.bind_ok] at hi
  exact inParts_strOp (by rw [hc]; rfl) (by rw [hc]; rfl) (Except.ok.inj hi).symm (replace_parts env.σ m v x y ms ns hxy hv)

theorem fnParts_guard {f : List Tok → Res (List Tok × Aligner)} {bad : List Tok → Bool} {e : Exc} {x y : List Tok}
    (hb : bad (x ++ y) = (bad x || bad y)) (he : ∀ l e', f l = .error e' → e' = e) (h : FnParts f x y) :
    FnParts (fun l => if bad l = true then .error e else f l) x y := by
  cases hx : bad x with
  | true => exact .fails e (by simp [hx]) (by simp [hb, hx])
  | false =>
    cases hy : bad y with
    | true =>
      cases hf : f x with
      | error e' => exact .fails e (by simp [hx, hf, he _ _ hf]) (by simp [hb, hy])
      | ok r => exact .failsThen r e (by simp [hx, hf]) (by simp [hy]) (by simp [hb, hy])
    | false =>
      cases h with
      | fails e h1 h2 => exact .fails e (by simp [hx, h1]) (by simp [hb, hx, hy, h2])
      | failsThen r e h1 h2 h3 =>
        exact .failsThen r e (by simp [hx, h1]) (by simp [hy, h2]) (by simp [hb, hx, hy, h3])
      | gives o₁ o₂ a₁ a₂ a h1 h2 h3 h4 h5 =>
        exact .gives o₁ o₂ a₁ a₂ a (by simp [hx, h1]) (by simp [hy, h2]) (by simp [hb, hx, hy, h3]) h4 h5

theorem spanSubwords_error (σ : SetOrder) (has : Str → Bool) (unk : Str) (n : Int) (l : List Tok) (e : Exc)
    (h : SpanSubwords.transform σ has unk n l = .error e) : e = .typeError := by
  rcases tok_strs l with ⟨i, hi⟩ | ⟨ws, rfl⟩
  · rw [spanSubwords_non_string σ has unk n l i hi] at h
    cases h
    rfl
  · obtain ⟨a, h1, _⟩ := C34_transform σ has unk n ws (fun s => (spanSubwords_ok has unk n s).choose)
      fun s _ => (spanSubwords_ok has unk n s).choose_spec.1
    rw [h1] at h
    cases h

theorem has_error {v : PyVal} {e : Exc} (h : v.has = .error e) : e = .typeError := by
  cases v <;> cases h <;> rfl

theorem asInt_error {v : PyVal} {e : Exc} (h : v.asInt = .error e) : e = .typeError := by
  cases v <;> cases h <;> rfl

/-- C79: `SpanSubwords`, where not both of the tokens that meet are empty. -/
theorem C79_subwords (env : Env) (op : Op) (h : Made env "SpanSubwords" op) (x y : List Tok)
    (hxy : ¬ (x.getLast? = some (.str []) ∧ y.head? = some (.str []))) :
    InParts (opOutcome op) (.list x) (.list y) := by
  obtain ⟨hc, vals, hi⟩ := made_any (c := Builtin.spanSubwords env) rfl h
  unfold Builtin.spanSubwords Builtin.spanSubwordsInit at hi
  dsimp only at hi
  split at hi
  · obtain ⟨unk, _, hi⟩ := bind_eq_ok hi
    refine inParts_lstOp (by rw [hc]; rfl) (by rw [hc]; rfl) (Except.ok.inj hi).symm ?_
    have hs := fun has n => subwords_parts env.σ has unk n x y fun _ => hxy
    unfold Builtin.spanSubwordsRun
    split
    · exact hs _ _
    · rename_i he
      rw [has_error he]
      exact fnParts_guard List.any_append (spanSubwords_error env.σ _ unk _) (hs _ _)
    · rename_i he
      rw [asInt_error he]
      have hg := fnParts_guard (bad := fun l => !l.isEmpty) (x := x) (y := y) (by cases x <;> rfl)
        (spanSubwords_error env.σ (fun _ => false) unk 0) (hs _ _)
      have e : (fun l : List Tok => if l.isEmpty = true then SpanSubwords.transform env.σ (fun _ => false) unk 0 l
          else .error .typeError) = fun l => if (!l.isEmpty) = true then .error .typeError
            else SpanSubwords.transform env.σ (fun _ => false) unk 0 l := by
        funext l
        cases l <;> rfl
      rw [e]
      exact hg
  · cases hi

/-! ### Where the conditions are needed -/

theorem inParts_joined {op : Op} {x y z o₁ o₂ o : Seq} {a₁ a₂ a : Aligner} (h : InParts (opOutcome op) x y) (hz : Joined x y z)
    (h1 : op.transform x = .ok (o₁, a₁)) (h2 : op.transform y = .ok (o₂, a₂)) (h3 : op.transform z = .ok (o, a)) :
    Joined o₁ o₂ o := by
  have ho : ∀ s t b, op.transform s = .ok (t, b) → opOutcome op s = .ok (t, b.transform, b.inverseTransform) := by
    intro s t b hs
    unfold opOutcome
    rw [hs]
    rfl
  obtain ⟨o', f', b', h4, h5, _⟩ := h.gives z _ _ _ _ _ _ hz (ho _ _ _ h1) (ho _ _ _ h2)
  rw [ho _ _ _ h3] at h4
  cases h4
  exact h5

theorem joined_str_eq {x y z : Str} (h : Joined (.str x) (.str y) (.str z)) : z = x ++ y := by cases h; rfl
theorem joined_list_eq {x y z : List Tok} (h : Joined (.list x) (.list y) (.list z)) : z = x ++ y := by cases h; rfl

/-- C79: for `StripWhiteSpaceCharacters` the condition is exact. -/
theorem C79_strip_exact (env : Env) (op : Op) (h : Made env "StripWhiteSpaceCharacters" op) (x y : Str) :
    InParts (opOutcome op) (.str x) (.str y) ↔ (∀ c ∈ x, isSpace c = true) ∨ (∀ c ∈ y, isSpace c = true) ∨
      (∀ c ∈ x.getLast?, isSpace c = false) ∧ ∀ c ∈ y.head?, isSpace c = false := by
  refine ⟨fun hp => ?_, C79_strip env op h x y⟩
  rw [made_simple rfl h] at hp
  obtain ⟨a, b, hx, a1, a2, _, a3, a4, a5⟩ := strip_split x
  obtain ⟨c, d, hy, c1, c2, _, c3, c4, c5⟩ := strip_split y
  generalize hm : strip x = m at *
  generalize hn : strip y = n at *
  subst hx
  subst hy
  by_cases hm0 : m = []
  · left
    subst hm0
    rw [a5 rfl]
    intro c hc
    exact a1 c (by simpa using hc)
  by_cases hn0 : n = []
  · right; left
    subst hn0
    rw [c5 rfl]
    intro e he
    exact c1 e (by simpa using he)
  right; right
  obtain ⟨al, h1, _⟩ := strip_law env.σ a m b a1 a2 a3 a4
  obtain ⟨bl, h2, _⟩ := strip_law env.σ c n d c1 c2 c3 c4
  obtain ⟨cl, h3, _⟩ := strip_law env.σ a (m ++ b ++ c ++ n) d a1 c2
    (by
      cases m with
      | nil => exact absurd rfl hm0
      | cons z m => exact a3)
    (by
      intro z hz
      rw [List.getLast?_append] at hz
      cases hn : n.getLast? with
      | none => exact absurd (List.getLast?_eq_none_iff.mp hn) hn0
      | some w =>
        rw [hn] at hz
        cases hz
        exact c4 z hn)
  have e : a ++ (m ++ b ++ c ++ n) ++ d = a ++ m ++ b ++ (c ++ n ++ d) := by simp
  rw [e] at h3
  have := joined_str_eq (inParts_joined hp (.str _ _) (strOp_transform h1) (strOp_transform h2) (strOp_transform h3))
  have := congrArg List.length this
  simp only [List.length_append] at this
  have hb : b = [] := List.length_eq_zero_iff.mp (by omega)
  have hc : c = [] := List.length_eq_zero_iff.mp (by omega)
  subst hb
  subst hc
  refine ⟨fun z hz => a4 z ?_, fun z hz => c3 z ?_⟩
  · rw [List.append_nil, List.getLast?_append] at hz
    cases hl : m.getLast? with
    | none => exact absurd (List.getLast?_eq_none_iff.mp hl) hm0
    | some w => rw [hl] at hz; exact hz
  · cases n with
    | nil => exact absurd rfl hn0
    | cons w n => exact hz

theorem merged_ends (s : Str) :
    (∀ c ∈ s.head?, isSpace c = true → (mapRuns isSpace (fun _ => [' ']) s).head? = some ' ') ∧
    (∀ c ∈ s.getLast?, isSpace c = true → (mapRuns isSpace (fun _ => [' ']) s).getLast? = some ' ') := by
  obtain ⟨b, hb, hr⟩ := runs_isRuns isSpace s
  have hf := runs_flatten isSpace s
  unfold mapRuns
  generalize runs isSpace s = rs at hr hf
  refine ⟨fun c hc hs => ?_, fun c hc hs => ?_⟩
  · cases rs with
    | nil => rw [← hf] at hc; cases hc
    | cons r rs =>
      obtain ⟨h1, h2, _⟩ := hr
      have := hb c hc
      rw [hs] at this
      subst this
      have : isRunOf isSpace r = true := by
        cases r with
        | nil => exact absurd rfl h1
        | cons d r => exact h2 d (by simp)
      simp [this]
  · have hne : rs ≠ [] := fun e => by rw [e] at hf; rw [← hf] at hc; cases hc
    obtain ⟨qs, v, rfl⟩ : ∃ qs v, rs = qs ++ [v] := ⟨rs.dropLast, rs.getLast hne, (List.dropLast_append_getLast hne).symm⟩
    have hv : ∀ (b : Bool) (qs : List Str), IsRuns isSpace b (qs ++ [v]) → v ≠ [] ∧ ∃ b, Uniform isSpace b v := by
      intro b qs
      induction qs generalizing b with
      | nil => exact fun h => ⟨h.1, b, h.2.1⟩
      | cons q qs ih => exact fun h => ih _ h.2.2
    obtain ⟨v1, b', v2⟩ := hv b qs hr
    obtain ⟨d, hd⟩ : ∃ d, v.getLast? = some d := ⟨_, List.getLast?_eq_some_getLast v1⟩
    have : s.getLast? = some d := by
      rw [← hf, List.flatten_append, List.getLast?_append]
      simp [hd]
    have hcd : d = c := by rw [this] at hc; exact Option.some.inj hc
    have hb' := v2 d (List.mem_of_getLast? hd)
    rw [hcd, hs] at hb'
    subst hb'
    have : isRunOf isSpace v = true := by
      cases v with
      | nil => exact absurd rfl v1
      | cons e r => exact v2 e (by simp)
    simp [this]

/-- C79: for `MergeWhiteSpaceCharacters` the condition is exact. -/
theorem C79_merge_exact (env : Env) (op : Op) (h : Made env "MergeWhiteSpaceCharacters" op) (x y : Str) :
    InParts (opOutcome op) (.str x) (.str y) ↔ PartedAt isSpace x y := by
  refine ⟨fun hp c hc d hd => ?_, C79_merge env op h x y⟩
  rw [made_simple rfl h] at hp
  by_cases h1 : isSpace c = true
  · by_cases h2 : isSpace d = true
    · exfalso
      obtain ⟨a1, g1, _⟩ := C21_merge env.σ x
      obtain ⟨a2, g2, _⟩ := C21_merge env.σ y
      obtain ⟨a3, g3, _⟩ := C21_merge env.σ (x ++ y)
      have hj := joined_str_eq (inParts_joined hp (.str _ _) (strOp_transform g1) (strOp_transform g2) (strOp_transform g3))
      have e1 := (merged_ends x).2 c hc h1
      have e2 := (merged_ends y).1 d hd h2
      obtain ⟨u, hu⟩ := List.getLast?_eq_some_iff.mp e1
      obtain ⟨v, hv⟩ := List.head?_eq_some_iff.mp e2
      refine (C21_no_adjacent env.σ (x ++ y) _ (by rw [g3]; rfl)).1 u ' ' ' ' v ?_ ⟨rfl, rfl⟩
      show mapRuns isSpace (fun _ => [' ']) (x ++ y) = _
      rw [hj, hu, hv]
      simp
    · exact Or.inr (by simpa using h2)
  · exact Or.inl (by simpa using h1)

theorem parted_merge {own : Char → Bool} {g w w' : Str} (hw : w ≠ []) (hw' : w' ≠ []) (ps qs : List (Str × Str))
    (h : Parted own (ps ++ [(g, w)])) (h' : Parted own (([], w') :: qs)) : Parted own (ps ++ (g, w ++ w') :: qs) := by
  induction ps with
  | nil =>
    cases qs with
    | nil => trivial
    | cons q qs =>
      refine ⟨fun e => ?_, h'.2⟩
      rcases h'.1 e with ⟨c, hc, ho⟩ | h
      · left
        refine ⟨c, ?_, ho⟩
        obtain ⟨v, z, rfl⟩ : ∃ v z, w' = v ++ [z] := ⟨_, _, (List.dropLast_append_getLast hw').symm⟩
        simpa [← List.append_assoc] using hc
      · exact Or.inr h
  | cons p ps ih =>
    cases ps with
    | nil =>
      refine ⟨fun e => ?_, ih trivial⟩
      rcases h.1 e with h | ⟨c, hc, ho⟩
      · exact Or.inl h
      · right
        refine ⟨c, ?_, ho⟩
        cases w with
        | nil => exact absurd rfl hw
        | cons z w => exact hc
    | cons p' ps => exact ⟨h.1, ih h.2⟩

theorem tokenizedBy_across {own : Char → Bool} {x y : Str} {ps qs : List (Str × Str)} {t t' : Str}
    (hx : TokenizedBy own x ps t) (hy : TokenizedBy own y qs t') (hc : ¬ CutAt (fun c => isSpace c || own c) x y) :
    ∃ rs tail, TokenizedBy own (x ++ y) rs tail ∧ rs.length + 1 = ps.length + qs.length := by
  unfold CutAt at hc
  push Not at hc
  obtain ⟨c, hc, d, hd, n1, n2⟩ := hc
  have hc1 : isSpace c = false ∧ own c = false := by simpa using n1
  have hd1 : isSpace d = false ∧ own d = false := by simpa using n2
  have ht : t = [] := by
    by_contra hne
    obtain ⟨u, z, rfl⟩ : ∃ u z, t = u ++ [z] := ⟨_, _, (List.dropLast_append_getLast hne).symm⟩
    have := hx.last z (by simp)
    rw [hx.text] at hc
    simp only [layout, ← List.append_assoc, List.getLast?_concat] at hc
    cases hc
    rw [hc1.1] at this
    cases this
  subst ht
  have hps : ps ≠ [] := by
    rintro rfl
    rw [hx.text] at hc
    cases hc
  obtain ⟨ps, p, rfl⟩ : ∃ us v, ps = us ++ [v] := ⟨_, _, (List.dropLast_append_getLast hps).symm⟩
  obtain ⟨g, w⟩ := p
  have hw : w ≠ [] := hx.nonempty (g, w) (by simp)
  have hwl : w.getLast? = some c := by
    obtain ⟨v, z, rfl⟩ : ∃ v z, w = v ++ [z] := ⟨_, _, (List.dropLast_append_getLast hw).symm⟩
    rw [hx.text] at hc
    simp only [layout, List.flatMap_append, List.flatMap_cons, List.flatMap_nil, List.append_nil, ← List.append_assoc,
      List.getLast?_concat] at hc
    cases hc
    simp
  cases qs with
  | nil =>
    exfalso
    have e := hy.text
    simp only [layout, List.flatMap_nil, List.nil_append] at e
    have := hy.last d (by rw [← e]; exact List.mem_of_head? hd)
    rw [hd1.1] at this
    cases this
  | cons q qs =>
    obtain ⟨g', w'⟩ := q
    have hg : g' = [] := by
      cases g' with
      | nil => rfl
      | cons z g' =>
        exfalso
        have := hy.gaps (z :: g', w') (by simp) z (by simp)
        rw [hy.text] at hd
        simp only [layout, List.flatMap_cons, List.cons_append, List.head?_cons] at hd
        cases hd
        rw [hd1.1] at this
        cases this
    subst hg
    have hw' : w' ≠ [] := hy.nonempty ([], w') (by simp)
    have hwh : w'.head? = some d := by
      rw [hy.text] at hd
      cases w' with
      | nil => exact absurd rfl hw'
      | cons z v =>
        simp only [layout, List.flatMap_cons, List.nil_append, List.cons_append, List.head?_cons] at hd
        exact hd
    have hn1 : ∀ z ∈ w, own z = false := by
      intro z hz
      by_contra ho
      have := hx.alone (g, w) (by simp) z hz (by simpa using ho)
      dsimp only at this
      rw [this] at hwl
      cases hwl
      exact ho hc1.2
    have hn2 : ∀ z ∈ w', own z = false := by
      intro z hz
      by_contra ho
      have := hy.alone ([], w') (by simp) z hz (by simpa using ho)
      dsimp only at this
      rw [this] at hwh
      cases hwh
      exact ho hd1.2
    have hmem : ∀ P : Str × Str → Prop, (∀ p ∈ ps ++ [(g, w)], P p) → (∀ p ∈ ([], w') :: qs, P p) → P (g, w ++ w') →
        ∀ p ∈ ps ++ (g, w ++ w') :: qs, P p := by
      intro P h1 h2 h3 p hp
      rcases List.mem_append.mp hp with hp | hp
      · exact h1 p (List.mem_append_left _ hp)
      · rcases List.mem_cons.mp hp with rfl | hp
        · exact h3
        · exact h2 p (List.mem_cons_of_mem _ hp)
    refine ⟨ps ++ (g, w ++ w') :: qs, t', ⟨?_, ?_, hy.last, ?_, ?_, ?_, ?_⟩, ?_⟩
    · rw [hx.text, hy.text]
      simp [layout]
    · exact hmem _ hx.gaps hy.gaps (hx.gaps (g, w) (by simp))
    · exact hmem _ hx.nonempty hy.nonempty (by simp [hw])
    · refine hmem _ hx.solid hy.solid fun z hz => ?_
      rcases List.mem_append.mp hz with hz | hz
      · exact hx.solid (g, w) (by simp) z hz
      · exact hy.solid ([], w') (by simp) z hz
    · refine hmem _ hx.alone hy.alone fun z hz ho => ?_
      rcases List.mem_append.mp hz with hz | hz
      · rw [hn1 z hz] at ho; cases ho
      · rw [hn2 z hz] at ho; cases ho
    · exact parted_merge hw hw' ps qs hx.parted hy.parted
    · simp
      omega

theorem cutter_exact {own : Char → Bool} {name : String} {T : Str → Res (List Str × Aligner)} (hT : Cutter own T) (x y : Str)
    (h : InParts (opOutcome ⟨Builtin.simple name .str .list (tokOp T), [], tokOp T⟩) (.str x) (.str y)) :
    CutAt (fun c => isSpace c || own c) x y := by
  by_contra hc
  obtain ⟨a1, ps, t, h1, c1, _⟩ := hT x
  obtain ⟨a2, qs, t', h2, c2, _⟩ := hT y
  obtain ⟨a3, rs, t'', h3, c3, _⟩ := hT (x ++ y)
  obtain ⟨rs', tail, c4, hl⟩ := tokenizedBy_across c1 c2 hc
  obtain ⟨rfl, rfl⟩ := C40_cuts_unique _ _ _ _ _ _ c3 c4
  have := congrArg List.length
    (joined_list_eq (inParts_joined h (.str _ _) (tokOp_transform h1) (tokOp_transform h2) (tokOp_transform h3)))
  simp only [List.length_append, List.length_map] at this
  omega

/-- C79: for the tokenizers the condition is exact. -/
theorem C79_tokenizers_exact (env : Env) (op : Op) (x y : Str) :
    (Made env "WhiteSpaceTokenizer" op → (InParts (opOutcome op) (.str x) (.str y) ↔ CutAt isSpace x y)) ∧
    (Made env "EngTokenizer" op →
      (InParts (opOutcome op) (.str x) (.str y) ↔ CutAt (fun c => isSpace c || isPunctuation env.u c) x y)) ∧
    (Made env "ZhCharTokenizer" op →
      (InParts (opOutcome op) (.str x) (.str y) ↔
        CutAt (fun c => isSpace c || (isPunctuation env.u c || isCJK c)) x y)) := by
  obtain ⟨g1, g2, g3⟩ := C79_tokenizers env op x y
  refine ⟨fun h => ⟨fun hp => ?_, g1 h⟩, fun h => ⟨fun hp => ?_, g2 h⟩, fun h => ⟨fun hp => ?_, g3 h⟩⟩
  · rw [made_simple rfl h] at hp
    simpa only [Bool.or_false] using cutter_exact (C39_C42_whitespace env.σ) x y hp
  · rw [made_simple rfl h] at hp
    exact cutter_exact (C40_C42_eng env.σ env.u) x y hp
  · rw [made_simple rfl h] at hp
    exact cutter_exact (C40_C42_zh env.σ env.u) x y hp

/-- C79: operators that add tokens at the ends never work part by part. -/
theorem C79_ends (env : Env) (op : Op) (x y : List Tok) (hl : (x ++ y).length < 2 ^ 32) :
    (Made env "AddSosEos" op → x ≠ [] → y ≠ [] → ¬ InParts (opOutcome op) (.list x) (.list y)) ∧
    (Made env "AddEndToken" op → ¬ InParts (opOutcome op) (.list x) (.list y)) ∧
    (∀ n : Nat, 0 < n → (∃ t, create env "Pad" [.int n, .str t] [] = .ok op) →
      ¬ InParts (opOutcome op) (.list x) (.list y)) := by
  have hlx : x.length < 2 ^ 32 := by simp only [List.length_append] at hl; omega
  have hly : y.length < 2 ^ 32 := by simp only [List.length_append] at hl; omega
  have hrun : ∀ (f : List Tok → Res (List Tok × Aligner)) (s out : List Tok) (a : Aligner), op.cls.inputType = .list →
      op.cls.outputType = .list → op.run = lstOp f → f s = .ok (out, a) → op.transform (.list s) = .ok (.list out, a) := by
    intro f s out a hi ho hr hf
    unfold Op.transform
    rw [hr, hi, ho, if_neg (by simp [Seq.type])]
    show ((f s >>= _) >>= _) = _
    rw [hf]
    rfl
  refine ⟨fun h hx hy hp => ?_, fun h hp => ?_, fun n hn h hp => ?_⟩
  · obtain ⟨hc, vals, hi⟩ := made_any (c := Builtin.sosEos env) rfl h
    unfold Builtin.sosEos Builtin.sosEosInit at hi
    dsimp only at hi
    split at hi
    · obtain ⟨s, _, hi⟩ := bind_eq_ok hi
      obtain ⟨e, _, hi⟩ := bind_eq_ok hi
      have hr := (Except.ok.inj hi).symm
      obtain ⟨a1, g1, _⟩ := C28_add_sos_eos env.σ s e x hx hlx
      obtain ⟨a2, g2, _⟩ := C28_add_sos_eos env.σ s e y hy hly
      obtain ⟨a3, g3, _⟩ := C28_add_sos_eos env.σ s e (x ++ y) (by simp [hx]) hl
      have k := fun s out a g => hrun _ s out a (by rw [hc]; rfl) (by rw [hc]; rfl) hr g
      have := congrArg List.length
        (joined_list_eq (inParts_joined hp (.list _ _) (k _ _ _ g1) (k _ _ _ g2) (k _ _ _ g3)))
      simp at this
    · cases hi
  · obtain ⟨hc, vals, hi⟩ := made_any (c := Builtin.endTok env) rfl h
    unfold Builtin.endTok Builtin.endTokInit at hi
    dsimp only at hi
    split at hi
    · cases hi
    · obtain ⟨s, _, hi⟩ := bind_eq_ok hi
      obtain ⟨e, _, hi⟩ := bind_eq_ok hi
      have hr := (Except.ok.inj hi).symm
      obtain ⟨a1, g1, _⟩ := C28_add_end_token env.σ (.str e) x hlx
      obtain ⟨a2, g2, _⟩ := C28_add_end_token env.σ (.str e) y hly
      obtain ⟨a3, g3, _⟩ := C28_add_end_token env.σ (.str e) (x ++ y) hl
      have k := fun s out a g => hrun _ s out a (by rw [hc]; rfl) (by rw [hc]; rfl) hr g
      have := congrArg List.length
        (joined_list_eq (inParts_joined hp (.list _ _) (k _ _ _ g1) (k _ _ _ g2) (k _ _ _ g3)))
      simp at this
    · cases hi
  · obtain ⟨t, h⟩ := h
    obtain ⟨hc, hi⟩ := create_init (c := Builtin.pad env) (vals := [.int n, .str t]) rfl h rfl
    have hr : op.run = lstOp (Pad.transform env.σ n (.str t)) := (Except.ok.inj hi).symm
    obtain ⟨a1, g1, _⟩ := C30_pad env.σ n (.str t) x (Or.inr hlx)
    obtain ⟨a2, g2, _⟩ := C30_pad env.σ n (.str t) y (Or.inr hly)
    obtain ⟨a3, g3, _⟩ := C30_pad env.σ n (.str t) (x ++ y) (Or.inr hl)
    have k := fun s out a g => hrun _ s out a (by rw [hc]; rfl) (by rw [hc]; rfl) hr g
    have := congrArg List.length
      (joined_list_eq (inParts_joined hp (.list _ _) (k _ _ _ g1) (k _ _ _ g2) (k _ _ _ g3)))
    simp at this
    omega

/-! ### Pipes -/

/-- C79: knowing which exception it is includes knowing that there is one. -/
theorem C79_somehow {f : Seq → Outcome} {x y : Seq} (h : InParts f x y) : InPartsSomehow f x y := by
  have hb : ∀ r s : Res (List Int), Together (fun k₁ k₂ k => k = k₁ ++ k₂) r s (bothAnswers r s) := by
    intro r s
    refine ⟨fun x y hr hs => ⟨_, bothAnswers_ok hr hs, rfl⟩, fun e he => ?_⟩
    cases r with
    | error e1 => exact ⟨e1, rfl, Or.inl rfl⟩
    | ok a =>
      cases s with
      | error e2 => exact ⟨e2, rfl, Or.inr rfl⟩
      | ok b => rcases he with he | he <;> cases he
  refine ⟨fun z hz => ⟨fun r₁ r₂ h1 h2 => ?_, fun e he => ?_⟩, fun z r₁ r₂ r l₁ l₂ hz h1 h2 h3 e1 e2 => ?_,
    fun z r₁ r₂ r l₁ l₂ hz h1 h2 h3 e1 e2 => ?_⟩
  · obtain ⟨o, f', b', h3, h4, _⟩ := h.gives z r₁.1 r₂.1 r₁.2.1 r₂.2.1 r₁.2.2 r₂.2.2 hz h1 h2
    exact ⟨_, h3, h4⟩
  · cases h1 : f x with
    | error e1 => exact ⟨e1, h.fails z e1 hz h1, Or.inl rfl⟩
    | ok r =>
      cases h2 : f y with
      | error e2 => exact ⟨e2, h.failsThen z r e2 hz h1 h2, Or.inr rfl⟩
      | ok r' => rw [h1, h2] at he; rcases he with he | he <;> cases he
  · obtain ⟨o, f', b', h4, _, h5, _⟩ := h.gives z r₁.1 r₂.1 r₁.2.1 r₂.2.1 r₁.2.2 r₂.2.2 hz h1 h2
    rw [h3] at h4
    cases h4
    dsimp only
    rw [h5 l₁ l₂ e1 e2]
    exact hb _ _
  · obtain ⟨o, f', b', h4, _, _, h5⟩ := h.gives z r₁.1 r₂.1 r₁.2.1 r₂.2.1 r₁.2.2 r₂.2.2 hz h1 h2
    rw [h3] at h4
    cases h4
    dsimp only
    rw [h5 l₁ l₂ e1 e2]
    exact hb _ _

theorem together_bind {α β : Type} {J : α → α → α → Prop} {K : β → β → β → Prop} {r s t : Res α} {F G H : α → Res β}
    (h : Together J r s t)
    (h' : ∀ x y z, r = .ok x → s = .ok y → t = .ok z → J x y z → Together K (F x) (G y) (H z)) :
    Together K (r >>= F) (s >>= G) (t >>= H) := by
  cases hr : r with
  | error e =>
    obtain ⟨e', ht, he⟩ := h.2 e (Or.inl hr)
    refine ⟨fun x y hx => (nomatch hx), fun _ _ => ⟨e', by rw [ht]; rfl, ?_⟩⟩
    rcases he with he | he
    · rw [hr] at he; exact Or.inl (by cases he; rfl)
    · rw [he]; exact Or.inr rfl
  | ok x =>
    cases hs : s with
    | error e =>
      obtain ⟨e', ht, he⟩ := h.2 e (Or.inr hs)
      rcases he with he | he
      · rw [hr] at he; cases he
      · refine ⟨fun x y _ hy => (nomatch hy), fun _ _ => ⟨e', by rw [ht]; rfl, ?_⟩⟩
        rw [hs] at he; cases he
        exact Or.inr rfl
    | ok y =>
      obtain ⟨z, ht, hz⟩ := h.1 x y hr hs
      rw [ht]
      exact h' x y z hr hs ht hz

theorem stepsOutcome_cons (op : Op) (ops : List Op) (s : Seq) :
    stepsOutcome (op :: ops) s = op.transform s >>= fun r => stepsOutcome ops r.1 >>= fun q =>
      .ok (q.1, (fun ls => r.2.transform ls >>= q.2.1), fun ls => q.2.2 ls >>= r.2.inverseTransform) := by
  unfold stepsOutcome
  show Except.map _ (op.transform s >>= fun r => Pipe.runSteps ops r.1 [r.2] [s, r.1]) = _
  cases op.transform s with
  | error e => rfl
  | ok r =>
    show Except.map _ (Pipe.runSteps ops r.1 [r.2] [s, r.1]) = (Except.map _ (Pipe.runSteps ops r.1 [] [r.1]) >>= _)
    rw [runSteps_acc ops r.1 [r.2], runSteps_acc ops r.1 [] [r.1]]
    cases Pipe.runSteps ops r.1 [] [] with
    | error e => rfl
    | ok q =>
      show Except.ok (q.1, alignAll ([r.2] ++ q.2.1), realignAll ([r.2] ++ q.2.1)) = Except.ok (q.1, _, _)
      congr 3
      funext ls
      exact realignAll_cons r.2 q.2.1 ls

/-- The lengths in which a pipe of builtin steps answers. -/
theorem stepsOutcome_lengths (env : Env) (he : env.Sane) (ops : List Op) (hb : ∀ op ∈ ops, IsBuiltin env op) (s : Seq)
    (r : Seq × (List Int → Res (List Int)) × (List Int → Res (List Int))) (h : stepsOutcome ops s = .ok r) :
    ∀ l k, l.length = r.1.length → r.2.2 l = .ok k → k.length = s.length := by
  induction ops generalizing s r with
  | nil =>
    cases h
    intro l k hl hk
    cases hk
    exact hl
  | cons op ops ih =>
    rw [stepsOutcome_cons] at h
    obtain ⟨q, h1, h⟩ := bind_eq_ok h
    obtain ⟨p, h2, h⟩ := bind_eq_ok h
    cases h
    intro l k hl hk
    obtain ⟨m, hm, hk⟩ := bind_eq_ok hk
    obtain ⟨c, hc, args, kwargs, hkw, hop⟩ := hb op (by simp)
    have := builtin_kept env he c hc args kwargs hkw op hop s q.1 q.2 (transform_run h1)
    rw [inverse_length hk, this.input]

/-- C79: a pipe of library operators works part by part if each step does so on what it is given. -/
theorem C79_pipe (env : Env) (he : env.Sane) (ops : List Op) (hb : ∀ op ∈ ops, IsBuiltin env op) (x y : Seq)
    (h : EachInParts ops x y) : InPartsSomehow (stepsOutcome ops) x y := by
  induction ops generalizing x y with
  | nil =>
    refine ⟨fun z hz => ⟨fun r₁ r₂ h1 h2 => ⟨_, rfl, ?_⟩, fun e he => by rcases he with he | he <;> cases he⟩,
      fun z r₁ r₂ r l₁ l₂ hz h1 h2 h3 e1 e2 => ?_, fun z r₁ r₂ r l₁ l₂ hz h1 h2 h3 e1 e2 => ?_⟩
    · cases h1; cases h2; exact hz
    · cases h1; cases h2; cases h3
      exact ⟨fun k₁ k₂ hk1 hk2 => ⟨_, rfl, by cases hk1; cases hk2; rfl⟩, fun e he => by rcases he with he | he <;> cases he⟩
    · cases h1; cases h2; cases h3
      exact ⟨fun k₁ k₂ hk1 hk2 => ⟨_, rfl, by cases hk1; cases hk2; rfl⟩, fun e he => by rcases he with he | he <;> cases he⟩
  | cons op ops ih =>
    obtain ⟨h1, h2⟩ := h
    have hk : ∀ s r, op.transform s = .ok r → r.2.inputLength = s.length ∧ r.2.outputLength = r.1.length := by
      intro s r hr
      obtain ⟨c, hc, args, kwargs, hkw, hop⟩ := hb op (by simp)
      have := builtin_kept env he c hc args kwargs hkw op hop s r.1 r.2 (transform_run hr)
      exact ⟨this.input, this.output⟩
    have hop : ∀ s r, op.transform s = .ok r → opOutcome op s = .ok (r.1, r.2.transform, r.2.inverseTransform) := by
      intro s r hr
      unfold opOutcome
      rw [hr]
      rfl
    have hops : ∀ s e, op.transform s = .error e ↔ opOutcome op s = .error e := by
      intro s e
      unfold opOutcome
      cases op.transform s with
      | error e' => exact ⟨fun h => by cases h; rfl, fun h => by cases h; rfl⟩
      | ok r => exact ⟨fun h => (nomatch h), fun h => (nomatch h)⟩
    have hfirst : ∀ z, Joined x y z → Together (fun r₁ r₂ r => Joined r₁.1 r₂.1 r.1) (op.transform x) (op.transform y)
        (op.transform z) := by
      intro z hz
      obtain ⟨g1, g2⟩ := h1.either z hz
      refine ⟨fun r₁ r₂ k1 k2 => ?_, fun e k => ?_⟩
      · obtain ⟨w, k3, k4⟩ := g1 _ _ (hop _ _ k1) (hop _ _ k2)
        cases hz' : op.transform z with
        | error e => rw [(hops z e).mp hz'] at k3; cases k3
        | ok r =>
          rw [hop z r hz'] at k3
          cases k3
          exact ⟨r, rfl, k4⟩
      · rw [hops, hops] at k
        obtain ⟨e', k3, k4⟩ := g2 e k
        rw [← hops, ← hops] at k4
        exact ⟨e', (hops z e').mpr k3, k4⟩
    have hrest : ∀ r₁ r₂, op.transform x = .ok r₁ → op.transform y = .ok r₂ → InPartsSomehow (stepsOutcome ops) r₁.1 r₂.1 :=
      fun r₁ r₂ k1 k2 => ih (fun op hop => hb op (by simp [hop])) _ _ (h2 _ _ ⟨r₁.2, k1⟩ ⟨r₂.2, k2⟩)
    refine ⟨fun z hz => ?_, fun z r₁ r₂ r l₁ l₂ hz g1 g2 g3 e1 e2 => ?_, fun z r₁ r₂ r l₁ l₂ hz g1 g2 g3 e1 e2 => ?_⟩
    · simp only [stepsOutcome_cons]
      refine together_bind (hfirst z hz) fun r₁ r₂ r k1 k2 k3 k4 => ?_
      refine together_bind ((hrest r₁ r₂ k1 k2).either r.1 k4) fun q₁ q₂ q m1 m2 m3 m4 => ?_
      exact ⟨fun a b ha hb => ⟨_, rfl, by cases ha; cases hb; exact m4⟩, fun e he => by rcases he with he | he <;> cases he⟩
    · rw [stepsOutcome_cons] at g1 g2 g3
      obtain ⟨q₁, k1, g1⟩ := bind_eq_ok g1
      obtain ⟨p₁, m1, g1⟩ := bind_eq_ok g1
      obtain ⟨q₂, k2, g2⟩ := bind_eq_ok g2
      obtain ⟨p₂, m2, g2⟩ := bind_eq_ok g2
      obtain ⟨q, k3, g3⟩ := bind_eq_ok g3
      obtain ⟨p, m3, g3⟩ := bind_eq_ok g3
      cases g1; cases g2; cases g3
      have hj : Joined q₁.1 q₂.1 q.1 := by
        obtain ⟨w, hw, hj⟩ := (hfirst z hz).1 q₁ q₂ k1 k2
        rw [k3] at hw
        cases hw
        exact hj
      refine together_bind (h1.forward z _ _ _ l₁ l₂ hz (hop _ _ k1) (hop _ _ k2) (hop _ _ k3) e1 e2)
        fun a b c ha hb hc hab => ?_
      subst hab
      exact (hrest q₁ q₂ k1 k2).forward q.1 _ _ _ a b hj m1 m2 m3 (by rw [transform_length ha, (hk _ _ k1).2])
        (by rw [transform_length hb, (hk _ _ k2).2])
    · rw [stepsOutcome_cons] at g1 g2 g3
      obtain ⟨q₁, k1, g1⟩ := bind_eq_ok g1
      obtain ⟨p₁, m1, g1⟩ := bind_eq_ok g1
      obtain ⟨q₂, k2, g2⟩ := bind_eq_ok g2
      obtain ⟨p₂, m2, g2⟩ := bind_eq_ok g2
      obtain ⟨q, k3, g3⟩ := bind_eq_ok g3
      obtain ⟨p, m3, g3⟩ := bind_eq_ok g3
      cases g1; cases g2; cases g3
      have hj : Joined q₁.1 q₂.1 q.1 := by
        obtain ⟨w, hw, hj⟩ := (hfirst z hz).1 q₁ q₂ k1 k2
        rw [k3] at hw
        cases hw
        exact hj
      refine together_bind ((hrest q₁ q₂ k1 k2).backward q.1 _ _ _ l₁ l₂ hj m1 m2 m3 e1 e2) fun a b c ha hb' hc hab => ?_
      subst hab
      have hbs : ∀ op ∈ ops, IsBuiltin env op := fun op hop => hb op (by simp [hop])
      exact h1.backward z _ _ _ a b hz (hop _ _ k1) (hop _ _ k2) (hop _ _ k3)
        (stepsOutcome_lengths env he ops hbs _ _ m1 l₁ a e1 ha) (stepsOutcome_lengths env he ops hbs _ _ m2 l₂ b e2 hb')

/-! ### Cases -/

/-- A concrete case of `C79_any_parts`. -/
example : ∃ op, Made exEnv "Lowercase" op ∧ InParts (opOutcome op) (.str "Hi ".toList) (.str "You".toList) :=
  ⟨_, exMade rfl, C79_any_parts exEnv "Lowercase" _ (exMade rfl) (by decide) _ _⟩

/-- A concrete case of `C79_numbers`. -/
example : ∃ op, Made exEnv "IntToken" op ∧ InParts (opOutcome op) (.str "12".toList) (.str " 34".toList) :=
  ⟨_, exMade rfl, C79_numbers exEnv exEnv_sane.dot "IntToken" _ (exMade rfl) (by decide) _ _ (by unfold PartedAt; decide)⟩

/-- A concrete case of `C79_merge`. -/
example : ∃ op, Made exEnv "MergeWhiteSpaceCharacters" op ∧
    InParts (opOutcome op) (.str "a  ".toList) (.str "b  c".toList) :=
  ⟨_, exMade rfl, C79_merge exEnv _ (exMade rfl) _ _ (by unfold PartedAt; decide)⟩

/-- A concrete case of `C79_merge_exact`: one space and one space are not two. -/
example : ∃ op, Made exEnv "MergeWhiteSpaceCharacters" op ∧
    ¬ InParts (opOutcome op) (.str "a ".toList) (.str " b".toList) :=
  ⟨_, exMade rfl, fun h => absurd ((C79_merge_exact exEnv _ (exMade rfl) _ _).mp h) (by unfold PartedAt; decide)⟩

/-- Concrete cases of `C79_strip` and `C79_strip_exact`. -/
example : ∃ op, Made exEnv "StripWhiteSpaceCharacters" op ∧
    InParts (opOutcome op) (.str " a".toList) (.str "b ".toList) ∧
    ¬ InParts (opOutcome op) (.str "a ".toList) (.str "b".toList) :=
  ⟨_, exMade rfl, C79_strip exEnv _ (exMade rfl) _ _ (by decide), fun h =>
    absurd ((C79_strip_exact exEnv _ (exMade rfl) _ _).mp h) (by decide)⟩

/-- A concrete case of `C79_strip_accent`. -/
example : ∃ op, Made exEnv "StripAccentToken" op ∧ InParts (opOutcome op) (.str "a".toList) (.str "b".toList) :=
  ⟨_, exMade rfl, C79_strip_accent exEnv _ (exMade rfl) _ _ (by decide) (by decide) (by decide)⟩

/-- A concrete case of `C79_stopwords`. -/
example : ∃ op, Made exEnv "StopwordsToWhitespace" op ∧ InParts (opOutcome op) (.str "我".toList) (.str "x的".toList) :=
  ⟨_, exMade rfl, C79_stopwords exEnv _ (exMade rfl) _ _ (by
    intro w hw v t e hv ht h1 h2
    have : ∀ w ∈ StopwordsToWhitespace.stopwords, 'x' ∉ w := by decide
    obtain ⟨u, hu⟩ := h2
    cases t with
    | nil => exact ht rfl
    | cons c t =>
      have hc : c = 'x' := by simpa using congrArg List.head? hu
      exact this w hw (by rw [e, hc]; simp))⟩

/-- Concrete cases of `C79_tokenizers` and `C79_tokenizers_exact`. -/
example : ∃ op, Made exEnv "EngTokenizer" op ∧ InParts (opOutcome op) (.str "ab".toList) (.str " cd".toList) ∧
    ¬ InParts (opOutcome op) (.str "ab".toList) (.str "cd".toList) :=
  ⟨_, exMade rfl, (C79_tokenizers exEnv _ _ _).2.1 (exMade rfl) (by unfold CutAt; decide), fun h =>
    absurd (((C79_tokenizers_exact exEnv _ _ _).2.1 (exMade rfl)).mp h) (by unfold CutAt; decide)⟩

/-- Concrete cases of `C79_around_words` and `C79_custom_words`. -/
example : NoneAcross ["bc".toList] "ab".toList "dc".toList ∧
    (∃ op, create exEnv "AddWhitespaceAroundWordnZhChar" [.list (["bc".toList].map PyVal.str), .bool false] [] = .ok op ∧
      InParts (opOutcome op) (.str "ab".toList) (.str "dc".toList)) ∧
    ∃ op, create exEnv "CustomWordTokenizer" [.list (["bc".toList].map PyVal.str), .bool false] [] = .ok op ∧
      InParts (opOutcome op) (.str "ab".toList) (.str "dc".toList) := by
  have h : NoneAcross ["bc".toList] "ab".toList "dc".toList := by
    intro w hw v t e hv ht h1 h2
    simp only [List.mem_cons, List.not_mem_nil, or_false] at hw
    subst hw
    obtain ⟨u, hu⟩ := h2
    cases t with
    | nil => exact ht rfl
    | cons c t =>
      have hc : c = 'd' := by simpa using congrArg List.head? hu
      have : c ∈ "bc".toList := by rw [e]; simp
      rw [hc] at this
      exact absurd this (by decide)
  exact ⟨h, ⟨_, rfl, C79_around_words exEnv _ _ false rfl _ _ h⟩, ⟨_, rfl, C79_custom_words exEnv _ _ false rfl _ _ h⟩⟩

/-- A concrete case of `C79_subwords`. -/
example : ∃ op, Made exEnv "SpanSubwords" op ∧
    InParts (opOutcome op) (.list [.str "ab".toList]) (.list [.str [], .str "c".toList]) := by
  have h : ∃ op, create exEnv "SpanSubwords" [.dict [], .str "[UNK]".toList] [] = .ok op := ⟨_, rfl⟩
  obtain ⟨op, h⟩ := h
  exact ⟨op, ⟨_, _, h⟩, C79_subwords exEnv op ⟨_, _, h⟩ _ _ (by decide)⟩

/-- A concrete case of `C79_ends`. -/
example : ∃ op, create exEnv "Pad" [.int 3, .str "<pad>".toList] [] = .ok op ∧
    ¬ InParts (opOutcome op) (.list [.str "a".toList]) (.list [.str "b".toList]) :=
  ⟨_, rfl, (C79_ends exEnv _ _ _ (by decide)).2.2 3 (by decide) ⟨_, rfl⟩⟩

/-- A concrete case of `C79_replace`. -/
example : ∃ op, create exEnv "ReplaceAwithB" [.str "-".toList, .str "+".toList] [] = .ok op ∧
    InParts (opOutcome op) (.str "a-".toList) (.str "b".toList) := by
  refine ⟨_, rfl, C79_replace exEnv _ _ _ (Re.lit "-".toList).search rfl rfl _ _ [(1, 2)] [] ⟨⟨?_, ?_, ?_⟩, ?_, ?_, ?_⟩
    (Or.inl (by decide))⟩
  · exact C24_regex_sound _ _
  · exact C24_regex_sound _ _
  · exact C24_regex_sound _ _
  · exact .match_ 0 1 2 _ (by decide) (by decide) (.atEnd 2 (by decide))
  · exact .noMatch 0 (by decide) (by decide)
  · exact .match_ 0 1 2 _ (by decide) (by decide) (.noMatch 2 (by decide) (by decide))

/-- A concrete case of `C79_pipe`, the second step on any texts. -/
example : ∃ o₁ o₂, IsBuiltin exEnv o₁ ∧ IsBuiltin exEnv o₂ ∧ Made exEnv "MergeWhiteSpaceCharacters" o₁ ∧
    Made exEnv "CharTokenizer" o₂ ∧
    InPartsSomehow (stepsOutcome [o₁, o₂]) (.str "a  b".toList) (.str "  c".toList) := by
  have b1 : IsBuiltin exEnv ⟨_, [], _⟩ := ⟨Builtin.mergeWs exEnv, by simp [Builtin.all, Builtin.concrete], [], [], by decide, rfl⟩
  have b2 : IsBuiltin exEnv ⟨_, [], _⟩ := ⟨Builtin.charTok exEnv, by simp [Builtin.all, Builtin.concrete], [], [], by decide, rfl⟩
  refine ⟨_, _, b1, b2, exMade rfl, exMade rfl, C79_pipe exEnv exEnv_sane _ ?_ _ _ ⟨C79_somehow
    (C79_merge exEnv _ (exMade rfl) _ _ (by unfold PartedAt; decide)), fun x' y' _ _ => ⟨C79_somehow
      (C79_any_parts exEnv "CharTokenizer" _ (exMade rfl) (by decide) _ _), fun _ _ _ _ => trivial⟩⟩⟩
  intro op hop
  simp only [List.mem_cons, List.not_mem_nil, or_false] at hop
  rcases hop with rfl | rfl
  · exact b1
  · exact b2

end Uttut
