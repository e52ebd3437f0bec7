import Verif.Props.Parts
import Verif.Props.Arguments
import Verif.Props.Confuse
import Verif.Props.Ordinal
import Verif.Props.Summary
import Verif.Spec.Grow

/-!
C115: word lists, vocabularies and data that grow.
-/

namespace Uttut

open Spec

theorem op_congr {op op' : Op} {x : Seq} (hc : op.cls = op'.cls) (hr : op.run x = op'.run x) :
    op.transform x = op'.transform x := by
  unfold Op.transform
  rw [hc, hr]

theorem bound_unique {env : Env} {name : String} {c : OpClass} (hc : (Builtin.registry env).get name.toList = .ok c)
    (sig : List Param) (hp : c.params = sig.map fun p => p.1.toList)
    (hd : (sig.map fun p => c.default? p.1.toList) = sig.map Prod.snd) (hn : (sig.map fun p => p.1.toList).Nodup)
    {args : List PyVal} {kwargs : List (Str × PyVal)} {vals : List PyVal} {op : Op}
    (hb : bound sig args kwargs = some vals) (h : create env name args kwargs = .ok op) :
    op.cls = c ∧ c.init vals = .ok op.run := by
  obtain ⟨h1, h2, _⟩ := create_eq hc sig hp hd hn args kwargs
  cases hi : c.init vals with
  | error e => rw [h2 vals e hb hi] at h; cases h
  | ok run =>
    rw [h1 vals run hb hi] at h
    cases h
    exact ⟨rfl, rfl⟩

theorem runs_tokens_op {op : Op} {f : Str → Res (List Str × Aligner)} {s : Str} {out : List Str} {a : Aligner}
    (hi : op.cls.inputType = .str) (ho : op.cls.outputType = .list) (hr : op.run = tokOp f) (h : f s = .ok (out, a)) :
    op.transform (.str s) = .ok (.list (out.map Tok.str), a) := by
  unfold Op.transform
  rw [if_neg (by simp [hi, Seq.type]), hr]
  have : tokOp f (.str s) = .ok (.list (out.map Tok.str), a) := by
    show (f s >>= _) = _
    rw [h]
    rfl
  simp only [this, Except.bind_ok]
  rw [if_neg (by simp [ho, Seq.type])]
  rfl

/-! ### words -/

theorem words_made {env : Env} {args : List PyVal} {kwargs : List (Str × PyVal)} {v sh : PyVal} {ws : List Str} {op : Op}
    (hb : bound wordParams args kwargs = some [v, sh]) (hw : WordsIn v ws)
    (h : create env "CustomWordTokenizer" args kwargs = .ok op) :
    op.cls = Builtin.customTok env ∧ ∃ t, Trie.ofUserWords ws = .ok t ∧
      op.run = tokOp (CustomWordTokenizer.transform env.σ t sh.truthy) := by
  obtain ⟨h1, h2⟩ := bound_unique (env := env) (name := "CustomWordTokenizer") (c := Builtin.customTok env) rfl
    wordParams rfl rfl (by decide) hb h
  refine ⟨h1, ?_⟩
  have h3 : (Builtin.userWords v >>= fun t => .ok (tokOp (CustomWordTokenizer.transform env.σ t sh.truthy))) =
    Except.ok op.run := h2
  obtain ⟨t, ht, h4⟩ := bind_eq_ok h3
  rw [userWords_elements (elements_of hw)] at ht
  injection h4 with h4
  exact ⟨t, ht, h4.symm⟩

theorem around_made {env : Env} {args : List PyVal} {kwargs : List (Str × PyVal)} {v sh : PyVal} {ws : List Str} {op : Op}
    (hb : bound wordParams args kwargs = some [v, sh]) (hw : WordsIn v ws)
    (h : create env "AddWhitespaceAroundWordnZhChar" args kwargs = .ok op) :
    op.cls = Builtin.aroundWord env ∧ ∃ t, Trie.ofUserWords ws = .ok t ∧
      op.run = strOp (AddWhitespaceAroundWordnZhChar.transform env.σ t sh.truthy) := by
  obtain ⟨h1, h2⟩ := bound_unique (env := env) (name := "AddWhitespaceAroundWordnZhChar") (c := Builtin.aroundWord env) rfl
    wordParams rfl rfl (by decide) hb h
  refine ⟨h1, ?_⟩
  have h3 : (Builtin.userWords v >>= fun t =>
    .ok (strOp (AddWhitespaceAroundWordnZhChar.transform env.σ t sh.truthy))) = Except.ok op.run := h2
  obtain ⟨t, ht, h4⟩ := bind_eq_ok h3
  rw [userWords_elements (elements_of hw)] at ht
  injection h4 with h4
  exact ⟨t, ht, h4.symm⟩

/-- A division into the words of the longer list that uses no new word of two or more characters is the division into the words
of the shorter one. If the shortest words are taken, it must use no new word at all. -/
theorem wordSegs_shrink {ws ws' : List Str} (hsub : ∀ w ∈ ws, w ∈ ws') {sh : Bool} {s : Str} {segs : List Str}
    (h : WordSegs ws' sh s segs) (hn : ∀ w ∈ segs, NewWord ws ws' w → sh = false ∧ w.length = 1) : WordSegs ws sh s segs := by
  induction h with
  | nil => exact .nil
  | char c rest segs hb _ ih =>
    exact .char c rest segs (fun v hv => hb v (hsub v hv)) (ih fun w hw => hn w (List.mem_cons_of_mem _ hw))
  | word w rest segs hb _ ih =>
    have ih := ih fun w hw => hn w (List.mem_cons_of_mem _ hw)
    by_cases hw : w ∈ ws
    · exact .word w rest segs ⟨hw, hb.2.1, hb.2.2.1, fun v hv => hb.2.2.2 v (hsub v hv)⟩ ih
    · obtain ⟨hs, hl⟩ := hn w (List.mem_cons_self ..) ⟨hb.1, hw⟩
      obtain ⟨c, rfl⟩ := List.length_eq_one_iff.mp hl
      refine .char c rest segs (fun v hv hne hp => ?_) ih
      have h1 := hb.2.2.2 v (hsub v hv) hne hp
      rw [hs] at h1
      obtain ⟨d, v, rfl⟩ := List.exists_cons_of_ne_nil hne
      cases v with
      | cons e v => simp at h1
      | nil =>
        have h2 : d = c := (List.cons_prefix_cons.mp hp).1
        rw [h2] at hv
        exact hw hv

theorem wordSegs_words {ws : List Str} {sh : Bool} {s : Str} {segs : List Str} (h : WordSegs ws sh s segs) :
    ∀ w ∈ segs, w.length = 1 ∨ w ∈ ws := by
  induction h with
  | nil => intro w hw; cases hw
  | char c rest segs _ _ ih => exact List.forall_mem_cons.mpr ⟨.inl rfl, ih⟩
  | word w rest segs hb _ ih => exact List.forall_mem_cons.mpr ⟨.inr hb.1, ih⟩

theorem infix_of_mem_flatten {segs : List Str} {w : Str} (h : w ∈ segs) : w <:+: segs.flatten := by
  obtain ⟨a, b, rfl⟩ := List.append_of_mem h
  exact ⟨a.flatten, b.flatten, by simp⟩

theorem tokenize_segs {ws : List Str} {t : Trie} (ht : Trie.ofUserWords ws = .ok t) (sh : Bool) (s : Str) :
    ∃ segs, WordSegs ws sh s segs ∧ CustomWordTokenizer.tokenize t sh s = some segs := by
  obtain ⟨segs, h1, h2⟩ := customLoop_spec t ws (ofUserWords_holds ws t ht).1 sh (s.length + 1) [] s [] (by omega)
  exact ⟨segs, h1, by unfold CustomWordTokenizer.tokenize; simpa using h2⟩

/-- C115: `CustomWordTokenizer` with a longer list of words does the same to a text, labels included, unless one of the new words
is among its tokens. If the longest words are taken this is exact for new words of two or more characters. -/
theorem C115_words (env : Env) (args args' : List PyVal) (kwargs kwargs' : List (Str × PyVal)) (v v' sh : PyVal)
    (ws ws' : List Str) (op op' : Op)
    (hb : bound wordParams args kwargs = some [v, sh]) (hb' : bound wordParams args' kwargs' = some [v', sh])
    (hw : WordsIn v ws) (hw' : WordsIn v' ws') (hsub : ∀ w ∈ ws, w ∈ ws')
    (h : create env "CustomWordTokenizer" args kwargs = .ok op)
    (h' : create env "CustomWordTokenizer" args' kwargs' = .ok op') (s : Str) :
    ∃ tokens : List Str, Gives op' (.str s) (.list (tokens.map Tok.str)) ∧
      ((∀ w ∈ tokens, ¬ NewWord ws ws' w) → op'.transform (.str s) = op.transform (.str s)) ∧
      (Falsy sh → ((∀ w ∈ tokens, NewWord ws ws' w → w.length = 1) ↔ op'.transform (.str s) = op.transform (.str s))) := by
  obtain ⟨c1, t, ht, r1⟩ := words_made hb hw h
  obtain ⟨c2, t', ht', r2⟩ := words_made hb' hw' h'
  obtain ⟨segs, g1, g2⟩ := tokenize_segs ht sh.truthy s
  obtain ⟨segs', k1, k2⟩ := tokenize_segs ht' sh.truthy s
  obtain ⟨a, segs2, e1, e2, _⟩ := C37_C42_custom env.σ ws' t' ht' sh.truthy s
  obtain ⟨a0, segs0, e3, e4, _⟩ := C37_C42_custom env.σ ws t ht sh.truthy s
  have e5 := C37_division_unique _ _ _ _ _ e2 k1
  subst e5
  have e6 := C37_division_unique _ _ _ _ _ e4 g1
  subst e6
  have t1 : op'.transform (.str s) = .ok (.list (segs2.map Tok.str), a) := runs_tokens_op (by rw [c2]; rfl) (by rw [c2]; rfl) r2 e1
  have t2 : op.transform (.str s) = .ok (.list (segs0.map Tok.str), a0) := runs_tokens_op (by rw [c1]; rfl) (by rw [c1]; rfl) r1 e3
  have same : segs2 = segs0 → op'.transform (.str s) = op.transform (.str s) := by
    rintro rfl
    refine op_congr (c2.trans c1.symm) ?_
    rw [r1, r2]
    have : CustomWordTokenizer.transform env.σ t' sh.truthy s = CustomWordTokenizer.transform env.σ t sh.truthy s := by
      unfold CustomWordTokenizer.transform
      rw [g2, k2]
    unfold tokOp
    dsimp only
    rw [this]
  refine ⟨segs2, ⟨a, t1⟩, fun hn => ?_, fun hs => ⟨fun hn => ?_, fun he => ?_⟩⟩
  · exact same (C37_division_unique _ _ _ _ _ (wordSegs_shrink hsub k1 fun w hw hx => absurd hx (hn w hw)) g1)
  · have hs : sh.truthy = false := by
      cases hx : sh.truthy with
      | false => rfl
      | true => exact absurd hs ((truthy_iff sh).mp hx)
    exact same (C37_division_unique _ _ _ _ _ (wordSegs_shrink hsub k1 fun w hw hx => ⟨hs, hn w hw hx⟩) g1)
  · rw [t1, t2] at he
    injection he with he
    injection he with he _
    rw [seq_list_inj, tok_map_inj] at he
    subst he
    intro w hw hx
    exact (wordSegs_words g1 w hw).resolve_right hx.2

/-- C115: in particular if none of the new words occurs in the text; this holds for `AddWhitespaceAroundWordnZhChar` too. -/
theorem C115_occurs (env : Env) (name : String) (hname : name = "CustomWordTokenizer" ∨ name = "AddWhitespaceAroundWordnZhChar")
    (args args' : List PyVal) (kwargs kwargs' : List (Str × PyVal)) (v v' sh : PyVal) (ws ws' : List Str) (op op' : Op)
    (hb : bound wordParams args kwargs = some [v, sh]) (hb' : bound wordParams args' kwargs' = some [v', sh])
    (hw : WordsIn v ws) (hw' : WordsIn v' ws') (hsub : ∀ w ∈ ws, w ∈ ws')
    (h : create env name args kwargs = .ok op) (h' : create env name args' kwargs' = .ok op') (s : Str)
    (hs : ∀ w, NewWord ws ws' w → w ≠ [] → ¬ w <:+: s) : op'.transform (.str s) = op.transform (.str s) := by
  rcases hname with rfl | rfl
  · obtain ⟨tokens, ⟨a, h1⟩, h2, _⟩ := C115_words env args args' kwargs kwargs' v v' sh ws ws' op op' hb hb' hw hw' hsub h h' s
    refine h2 fun w hx hn => ?_
    obtain ⟨c2, t', ht', r2⟩ := words_made hb' hw' h'
    obtain ⟨a', segs, e1, e2, e3, _⟩ := C37_C42_custom env.σ ws' t' ht' sh.truthy s
    have t1 : op'.transform (.str s) = .ok (.list (segs.map Tok.str), a') := runs_tokens_op (by rw [c2]; rfl) (by rw [c2]; rfl) r2 e1
    rw [t1] at h1
    injection h1 with h1
    injection h1 with h1 _
    rw [seq_list_inj, tok_map_inj] at h1
    subst h1
    exact hs w hn (wordSegs_nonempty e2 w hx) (e3 ▸ infix_of_mem_flatten hx)
  · obtain ⟨c1, t, ht, r1⟩ := around_made hb hw h
    obtain ⟨c2, t', ht', r2⟩ := around_made hb' hw' h'
    refine op_congr (c2.trans c1.symm) ?_
    rw [r1, r2]
    obtain ⟨segs, g1, g2⟩ := wordZhLoop_spec t ws (ofUserWords_holds ws t ht).1 sh.truthy (s.length + 1) [] s
      ReplacementGroup.empty (by omega)
    obtain ⟨segs', k1, k2⟩ := wordZhLoop_spec t' ws' (ofUserWords_holds ws' t' ht').1 sh.truthy (s.length + 1) [] s
      ReplacementGroup.empty (by omega)
    have hn : ∀ w ∈ segs', ¬ NewWord ws ws' w := fun w hx hn =>
      hs w hn (wordSegs_nonempty k1 w hx) (wordSegs_flatten k1 ▸ infix_of_mem_flatten hx)
    have e := C37_division_unique _ _ _ _ _ (wordSegs_shrink hsub k1 fun w hw hx => absurd hx (hn w hw)) g1
    subst e
    have e : spacedPieces ws' segs' = spacedPieces ws segs' := by
      unfold spacedPieces
      refine List.map_congr_left fun w hx => ?_
      have : spacedSeg ws' w = spacedSeg ws w := by
        unfold spacedSeg
        congr 1
        rw [decide_eq_decide]
        exact ⟨fun h => by_contra fun h' => hn w hx ⟨h, h'⟩, hsub w⟩
      rw [this]
    rw [e, ← g2] at k2
    have : AddWhitespaceAroundWordnZhChar.transform env.σ t' sh.truthy s =
        AddWhitespaceAroundWordnZhChar.transform env.σ t sh.truthy s := by
      unfold AddWhitespaceAroundWordnZhChar.transform
      simp only [List.nil_append, List.length_nil] at k2
      rw [k2]
    unfold strOp
    dsimp only
    rw [this]

/-- "cd" is new and not in "abc". -/
example : ∃ op op', create exEnv "CustomWordTokenizer" [.list [.str "bc".toList]] [] = .ok op ∧
    create exEnv "CustomWordTokenizer" [.list [.str "bc".toList, .str "cd".toList]] [] = .ok op' ∧
    op'.transform (.str "abc".toList) = op.transform (.str "abc".toList) :=
  ⟨_, _, rfl, rfl, C115_occurs exEnv "CustomWordTokenizer" (.inl rfl) [.list [.str "bc".toList]]
    [.list [.str "bc".toList, .str "cd".toList]] [] [] _ _ _ ["bc".toList] ["bc".toList, "cd".toList] _ _ rfl rfl
    (.list ["bc".toList]) (.list ["bc".toList, "cd".toList]) (by simp) rfl rfl _ (by
      rintro w ⟨h1, h2⟩ - h
      rcases List.mem_cons.mp h1 with rfl | h1
      · exact h2 (List.mem_cons_self ..)
      · rcases List.mem_singleton.mp h1 with rfl
        have : 'd' ∈ "abc".toList := h.subset (by decide)
        revert this
        decide)⟩

example : ∃ op op', create exEnv "CustomWordTokenizer" [.list [.str "bc".toList]] [] = .ok op ∧
    create exEnv "CustomWordTokenizer" [.list [.str "bc".toList, .str "a".toList]] [] = .ok op' ∧
    op'.transform (.str "abc".toList) = op.transform (.str "abc".toList) := by
  refine ⟨_, _, rfl, rfl, ?_⟩
  obtain ⟨tokens, h, -, h3⟩ := C115_words exEnv [.list [.str "bc".toList]]
    [.list [.str "bc".toList, .str "a".toList]] [] [] _ _ _ ["bc".toList] ["bc".toList, "a".toList] _ _ rfl rfl
    (.list ["bc".toList]) (.list ["bc".toList, "a".toList]) (by simp) rfl rfl "abc".toList
  refine (h3 .false).mp ?_
  rintro w - ⟨h1, h2⟩
  rcases List.mem_cons.mp h1 with rfl | h1
  · exact absurd (List.mem_cons_self ..) h2
  · rcases List.mem_singleton.mp h1 with rfl
    rfl

/-- C115: a new word can break an old one that overlaps it. -/
theorem C115_breaks : ∃ op op', create exEnv "CustomWordTokenizer" [.list [.str "bc".toList]] [] = .ok op ∧
    create exEnv "CustomWordTokenizer" [.list [.str "bc".toList, .str "ab".toList]] [] = .ok op' ∧
    Gives op (.str "abc".toList) (.list [.str "a".toList, .str "bc".toList]) ∧
    Gives op' (.str "abc".toList) (.list [.str "ab".toList, .str "c".toList]) :=
  ⟨_, _, rfl, rfl, ⟨_, rfl⟩, ⟨_, rfl⟩⟩

/-! ### vocabularies -/

theorem enumAdd_congr_mem {α V : Type} {nv nv' : α → Res (Option V)} (l : List α) (h : ∀ x ∈ l, nv x = nv' x) (i : Nat)
    (g : ReplacementGroup V) : enumAdd nv l i g = enumAdd nv' l i g := by
  induction l generalizing i g with
  | nil => rfl
  | cons x l ih =>
    have ih := ih fun y hy => h y (List.mem_cons_of_mem _ hy)
    unfold enumAdd
    rw [h x (List.mem_cons_self ..)]
    simp only [ih]

theorem tokenwise_congr {σ : SetOrder} {nv nv' : Tok → Res (Option (List Tok))} {l : List Tok} (h : ∀ x ∈ l, nv x = nv' x)
    (mk : ReplacementGroup (List Tok) → Nat → Aligner) : tokenwiseTransform σ nv l mk = tokenwiseTransform σ nv' l mk := by
  unfold tokenwiseTransform
  rw [enumAdd_congr_mem l h]

theorem lst_congr {op op' : Op} {f f' : List Tok → Res (List Tok × Aligner)} {l : List Tok} (hc : op.cls = op'.cls)
    (hr : op.run = lstOp f) (hr' : op'.run = lstOp f') (h : f l = f' l) : op.transform (.list l) = op'.transform (.list l) := by
  refine op_congr hc ?_
  rw [hr, hr']
  unfold lstOp
  dsimp only
  rw [h]

theorem runs_list_op {op : Op} {f : List Tok → Res (List Tok × Aligner)} {l out : List Tok} {a : Aligner}
    (hi : op.cls.inputType = .list) (ho : op.cls.outputType = .list) (hr : op.run = lstOp f) (h : f l = .ok (out, a)) :
    op.transform (.list l) = .ok (.list out, a) := by
  unfold Op.transform
  rw [if_neg (by simp [hi, Seq.type]), hr]
  have : lstOp f (.list l) = .ok (.list out, a) := by
    show (f l >>= _) = _
    rw [h]
    rfl
  simp only [this, Except.bind_ok]
  rw [if_neg (by simp [ho, Seq.type])]
  rfl

theorem subwords_made {env : Env} {args : List PyVal} {kwargs : List (Str × PyVal)} {d : List (Str × PyVal)} {unk : Str} {n : Int}
    {op : Op} (hb : bound subwordParams args kwargs = some [.dict d, .str unk, .int n])
    (h : create env "SpanSubwords" args kwargs = .ok op) :
    op.cls = Builtin.spanSubwords env ∧
      op.run = lstOp (SpanSubwords.transform env.σ (fun w => (d.map Prod.fst).contains w) unk n) := by
  obtain ⟨h1, h2⟩ := bound_unique (env := env) (name := "SpanSubwords") (c := Builtin.spanSubwords env) rfl
    subwordParams rfl rfl (by decide) hb h
  have h3 : Except.ok (lstOp (SpanSubwords.transform env.σ (fun w => (d.map Prod.fst).contains w) unk n)) =
    Except.ok op.run := h2
  injection h3 with h3
  exact ⟨h1, h3.symm⟩

theorem greedy_congr {vocab vocab' : Str → Bool} (rs : List Str) (first : Bool) (rest : Str)
    (h : ∀ r, r ≠ [] → r <+: rest → vocab' (wordPiece first r) = vocab (wordPiece first r))
    (h' : ∀ r, r ≠ [] → r <:+: rest → vocab' (wordPiece false r) = vocab (wordPiece false r)) :
    Greedy vocab' first rest rs ↔ Greedy vocab first rest rs := by
  induction rs generalizing first rest with
  | nil => exact Iff.rfl
  | cons r rs ih =>
    unfold Greedy
    have hi : ∀ rest', rest = r ++ rest' → (Greedy vocab' false rest' rs ↔ Greedy vocab false rest' rs) := by
      rintro rest' rfl
      have hin : ∀ x, x <:+: rest' → x <:+: r ++ rest' := fun x hx => hx.trans (List.infix_append_of_infix_right ⟨[], [], by simp⟩)
      exact ih false rest' (fun x hx hp => h' x hx (hin x hp.isInfix)) fun x hx hp => h' x hx (hin x hp)
    constructor
    · rintro ⟨h1, h2, h3, rest', e, h4⟩
      refine ⟨h1, by rw [← h r h1 ⟨rest', e.symm⟩]; exact h2, fun r' hp hl => ?_, rest', e, (hi rest' e).mp h4⟩
      have hne : r' ≠ [] := by rintro rfl; exact absurd hl (Nat.not_lt_zero _)
      rw [← h r' hne hp]
      exact h3 r' hp hl
    · rintro ⟨h1, h2, h3, rest', e, h4⟩
      refine ⟨h1, by rw [h r h1 ⟨rest', e.symm⟩]; exact h2, fun r' hp hl => ?_, rest', e, (hi rest' e).mpr h4⟩
      have hne : r' ≠ [] := by rintro rfl; exact absurd hl (Nat.not_lt_zero _)
      rw [h r' hne hp]
      exact h3 r' hp hl

theorem span_congr {vocab vocab' : Str → Bool} (unk : Str) (n : Int) (w : Str)
    (h : ∀ rs, Greedy vocab' true w rs ↔ Greedy vocab true w rs) :
    SpanSubwords.spanSubwords vocab' unk n w = SpanSubwords.spanSubwords vocab unk n w := by
  by_cases hl : (w.length : Int) ≤ n
  · by_cases hg : ∃ rs, Greedy vocab true w rs
    · obtain ⟨rs, hg⟩ := hg
      rw [C33_segmentation _ unk n w rs hl hg, C33_segmentation _ unk n w rs hl ((h rs).mpr hg)]
    · rw [C33_unknown _ unk n w (.inr hg), C33_unknown _ unk n w (.inr fun ⟨rs, hr⟩ => hg ⟨rs, (h rs).mp hr⟩)]
  · rw [C33_unknown _ unk n w (.inl (by omega)), C33_unknown _ unk n w (.inl (by omega))]

/-- C115: `SpanSubwords` with a larger vocabulary does the same to words into which no new entry fits. -/
theorem C115_subwords (env : Env) (args args' : List PyVal) (kwargs kwargs' : List (Str × PyVal)) (d d' : List (Str × PyVal))
    (unk : Str) (n : Int) (op op' : Op) (hb : bound subwordParams args kwargs = some [.dict d, .str unk, .int n])
    (hb' : bound subwordParams args' kwargs' = some [.dict d', .str unk, .int n])
    (hsub : ∀ w ∈ d.map Prod.fst, w ∈ d'.map Prod.fst) (h : create env "SpanSubwords" args kwargs = .ok op)
    (h' : create env "SpanSubwords" args' kwargs' = .ok op') (l : List Tok)
    (hl : ∀ w, .str w ∈ l → ∀ p, NewWord (d.map Prod.fst) (d'.map Prod.fst) p → p ≠ [] → ¬ FitsInto p w) :
    op'.transform (.list l) = op.transform (.list l) := by
  obtain ⟨c1, r1⟩ := subwords_made hb h
  obtain ⟨c2, r2⟩ := subwords_made hb' h'
  refine lst_congr (c2.trans c1.symm) r2 r1 ?_
  unfold SpanSubwords.transform
  refine tokenwise_congr (fun x hx => ?_) _
  cases x with
  | int i => rfl
  | str w =>
    have key : ∀ p, p ≠ [] → FitsInto p w → (d'.map Prod.fst).contains p = (d.map Prod.fst).contains p := by
      intro p hp hf
      rw [Bool.eq_iff_iff, List.contains_iff_mem, List.contains_iff_mem]
      exact ⟨fun h1 => by_contra fun h2 => hl w hx p ⟨h1, h2⟩ hp hf, hsub p⟩
    unfold SpanSubwords.newValue
    dsimp only
    rw [span_congr (vocab := fun w => (d.map Prod.fst).contains w) unk n w fun rs =>
      greedy_congr rs true w (fun r hr hp => key _ hr (.inl hp)) fun r hr hp =>
        key ('#' :: '#' :: r) (by simp) (.inr ⟨r, hr, rfl, hp⟩)]

theorem greedy_shrink {vocab vocab' : Str → Bool} (hsub : ∀ p, vocab p = true → vocab' p = true) (rs : List Str) (first : Bool)
    (rest : Str) (h : Greedy vocab' first rest rs)
    (hf : ∀ r ∈ rs.head?, vocab (wordPiece first r) = true) (ht : ∀ r ∈ rs.tail, vocab (wordPiece false r) = true) :
    Greedy vocab first rest rs := by
  induction rs generalizing first rest with
  | nil => exact h
  | cons r rs ih =>
    obtain ⟨h1, h2, h3, rest', e, h4⟩ := h
    refine ⟨h1, hf r rfl, fun r' hp hl => ?_, rest', e, ih false rest' h4 (fun x hx => ht x ?_) fun x hx => ht x ?_⟩
    · cases hv : vocab (wordPiece first r') with
      | false => rfl
      | true =>
        have h5 := hsub _ hv
        rw [h3 r' hp hl] at h5
        cases h5
    · exact List.mem_of_mem_head? hx
    · exact List.mem_of_mem_tail hx

/-- C115: the same if no new entry and no sign for an unknown word is among the output tokens. -/
theorem C115_subwords_kept (env : Env) (args args' : List PyVal) (kwargs kwargs' : List (Str × PyVal)) (d d' : List (Str × PyVal))
    (unk : Str) (n : Int) (op op' : Op) (hb : bound subwordParams args kwargs = some [.dict d, .str unk, .int n])
    (hb' : bound subwordParams args' kwargs' = some [.dict d', .str unk, .int n])
    (hsub : ∀ w ∈ d.map Prod.fst, w ∈ d'.map Prod.fst) (h : create env "SpanSubwords" args kwargs = .ok op)
    (h' : create env "SpanSubwords" args' kwargs' = .ok op') (l : List Str) (out : List Tok)
    (ho : Gives op' (.list (l.map Tok.str)) (.list out))
    (hn : ∀ p, .str p ∈ out → p ≠ unk ∧ ¬ NewWord (d.map Prod.fst) (d'.map Prod.fst) p) :
    op'.transform (.list (l.map Tok.str)) = op.transform (.list (l.map Tok.str)) := by
  obtain ⟨c1, r1⟩ := subwords_made hb h
  obtain ⟨c2, r2⟩ := subwords_made hb' h'
  refine lst_congr (c2.trans c1.symm) r2 r1 ?_
  have pick : ∀ w : Str, ∃ ps, PiecesOf (d'.map Prod.fst) unk n w ps := fun w => by
    by_cases h1 : (w.length : Int) ≤ n
    · by_cases h2 : ∃ rs, Greedy (fun w => (d'.map Prod.fst).contains w) true w rs
      · obtain ⟨rs, h2⟩ := h2
        exact ⟨_, .inl ⟨h1, rs, h2, rfl⟩⟩
      · exact ⟨_, .inr ⟨.inr h2, rfl⟩⟩
    · exact ⟨_, .inr ⟨.inl (by omega), rfl⟩⟩
  obtain ⟨subs, hs⟩ := Classical.axiomOfChoice pick
  obtain ⟨op2, h2, h3⟩ := (C74_subwords env args' kwargs').1 d' unk n hb'
  rw [h'] at h2
  cases h2
  obtain ⟨a, h4⟩ := h3 l subs fun w _ => hs w
  obtain ⟨a', h5⟩ := ho
  rw [h4] at h5
  cases h5
  unfold SpanSubwords.transform
  refine tokenwise_congr (fun x hx => ?_) _
  obtain ⟨w, hw, rfl⟩ := List.mem_map.mp hx
  have hout : ∀ p ∈ subs w, p ≠ unk ∧ ¬ NewWord (d.map Prod.fst) (d'.map Prod.fst) p := fun p hp =>
    hn p (List.mem_flatMap.mpr ⟨w, hw, List.mem_map_of_mem hp⟩)
  rcases hs w with ⟨k1, rs, k2, k3⟩ | ⟨_, k3⟩
  · have old : ∀ first r, wordPiece first r ∈ wordPieces rs → (d'.map Prod.fst).contains (wordPiece first r) = true →
        (d.map Prod.fst).contains (wordPiece first r) = true := fun first r hr hv => by
      rw [List.contains_iff_mem] at hv ⊢
      exact by_contra fun h2 => (hout _ (k3 ▸ hr)).2 ⟨hv, h2⟩
    have inv : ∀ (rs : List Str) (first : Bool) (rest : Str),
        Greedy (fun w => (d'.map Prod.fst).contains w) first rest rs →
        (∀ r ∈ rs.head?, (d'.map Prod.fst).contains (wordPiece first r) = true) ∧
        ∀ r ∈ rs.tail, (d'.map Prod.fst).contains (wordPiece false r) = true := by
      intro rs
      induction rs with
      | nil => intro _ _ _; exact ⟨fun r hr => (by cases hr), fun r hr => (by cases hr)⟩
      | cons r rs ih =>
        rintro first rest ⟨_, g2, _, rest', _, g4⟩
        obtain ⟨i1, i2⟩ := ih false rest' g4
        refine ⟨fun x hx => (by cases hx; exact g2), fun x hx => ?_⟩
        cases rs with
        | nil => cases hx
        | cons y ys =>
          rcases List.mem_cons.mp hx with rfl | hx
          · exact i1 x rfl
          · exact i2 x hx
    obtain ⟨i1, i2⟩ := inv rs true w k2
    have k4 : Greedy (fun w => (d.map Prod.fst).contains w) true w rs := by
      refine greedy_shrink (fun p hp => ?_) rs true w k2 (fun r hr => old _ _ ?_ (i1 r hr)) fun r hr => old _ _ ?_ (i2 r hr)
      · rw [List.contains_iff_mem] at hp ⊢
        exact hsub p hp
      · cases rs with
        | nil => cases hr
        | cons y ys => cases hr; exact List.mem_cons_self ..
      · cases rs with
        | nil => cases hr
        | cons y ys => exact List.mem_cons_of_mem _ (List.mem_map_of_mem hr)
    unfold SpanSubwords.newValue
    dsimp only
    rw [C33_segmentation _ unk n w rs k1 k2, C33_segmentation _ unk n w rs k1 k4]
  · exact absurd rfl (hout unk (by rw [k3]; exact List.mem_cons_self ..)).1

example : ∃ op op',
    create exEnv "SpanSubwords" [.dict [("a".toList, .int 0), ("##bc".toList, .int 1)], .str "[UNK]".toList] [] = .ok op ∧
    create exEnv "SpanSubwords" [.dict [("a".toList, .int 0), ("##bc".toList, .int 1), ("cb".toList, .int 2)],
      .str "[UNK]".toList] [] = .ok op' ∧
    op'.transform (.list [.str "abx".toList, .int 3]) = op.transform (.list [.str "abx".toList, .int 3]) :=
  ⟨_, _, rfl, rfl, C115_subwords exEnv
    [.dict [("a".toList, .int 0), ("##bc".toList, .int 1)], .str "[UNK]".toList]
    [.dict [("a".toList, .int 0), ("##bc".toList, .int 1), ("cb".toList, .int 2)], .str "[UNK]".toList] [] []
    _ _ _ _ _ _ rfl rfl (by decide) rfl rfl _ (by
      intro w hw p hp _ hf
      obtain rfl : w = "abx".toList := by simpa using hw
      obtain rfl : p = "cb".toList := by
        rcases List.mem_cons.mp hp.1 with rfl | h
        · exact absurd (by decide) hp.2
        rcases List.mem_cons.mp h with rfl | h
        · exact absurd (by decide) hp.2
        exact List.mem_singleton.mp h
      rcases hf with h | ⟨r, -, h, -⟩
      · have : 'c' ∈ "abx".toList := h.subset (by decide)
        revert this; decide
      · cases h)⟩

example : ∃ op op',
    create exEnv "SpanSubwords" [.dict [("a".toList, .int 0), ("##bc".toList, .int 1)], .str "[UNK]".toList] [] = .ok op ∧
    create exEnv "SpanSubwords" [.dict [("a".toList, .int 0), ("##bc".toList, .int 1), ("cb".toList, .int 2)],
      .str "[UNK]".toList] [] = .ok op' ∧
    op'.transform (.list [.str "abc".toList]) = op.transform (.list [.str "abc".toList]) :=
  ⟨_, _, rfl, rfl, C115_subwords_kept exEnv
    [.dict [("a".toList, .int 0), ("##bc".toList, .int 1)], .str "[UNK]".toList]
    [.dict [("a".toList, .int 0), ("##bc".toList, .int 1), ("cb".toList, .int 2)], .str "[UNK]".toList] [] []
    _ _ _ _ _ _ rfl rfl (by decide) rfl rfl ["abc".toList] [.str "a".toList, .str "##bc".toList] ⟨_, rfl⟩ (by
      intro p hp
      rcases List.mem_cons.mp hp with h | h
      · cases h; exact ⟨by decide, fun h => h.2 (by decide)⟩
      · cases List.mem_singleton.mp h; exact ⟨by decide, fun h => h.2 (by decide)⟩)⟩

/-- C115: a new entry can make a known word unknown. -/
theorem C115_unknown : ∃ op op',
    create exEnv "SpanSubwords" [.dict [("a".toList, .int 0), ("##bc".toList, .int 1)], .str "[UNK]".toList] [] = .ok op ∧
    create exEnv "SpanSubwords" [.dict [("a".toList, .int 0), ("##bc".toList, .int 1), ("ab".toList, .int 2)],
      .str "[UNK]".toList] [] = .ok op' ∧
    Gives op (.list [.str "abc".toList]) (.list [.str "a".toList, .str "##bc".toList]) ∧
    Gives op' (.list [.str "abc".toList]) (.list [.str "[UNK]".toList]) :=
  ⟨_, _, rfl, rfl, ⟨_, rfl⟩, ⟨_, rfl⟩⟩

/-! ### numbers of tokens -/

theorem dictGet_extends {α : Type} {d d' : List (Str × α)} (hd : (d.map Prod.fst).Nodup) (hd' : (d'.map Prod.fst).Nodup)
    (hsub : Extends d d') (s : Str) (h : s ∈ d'.map Prod.fst → s ∈ d.map Prod.fst) : dictGet d' s = dictGet d s := by
  by_cases hs : s ∈ d.map Prod.fst
  · obtain ⟨kv, hk, rfl⟩ := List.mem_map.mp hs
    rw [dictGet_of_mem d kv.1 kv.2 hd hk, dictGet_of_mem d' kv.1 kv.2 hd' (hsub kv hk)]
  · rw [(dictGet_none d s).mpr hs, (dictGet_none d' s).mpr fun h' => hs (h h')]

theorem index_made {env : Env} {args : List PyVal} {kwargs : List (Str × PyVal)} {d : List (Str × Int)} {unk : Str} {op : Op}
    (hb : bound token2indexParams args kwargs = some [.dict (d.map fun kv => (kv.1, .int kv.2)), .str unk])
    (h : create env "Token2Index" args kwargs = .ok op) :
    op.cls = Builtin.token2index env ∧ Token2Index.init d unk = .ok () ∧
      op.run = lstOp (Token2Index.transform env.σ d unk) := by
  obtain ⟨h1, h2⟩ := bound_unique (env := env) (name := "Token2Index") (c := Builtin.token2index env) rfl
    token2indexParams rfl rfl (by decide) hb h
  have h3 : ((PyVal.dict (d.map fun kv => (kv.1, .int kv.2))).asIndex >>= fun d => Token2Index.init d unk >>= fun _ =>
    .ok (lstOp (Token2Index.transform env.σ d unk))) = Except.ok op.run := h2
  rw [asIndex_ok, Except.bind_ok] at h3
  obtain ⟨_, h4, h5⟩ := bind_eq_ok h3
  injection h5 with h5
  exact ⟨h1, h4, h5.symm⟩

/-- C115: `Token2Index` with a larger mapping gives a list the same numbers exactly if none of the new tokens is in it. -/
theorem C115_index (env : Env) (args args' : List PyVal) (kwargs kwargs' : List (Str × PyVal)) (d d' : List (Str × Int))
    (unk : Str) (op op' : Op) (hd : (d.map Prod.fst).Nodup) (hd' : (d'.map Prod.fst).Nodup)
    (hb : bound token2indexParams args kwargs = some [.dict (d.map fun kv => (kv.1, .int kv.2)), .str unk])
    (hb' : bound token2indexParams args' kwargs' = some [.dict (d'.map fun kv => (kv.1, .int kv.2)), .str unk])
    (hsub : Extends d d') (h : create env "Token2Index" args kwargs = .ok op)
    (h' : create env "Token2Index" args' kwargs' = .ok op') (l : List Tok) :
    op'.transform (.list l) = op.transform (.list l) ↔
      ∀ w, .str w ∈ l → ¬ NewWord (d.map Prod.fst) (d'.map Prod.fst) w := by
  obtain ⟨c1, i1, r1⟩ := index_made hb h
  obtain ⟨c2, i2, r2⟩ := index_made hb' h'
  obtain ⟨hc', hu'⟩ := (C31_init d' unk).1.mp i2
  obtain ⟨hc, hu⟩ := (C31_init d unk).1.mp i1
  have hunk := dictGet_extends hd hd' hsub unk fun _ => hu
  constructor
  · intro he w hw ⟨n1, n2⟩
    obtain ⟨out, a, t1, l1, _, _, u1, _⟩ := C31_transform env.σ d unk hd i1 l
    obtain ⟨out', a', t2, l2, _, _, u2, _⟩ := C31_transform env.σ d' unk hd' i2 l
    have e1 : op.transform (.list l) = .ok (.list (out.map Tok.int), a) := runs_list_op (by rw [c1]; rfl) (by rw [c1]; rfl) r1 t1
    have e2 : op'.transform (.list l) = .ok (.list (out'.map Tok.int), a') :=
      runs_list_op (by rw [c2]; rfl) (by rw [c2]; rfl) r2 t2
    rw [e1, e2] at he
    injection he with he
    injection he with he _
    rw [seq_list_inj] at he
    have ho : out' = out := (List.map_injective_iff.mpr fun x y hxy => by cases hxy; rfl) he
    subst ho
    obtain ⟨j, hj, ej⟩ := List.mem_iff_getElem.mp hw
    have hm : (l[j], out'[j]'(by omega)) ∈ l.zip out' :=
      List.mem_of_getElem? (i := j) (List.getElem?_zip_eq_some.mpr ⟨by simp, by simp⟩)
    have q1 := (u1 _ hm).1
    have q2 := (u2 _ hm).1
    rw [ej] at q1 q2
    have q1 : (unk, out'[j]) ∈ d := (q1.resolve_left fun q => n2 (List.mem_map_of_mem (f := Prod.fst) q)).2
    have q2 : (w, out'[j]) ∈ d' := q2.resolve_right fun q => q.1 n1
    have := eq_of_nodup_map Prod.snd hc'.2.1 (hsub _ q1) q2 rfl
    injection this with this _
    subst this
    exact n2 hu
  · intro hn
    refine lst_congr (c2.trans c1.symm) r2 r1 ?_
    unfold Token2Index.transform
    refine tokenwise_congr (fun x hx => ?_) _
    unfold Token2Index.newValue
    rw [hunk]
    cases x with
    | int i => rfl
    | str w =>
      dsimp only
      rw [dictGet_extends hd hd' hsub w fun hw => by_contra fun h2 => hn w hx ⟨hw, h2⟩]

theorem hash_made {env : Env} {args : List PyVal} {kwargs : List (Str × PyVal)} {d : List (Str × Int)} {op : Op}
    (hb : bound token2indexHashParams args kwargs = some [.dict (d.map fun kv => (kv.1, .int kv.2))])
    (h : create env "Token2IndexwithHash" args kwargs = .ok op) :
    op.cls = Builtin.token2indexHash env ∧ op.run = lstOp (Token2IndexwithHash.transform env.σ d) := by
  obtain ⟨h1, h2⟩ := bound_unique (env := env) (name := "Token2IndexwithHash") (c := Builtin.token2indexHash env) rfl
    token2indexHashParams rfl rfl (by decide) hb h
  have h3 : ((PyVal.dict (d.map fun kv => (kv.1, .int kv.2))).asIndex >>= fun d => Token2IndexwithHash.init d >>= fun _ =>
    .ok (lstOp (Token2IndexwithHash.transform env.σ d))) = Except.ok op.run := h2
  rw [asIndex_ok, Except.bind_ok] at h3
  obtain ⟨_, h4, h5⟩ := bind_eq_ok h3
  injection h5 with h5
  exact ⟨h1, h5.symm⟩

/-- C115: `Token2IndexwithHash` with a larger mapping gives the same numbers to lists of old tokens. -/
theorem C115_hash (env : Env) (args args' : List PyVal) (kwargs kwargs' : List (Str × PyVal)) (d d' : List (Str × Int))
    (op op' : Op) (hd : (d.map Prod.fst).Nodup) (hd' : (d'.map Prod.fst).Nodup)
    (hb : bound token2indexHashParams args kwargs = some [.dict (d.map fun kv => (kv.1, .int kv.2))])
    (hb' : bound token2indexHashParams args' kwargs' = some [.dict (d'.map fun kv => (kv.1, .int kv.2))])
    (hsub : Extends d d') (h : create env "Token2IndexwithHash" args kwargs = .ok op)
    (h' : create env "Token2IndexwithHash" args' kwargs' = .ok op') (l : List Tok)
    (hl : ∀ w, .str w ∈ l → w ∈ d.map Prod.fst) : op'.transform (.list l) = op.transform (.list l) := by
  obtain ⟨c1, r1⟩ := hash_made hb h
  obtain ⟨c2, r2⟩ := hash_made hb' h'
  refine lst_congr (c2.trans c1.symm) r2 r1 ?_
  unfold Token2IndexwithHash.transform
  refine tokenwise_congr (fun x hx => ?_) _
  unfold Token2IndexwithHash.newValue
  cases x with
  | int i => rfl
  | str w =>
    have hw := hl w hx
    dsimp only
    rw [dictGet_extends hd hd' hsub w fun _ => hw]
    obtain ⟨kv, hk, rfl⟩ := List.mem_map.mp hw
    rw [dictGet_of_mem d kv.1 kv.2 hd hk]

example : ∃ op op', create exEnv "Token2Index" [.dict [("x".toList, .int 0), ("[UNK]".toList, .int 1)], .str "[UNK]".toList] [] = .ok op ∧
    create exEnv "Token2Index" [.dict [("x".toList, .int 0), ("[UNK]".toList, .int 1), ("y".toList, .int 2)], .str "[UNK]".toList] []
      = .ok op' ∧
    op'.transform (.list [.str "x".toList, .str "z".toList]) = op.transform (.list [.str "x".toList, .str "z".toList]) :=
  ⟨_, _, rfl, rfl, (C115_index exEnv [.dict [("x".toList, .int 0), ("[UNK]".toList, .int 1)], .str "[UNK]".toList]
    [.dict [("x".toList, .int 0), ("[UNK]".toList, .int 1), ("y".toList, .int 2)], .str "[UNK]".toList] [] []
    [("x".toList, 0), ("[UNK]".toList, 1)] [("x".toList, 0), ("[UNK]".toList, 1), ("y".toList, 2)] _ _ _
    (by decide) (by decide) rfl rfl (by unfold Extends; decide) rfl rfl _).mpr (by
      intro w hw h
      rcases List.mem_cons.mp hw with e | e
      · cases e; exact h.2 (by decide)
      · cases List.mem_singleton.mp e
        exact absurd h.1 (by decide))⟩

example : ∃ op op', create exEnv "Token2IndexwithHash" [.dict [("x".toList, .int 0)]] [] = .ok op ∧
    create exEnv "Token2IndexwithHash" [.dict [("x".toList, .int 0), ("y".toList, .int 1)]] [] = .ok op' ∧
    op'.transform (.list [.str "x".toList]) = op.transform (.list [.str "x".toList]) :=
  ⟨_, _, rfl, rfl, C115_hash exEnv [.dict [("x".toList, .int 0)]] [.dict [("x".toList, .int 0), ("y".toList, .int 1)]] [] []
    [("x".toList, 0)] [("x".toList, 0), ("y".toList, 1)] _ _ (by decide) (by decide) rfl rfl
    (by unfold Extends; decide) rfl rfl _ (by
      intro w hw
      cases List.mem_singleton.mp hw
      decide)⟩

/-- C115: but tokens that are in neither mapping can get other numbers. -/
theorem C115_hash_moves : ∃ op op', create exEnv "Token2IndexwithHash" [.dict [("x".toList, .int 0)]] [] = .ok op ∧
    create exEnv "Token2IndexwithHash" [.dict [("x".toList, .int 0), ("y".toList, .int 1)]] [] = .ok op' ∧
    Gives op (.list [.str "hello".toList]) (.list [.int 0]) ∧ Gives op' (.list [.str "hello".toList]) (.list [.int 1]) :=
  ⟨_, _, rfl, rfl, ⟨_, rfl⟩, ⟨_, rfl⟩⟩

/-! ### pipes -/

theorem runSteps_congr (pre post : List Op) (op op' : Op) (s x : Seq) (as : List Aligner) (coll : List Seq) (bs : List Aligner)
    (c : List Seq) (h : Pipe.runSteps pre s bs c = .ok (x, as, coll)) (he : op'.transform x = op.transform x) :
    Pipe.runSteps (pre ++ op' :: post) s bs c = Pipe.runSteps (pre ++ op :: post) s bs c := by
  induction pre generalizing s bs c with
  | nil =>
    cases h
    show (op'.transform _ >>= _) = (op.transform _ >>= _)
    rw [he]
  | cons o pre ih =>
    have h : (o.transform s >>= fun r => Pipe.runSteps pre r.1 _ _) = .ok (x, as, coll) := h
    obtain ⟨⟨t, a⟩, h1, h2⟩ := bind_eq_ok h
    show (o.transform s >>= _) = (o.transform s >>= _)
    rw [h1]
    exact ih _ _ _ h2

/-- C115: a pipe with such a step in place of another gives the same if the step is given something of which both make the
same. -/
theorem C115_pipe (pre post : List Op) (op op' : Op) (cks cks' : List (Str × Int)) (s x : Seq) (as : List Aligner)
    (coll : List Seq) (h : Pipe.transformSequence ⟨pre, cks'⟩ s = .ok (x, as, coll)) (he : op'.transform x = op.transform x) :
    Pipe.transformSequence ⟨pre ++ op' :: post, cks⟩ s = Pipe.transformSequence ⟨pre ++ op :: post, cks⟩ s :=
  runSteps_congr pre post op op' s x as coll _ _ h he

example (s : Seq) (x : Seq) (as : List Aligner) (coll : List Seq) (lower op op' : Op)
    (_ : create exEnv "Lowercase" [] [] = .ok lower) (_ : create exEnv "CustomWordTokenizer" [.list [.str "bc".toList]] [] = .ok op)
    (_ : create exEnv "CustomWordTokenizer" [.list [.str "bc".toList, .str "cd".toList]] [] = .ok op')
    (h : Pipe.transformSequence ⟨[lower], []⟩ s = .ok (x, as, coll)) (he : op'.transform x = op.transform x) :
    Pipe.transformSequence ⟨[lower, op'], []⟩ s = Pipe.transformSequence ⟨[lower, op], []⟩ s :=
  C115_pipe [lower] [] op op' [] [] s x as coll h he

/-! ### data -/

theorem pyDedup_prefix {α : Type} [DecidableEq α] (a b : List α) : pyDedup a <+: pyDedup (a ++ b) := by
  induction a with
  | nil => exact List.nil_prefix
  | cons x a ih =>
    rw [List.cons_append, pyDedup, pyDedup, List.cons_prefix_cons]
    exact ⟨rfl, ih.filter _⟩

theorem numbered_prefix (f : Nat → Int) {l l' : List Str} (h : l <+: l') : numbered f l <+: numbered f l' := by
  obtain ⟨m, rfl⟩ := h
  unfold numbered
  rw [List.zipIdx_append, List.map_append]
  exact List.prefix_append ..

theorem mapM_keeps {α β : Type} {f g : α → Res β} {l : List α} (h : ∀ x ∈ l, ∀ y, f x = .ok y → g x = .ok y) {ys : List β}
    (hl : l.mapM f = .ok ys) : l.mapM g = .ok ys := by
  induction l generalizing ys with
  | nil => exact hl
  | cons x l ih =>
    rw [List.mapM_cons] at hl ⊢
    obtain ⟨y, h1, h2⟩ := bind_eq_ok hl
    obtain ⟨zs, h3, h4⟩ := bind_eq_ok h2
    rw [h x (List.mem_cons_self ..) y h1, Except.bind_ok, ih (fun z hz => h z (List.mem_cons_of_mem _ hz)) h3, Except.bind_ok]
    exact h4

theorem lookup_prefix {m m' : List (Str × Int)} (h : m <+: m') (name : Str) (i : Int)
    (hl : OrdinalLabel.lookup m name = .ok i) : OrdinalLabel.lookup m' name = .ok i := by
  obtain ⟨n, rfl⟩ := h
  unfold OrdinalLabel.lookup at hl ⊢
  rw [dictGet_append]
  cases hd : dictGet m name with
  | none => rw [hd] at hl; cases hl
  | some j => rw [hd] at hl; exact hl

theorem findIndex_prefix {m m' : List (Str × Int)} (h : m <+: m') (i : Int) (name : Str)
    (hl : OrdinalLabel.findIndex m i = .ok name) : OrdinalLabel.findIndex m' i = .ok name := by
  obtain ⟨n, rfl⟩ := h
  induction m with
  | nil => cases hl
  | cons p m ih =>
    obtain ⟨a, b⟩ := p
    rw [List.cons_append]
    unfold OrdinalLabel.findIndex at hl ⊢
    split
    · rename_i hi; rw [if_pos hi] at hl; exact hl
    · rename_i hi; rw [if_neg hi] at hl; exact ih hl

theorem machanize_keeps {t t' : OrdinalLabel} (hi : t.intent2index <+: t'.intent2index)
    (he : t.entity2index <+: t'.entity2index) (r : RawDatum) (d : Datum) (h : t.machanize r = .ok d) : t'.machanize r = .ok d := by
  unfold OrdinalLabel.machanize at h ⊢
  obtain ⟨xs, h1, h⟩ := bind_eq_ok h
  obtain ⟨ys, h2, h⟩ := bind_eq_ok h
  have m1 : (r.names.mapM fun name => (do
      let i ← OrdinalLabel.lookup t'.intent2index name
      Intent.new i : Res Intent)) = .ok xs := mapM_keeps (fun name _ y hy => by
    obtain ⟨i, h3, h4⟩ := bind_eq_ok hy
    rw [lookup_prefix hi name i h3]
    exact h4) h1
  have m2 : (r.entities.getD []).mapM (t'.machanizeEntity r.utterance) = .ok ys := mapM_keeps (fun e _ y hy => by
    unfold OrdinalLabel.machanizeEntity at hy ⊢
    obtain ⟨i, h3, h4⟩ := bind_eq_ok hy
    rw [lookup_prefix he e.name i h3]
    exact h4) h2
  rw [m1, Except.bind_ok, m2, Except.bind_ok]
  exact h

theorem humanize_keeps {t t' : OrdinalLabel} (hi : t.intent2index <+: t'.intent2index)
    (he : t.entity2index <+: t'.entity2index) (σ : SetOrder) (d : Datum) (r : RawDatum) (h : t.humanize σ d = .ok r) :
    t'.humanize σ d = .ok r := by
  unfold OrdinalLabel.humanize at h ⊢
  obtain ⟨xs, h1, h⟩ := bind_eq_ok h
  have m1 : (d.intents.mapM fun i => t'.index2intent i.label) = .ok xs :=
    mapM_keeps (fun i _ y hy => findIndex_prefix hi i.label y hy) h1
  rw [m1, Except.bind_ok]
  by_cases hd : d.hasEntities = true
  · rw [if_pos hd] at h ⊢
    obtain ⟨ys, h2, h⟩ := bind_eq_ok h
    have m2 : d.entities.mapM (t'.humanizeEntity σ) = .ok ys := mapM_keeps (fun e _ y hy => by
      unfold OrdinalLabel.humanizeEntity at hy ⊢
      obtain ⟨i, h3, h4⟩ := bind_eq_ok hy
      have h3' : t'.index2entity e.label = .ok i := findIndex_prefix he e.label i h3
      rw [h3']
      exact h4) h2
    rw [m2, Except.bind_ok]
    exact h
  · rw [if_neg hd] at h ⊢
    exact h

/-- C115: if further data are put behind the data a transformer is made of, all names keep their numbers: data that were
turned into numbers, or back, give the same with the transformer made of all data. -/
theorem C115_data (data more : List RawDatum) (ne : Int) (t : OrdinalLabel)
    (hr : notEntityName ∉ (data ++ more).flatMap fun d => (d.entities.getD []).map fun e => e.name)
    (h : OrdinalLabel.fromRawDictionary data ne = .ok t) :
    ∃ t', OrdinalLabel.fromRawDictionary (data ++ more) ne = .ok t' ∧ t'.notEntityIndex = t.notEntityIndex ∧
      (∀ r d, t.machanize r = .ok d → t'.machanize r = .ok d) ∧
      ∀ σ d r, t.humanize σ d = .ok r → t'.humanize σ d = .ok r := by
  rw [List.flatMap_append] at hr
  have hr1 : notEntityName ∉ data.flatMap fun d => (d.entities.getD []).map fun e => e.name := fun h =>
    hr (List.mem_append.mpr (.inl h))
  have e1 := fromRaw_eq data ne _ _ rfl rfl
  have e2 := fromRaw_eq (data ++ more) ne _ _ rfl rfl
  rw [List.flatMap_append, List.flatMap_append] at e2
  generalize (data.flatMap fun d => d.names) = is at e1 e2
  generalize (data.flatMap fun d => (d.entities.getD []).map fun e => e.name) = es at e1 e2 hr hr1
  generalize (more.flatMap fun d => d.names) = is' at e2
  generalize (more.flatMap fun d => (d.entities.getD []).map fun e => e.name) = es' at e2 hr
  generalize hf : (fun k : Nat => if 0 ≤ ne ∧ ne ≤ (k : Int) then (k : Int) + 1 else k) = f at e1 e2
  have valid : ∀ l : List Str, notEntityName ∉ l → notEntityName ∉ (numbered f (pyDedup l)).map Prod.fst := fun l h => by
    rw [numbered_keys, mem_pyDedup]; exact h
  obtain ⟨k1, k2⟩ := C53_new (numbered (fun k => (k : Int)) (pyDedup is)) _ ne (valid es hr1)
  obtain ⟨k3, k4⟩ := C53_new (numbered (fun k => (k : Int)) (pyDedup (is ++ is'))) _ ne (valid (es ++ es') hr)
  subst hf
  rw [numbered_values, numbered_values, numbering_skip] at k1 k2 k3 k4
  have hne : 0 ≤ ne ∧ ne ≤ (pyDedup es).length := by
    by_contra hne
    rw [e1, k2 fun h => hne h.2] at h
    cases h
  have hlen := (pyDedup_prefix es es').length_le
  rw [e1, k1 ⟨numbering_range _, hne⟩] at h
  cases h
  have hi := numbered_prefix (fun k => (k : Int)) (pyDedup_prefix is is')
  have he := numbered_prefix (fun k : Nat => if 0 ≤ ne ∧ ne ≤ (k : Int) then (k : Int) + 1 else k) (pyDedup_prefix es es')
  exact ⟨_, e2.trans (k3 ⟨numbering_range _, hne.1, by omega⟩), rfl, machanize_keeps hi he, humanize_keeps hi he⟩

example : ∃ t t', OrdinalLabel.fromRawDictionary [⟨"x".toList, ["a".toList], none⟩] 0 = .ok t ∧
    OrdinalLabel.fromRawDictionary [⟨"x".toList, ["a".toList], none⟩, ⟨"y".toList, ["b".toList], none⟩] 0 = .ok t' ∧
    t'.machanize ⟨"z".toList, ["a".toList], none⟩ = .ok ⟨"z".toList, [⟨0⟩], []⟩ := by
  obtain ⟨t', h1, -, h2, -⟩ := C115_data [⟨"x".toList, ["a".toList], none⟩] [⟨"y".toList, ["b".toList], none⟩] 0 _ (by decide) rfl
  exact ⟨_, t', rfl, h1, h2 _ _ rfl⟩

/-- C115: data put in front of the others can give the names other numbers. -/
theorem C115_data_front : ∃ (data more : List RawDatum) (t t' : OrdinalLabel) (r : RawDatum),
    OrdinalLabel.fromRawDictionary data 0 = .ok t ∧ OrdinalLabel.fromRawDictionary (more ++ data) 0 = .ok t' ∧
    t.machanize r = .ok ⟨"x".toList, [⟨0⟩], []⟩ ∧ t'.machanize r = .ok ⟨"x".toList, [⟨1⟩], []⟩ :=
  ⟨[⟨"x".toList, ["a".toList], none⟩], [⟨"y".toList, ["b".toList], none⟩], _, _, ⟨"x".toList, ["a".toList], none⟩, rfl, rfl, rfl, rfl⟩

end Uttut
