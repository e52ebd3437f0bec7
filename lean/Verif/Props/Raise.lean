import Verif.Lemmas.Raise
import Verif.Props.Arguments
import Verif.Props.Bert
import Verif.Props.Names
import Verif.Props.Readme

/-! C90: which calls raise an exception, and how large results are. -/

namespace Uttut

open Spec

/-! ### objects made by name -/

theorem madeBy_cls {env : Env} {name : String} {args : List PyVal} {kwargs : List (Str × PyVal)} {op : Op}
    (h : MadeBy env name args kwargs op) : IsBuiltin env op ∧ op.cls.name = name.toList := by
  obtain ⟨h, hk⟩ := h
  obtain ⟨c, h1, h2⟩ := bind_eq_ok h
  have hc : c ∈ Builtin.all env ∧ c.name = name.toList := by
    unfold Factory.get at h1
    split at h1
    · rename_i c' hget
      injection h1 with h1
      subst h1
      have := dictGet_mem _ _ _ hget
      obtain ⟨c', hc', e⟩ := List.mem_map.mp this
      injection e with e1 e2
      subst e2
      exact ⟨hc', e1⟩
    · cases h1
  exact ⟨⟨c, hc.1, args, kwargs, hk, h2⟩, by rw [(call_run h2).1]; exact hc.2⟩

/-- What a step does on a sequence it accepts. -/
def Managed (op : Op) (x : Seq) (o : Kind) (n : Nat) : Prop :=
  ∃ t a, op.transform x = .ok (t, a) ∧ o.Holds t ∧ seqSize t ≤ n ∧ Faithful a x.length t.length

theorem good_of {env : Env} (he : env.Sane) {name : String} {args : List PyVal} {kwargs : List (Str × PyVal)} {op : Op}
    (h : MadeBy env name args kwargs op) (hn : name ∉ ["ReplaceAwithB", "SpanSubwords"]) {x t : Seq} {o : Kind} {n : Nat}
    (hg : Gives op x t) (ho : o.Holds t) (hs : seqSize t ≤ n) : Managed op x o n := by
  obtain ⟨a, ha⟩ := hg
  obtain ⟨h1, h2⟩ := madeBy_cls h
  refine ⟨t, a, ha, ho, hs, C14_aligned env he op h1 x t a ha (C14_safe env op x (Or.inl ?_))⟩
  rw [h2]
  simp only [List.mem_cons, List.not_mem_nil, or_false, not_or] at hn ⊢
  exact ⟨fun e => hn.1 (String.toList_inj.mp e), fun e => hn.2 (String.toList_inj.mp e)⟩

theorem creates_gives {α β : Type} {r : Res Op} {i : α → Seq} {o : β → Seq} {dom : α → Prop} {f : α → β}
    (h : CreatesMap r i o dom f) {op : Op} (hr : r = .ok op) {x : α} (hx : dom x) : Gives op (i x) (o (f x)) := by
  obtain ⟨op', h1, h2⟩ := h
  rw [hr] at h1
  injection h1 with h1
  subst h1
  exact h2 x hx

/-! ### texts -/

theorem numbers_length (u : Unicode) (q : Str → Bool) (t : Str) (k : Nat) (hk : 1 ≤ k)
    (h : ∀ r, r ≠ [] → q r = true → t.length ≤ k * r.length) (s : Str) :
    (mapRuns (numeric u) (fun r => if q r then t else r) s).length ≤ k * s.length := by
  refine mapRuns_length_le _ _ k hk (fun r hr => ?_) s
  split
  · rename_i hq
    exact h r hr hq
  · exact Nat.le_mul_of_pos_left _ hk

theorem segmented_parts {ws : List Str} (hw : ∀ w ∈ ws, w ≠ []) {s : Str} {segs : List Str} (h : Segmented ws s segs) :
    segs.flatten = s ∧ ∀ w ∈ segs, w ≠ [] := by
  induction h with
  | nil => exact ⟨rfl, by simp⟩
  | char c rest segs _ _ ih => exact ⟨by rw [List.flatten_cons, ih.1]; rfl, by simpa using ih.2⟩
  | word w rest segs hm _ _ ih => exact ⟨by rw [List.flatten_cons, ih.1], by simpa using ⟨hw w hm, ih.2⟩⟩

theorem wordSegs_parts {ws : List Str} {sh : Bool} {s : Str} {segs : List Str} (h : WordSegs ws sh s segs) :
    segs.flatten = s ∧ ∀ w ∈ segs, w ≠ [] := by
  induction h with
  | nil => exact ⟨rfl, by simp⟩
  | char c rest segs _ _ ih => exact ⟨by rw [List.flatten_cons, ih.1]; rfl, by simpa using ih.2⟩
  | word w rest segs hb _ ih => exact ⟨by rw [List.flatten_cons, ih.1], by simpa using ⟨hb.2.1, ih.2⟩⟩

theorem tokenized_size {own : Char → Bool} {t : Str} {ps : List (Str × Str)} {tail : Str}
    (h : TokenizedBy own t ps tail) : (ps.map Prod.snd).flatten.length ≤ t.length := by
  rw [C39_C40_join own t ps tail h]
  exact List.length_filter_le _ _

theorem text_step {env : Env} (he : env.Sane) {op : Op} {name : String} {k : Nat} (hn : (name, k) ∈ textSteps)
    (h : MadeBy env name [] [] op) (s : Str) : ∃ t, Gives op (.str s) (.str t) ∧ t.length ≤ k * s.length := by
  obtain ⟨c1, c2, c3, c4, c5, c6, c7, c8, c9, c10, c11, _⟩ := C74_text_operators env he
  have g : ∀ {f : Str → Str}, CreatesMap (create env name [] []) Seq.str Seq.str (fun _ => True) f →
      (f s).length ≤ k * s.length → ∃ t, Gives op (.str s) (.str t) ∧ t.length ≤ k * s.length :=
    fun hc hl => ⟨_, creates_gives hc h.1 trivial, hl⟩
  simp only [textSteps, List.mem_cons, List.not_mem_nil, or_false, Prod.mk.injEq] at hn
  have pos : ∀ r : Str, r ≠ [] → 0 < r.length := fun r hr => List.length_pos_iff.mpr hr
  rcases hn with ⟨rfl, rfl⟩ | ⟨rfl, rfl⟩ | ⟨rfl, rfl⟩ | ⟨rfl, rfl⟩ | ⟨rfl, rfl⟩ | ⟨rfl, rfl⟩ | ⟨rfl, rfl⟩ | ⟨rfl, rfl⟩ |
    ⟨rfl, rfl⟩ | ⟨rfl, rfl⟩ | ⟨rfl, rfl⟩ | ⟨rfl, rfl⟩
  · exact g c1 (by rw [List.length_map]; omega)
  · refine g c2 (chars_length_le _ 3 (fun c => ?_) s)
    split <;> simp
  · refine g c3 (chars_length_le _ 3 (fun c => ?_) s)
    split <;> simp
  · exact g c4 (by rw [List.length_map]; omega)
  · refine g c5 (numbers_length _ _ _ 5 (by omega) (fun r hr _ => ?_) s)
    have := pos r hr
    show 5 ≤ _
    omega
  · refine g c6 (numbers_length _ _ _ 3 (by omega) (fun r _ hq => ?_) s)
    have := isFloat_length _ _ hq
    show 7 ≤ _
    omega
  · refine g c7 (numbers_length _ _ _ 7 (by omega) (fun r hr _ => ?_) s)
    have := pos r hr
    show 7 ≤ _
    omega
  · refine g c8 (numbers_length _ _ _ 3 (by omega) (fun r _ hq => ?_) s)
    have := isFloat_length _ _ hq
    show 9 ≤ _
    omega
  · refine g c9 (numbers_length _ _ _ 7 (by omega) (fun r hr _ => ?_) s)
    have := pos r hr
    show 7 ≤ _
    omega
  · refine g c10 (mapRuns_length_le _ _ 1 (by omega) (fun r hr => ?_) s)
    have := pos r hr
    show 1 ≤ _
    omega
  · exact g c11 (by have := strip_length_le s; omega)
  · obtain ⟨op', h1, h2⟩ := (C74_tokenizers env).1
    rw [h.1] at h1
    injection h1 with h1
    subst h1
    obtain ⟨segs, hs, _⟩ := C23_segments s
    refine ⟨_, h2 s segs hs, ?_⟩
    obtain ⟨e, hne⟩ := segmented_parts (by decide) hs
    have e : s.length = (segs.map List.length).sum := by rw [← flatten_length_sum, e]
    rw [e]
    refine flatMap_length_le _ 1 _ _ fun w hw => ?_
    have := pos w (hne w hw)
    split
    · show 1 ≤ _
      omega
    · omega

theorem words_of_text {t : Seq} {l : List Str} {s : Str} (ht : t = .list (l.map Tok.str)) (hne : ∀ w ∈ l, w ≠ [])
    (hs : l.flatten.length ≤ s.length) : Kind.words.Holds t ∧ seqSize t ≤ 1 * s.length + 0 := by
  refine ⟨⟨l, ht, hne⟩, ?_⟩
  rw [ht, words_size hne]
  omega

theorem pieces_exist (v : PyVal) (unk : Str) (k : Int) (w : Str) : ∃ ps, PiecesIn v unk k w ps := by
  classical
  by_cases h : (w.length : Int) ≤ k ∧ ∃ rs, Greedy (fun w => decide (InValue v w)) true w rs
  · obtain ⟨h1, rs, h2⟩ := h
    exact ⟨_, Or.inl ⟨h1, rs, h2, rfl⟩⟩
  · refine ⟨[unk], Or.inr ⟨?_, rfl⟩⟩
    by_cases h1 : (w.length : Int) ≤ k
    · exact Or.inr fun h2 => h ⟨h1, h2⟩
    · exact Or.inl (by omega)

theorem greedy_parts {vocab : Str → Bool} {first : Bool} {w : Str} {rs : List Str} (h : Greedy vocab first w rs) :
    ∀ r ∈ rs, r ≠ [] := by
  induction rs generalizing first w with
  | nil => simp
  | cons r rs ih =>
    obtain ⟨h1, _, _, w', _, h2⟩ := h
    intro x hx
    rcases List.mem_cons.mp hx with rfl | hx
    · exact h1
    · exact ih h2 x hx

theorem tail_size (rs : List Str) (h : ∀ r ∈ rs, r ≠ []) :
    (rs.map (wordPiece false)).flatten.length ≤ 3 * rs.flatten.length := by
  induction rs with
  | nil => simp
  | cons r rs ih =>
    have := ih fun x hx => h x (by simp [hx])
    have h1 : 0 < r.length := List.length_pos_iff.mpr (h r (by simp))
    simp only [List.map_cons, List.flatten_cons, List.length_append, wordPiece, Bool.false_eq_true, if_false,
      List.length_cons]
    omega

theorem pieces_size {v : PyVal} {unk : Str} {k : Int} {w : Str} {ps : List Str} (hw : w ≠ []) (hu : unk ≠ [])
    (h : PiecesIn v unk k w ps) : (∀ p ∈ ps, p ≠ []) ∧ ps.flatten.length ≤ max 3 unk.length * w.length := by
  have hw : 0 < w.length := List.length_pos_iff.mpr hw
  rcases h with ⟨_, rs, h1, rfl⟩ | ⟨_, rfl⟩
  · have hne := greedy_parts h1
    have hj := C33_concatenates _ _ _ _ h1
    have hle : 3 * w.length ≤ max 3 unk.length * w.length := Nat.mul_le_mul_right _ (Nat.le_max_left _ _)
    cases rs with
    | nil => exact ⟨by simp [wordPieces], by simp [wordPieces]⟩
    | cons r rs =>
      have h2 := tail_size rs fun x hx => hne x (by simp [hx])
      have h3 : r.length + rs.flatten.length = w.length := by rw [← hj, List.flatten_cons, List.length_append]
      constructor
      · intro p hp
        rcases List.mem_cons.mp hp with hp | hp
        · rw [hp]
          exact hne r (by simp)
        · obtain ⟨x, _, rfl⟩ := List.mem_map.mp hp
          simp [wordPiece]
      · show (wordPiece true r :: rs.map (wordPiece false)).flatten.length ≤ _
        rw [List.flatten_cons, List.length_append]
        show r.length + _ ≤ _
        omega
  · refine ⟨by simpa using hu, ?_⟩
    have : unk.length ≤ max 3 unk.length * w.length :=
      Nat.le_trans (Nat.le_max_right 3 _) (Nat.le_mul_of_pos_right _ hw)
    simpa using this

theorem noTwoEmpty_of {l : List Str} (h : ∀ w ∈ l, w ≠ []) : NoTwoEmpty l := by
  induction l with
  | nil => trivial
  | cons a l ih =>
    cases l with
    | nil => trivial
    | cons b l => exact ⟨Or.inl (h a (by simp)), ih fun w hw => h w (by simp [hw])⟩

theorem aroundWords_step {env : Env} (he : env.Sane) {op : Op} {args : List PyVal} {kwargs : List (Str × PyVal)} {v sh : PyVal}
    {ws : List Str} (h : MadeBy env "AddWhitespaceAroundWordnZhChar" args kwargs op)
    (hb : bound wordParams args kwargs = some [v, sh]) (hw : WordsIn v ws) (s : Str) :
    Managed op (.str s) .text (3 * s.length + 0) := by
  classical
  have hcr := h.1
  obtain ⟨h1, h2, h3⟩ := (C84_around_words env args kwargs v sh hb).1 ws (decide (¬ Falsy sh)) hw (by simp)
  have hg : GoodWords ws := by
    by_contra hc
    by_cases hn : ws = []
    · rw [h2 hn] at hcr; cases hcr
    · rw [h3 hn hc] at hcr; cases hcr
  obtain ⟨op', e, h1⟩ := h1 hg
  rw [e] at hcr
  injection hcr with hcr
  subst hcr
  obtain ⟨tr, htr⟩ := (C36_build ws).1.mpr hg
  obtain ⟨_, segs, _, hseg, _⟩ := C37_C42_custom env.σ ws tr htr (decide (¬ Falsy sh)) s
  obtain ⟨e1, e2⟩ := wordSegs_parts hseg
  refine good_of he h (by decide) (h1 s segs hseg) ⟨_, rfl⟩ ?_
  have e : s.length = (segs.map List.length).sum := by rw [← flatten_length_sum, e1]
  show (segs.flatMap (spaced ws)).length ≤ 3 * s.length + 0
  rw [e]
  refine flatMap_length_le _ 3 _ _ fun w hw => ?_
  have : 0 < w.length := List.length_pos_iff.mpr (e2 w hw)
  unfold spaced
  split
  · simp only [List.length_append, List.length_cons, List.length_nil]
    omega
  · omega

theorem fails_str {c : OpClass} {cfg : List (Str × PyVal)} {f : Str → Res (Str × Aligner)} {s : Str} {e : Exc}
    (hi : c.inputType = .str) (h : f s = .error e) : Op.transform ⟨c, cfg, strOp f⟩ (.str s) = .error e := by
  unfold Op.transform
  rw [if_neg (by simp [hi, Seq.type])]
  have : strOp f (.str s) = .error e := by
    show (f s >>= _) = _
    rw [h]
    rfl
  simp only [this]
  rfl

theorem replace_step {env : Env} (he : env.Sane) {op : Op} {args : List PyVal} {kwargs : List (Str × PyVal)} {a b : Str}
    (h : create env "ReplaceAwithB" args kwargs = .ok op)
    (hb : bound replaceParams args kwargs = some [.str a, .str b]) (hne : b ≠ []) (s : Str) :
    Managed op (.str s) .text ((b.length + 1) * s.length + 0) ∨ op.transform (.str s) = .error .nonTermination := by
  obtain ⟨h1, h2, _⟩ := create_eq (env := env) (name := "ReplaceAwithB") (c := Builtin.replace env) rfl
    replaceParams rfl rfl (by decide) args kwargs
  cases hm : env.compile a with
  | none =>
    have hi : (Builtin.replace env).init [.str a, .str b] = .error .reError := by
      show Builtin.replaceInit env [.str a, .str b] = _
      simp only [Builtin.replaceInit, PyVal.asStr, hm, Except.bind_ok]
    rw [h2 _ _ hb hi] at h
    cases h
  | some m =>
    have hi : (Builtin.replace env).init [.str a, .str b] = .ok (strOp (ReplaceAwithB.transform env.σ m b)) := by
      show Builtin.replaceInit env [.str a, .str b] = _
      simp only [Builtin.replaceInit, PyVal.asStr, hm, Except.bind_ok]
      rfl
    rw [h1 _ _ hb hi] at h
    injection h with h
    have hsound := he.sound a m hm
    by_cases hst : ∃ p, Reached m s p ∧ p < s.length ∧ m s p = some (p, p)
    · right
      have : ReplaceAwithB.transform env.σ m b s = .error .nonTermination :=
        ((C24_fuel env.σ m b _ _ s (hsound s)).2 hst).2
      rw [← h]
      exact fails_str rfl this
    · left
      obtain ⟨ms, hms⟩ := scan_exists (hsound s) (fun p hr hp hm => hst ⟨p, hr, hp, hm⟩) s.length 0 (by omega) (by omega)
        .start
      obtain ⟨al, g1, _⟩ := C25_replace env.σ m b s (hsound s) ms hms
      have g2 : Gives op (.str s) (.str (replaceMatches s b 0 ms)) := by
        rw [← h]
        exact gives_str rfl rfl g1
      obtain ⟨al', g2⟩ := g2
      have hk := replace_kept env.σ m hsound b (fun _ => True) (fun _ _ h0 => absurd h0 hne) (.str s) _ al'
        (by
          have := transform_run g2
          rw [← h] at this
          exact this)
      refine ⟨_, al', g2, ⟨_, rfl⟩, ?_, faithful_of ⟨hk.input, hk.output, hk.forward, hk.backward trivial⟩ hk.honest⟩
      have := replaceMatches_length_le (v := b) (hsound s) hms (Nat.zero_le _)
      show (replaceMatches s b 0 ms).length ≤ (b.length + 1) * s.length + 0
      simpa using this

theorem tokenizer_step {env : Env} {op : Op} {name : String} (hn : name ∈ tokenizerNames)
    (h : create env name [] [] = .ok op) (s : Str) :
    ∃ l : List Str, Gives op (.str s) (.list (l.map Tok.str)) ∧ (∀ w ∈ l, w ≠ []) ∧ l.flatten.length ≤ s.length := by
  obtain ⟨_, c1, c2, c3, c4⟩ := C74_tokenizers env
  simp only [tokenizerNames, List.mem_cons, List.not_mem_nil, or_false] at hn
  rcases hn with rfl | rfl | rfl | rfl
  · refine ⟨_, creates_gives c1 h trivial, by simp, ?_⟩
    rw [flatten_length_sum]
    clear h
    induction s with
    | nil => simp
    | cons c s ih => simp only [List.map_cons, List.sum_cons, List.length_cons, List.length_nil] at ih ⊢; omega
  · obtain ⟨a, ps, tail, h1, h2, _⟩ := C39_C42_whitespace env.σ s
    obtain ⟨a', h1'⟩ := C39_words env.σ s
    rw [h1] at h1'
    injection h1' with h1'
    injection h1' with e _
    refine ⟨_, creates_gives c2 h trivial, ?_, ?_⟩
    · rw [← e]
      intro w hw
      obtain ⟨p, hp, rfl⟩ := List.mem_map.mp hw
      exact h2.nonempty p hp
    · rw [← e]
      exact tokenized_size h2
  · obtain ⟨op', e, c3⟩ := c3
    rw [h] at e
    injection e with e
    subst e
    obtain ⟨a, ps, tail, h1, h2, _⟩ := C40_C42_eng env.σ env.u s
    refine ⟨ps.map Prod.snd, ?_, ?_, tokenized_size h2⟩
    · have := c3 s ps tail h2
      rwa [List.map_map]
    · intro w hw
      obtain ⟨p, hp, rfl⟩ := List.mem_map.mp hw
      exact h2.nonempty p hp
  · obtain ⟨op', e, c4⟩ := c4
    rw [h] at e
    injection e with e
    subst e
    obtain ⟨a, ps, tail, h1, h2, _⟩ := C40_C42_zh env.σ env.u s
    refine ⟨ps.map Prod.snd, ?_, ?_, tokenized_size h2⟩
    · have := c4 s ps tail h2
      rwa [List.map_map]
    · intro w hw
      obtain ⟨p, hp, rfl⟩ := List.mem_map.mp hw
      exact h2.nonempty p hp

theorem userWords_step {env : Env} {op : Op} {args : List PyVal} {kwargs : List (Str × PyVal)} {v sh : PyVal}
    {ws : List Str} (hcr : create env "CustomWordTokenizer" args kwargs = .ok op)
    (hb : bound wordParams args kwargs = some [v, sh]) (hw : WordsIn v ws) (s : Str) :
    ∃ l : List Str, Gives op (.str s) (.list (l.map Tok.str)) ∧ (∀ w ∈ l, w ≠ []) ∧ l.flatten.length ≤ s.length := by
  classical
  obtain ⟨h1, h2, h3⟩ := (C84_custom_tokenizer env args kwargs v sh hb).1 ws (decide (¬ Falsy sh)) hw (by simp)
  have hg : GoodWords ws := by
    by_contra hc
    by_cases hn : ws = []
    · rw [h2 hn] at hcr; cases hcr
    · rw [h3 hn hc] at hcr; cases hcr
  obtain ⟨op', e, h1⟩ := h1 hg
  rw [e] at hcr
  injection hcr with hcr
  subst hcr
  obtain ⟨tr, htr⟩ := (C36_build ws).1.mpr hg
  obtain ⟨_, segs, _, hseg, _⟩ := C37_C42_custom env.σ ws tr htr (decide (¬ Falsy sh)) s
  obtain ⟨e1, e2⟩ := wordSegs_parts hseg
  exact ⟨segs, h1 s segs hseg, e2, by rw [e1]; exact Nat.le_refl _⟩

/-! ### lists -/

theorem size_append (l m : List Tok) : ((l ++ m).map tokSize).sum = (l.map tokSize).sum + (m.map tokSize).sum := by
  rw [List.map_append, List.sum_append]

theorem size_replicate (n : Nat) (t : Tok) : ((List.replicate n t).map tokSize).sum = n * tokSize t := by
  rw [List.map_replicate]
  induction n with
  | zero => simp
  | succ n ih => rw [List.replicate_succ, List.sum_cons, ih, Nat.succ_mul]; omega

theorem size_take (l : List Tok) (n : Nat) : ((l.take n).map tokSize).sum ≤ (l.map tokSize).sum := by
  have := size_append (l.take n) (l.drop n)
  rw [List.take_append_drop] at this
  omega

theorem sosEos_step {env : Env} {op : Op} {args : List PyVal} {kwargs : List (Str × PyVal)} {v w : PyVal} {s e : Tok}
    (h : create env "AddSosEos" args kwargs = .ok op) (hb : bound sosEosParams args kwargs = some [v, w])
    (hv : IsToken v s) (hw : IsToken w e) (l : List Tok) (hl : l.length < 2 ^ 32) :
    ∃ out, Gives op (.list l) (.list out) ∧ (∀ t ∈ out, t ∈ l ∨ t = s ∨ t = e) ∧
      (out.map tokSize).sum ≤ 1 * (l.map tokSize).sum + (tokSize s + tokSize e) := by
  by_cases hne : l = []
  · subst hne
    obtain ⟨h1, _, _⟩ := create_eq (env := env) (name := "AddSosEos") (c := Builtin.sosEos env) rfl
      sosEosParams rfl rfl (by decide) args kwargs
    have hi : (Builtin.sosEos env).init [v, w] = .ok (lstOp (AddSosEos.transform env.σ s e)) := by
      show Builtin.sosEosInit env [v, w] = _
      simp only [Builtin.sosEosInit, asTok_of hv, asTok_of hw, Except.bind_ok]
      rfl
    rw [h1 _ _ hb hi] at h
    injection h with h
    subst h
    by_cases hse : s = e
    · subst hse
      obtain ⟨a, ha, _⟩ := C29_equal_tokens env.σ s
      exact ⟨_, gives_list rfl rfl ha, by simp, by simp⟩
    · obtain ⟨out, a, ha, ho, _⟩ := C29_empty_list env.σ s e hse
      refine ⟨_, gives_list rfl rfl ha, ?_, ?_⟩
      · rcases ho with rfl | rfl <;> simp
      · rcases ho with rfl | rfl
        · simp
        · simp
          omega
  · refine ⟨_, creates_gives (C84_sos_eos env args kwargs v w s e hb hv hw) h ⟨hne, hl⟩, ?_, ?_⟩
    · intro t ht
      simp only [List.cons_append, List.mem_cons, List.mem_append, List.not_mem_nil, or_false] at ht
      tauto
    · simp only [List.cons_append, List.map_cons, List.map_append, List.map_nil, List.sum_cons, List.sum_append,
        List.sum_nil]
      omega

theorem size_ints (l : List Tok) (out : List Int) (h : out.length = l.length) :
    ((out.map Tok.int).map tokSize).sum ≤ 1 * (l.map tokSize).sum + 0 := by
  have e : ((out.map Tok.int).map tokSize).sum = out.length := by
    clear h
    induction out with
    | nil => rfl
    | cons x out ih => simp only [List.map_cons, List.sum_cons, List.length_cons, ih, tokSize]; omega
  have := length_le_size l
  omega

theorem token2index_step {env : Env} {op : Op} {args : List PyVal} {kwargs : List (Str × PyVal)} {d : List (Str × Int)}
    {unk : Str} (h : create env "Token2Index" args kwargs = .ok op) (hd : (d.map Prod.fst).Nodup)
    (hb : bound token2indexParams args kwargs = some [.dict (d.map fun kv => (kv.1, .int kv.2)), .str unk])
    (l : List Tok) : ∃ out : List Int, Gives op (.list l) (.list (out.map Tok.int)) ∧ out.length = l.length := by
  obtain ⟨h1, h2, h3⟩ := (C74_token2index env args kwargs).1 d unk hd hb
  have hc : Continuous d := by
    by_contra hc
    rw [h2 hc] at h
    cases h
  have hu : unk ∈ d.map Prod.fst := by
    by_contra hu
    rw [h3 hc hu] at h
    cases h
  obtain ⟨op', e, h1⟩ := h1 hc hu
  rw [h] at e
  injection e with e
  subst e
  obtain ⟨out, a, _, g1, _, _, g2, _⟩ := C31_transform env.σ d unk hd ((C31_init d unk).1.mpr ⟨hc, hu⟩) l
  exact ⟨out, h1 l out g1 fun p hp => (g2 p hp).1, g1⟩

theorem token2indexHash_step {env : Env} {op : Op} {args : List PyVal} {kwargs : List (Str × PyVal)}
    {d : List (Str × Int)} (h : create env "Token2IndexwithHash" args kwargs = .ok op) (hd : (d.map Prod.fst).Nodup)
    (hb : bound token2indexHashParams args kwargs = some [.dict (d.map fun kv => (kv.1, .int kv.2))])
    (l : List Str) :
    ∃ out : List Int, Gives op (.list (l.map Tok.str)) (.list (out.map Tok.int)) ∧ out.length = (l.map Tok.str).length := by
  obtain ⟨h1, h2⟩ := (C74_token2index_hash env args kwargs).1 d hd hb
  have hc : Continuous d := by
    by_contra hc
    rw [h2 hc] at h
    cases h
  obtain ⟨op', e, h1⟩ := h1 hc
  rw [h] at e
  injection e with e
  subst e
  obtain ⟨idx, g, _⟩ := h1 l
  refine ⟨l.map idx, ?_, by simp⟩
  rwa [List.map_map]

theorem pureNum_step {env : Env} {op : Op} {args : List PyVal} {kwargs : List (Str × PyVal)} {v : PyVal} {t : Tok}
    (h : create env "PureNum2Token" args kwargs = .ok op) (hb : bound pureNumParams args kwargs = some [v])
    (hv : v = .none ∧ t = .str "_num_".toList ∨ IsToken v t) (l : List Str) :
    ∃ out : List Tok, Gives op (.list (l.map Tok.str)) (.list out) ∧
      (∀ x ∈ out, x = t ∨ ∃ w ∈ l, x = .str w) ∧
      (out.map tokSize).sum ≤ tokSize t * ((l.map Tok.str).map tokSize).sum + 0 := by
  have key : ∀ q : Str → Prop, [DecidablePred q] → ∃ out : List Tok,
      Seq.list (l.map fun s => if q s then t else .str s) = .list out ∧ (∀ x ∈ out, x = t ∨ ∃ w ∈ l, x = .str w) ∧
      (out.map tokSize).sum ≤ tokSize t * ((l.map Tok.str).map tokSize).sum + 0 := by
    intro q _
    refine ⟨_, rfl, fun x hx => ?_, ?_⟩
    · obtain ⟨w, hw, rfl⟩ := List.mem_map.mp hx
      split
      · exact Or.inl rfl
      · exact Or.inr ⟨w, hw, rfl⟩
    · clear h hb hv
      induction l with
      | nil => simp
      | cons w l ih =>
        have h1 := tokSize_pos t
        have h2 := tokSize_pos (.str w)
        simp only [List.map_cons, List.sum_cons, Nat.mul_add, Nat.add_zero] at ih ⊢
        have h3 : tokSize (if q w then t else .str w) ≤ tokSize t * tokSize (.str w) := by
          split
          · exact Nat.le_mul_of_pos_right _ (by omega)
          · exact Nat.le_mul_of_pos_left _ (by omega)
        omega
  rcases hv with ⟨rfl, rfl⟩ | hv
  · have := creates_gives ((C74_pure_num env args kwargs).1 .none "_num_".toList hb (Or.inl ⟨rfl, rfl⟩)) h
      (x := l) trivial
    obtain ⟨out, e1, e2, e3⟩ := key fun s => s ≠ [] ∧ ∀ c ∈ s, isDigit env.u c = true
    refine ⟨out, ?_, e2, e3⟩
    rw [← e1]
    have e : (l.map fun s => if s ≠ [] ∧ ∀ c ∈ s, isDigit env.u c = true then "_num_".toList else s).map Tok.str =
        l.map fun s => if s ≠ [] ∧ ∀ c ∈ s, isDigit env.u c = true then Tok.str "_num_".toList else .str s := by
      rw [List.map_map]
      refine List.map_congr_left fun s _ => ?_
      dsimp only [Function.comp]
      split <;> rfl
    rw [← e]
    exact this
  · have := creates_gives (C84_pure_num env args kwargs v t hb hv) h (x := l) trivial
    obtain ⟨out, e1, e2, e3⟩ := key fun s => s ≠ [] ∧ ∀ c ∈ s, isDigit env.u c = true
    refine ⟨out, ?_, e2, e3⟩
    rw [← e1]
    exact this

theorem subwords_step {env : Env} (he : env.Sane) {op : Op} {args : List PyVal} {kwargs : List (Str × PyVal)} {v n : PyVal}
    {unk : Str} {k : Int} (h : MadeBy env "SpanSubwords" args kwargs op)
    (hb : bound subwordParams args kwargs = some [v, .str unk, n]) (hu : unk ≠ []) (ha : Askable v) (hk : IsNumber n k)
    (l : List Str) (hl : ∀ w ∈ l, w ≠ []) :
    Managed op (.list (l.map Tok.str)) .words (max 3 unk.length * seqSize (.list (l.map Tok.str)) + 0) := by
  obtain ⟨op', e, h1, _⟩ := C84_subwords env args kwargs v n unk hb
  have hcr := h.1
  rw [hcr] at e
  injection e with e
  subst e
  choose subs hsubs using pieces_exist v unk k
  obtain ⟨a, hg⟩ := h1 k hk ha l subs fun w _ => hsubs w
  obtain ⟨hbi, hname⟩ := madeBy_cls h
  have e : (l.flatMap fun w => (subs w).map Tok.str) = (l.flatMap subs).map Tok.str := by
    rw [List.map_flatMap]
  have hne : ∀ w ∈ l.flatMap subs, w ≠ [] := by
    intro p hp
    obtain ⟨w, hw, hp⟩ := List.mem_flatMap.mp hp
    exact (pieces_size (hl w hw) hu (hsubs w)).1 p hp
  refine ⟨_, a, hg, ⟨l.flatMap subs, by rw [e], hne⟩, ?_, C14_aligned env he op hbi _ _ a hg ⟨fun h0 => ?_, ?_⟩⟩
  · rw [e, words_size hne, words_size hl]
    clear hg hne e h1
    induction l with
    | nil => simp
    | cons w l ih =>
      have h2 := ih fun x hx => hl x (by simp [hx])
      have h3 := (pieces_size (hl w (by simp)) hu (hsubs w)).2
      simp only [List.flatMap_cons, List.flatten_append, List.flatten_cons, List.length_append, Nat.mul_add,
        Nat.add_zero] at h2 ⊢
      omega
  · rw [hname] at h0
    exact absurd h0 (by decide)
  · intro _ _ _ _ _ _ l' hl'
    injection hl' with hl'
    have : l = l' := List.map_injective_iff.mpr (fun a b h => by injection h) hl'
    exact noTwoEmpty_of (this ▸ hl)

/-- C90: a step on a sequence of the kind it takes, of size below 2^32: it raises one of its exceptions or gives a
sequence of the kind it gives, not larger than said, with labels that can be mapped both ways. -/
theorem C90_step (env : Env) (he : env.Sane) (op : Op) (i o : Kind) (k c : Nat) (es : List Exc) (h : Step env op i o k c es)
    (x : Seq) (hx : i.Holds x) (hs : seqSize x < 2 ^ 32) :
    (∃ t a, op.transform x = .ok (t, a) ∧ o.Holds t ∧ seqSize t ≤ k * seqSize x + c ∧ Faithful a x.length t.length) ∨
    ∃ e ∈ es, op.transform x = .error e := by
  match i, o, k, c, es, h, hx with
  | _, _, _, _, _, .text _ name _ hn h, hx =>
    obtain ⟨s, rfl⟩ := hx
    obtain ⟨t, h1, h2⟩ := text_step he hn h s
    refine Or.inl (good_of he h (fun hm => ?_) h1 ⟨t, rfl⟩ (by simpa [seqSize] using h2))
    simp only [List.mem_cons, List.not_mem_nil, or_false] at hm
    rcases hm with rfl | rfl <;> simp [textSteps] at hn
  | _, _, _, _, _, .aroundWords _ args kwargs v sh ws h hb hw, hx =>
    obtain ⟨s, rfl⟩ := hx
    exact Or.inl (aroundWords_step he h hb hw s)
  | _, _, _, _, _, .stripAccent _ h, hx =>
    obtain ⟨s, rfl⟩ := hx
    obtain ⟨_, _, _, _, _, _, _, _, _, _, _, h1⟩ := C74_text_operators env he
    by_cases hl : ((env.u.nfd s).filter fun c => !env.u.isMn c).length = s.length
    · exact Or.inl (good_of he h (by decide) (creates_gives h1 h.1 hl) ⟨_, rfl⟩ (by show List.length _ ≤ 1 * s.length + 0; omega))
    · refine Or.inr ⟨.assertionError, by simp, ?_⟩
      have e : create env "StripAccentToken" [] [] =
        .ok ⟨Builtin.stripAccent env, [], strOp (StripAccentToken.transform env.σ env.u)⟩ := rfl
      have h := h.1
      rw [e] at h
      injection h with h
      subst h
      exact fails_str rfl (C27_length_change env.σ env.u s hl)
  | _, _, _, _, _, .replace _ args kwargs a b h hb hne, hx =>
    obtain ⟨s, rfl⟩ := hx
    exact (replace_step he h.1 hb hne s).imp id fun h => ⟨_, by simp, h⟩
  | _, _, _, _, _, .tokenizer _ name hn h, hx =>
    obtain ⟨s, rfl⟩ := hx
    obtain ⟨l, h1, h2, h3⟩ := tokenizer_step hn h.1 s
    obtain ⟨h4, h5⟩ := words_of_text rfl h2 h3
    refine Or.inl (good_of he h (fun hm => ?_) h1 h4 h5)
    simp only [List.mem_cons, List.not_mem_nil, or_false] at hm
    rcases hm with rfl | rfl <;> simp [tokenizerNames] at hn
  | _, _, _, _, _, .userWords _ args kwargs v sh ws h hb hw, hx =>
    obtain ⟨s, rfl⟩ := hx
    obtain ⟨l, h1, h2, h3⟩ := userWords_step h.1 hb hw s
    obtain ⟨h4, h5⟩ := words_of_text rfl h2 h3
    exact Or.inl (good_of he h (by decide) h1 h4 h5)
  | _, _, _, _, _, .sosEos _ args kwargs v w s e q h hb hv hw hs' he', hx =>
    obtain ⟨l, rfl, hl⟩ := (Kind.holds_list (Kind.not_text hs') x).mp hx
    obtain ⟨out, h1, h2, h3⟩ := sosEos_step h.1 hb hv hw l (Nat.lt_of_le_of_lt (length_le_size l) hs)
    refine Or.inl (good_of he h (by decide) h1 ((Kind.holds_list (Kind.not_text hs') _).mpr ⟨_, rfl, fun t ht => ?_⟩) h3)
    rcases h2 t ht with h2 | rfl | rfl
    · exact hl t h2
    · exact hs'
    · exact he'
  | _, _, _, _, _, .endToken _ args kwargs e q h hb hq, hx =>
    obtain ⟨l, rfl, hl⟩ := (Kind.holds_list (Kind.not_text hq) x).mp hx
    have hne : e ≠ [] := by
      intro h0
      have := (C74_end_token env args kwargs).2.1 (Or.inr (by rw [hb, h0]))
      rw [h.1] at this
      cases this
    have h1 := creates_gives ((C74_end_token env args kwargs).1 e hne hb) h.1 (Nat.lt_of_le_of_lt (length_le_size l) hs)
    refine Or.inl (good_of he h (by decide) h1 ((Kind.holds_list (Kind.not_text hq) _).mpr ⟨_, rfl, fun t ht => ?_⟩) ?_)
    · rcases List.mem_append.mp ht with ht | ht
      · exact hl t ht
      · rw [List.mem_singleton.mp ht]
        exact hq
    · have : 0 < e.length := List.length_pos_iff.mpr hne
      show ((l ++ [Tok.str e]).map tokSize).sum ≤ 1 * (l.map tokSize).sum + e.length
      rw [size_append]
      simp only [List.map_cons, List.map_nil, List.sum_cons, List.sum_nil, tokSize]
      omega
  | _, _, _, _, _, .pad _ args kwargs v w n t q h hb hv hw hq, hx =>
    obtain ⟨l, rfl, hl⟩ := (Kind.holds_list (Kind.not_text hq) x).mp hx
    have h1 := creates_gives ((C84_pad env args kwargs v w t hb hw).1 n hv) h.1 (Nat.lt_of_le_of_lt (length_le_size l) hs)
    refine Or.inl (good_of he h (by decide) h1 ((Kind.holds_list (Kind.not_text hq) _).mpr ⟨_, rfl, fun t ht => ?_⟩) ?_)
    · rcases List.mem_append.mp ht with ht | ht
      · exact hl t (List.mem_of_mem_take ht)
      · rw [List.eq_of_mem_replicate ht]
        exact hq
    · show ((l.take n ++ List.replicate (n - l.length) t).map tokSize).sum ≤ 1 * (l.map tokSize).sum + n * tokSize t
      rw [size_append, size_replicate]
      have := size_take l n
      have : (n - l.length) * tokSize t ≤ n * tokSize t := Nat.mul_le_mul_right _ (Nat.sub_le _ _)
      omega
  | _, _, _, _, _, .token2index _ args kwargs d unk h hd hb, hx =>
    obtain ⟨l, rfl⟩ := hx
    obtain ⟨out, h1, h2⟩ := token2index_step h.1 hd hb l
    exact Or.inl (good_of he h (by decide) h1 ⟨_, rfl⟩ (size_ints l out h2))
  | _, _, _, _, _, .token2indexHash _ args kwargs d h hd hb, hx =>
    obtain ⟨l, rfl, hl⟩ := hx
    obtain ⟨out, h1, h2⟩ := token2indexHash_step h.1 hd hb l
    exact Or.inl (good_of he h (by decide) h1 ⟨_, rfl⟩ (size_ints _ out h2))
  | _, _, _, _, _, .pureNum _ args kwargs v t q h hb hv hq, hx =>
    obtain ⟨l, rfl, hl⟩ := hx
    obtain ⟨out, h1, h2, h3⟩ := pureNum_step h.1 hb hv l
    refine Or.inl (good_of he h (by decide) h1 ((Kind.holds_list (Kind.not_text hq) _).mpr ⟨_, rfl, fun x hx => ?_⟩) h3)
    rcases h2 x hx with rfl | ⟨w, hw, rfl⟩
    · exact hq
    · exact Kind.allows_word (Kind.not_text hq) (hl w hw)
  | _, _, _, _, _, .subwords _ args kwargs v n unk k h hb hu ha hk, hx =>
    obtain ⟨l, rfl, hl⟩ := hx
    exact Or.inl (subwords_step he h hb hu ha hk l hl)

theorem Spec.Step.factor {env : Env} {op : Op} {i o : Kind} {k c : Nat} {es : List Exc} (h : Step env op i o k c es) :
    1 ≤ k := by
  match i, o, k, c, es, h with
  | _, _, _, _, _, .text _ name _ hn _ =>
    simp only [textSteps, List.mem_cons, List.not_mem_nil, or_false, Prod.mk.injEq] at hn
    omega
  | _, _, _, _, _, .aroundWords .. => omega
  | _, _, _, _, _, .stripAccent .. => omega
  | _, _, _, _, _, .replace .. => omega
  | _, _, _, _, _, .tokenizer .. => omega
  | _, _, _, _, _, .userWords .. => omega
  | _, _, _, _, _, .sosEos .. => omega
  | _, _, _, _, _, .endToken .. => omega
  | _, _, _, _, _, .pad .. => omega
  | _, _, _, _, _, .token2index .. => omega
  | _, _, _, _, _, .token2indexHash .. => omega
  | _, _, _, _, _, .pureNum _ _ _ _ t .. => exact tokSize_pos t
  | _, _, _, _, _, .subwords .. => omega

theorem assembled_mono {env : Env} {ops : List Op} {i q : Kind} {f : Nat → Nat} {es : List Exc}
    (h : Assembled env ops i q f es) : (∀ n, n ≤ f n) ∧ ∀ m n, m ≤ n → f m ≤ f n := by
  induction h with
  | nil => exact ⟨fun _ => Nat.le_refl _, fun _ _ h => h⟩
  | cons op ops i o i' q k c f es es' hs _ _ ih =>
    have hk := hs.factor
    refine ⟨fun n => ?_, fun m n hmn => ih.2 _ _ (Nat.add_le_add_right (Nat.mul_le_mul_left k hmn) c)⟩
    have := ih.1 (k * n + c)
    have : n ≤ k * n := Nat.le_mul_of_pos_left _ hk
    show n ≤ f (k * n + c)
    omega

theorem assembled_runs {env : Env} (he : env.Sane) {ops : List Op} {i q : Kind} {f : Nat → Nat} {es : List Exc}
    (h : Assembled env ops i q f es) (x : Seq) (hx : i.Holds x) (hs : f (seqSize x) < 2 ^ 32) :
    (∃ rs, Runs ops x rs ∧ q.Holds (finalOf x rs) ∧ (∀ y ∈ x :: rs.map Prod.fst, seqSize y ≤ f (seqSize x)) ∧
      seqSize (finalOf x rs) ≤ f (seqSize x) ∧
      ∀ (i : Nat) op t u a, ops[i]? = some op → (x :: rs.map Prod.fst)[i]? = some t → op.transform t = .ok (u, a) →
        Faithful a t.length u.length) ∨
    ∃ e ∈ es, ∃ pre op post rs, ops = pre ++ op :: post ∧ Runs pre x rs ∧ op.transform (finalOf x rs) = .error e := by
  induction h generalizing x with
  | nil q => exact Or.inl ⟨[], .nil _, hx, by simp, Nat.le_refl _, by simp⟩
  | cons op ops i o i' q k c f es es' hstep hfit hrest ih =>
    obtain ⟨hm1, hm2⟩ := assembled_mono hrest
    have hk := hstep.factor
    have hle : seqSize x ≤ k * seqSize x := Nat.le_mul_of_pos_left _ hk
    have h0 := hm1 (k * seqSize x + c)
    have hs : f (k * seqSize x + c) < 2 ^ 32 := hs
    show (∃ rs, Runs (op :: ops) x rs ∧ q.Holds (finalOf x rs) ∧
      (∀ y ∈ x :: rs.map Prod.fst, seqSize y ≤ f (k * seqSize x + c)) ∧ seqSize (finalOf x rs) ≤ f (k * seqSize x + c) ∧ _) ∨ _
    rcases C90_step env he op i o k c es hstep x hx (by omega) with ⟨t, a, h1, h2, h3, h4⟩ | ⟨e, he', h1⟩
    · have hb : f (seqSize t) ≤ f (k * seqSize x + c) := hm2 _ _ h3
      rcases ih t (Kind.Fits.holds hfit h2) (by omega) with ⟨rs, r1, r2, r3, r4, r5⟩ | ⟨e, he', pre, op', post, rs, r1, r2, r3⟩
      · refine Or.inl ⟨(t, a) :: rs, .cons h1 r1, by rwa [finalOf_cons], ?_, by rw [finalOf_cons]; omega, ?_⟩
        · intro y hy
          rcases List.mem_cons.mp hy with rfl | hy
          · omega
          · have := r3 y hy
            omega
        · intro j op' t' u' a' ho ht h'
          cases j with
          | zero =>
            simp only [List.getElem?_cons_zero, Option.some.injEq] at ho ht
            subst ho
            subst ht
            rw [h1] at h'
            injection h' with h'
            injection h' with e1 e2
            subst e1
            subst e2
            exact h4
          | succ j => exact r5 j op' t' u' a' ho ht h'
      · exact Or.inr ⟨e, by simp [he'], op :: pre, op', post, (t, a) :: rs, by rw [r1]; rfl, .cons h1 r2,
          by rwa [finalOf_cons]⟩
    · exact Or.inr ⟨e, by simp [he'], [], op, ops, [], rfl, .nil _, h1⟩

/-- C90: a pipe whose steps fit together, on an input of the kind it takes: it raises one of the exceptions of its steps or
gives a sequence of the kind it gives, all intermediates being not larger than said, with labels that can be mapped both
ways. -/
theorem C90_pipe (env : Env) (he : env.Sane) (p : Pipe) (i q : Kind) (f : Nat → Nat) (es : List Exc)
    (h : Assembled env p.steps i q f es) (x : Seq) (hx : i.Holds x) (hs : f (seqSize x) < 2 ^ 32) :
    (∃ o as coll, p.transformSequence x = .ok (o, as, coll) ∧ q.Holds o ∧ (∀ y ∈ coll, seqSize y ≤ f (seqSize x)) ∧
      seqSize o ≤ f (seqSize x) ∧ FaithfulAll as x.length o.length) ∨
    ∃ e ∈ es, p.transformSequence x = .error e := by
  rcases assembled_runs he h x hx hs with ⟨rs, r1, r2, r3, r4, r5⟩ | ⟨e, he', r⟩
  · exact Or.inl ⟨_, _, _, (C58_composition p x _ _ _).mpr ⟨rs, r1, rfl, rfl, rfl⟩, r2, r3, r4, faithfulAll_of _ _ _ r1 r5⟩
  · exact Or.inr ⟨e, he', (C58_error p x e).mpr r⟩

/-- C90: if none of the steps may raise an exception, no datum makes the pipe raise one. -/
theorem C90_datum (env : Env) (he : env.Sane) (p : Pipe) (q : Kind) (f : Nat → Nat) (h : Assembled env p.steps .text q f [])
    (d : Datum) (hs : f d.utterance.length < 2 ^ 32)
    (hd : ∀ e ∈ d.entities, e.start < e.stop → -(d.utterance.length : Int) ≤ e.start ∧ e.stop ≤ d.utterance.length) :
    ∃ out, p.transform d = .ok out ∧ q.Holds out.output ∧ seqSize out.output ≤ f d.utterance.length ∧
      out.entityLabels.length = out.output.length := by
  rcases assembled_runs he h (.str d.utterance) ⟨_, rfl⟩ hs with ⟨rs, r1, r2, r3, r4, r5⟩ | ⟨e, he', _⟩
  · obtain ⟨ys, h1, h2, _⟩ := C59_transform p d _ _ _ hd ((C58_composition p _ _ _ _).mpr ⟨rs, r1, rfl, rfl, rfl⟩) r5
    exact ⟨_, h1, r2, r4, h2⟩
  · cases he'

/-- C90: if none of the steps may raise an exception, nothing on the way of a prediction raises one: transforming the
text, mapping known labels of the output back, packing and naming them. -/
theorem C90_prediction (env : Env) (he : env.Sane) (p : Pipe) (q : Kind) (f : Nat → Nat)
    (h : Assembled env p.steps .text q f []) (σ : SetOrder) (t : OrdinalLabel) (ht : IsTransformer t)
    (hni : t.intent2index.length ≤ 2 ^ 31) (hne : t.entity2index.length < 2 ^ 31) (u : Str) (hu : u ≠ [])
    (hs : u.length < 2 ^ 31) (hf : f u.length < 2 ^ 32) :
    ∃ o as coll, p.transformSequence (.str u) = .ok (o, as, coll) ∧
      ∀ intents labels, KnownIntents t intents → KnownLabels t labels → labels.length = o.length →
        ∃ ls d r, realignAll as labels = .ok ls ∧ packToDatum u intents ls = .ok d ∧ t.humanize σ d = .ok r ∧
          r.utterance = u := by
  rcases C90_pipe env he p .text q f [] h (.str u) ⟨_, rfl⟩ hf with ⟨o, as, coll, h1, _, _, _, h2⟩ | ⟨e, he', _⟩
  · refine ⟨o, as, coll, h1, fun intents labels hi hl hlen => ?_⟩
    obtain ⟨ls, d, r, g1, g2, g3, g4, _⟩ :=
      prediction_of_faithful σ t ht hni hne u hu hs o as h2 intents labels hi hl hlen
    exact ⟨ls, d, r, g1, g2, g3, g4⟩
  · cases he'

/-! ### the pipe of the README -/

theorem create_call {env : Env} {name : String} {c : OpClass} {args : List PyVal} {kwargs : List (Str × PyVal)}
    (h : (Builtin.registry env).get name.toList = .ok c) : create env name args kwargs = c.call args kwargs := by
  unfold create
  rw [h]
  rfl

theorem readme_assembled (env : Env) (n : Nat) (d : List (Str × Int)) (hkeys : (d.map Prod.fst).Nodup)
    (h : Token2Index.init d unkToken = .ok ()) :
    Assembled env (readmePipe env n d).steps .text .tokens (fun m => 21 * m + (10 + 5 * n)) [] := by
  have hpad : (Builtin.pad env).call [] [("maxlen".toList, .int n)] = .ok (padOp env n) :=
    call_of (c := Builtin.pad env) (vals := [.int n, .str padToken]) rfl rfl
  have hidx : create env "Token2Index" [] [("token2index".toList, .dict (d.map fun kv => (kv.1, .int kv.2)))] =
      .ok (indexOp env d) := (create_call rfl).trans (indexOp_call env d h)
  have h8 := Assembled.cons (env := env) (indexOp env d) [] _ _ _ _ _ _ id [] [] (.token2index _ []
    [("token2index".toList, .dict (d.map fun kv => (kv.1, .int kv.2)))] d unkToken ⟨hidx, by simp⟩ hkeys rfl)
    (.same _) (.nil _)
  have h7 := Assembled.cons (padOp env n) _ _ _ _ _ _ _ _ [] _ (.pad _ [] [("maxlen".toList, .int n)] (.int n)
    (.str padToken) n (.str padToken) .words ⟨(create_call rfl).trans hpad, by simp⟩ rfl (.int _) (.str _) ⟨_, by decide, rfl⟩) .words h8
  have h6 := Assembled.cons (sosEosOp env) _ _ _ _ _ _ _ _ [] _ (.sosEos _ [] [] (.str startToken) (.str endToken)
    (.str startToken) (.str endToken) .words ⟨rfl, by simp⟩ rfl (.str _) (.str _) ⟨_, by decide, rfl⟩ ⟨_, by decide, rfl⟩)
    (.same _) h7
  have h5 := Assembled.cons _ _ _ _ _ _ _ _ _ [] _ (.tokenizer _ "EngTokenizer" (by decide) ⟨rfl, by simp⟩) (.same _) h6
  have h4 := Assembled.cons _ _ _ _ _ _ _ _ _ [] _ (.text _ "StripWhiteSpaceCharacters" 1 (by decide) ⟨rfl, by simp⟩)
    (.same _) h5
  have h3 := Assembled.cons _ _ _ _ _ _ _ _ _ [] _ (.text _ "MergeWhiteSpaceCharacters" 1 (by decide) ⟨rfl, by simp⟩)
    (.same _) h4
  have h2 := Assembled.cons _ _ _ _ _ _ _ _ _ [] _ (.text _ "FloatTokenWithSpace" 3 (by decide) ⟨rfl, by simp⟩) (.same _) h3
  have h1 := Assembled.cons _ _ _ _ _ _ _ _ _ [] _ (.text _ "IntTokenWithSpace" 7 (by decide) ⟨rfl, by simp⟩) (.same _) h2
  have e1 : tokSize (.str startToken) = 5 := by decide
  have e2 : tokSize (.str endToken) = 5 := by decide
  have e3 : tokSize (.str padToken) = 5 := by decide
  refine Eq.subst (motive := fun f => Assembled env (readmePipe env n d).steps .text .tokens f []) ?_ h1
  funext m
  simp only [id, e1, e2, e3]
  omega

/-- C90: the pipe of the README accepts every text that is not too long, and nothing on the way of a prediction raises. -/
theorem C90_readme (env : Env) (he : env.Sane) (n : Nat) (d : List (Str × Int)) (hkeys : (d.map Prod.fst).Nodup)
    (hd : Continuous d) (hunk : "<unk>".toList ∈ d.map Prod.fst) (p : Pipe)
    (hp : addCalls (Builtin.registryDefault env) (readmeCalls n d) Pipe.empty = .ok p) (σ : SetOrder) (t : OrdinalLabel)
    (ht : IsTransformer t) (hni : t.intent2index.length ≤ 2 ^ 31) (hne : t.entity2index.length < 2 ^ 31) (u : Str)
    (hu : u ≠ []) (hs : 21 * u.length + (10 + 5 * n) < 2 ^ 32) :
    ∃ o as coll, p.transformSequence (.str u) = .ok (o, as, coll) ∧
      ∀ intents labels, KnownIntents t intents → KnownLabels t labels → labels.length = o.length →
        ∃ ls d r, realignAll as labels = .ok ls ∧ packToDatum u intents ls = .ok d ∧ t.humanize σ d = .ok r ∧
          r.utterance = u := by
  have hinit : Token2Index.init d unkToken = .ok () := (C31_init d unkToken).1.mpr ⟨hd, hunk⟩
  rw [readme_build env n d hinit] at hp
  injection hp with hp
  subst hp
  exact C90_prediction env he _ _ _ (readme_assembled env n d hkeys hinit) σ t ht hni hne u hu (by omega) hs

/-- The hypotheses of C90 can be met: the pipe of the README for at most 5 tokens. -/
example (d : Datum) (hs : d.utterance.length < 2 ^ 26)
    (hd : ∀ e ∈ d.entities, e.start < e.stop → -(d.utterance.length : Int) ≤ e.start ∧ e.stop ≤ d.utterance.length) :
    ∃ out, (readmePipe exEnv 5 readmeVocab).transform d = .ok out ∧ ∃ l, out.output = .list l := by
  obtain ⟨out, h1, h2, _⟩ := C90_datum exEnv exEnv_sane _ _ _ (readme_assembled exEnv 5 readmeVocab (by decide)
    ((C31_init readmeVocab unkToken).1.mpr ⟨readmeVocab_continuous, by decide⟩)) d (by omega) hd
  exact ⟨out, h1, h2⟩

end Uttut
