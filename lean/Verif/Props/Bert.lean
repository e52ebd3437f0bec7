import Verif.Props.Builtins
import Verif.Lemmas.Words
import Verif.Spec.Bert

/-! The predefined pipes of `uttut/pipeline/bert` (C68). -/

namespace Uttut

open Spec

/-! ### the pipes as lists of operators -/

/-- The steps of `basic_pipe`. -/
def basicOps (env : Env) : List Op :=
  [⟨Builtin.lowercase env, [], strOp (Lowercase.transform env.σ)⟩,
   ⟨Builtin.aroundCJK env, [], strOp (AddWhitespaceAroundCJK.transform env.σ)⟩,
   ⟨Builtin.aroundPunctuation env, [], strOp (AddWhitespaceAroundPunctuation.transform env.σ env.u)⟩,
   ⟨Builtin.mergeWs env, [], strOp (MergeWhiteSpaceCharacters.transform env.σ)⟩,
   ⟨Builtin.stripWs env, [], strOp (StripWhiteSpaceCharacters.transform env.σ)⟩,
   ⟨Builtin.stripAccent env, [], strOp (StripAccentToken.transform env.σ env.u)⟩,
   ⟨Builtin.wsTok env, [], tokOp (WhiteSpaceTokenizer.transform env.σ)⟩]

/-- The last step of the other two. -/
def subwordOp (env : Env) (vocab : List String) : Op :=
  ⟨Builtin.spanSubwords env, (Bert.subwordStep vocab).2,
    lstOp (SpanSubwords.transform env.σ (fun w => (vocab.map String.toList).contains w) "[UNK]".toList 200)⟩

theorem basicPipe_eq (env : Env) : Bert.basicPipe (Builtin.registryDefault env) = .ok ⟨basicOps env, []⟩ := rfl

theorem wordPiecePipe_eq (env : Env) : Bert.wordPiecePipe (Builtin.registryDefault env) =
    .ok ⟨[⟨Builtin.wsTok env, [], tokOp (WhiteSpaceTokenizer.transform env.σ)⟩, subwordOp env Bert.wordPieceVocab], []⟩ :=
  rfl

theorem build_append (f : Factory) (a b : List (String × List (Str × PyVal))) (p : Pipe) :
    Bert.build f (a ++ b) p = Bert.build f a p >>= Bert.build f b := by
  induction a generalizing p with
  | nil => rfl
  | cons x a ih =>
    obtain ⟨name, kw⟩ := x
    show (do (p.add f name.toList (some kw) none).2; Bert.build f (a ++ b) (p.add f name.toList (some kw) none).1) =
      ((do (p.add f name.toList (some kw) none).2; Bert.build f a (p.add f name.toList (some kw) none).1) >>= _)
    cases (p.add f name.toList (some kw) none).2 with
    | error e => rfl
    | ok _ => exact ih _

theorem fullPipe_eq (env : Env) : Bert.fullPipe (Builtin.registryDefault env) =
    .ok ⟨basicOps env ++ [subwordOp env Bert.fullVocab], []⟩ := by
  unfold Bert.fullPipe
  rw [build_append]
  rw [show Bert.build (Builtin.registryDefault env) Bert.basicSteps Pipe.empty = .ok ⟨basicOps env, []⟩ from rfl]
  rfl

/-! ### running the steps -/

theorem strStep {name : String} {f : Str → Res (Str × Aligner)} {s out : Str} {a : Aligner} (h : f s = .ok (out, a)) :
    (⟨Builtin.simple name .str .str (strOp f), [], strOp f⟩ : Op).transform (.str s) = .ok (.str out, a) := by
  show (strOp f (.str s) >>= _) = _
  have : strOp f (.str s) = .ok (.str out, a) := by
    show (f s >>= _) = _
    rw [h]
    rfl
  rw [this]
  rfl

theorem strStep_error {name : String} {f : Str → Res (Str × Aligner)} {s : Str} {e : Exc} (h : f s = .error e) :
    (⟨Builtin.simple name .str .str (strOp f), [], strOp f⟩ : Op).transform (.str s) = .error e := by
  show (strOp f (.str s) >>= _) = _
  have : strOp f (.str s) = .error e := by
    show (f s >>= _) = _
    rw [h]
    rfl
  rw [this]
  rfl

theorem tokStep {name : String} {f : Str → Res (List Str × Aligner)} {s : Str} {out : List Str} {a : Aligner}
    (h : f s = .ok (out, a)) :
    (⟨Builtin.simple name .str .list (tokOp f), [], tokOp f⟩ : Op).transform (.str s) =
      .ok (.list (out.map Tok.str), a) := by
  show (tokOp f (.str s) >>= _) = _
  have : tokOp f (.str s) = .ok (.list (out.map Tok.str), a) := by
    show (f s >>= _) = _
    rw [h]
    rfl
  rw [this]
  rfl

theorem runSteps_cons {op : Op} {ops : List Op} {s t : Seq} {a : Aligner} (h : op.transform s = .ok (t, a))
    (as : List Aligner) (coll : List Seq) :
    Pipe.runSteps (op :: ops) s as coll = Pipe.runSteps ops t (as ++ [a]) (coll ++ [t]) := by
  show (op.transform s >>= _) = _
  rw [h]
  rfl

theorem runSteps_fail {op : Op} {ops : List Op} {s : Seq} {e : Exc} (h : op.transform s = .error e)
    (as : List Aligner) (coll : List Seq) : Pipe.runSteps (op :: ops) s as coll = .error e := by
  show (op.transform s >>= _) = _
  rw [h]
  rfl

theorem punctuation_eq (u : Unicode) (c : Char) : isPunctuation u c = punctuation u c := by
  rw [Bool.eq_iff_iff, C17_punctuation]
  simp [punctuation]

theorem ideograph_eq (c : Char) : isCJK c = ideograph c := by
  rw [Bool.eq_iff_iff, C17_cjk]
  simp [ideograph]

theorem standsAlone_eq (u : Unicode) : (fun c => isPunctuation u c || isCJK c) = standsAlone u := by
  funext c
  rw [punctuation_eq, ideograph_eq]
  rfl

/-- The texts between the first steps of `basic_pipe`. -/
def bertColl (u : Unicode) (s : Str) : List Seq :=
  [.str s, .str (s.map asciiLower), .str (spaceOut ideograph (s.map asciiLower)),
   .str (spaceOut (punctuation u) (spaceOut ideograph (s.map asciiLower))),
   .str (mapRuns isSpace (fun _ => [' ']) (spaceOut (punctuation u) (spaceOut ideograph (s.map asciiLower)))),
   .str (bertText u s)]

/-- The first five steps never fail. -/
theorem basic_front (env : Env) (s : Str) :
    ∃ as : List Aligner, as.length = 5 ∧
      (∀ rest, Pipe.runSteps ((basicOps env).take 5 ++ rest) (.str s) [] [.str s] =
        Pipe.runSteps rest (.str (bertText env.u s)) as (bertColl env.u s)) ∧
      ∀ ls, ls.length = s.length → ∃ L, alignAll as ls = .ok L ∧ L.length = (bertText env.u s).length ∧
        cutWords (fun _ => false) ((bertText env.u s).zip L) [] =
          cutWords (standsAlone env.u) ((s.map asciiLower).zip ls) [] ∧
        (ZeroSpace ((s.map asciiLower).zip ls) →
          ZeroSpace ((bertText env.u s).zip L) ∧ realignAll as L = .ok ls) := by
  obtain ⟨a1, h1, _, p1⟩ := C16_lowercase env.σ s
  obtain ⟨a2, h2, _, f2, _, r2⟩ := C17_around env.σ isCJK (s.map asciiLower)
  obtain ⟨a3, h3, _, f3, _, r3⟩ := C17_around env.σ (isPunctuation env.u) (spaceOut ideograph (s.map asciiLower))
  have e1 : isCJK = ideograph := funext ideograph_eq
  have e2 : isPunctuation env.u = punctuation env.u := funext (punctuation_eq env.u)
  rw [e1] at h2 f2
  rw [e2] at h3 f3
  obtain ⟨a4, h4, w4⟩ := wordStep_merge env.σ (fun _ => false) (spaceOut (punctuation env.u) (spaceOut ideograph (s.map asciiLower)))
  obtain ⟨a5, h5, w5⟩ := wordStep_strip env.σ (fun _ => false)
    (mapRuns isSpace (fun _ => [' ']) (spaceOut (punctuation env.u) (spaceOut ideograph (s.map asciiLower))))
  have w2 := wordStep_around (punctuation env.u) ideograph a2 (s.map asciiLower) f2 r2
  have w3 := wordStep_around (fun _ => false) (punctuation env.u) a3 (spaceOut ideograph (s.map asciiLower)) f3 r3
  refine ⟨[a1, a2, a3, a4, a5], rfl, fun rest => ?_, fun ls hl => ?_⟩
  · show Pipe.runSteps (_ :: _ :: _ :: _ :: _ :: rest) _ _ _ = _
    refine (runSteps_cons (strStep h1) _ _).trans ?_
    refine (runSteps_cons (strStep (f := AddWhitespaceAroundCJK.transform env.σ) (by
      unfold AddWhitespaceAroundCJK.transform; rw [e1]; exact h2)) _ _).trans ?_
    refine (runSteps_cons (strStep (f := AddWhitespaceAroundPunctuation.transform env.σ env.u) (by
      unfold AddWhitespaceAroundPunctuation.transform; rw [e2]; exact h3)) _ _).trans ?_
    refine (runSteps_cons (strStep h4) _ _).trans ?_
    exact runSteps_cons (strStep h5) _ _
  · obtain ⟨L2, x2, l2, c2, z2⟩ := w2 ls (by simpa using hl)
    obtain ⟨L3, x3, l3, c3, z3⟩ := w3 L2 l2
    obtain ⟨L4, x4, l4, c4, z4⟩ := w4 L3 l3
    obtain ⟨L5, x5, l5, c5, z5⟩ := w5 L4 l4
    rw [map_id_words] at c2 c3 c4 c5
    refine ⟨L5, ?_, l5, ?_, fun hz => ?_⟩
    · show (a1.transform ls >>= fun ls => a2.transform ls >>= fun ls => a3.transform ls >>= fun ls =>
        a4.transform ls >>= fun ls => a5.transform ls >>= fun ls => .ok ls) = _
      rw [(p1 ls hl).1, Except.bind_ok, x2, Except.bind_ok, x3, Except.bind_ok, x4, Except.bind_ok, x5]
      rfl
    · have ef : (fun c => false || punctuation env.u c) = punctuation env.u := by funext c; simp
      rw [ef] at c3
      exact (c5.trans c4).trans (c3.trans c2)
    · obtain ⟨y2, i2⟩ := z2 hz
      obtain ⟨y3, i3⟩ := z3 y2
      obtain ⟨y4, i4⟩ := z4 y3
      obtain ⟨y5, i5⟩ := z5 y4
      refine ⟨y5, ?_⟩
      show (a5.inverseTransform L5 >>= fun ls => a4.inverseTransform ls >>= fun ls => a3.inverseTransform ls >>=
        fun ls => a2.inverseTransform ls >>= fun ls => a1.inverseTransform ls >>= fun ls => .ok ls) = _
      rw [i5, Except.bind_ok, i4, Except.bind_ok, i3, Except.bind_ok, i2, Except.bind_ok, (p1 ls hl).2]
      rfl

theorem alignAll_append' (as bs : List Aligner) (ls : List Int) :
    alignAll (as ++ bs) ls = alignAll as ls >>= alignAll bs := by
  induction as generalizing ls with
  | nil => rfl
  | cons a as ih =>
    show (a.transform ls >>= alignAll (as ++ bs)) = ((a.transform ls >>= alignAll as) >>= alignAll bs)
    cases a.transform ls with
    | error e => rfl
    | ok m => exact ih m

theorem realignAll_append' (as bs : List Aligner) (ls : List Int) :
    realignAll (as ++ bs) ls = realignAll bs ls >>= realignAll as := by
  unfold realignAll
  rw [List.reverse_append, realignLoop_append]

theorem basicOps_builtin (env : Env) : ∀ op ∈ basicOps env, IsBuiltin env op := by
  intro op hop
  simp only [basicOps, List.mem_cons, List.not_mem_nil, or_false] at hop
  rcases hop with rfl | rfl | rfl | rfl | rfl | rfl | rfl
  · exact ⟨_, List.mem_of_getElem? (i := 4) rfl, [], [], List.nodup_nil, rfl⟩
  · exact ⟨_, List.mem_of_getElem? (i := 5) rfl, [], [], List.nodup_nil, rfl⟩
  · exact ⟨_, List.mem_of_getElem? (i := 6) rfl, [], [], List.nodup_nil, rfl⟩
  · exact ⟨_, List.mem_of_getElem? (i := 14) rfl, [], [], List.nodup_nil, rfl⟩
  · exact ⟨_, List.mem_of_getElem? (i := 15) rfl, [], [], List.nodup_nil, rfl⟩
  · exact ⟨_, List.mem_of_getElem? (i := 8) rfl, [], [], List.nodup_nil, rfl⟩
  · exact ⟨_, List.mem_of_getElem? (i := 22) rfl, [], [], List.nodup_nil, rfl⟩

theorem basicOps_safe (env : Env) : ∀ op ∈ basicOps env, ∀ t, Safe env op t := by
  intro op hop t
  refine C14_safe env op t (Or.inl ?_)
  simp only [basicOps, List.mem_cons, List.not_mem_nil, or_false] at hop
  rcases hop with rfl | rfl | rfl | rfl | rfl | rfl | rfl <;>
    (dsimp only [Builtin.lowercase, Builtin.aroundCJK, Builtin.aroundPunctuation, Builtin.mergeWs, Builtin.stripWs,
      Builtin.stripAccent, Builtin.wsTok, Builtin.simple]; decide)

theorem basic_run (env : Env) (s : Str)
    (h : (unaccented env.u (bertText env.u s)).length = (bertText env.u s).length) :
    ∃ as a6 a7, Pipe.transformSequence ⟨basicOps env, []⟩ (.str s) =
      .ok (.list ((wordsOf (unaccented env.u (bertText env.u s))).map Tok.str), as ++ [a6] ++ [a7],
        bertColl env.u s ++ [.str (unaccented env.u (bertText env.u s))] ++
          [.list ((wordsOf (unaccented env.u (bertText env.u s))).map Tok.str)]) := by
  obtain ⟨as, _, h1, _⟩ := basic_front env s
  obtain ⟨a6, h6, _, _⟩ := C27_transform env.σ env.u (bertText env.u s) h
  obtain ⟨a7, h7⟩ := C39_words env.σ (unaccented env.u (bertText env.u s))
  refine ⟨as, a6, a7, ?_⟩
  refine (h1 ((basicOps env).drop 5)).trans ?_
  refine (runSteps_cons (strStep h6) _ _).trans ?_
  exact runSteps_cons (tokStep h7) _ _

/-- C68: `basic_pipe` succeeds on exactly the texts for which stripping accents keeps the length; it returns the
whitespace-separated words of the normalised text, and labels are aligned with them. On other texts it raises
AssertionError. -/
theorem C68_basic (env : Env) (he : env.Sane) (s : Str) :
    ∃ p, Bert.basicPipe (Builtin.registryDefault env) = .ok p ∧
      ((unaccented env.u (bertText env.u s)).length = (bertText env.u s).length →
        ∃ as coll, p.transformSequence (.str s) =
            .ok (.list ((wordsOf (unaccented env.u (bertText env.u s))).map Tok.str), as, coll) ∧
          FaithfulAll as s.length (wordsOf (unaccented env.u (bertText env.u s))).length) ∧
      ((unaccented env.u (bertText env.u s)).length ≠ (bertText env.u s).length →
        p.transformSequence (.str s) = .error .assertionError) := by
  refine ⟨_, basicPipe_eq env, fun h => ?_, fun h => ?_⟩
  · obtain ⟨as, a6, a7, hrun⟩ := basic_run env s h
    refine ⟨_, _, hrun, ?_⟩
    have := C14_C59_pipe env he ⟨basicOps env, []⟩ (basicOps_builtin env) _ _ _ _ hrun
      (fun i op t hop _ => basicOps_safe env op (List.mem_of_getElem? hop) t)
    simpa [Seq.length] using this
  · obtain ⟨as, _, h1, _⟩ := basic_front env s
    refine (h1 ((basicOps env).drop 5)).trans ?_
    exact runSteps_fail (strStep_error (C27_length_change env.σ env.u (bertText env.u s) h)) _ _

theorem mem_strip {s : Str} {c : Char} (h : c ∈ strip s) : c ∈ s := by
  obtain ⟨a, b, e, _⟩ := strip_split s
  rw [e]
  exact List.mem_append_left _ (List.mem_append_right _ h)

theorem mem_mapRuns {s : Str} {c : Char} (h : c ∈ mapRuns isSpace (fun _ => [' ']) s) : c = ' ' ∨ c ∈ s := by
  obtain ⟨r, hr, hc⟩ := List.mem_flatMap.mp h
  split at hc
  · exact Or.inl (by simpa using hc)
  · right
    rw [← runs_flatten isSpace s]
    exact List.mem_flatten.mpr ⟨r, hr, hc⟩

theorem mem_spaceOut {v : Char → Bool} {s : Str} {c : Char} (h : c ∈ spaceOut v s) : c = ' ' ∨ c ∈ s := by
  obtain ⟨d, hd, hc⟩ := List.mem_flatMap.mp h
  split at hc
  · simp only [List.mem_cons, List.not_mem_nil, or_false] at hc
    rcases hc with rfl | rfl | rfl
    · exact Or.inl rfl
    · exact Or.inr hd
    · exact Or.inl rfl
  · have : c = d := by simpa using hc
    exact Or.inr (this ▸ hd)

theorem mem_bertText {u : Unicode} {s : Str} {c : Char} (h : c ∈ bertText u s) : c = ' ' ∨ c ∈ s.map asciiLower := by
  rcases mem_mapRuns (mem_strip h) with h | h
  · exact Or.inl h
  · rcases mem_spaceOut h with h | h
    · exact Or.inl h
    · exact mem_spaceOut h

theorem length_of_map_eq {f : Char → Char} {ps qs : List (Str × Str)}
    (h : qs.map Prod.snd = ps.map fun p => p.2.map f) (ys : List Int) :
    (qs.zip ys).map (fun x => List.replicate x.1.2.length x.2) =
      (ps.zip ys).map fun x => List.replicate x.1.2.length x.2 := by
  induction ps generalizing qs ys with
  | nil =>
    cases qs with
    | nil => rfl
    | cons q qs => simp at h
  | cons p ps ih =>
    cases qs with
    | nil => simp at h
    | cons q qs =>
      cases ys with
      | nil => rfl
      | cons y ys =>
        simp only [List.map_cons, List.cons.injEq] at h
        simp only [List.zip_cons_cons, List.map_cons, ih h.2 ys, h.1, List.length_map]

/-- C68: when accents are stripped character by character, `basic_pipe` cuts the text at whitespace and around every
punctuation character and ideograph, like `ZhCharTokenizer` on the small-lettered text, and strips the accents of
the tokens. A token's label is the most frequent label of its characters. Going back, the characters of a token get
its label and all others 0. -/
theorem C68_tokens (env : Env) (s : Str) (f : Char → Char) (hf : Charwise env.u f s) (ps : List (Str × Str))
    (tail : Str) (hps : TokenizedBy (standsAlone env.u) (s.map asciiLower) ps tail) :
    ∃ p as coll, Bert.basicPipe (Builtin.registryDefault env) = .ok p ∧
      p.transformSequence (.str s) = .ok (.list (ps.map fun q => .str (q.2.map f)), as, coll) ∧
      (∀ ls, ls.length = s.length → alignAll as ls = .ok ((tokenSegs ps ls).map tokenLabel)) ∧
      (∀ ys, ys.length = ps.length → uintLabels ys → realignAll as ys = .ok (charLabels ps tail ys)) ∧
      (∀ ys, ys.length = ps.length → ¬ uintLabels ys → realignAll as ys = .error .overflowError) := by
  obtain ⟨as, _, h1, h2⟩ := basic_front env s
  have hacc : unaccented env.u (bertText env.u s) = (bertText env.u s).map f :=
    hf.chars _ fun c hc => mem_bertText hc
  have hacc' : (env.u.nfd (bertText env.u s)).filter (fun c => !env.u.isMn c) = (bertText env.u s).map f := hacc
  obtain ⟨a6, h6, _, p6⟩ := C27_transform env.σ env.u (bertText env.u s) (by rw [hacc']; simp)
  rw [hacc'] at h6
  obtain ⟨a7, qs, tail', h7, hqs, t7⟩ := C39_C42_whitespace env.σ ((bertText env.u s).map f)
  have w6 := wordStep_map f a6 (bertText env.u s) p6 (fun c hc => hf.space c (mem_bertText hc))
  -- forward through the first six steps
  have step : ∀ ls, ls.length = s.length → ∃ L, alignAll (as ++ [a6]) ls = .ok L ∧
      L.length = ((bertText env.u s).map f).length ∧
      tokenSegs qs L = tokenSegs ps ls ∧ (qs.map Prod.snd = ps.map fun p => p.2.map f) ∧
      (ZeroSpace ((s.map asciiLower).zip ls) →
        ZeroSpace (((bertText env.u s).map f).zip L) ∧ realignAll (as ++ [a6]) L = .ok ls) := by
    intro ls hl
    obtain ⟨L, x1, x2, x3, x4⟩ := h2 ls hl
    obtain ⟨M, y1, y2, y3, y4⟩ := w6 L x2
    have hM : (((bertText env.u s).map f).zip M).map Prod.fst = (bertText env.u s).map f :=
      List.map_fst_zip (by omega)
    have hM2 : (((bertText env.u s).map f).zip M).map Prod.snd = M := List.map_snd_zip (by omega)
    have hl0 : ((s.map asciiLower).zip ls).map Prod.fst = s.map asciiLower := List.map_fst_zip (by simp; omega)
    have hl2 : ((s.map asciiLower).zip ls).map Prod.snd = ls := List.map_snd_zip (by simp; omega)
    rw [cutWords_tokens _ _ qs tail' hqs _ hM, x3, cutWords_tokens _ _ ps tail hps _ hl0] at y3
    refine ⟨M, ?_, y2, ?_, ?_, fun hz => ?_⟩
    · rw [alignAll_append', x1, Except.bind_ok]
      show (a6.transform L >>= fun ls => .ok ls) = _
      rw [y1]
      rfl
    · have := congrArg (List.map (List.map Prod.snd)) y3
      rw [tokenParts_labels, hM2, List.map_map] at this
      rw [this, ← hl2, ← tokenParts_labels, hl2]
      refine List.map_congr_left fun w _ => ?_
      simp
    · have := congrArg (List.map (List.map Prod.fst)) y3
      rw [tokenParts_tokens qs tail' _ (by rw [hM]; exact hqs.text), List.map_map] at this
      rw [this]
      have e := tokenParts_tokens ps tail ((s.map asciiLower).zip ls) (by rw [hl0]; exact hps.text)
      rw [show (ps.map fun p => p.2.map f) = (ps.map Prod.snd).map (List.map f) by rw [List.map_map]; rfl, ← e,
        List.map_map]
      refine List.map_congr_left fun w _ => ?_
      simp
    · obtain ⟨z1, z2⟩ := x4 hz
      obtain ⟨z3, z4⟩ := y4 z1
      refine ⟨z3, ?_⟩
      rw [realignAll_append']
      show ((a6.inverseTransform M >>= fun ls => .ok ls) >>= _) = _
      rw [z4]
      exact z2
  have htoks : qs.map Prod.snd = ps.map fun p => p.2.map f := by
    obtain ⟨_, _, _, _, h, _⟩ := step (List.replicate s.length 0) (by simp)
    exact h
  have hcount : qs.length = ps.length := by simpa using congrArg List.length htoks
  have hlay : (layout qs tail').length = ((bertText env.u s).map f).length := by rw [← hqs.text]
  refine ⟨_, as ++ [a6] ++ [a7], bertColl env.u s ++ [.str ((bertText env.u s).map f)] ++
      [.list ((qs.map Prod.snd).map Tok.str)], basicPipe_eq env, ?_, fun ls hl => ?_, fun ys hy hu => ?_,
    fun ys hy hu => ?_⟩
  · refine (h1 ((basicOps env).drop 5)).trans ?_
    refine (runSteps_cons (strStep h6) _ _).trans ?_
    refine (runSteps_cons (tokStep h7) _ _).trans ?_
    rw [htoks]
    simp only [List.map_map]
    rfl
  · obtain ⟨L, x1, x2, x3, _⟩ := step ls hl
    rw [alignAll_append', x1, Except.bind_ok]
    show (a7.transform L >>= fun ls => .ok ls) = _
    rw [t7.forward L (by rw [hlay]; exact x2), x3]
    rfl
  · have hlen : (charLabels ps tail ys).length = s.length := by
      rw [charLabels_length ps tail ys hy, ← hps.text, List.length_map]
    obtain ⟨L, x1, x2, x3, _, x4⟩ := step (charLabels ps tail ys) hlen
    obtain ⟨z1, z2⟩ := x4 (by
      rw [hps.text]
      exact zeroSpace_charLabels ps tail ys hy hps.solid)
    have hL : L = charLabels qs tail' ys := by
      refine eq_charLabels qs tail' ys L (by omega) hqs.gaps hqs.last (by rw [hlay]; exact x2) ?_ ?_
      · rw [← hqs.text]; exact z1
      · rw [x3, tokenSegs_charLabels ps tail ys hy, length_of_map_eq htoks]
    rw [realignAll_append']
    show ((a7.inverseTransform ys >>= fun ls => .ok ls) >>= _) = _
    rw [t7.backward ys (by omega) hu, ← hL]
    exact z2
  · rw [realignAll_append']
    show ((a7.inverseTransform ys >>= fun ls => .ok ls) >>= _) = _
    rw [t7.overflow ys (by omega) hu]
    rfl

/-! ### the pipes that end in subwords -/

theorem runSteps_append (ops rest : List Op) (s : Seq) (as : List Aligner) (coll : List Seq) :
    Pipe.runSteps (ops ++ rest) s as coll =
      Pipe.runSteps ops s as coll >>= fun r => Pipe.runSteps rest r.1 r.2.1 r.2.2 := by
  induction ops generalizing s as coll with
  | nil => rfl
  | cons op ops ih =>
    show (op.transform s >>= _) = ((op.transform s >>= _) >>= _)
    cases op.transform s with
    | error e => rfl
    | ok r => exact ih _ _ _

theorem subwords_exist (vocab : Str → Bool) (unk : Str) (n : Nat) (w : Str) :
    ∃ ps, IsSubwords vocab unk n w ps ∧ SpanSubwords.spanSubwords vocab unk n w = .ok ps := by
  by_cases h : (n : Int) < (w.length : Int) ∨ ¬ ∃ rs, Greedy vocab true w rs
  · exact ⟨[unk], Or.inr ⟨h.imp (fun h => by omega) id, rfl⟩, C33_unknown vocab unk n w h⟩
  · rw [not_or] at h
    obtain ⟨rs, hg⟩ := Classical.not_not.mp h.2
    exact ⟨wordPieces rs, Or.inl ⟨by omega, rs, hg, rfl⟩, C33_segmentation vocab unk n w rs (by omega) hg⟩

/-- The vocabulary as a set of strings. -/
def vocabSet (vocab : List String) (w : Str) : Bool := (vocab.map String.toList).contains w

theorem noTwoEmpty_of_nonempty {l : List Str} (h : ∀ w ∈ l, w ≠ []) : NoTwoEmpty l := by
  induction l with
  | nil => trivial
  | cons a l ih =>
    cases l with
    | nil => trivial
    | cons b l => exact ⟨Or.inl (h a (by simp)), ih fun s hs => h s (by simp [hs])⟩

theorem subwordOp_step (env : Env) (vocab : List String) (words : List Str) (hw : ∀ w ∈ words, w ≠ []) :
    ∃ (subs : Str → List Str) (a : Aligner), (∀ w, IsSubwords (vocabSet vocab) "[UNK]".toList 200 w (subs w)) ∧
      (subwordOp env vocab).transform (.list (words.map Tok.str)) =
        .ok (.list (words.flatMap fun w => (subs w).map Tok.str), a) ∧
      (∀ ls : List Int, ls.length = words.length →
        a.transform ls = .ok ((words.zip ls).flatMap fun p => List.replicate (subs p.1).length p.2)) ∧
      (∀ ls : List Int, ls.length = (words.flatMap subs).length →
        a.inverseTransform ls = .ok ((segments (words.map fun w => (subs w).length) ls).map firstNonzeroMode)) := by
  let subs : Str → List Str := fun w =>
    Classical.choose (subwords_exist (vocabSet vocab) "[UNK]".toList 200 w)
  have hsubs := fun w => Classical.choose_spec (subwords_exist (vocabSet vocab) "[UNK]".toList 200 w)
  obtain ⟨a, h1, h2, _, h3, _⟩ := C34_transform env.σ (vocabSet vocab) "[UNK]".toList 200 words subs
    (fun w _ => (hsubs w).2)
  refine ⟨subs, a, fun w => (hsubs w).1, ?_, h2, h3 (Or.inr (noTwoEmpty_of_nonempty hw))⟩
  show (lstOp (SpanSubwords.transform env.σ (vocabSet vocab) "[UNK]".toList 200) (.list (words.map Tok.str)) >>= _) = _
  have : lstOp (SpanSubwords.transform env.σ (vocabSet vocab) "[UNK]".toList 200) (.list (words.map Tok.str)) =
      .ok (.list (words.flatMap fun w => (subs w).map Tok.str), a) := by
    show (SpanSubwords.transform env.σ (vocabSet vocab) "[UNK]".toList 200 (words.map Tok.str) >>= _) = _
    rw [h1]
    rfl
  rw [this]
  rfl

theorem wordsOf_nonempty (s : Str) : ∀ w ∈ wordsOf s, w ≠ [] ∧ ∀ c ∈ w, isSpace c = false := by
  intro w hw
  obtain ⟨a, ps, tail, h1, h2, _⟩ := C39_C42_whitespace SetOrder.id s
  obtain ⟨a', h3⟩ := C39_words SetOrder.id s
  rw [h1] at h3
  injection h3 with h3
  injection h3 with h3 _
  rw [← h3] at hw
  obtain ⟨p, hp, rfl⟩ := List.mem_map.mp hw
  exact ⟨h2.nonempty p hp, h2.solid p hp⟩

theorem subwordOp_safe (env : Env) (vocab : List String) (words : List Str) (hw : ∀ w ∈ words, w ≠ []) :
    Safe env (subwordOp env vocab) (.list (words.map Tok.str)) := by
  refine ⟨fun h => absurd h (by show "SpanSubwords".toList ≠ _; decide), fun _ v n _ _ _ l hl => ?_⟩
  injection hl with hl
  have : words = l := (List.map_inj_right (fun a b h => by injection h)).mp hl
  exact this ▸ noTwoEmpty_of_nonempty hw

theorem fullOp_builtin (env : Env) : IsBuiltin env (subwordOp env Bert.fullVocab) :=
  ⟨_, List.mem_of_getElem? (i := 27) rfl, [], (Bert.subwordStep Bert.fullVocab).2, by decide, rfl⟩

theorem wordPieceOp_builtin (env : Env) : IsBuiltin env (subwordOp env Bert.wordPieceVocab) :=
  ⟨_, List.mem_of_getElem? (i := 27) rfl, [], (Bert.subwordStep Bert.wordPieceVocab).2, by decide, rfl⟩

theorem segments_length (ns : List Nat) (ls : List Int) : (segments ns ls).length = ns.length := by
  induction ns generalizing ls with
  | nil => rfl
  | cons n ns ih => simp [segments, ih]

theorem tokenSegs_length (ps : List (Str × Str)) (ls : List Int) : (tokenSegs ps ls).length = ps.length := by
  induction ps generalizing ls with
  | nil => rfl
  | cons p ps ih => simp [tokenSegs, ih]

theorem mem_segments {ns : List Nat} {ls seg : List Int} (h : seg ∈ segments ns ls) : ∀ x ∈ seg, x ∈ ls := by
  induction ns generalizing ls with
  | nil => cases h
  | cons n ns ih =>
    rcases List.mem_cons.mp h with rfl | h
    · exact fun x hx => List.mem_of_mem_take hx
    · exact fun x hx => List.mem_of_mem_drop (ih h x hx)

theorem uintLabels_modes (ns : List Nat) (ls : List Int) (h : uintLabels ls) :
    uintLabels ((segments ns ls).map firstNonzeroMode) := by
  intro x hx
  obtain ⟨seg, hs, rfl⟩ := List.mem_map.mp hx
  by_cases he : seg.filter (fun y => decide (y ≠ 0)) = []
  · unfold firstNonzeroMode
    rw [he]
    exact ⟨by decide, by decide⟩
  · have := (isFirstMode_firstMode _ he).1
    exact h _ (mem_segments hs _ (List.mem_of_mem_filter this))

/-- C68: `word_piece_pipe` never raises. It divides every word of the text into subwords, and labels are aligned with
them: a subword gets the most frequent label of the characters of its word, and going back the characters of a word
get the most frequent non-zero label of its subwords. -/
theorem C68_word_piece (env : Env) (he : env.Sane) (s : Str) :
    ∃ (p : Pipe) (ps : List (Str × Str)) (tail : Str) (subs : Str → List Str) (as : List Aligner) (coll : List Seq),
      Bert.wordPiecePipe (Builtin.registryDefault env) = .ok p ∧
      TokenizedBy (fun _ => false) s ps tail ∧
      (∀ w, IsSubwords wordPieceEntries.contains "[UNK]".toList 200 w (subs w)) ∧
      p.transformSequence (.str s) = .ok (.list (ps.flatMap fun q => (subs q.2).map Tok.str), as, coll) ∧
      FaithfulAll as s.length (ps.flatMap fun q => subs q.2).length ∧
      (∀ ls, ls.length = s.length → alignAll as ls =
        .ok ((ps.zip (tokenSegs ps ls)).flatMap fun x => List.replicate (subs x.1.2).length (tokenLabel x.2))) ∧
      (∀ ys, ys.length = (ps.flatMap fun q => subs q.2).length → uintLabels ys → realignAll as ys =
        .ok (charLabels ps tail ((segments (ps.map fun q => (subs q.2).length) ys).map firstNonzeroMode))) := by
  obtain ⟨a1, ps, tail, h1, hps, t1⟩ := C39_C42_whitespace env.σ s
  have hw : ∀ w ∈ ps.map Prod.snd, w ≠ [] := by
    intro w hw
    obtain ⟨p, hp, rfl⟩ := List.mem_map.mp hw
    exact hps.nonempty p hp
  obtain ⟨subs, a2, hsubs, h2, f2, b2⟩ := subwordOp_step env Bert.wordPieceVocab (ps.map Prod.snd) hw
  have hlay : (layout ps tail).length = s.length := by rw [← hps.text]
  have hrun : Pipe.transformSequence ⟨[⟨Builtin.wsTok env, [], tokOp (WhiteSpaceTokenizer.transform env.σ)⟩,
      subwordOp env Bert.wordPieceVocab], []⟩ (.str s) =
      .ok (.list (ps.flatMap fun q => (subs q.2).map Tok.str), [a1] ++ [a2],
        [.str s] ++ [.list ((ps.map Prod.snd).map Tok.str)] ++
          [.list (ps.flatMap fun q => (subs q.2).map Tok.str)]) := by
    rw [List.flatMap_map] at h2
    refine (runSteps_cons (tokStep h1) _ _).trans ?_
    exact runSteps_cons h2 _ _
  have hlen : (ps.flatMap fun q => (subs q.2).map Tok.str).length = (ps.flatMap fun q => subs q.2).length := by
    simp [List.length_flatMap]
  have hF := C14_C59_pipe env he _ (fun op hop => by
      simp only [List.mem_cons, List.not_mem_nil, or_false] at hop
      rcases hop with rfl | rfl
      · exact basicOps_builtin env _ (List.mem_of_getElem? (i := 6) rfl)
      · exact wordPieceOp_builtin env) _ _ _ _ hrun (fun i op t hop ht => by
      match i, hop, ht with
      | 0, hop, ht =>
        injection hop with hop
        subst hop
        exact basicOps_safe env _ (List.mem_of_getElem? (i := 6) rfl) t
      | 1, hop, ht =>
        injection hop with hop
        injection ht with ht
        subst hop ht
        exact subwordOp_safe env _ _ hw
      | i + 2, hop, ht => cases hop)
  refine ⟨_, ps, tail, subs, _, _, wordPiecePipe_eq env, hps, hsubs, hrun, ?_, fun ls hl => ?_, fun ys hy hu => ?_⟩
  · rw [← hlen]; exact hF
  · show (a1.transform ls >>= fun ls => a2.transform ls >>= fun ls => .ok ls) = _
    rw [t1.forward ls (by rw [hlay]; exact hl), Except.bind_ok, f2 _ (by simp [tokenSegs_length])]
    show Except.ok _ = _
    rw [List.zip_map, List.flatMap_map]
    rfl
  · show (a2.inverseTransform ys >>= fun ls => a1.inverseTransform ls >>= fun ls => .ok ls) = _
    rw [b2 ys (by rw [List.flatMap_map]; exact hy), Except.bind_ok, List.map_map]
    rw [t1.backward _ (by simp [segments_length]) (uintLabels_modes _ _ hu)]
    rfl

/-- C68: `full_pipe` raises exactly when `basic_pipe` does. Otherwise it divides every token of `basic_pipe` into
subwords, which get the label of the token; going back a token gets the most frequent non-zero label of its
subwords. -/
theorem C68_full (env : Env) (he : env.Sane) (s : Str) :
    ∃ b p, Bert.basicPipe (Builtin.registryDefault env) = .ok b ∧
      Bert.fullPipe (Builtin.registryDefault env) = .ok p ∧
      (∀ e, b.transformSequence (.str s) = .error e → p.transformSequence (.str s) = .error e) ∧
      ∀ o as coll, b.transformSequence (.str s) = .ok (o, as, coll) →
        ∃ (words : List Str) (subs : Str → List Str) (a : Aligner), o = .list (words.map Tok.str) ∧
          (∀ w, IsSubwords fullEntries.contains "[UNK]".toList 200 w (subs w)) ∧
          (∃ coll', p.transformSequence (.str s) =
            .ok (.list (words.flatMap fun w => (subs w).map Tok.str), as ++ [a], coll')) ∧
          FaithfulAll (as ++ [a]) s.length (words.flatMap subs).length ∧
          (∀ ls ys, alignAll as ls = .ok ys → alignAll (as ++ [a]) ls =
            .ok ((words.zip ys).flatMap fun x => List.replicate (subs x.1).length x.2)) ∧
          (∀ ys, ys.length = (words.flatMap subs).length → realignAll (as ++ [a]) ys =
            realignAll as ((segments (words.map fun w => (subs w).length) ys).map firstNonzeroMode)) := by
  obtain ⟨_, hb, ok, bad⟩ := C68_basic env he s
  rw [basicPipe_eq] at hb
  injection hb with hb
  subst hb
  have hsplit : Pipe.transformSequence ⟨basicOps env ++ [subwordOp env Bert.fullVocab], []⟩ (.str s) =
      Pipe.transformSequence ⟨basicOps env, []⟩ (.str s) >>= fun r =>
        Pipe.runSteps [subwordOp env Bert.fullVocab] r.1 r.2.1 r.2.2 := runSteps_append _ _ _ _ _
  refine ⟨_, _, basicPipe_eq env, fullPipe_eq env, fun e h => ?_, fun o as coll h => ?_⟩
  · rw [hsplit, h]; rfl
  · by_cases hl : (unaccented env.u (bertText env.u s)).length = (bertText env.u s).length
    · obtain ⟨as', coll', h', hF⟩ := ok hl
      rw [h] at h'
      injection h' with h'
      injection h' with e1 e2
      injection e2 with e2 e3
      subst e1 e2 e3
      have hw : ∀ w ∈ wordsOf (unaccented env.u (bertText env.u s)), w ≠ [] := fun w hw => (wordsOf_nonempty _ w hw).1
      obtain ⟨subs, a, hsubs, h2, f2, b2⟩ := subwordOp_step env Bert.fullVocab _ hw
      have hrun := hsplit
      rw [h, Except.bind_ok] at hrun
      have hrun := hrun.trans (runSteps_cons h2 _ _)
      have hlen : ((wordsOf (unaccented env.u (bertText env.u s))).flatMap fun w => (subs w).map Tok.str).length =
          ((wordsOf (unaccented env.u (bertText env.u s))).flatMap subs).length := by
        simp [List.length_flatMap]
      have hsame : as ≠ [] ∧ coll.length = 8 ∧
          coll[7]? = some (.list ((wordsOf (unaccented env.u (bertText env.u s))).map Tok.str)) := by
        obtain ⟨as0, a6, a7, h0⟩ := basic_run env s hl
        rw [h] at h0
        injection h0 with h0
        injection h0 with _ h0
        injection h0 with e1 e2
        subst e1 e2
        exact ⟨by simp, rfl, rfl⟩
      refine ⟨_, subs, a, rfl, hsubs, ⟨_, hrun⟩, ?_, fun ls ys hy => ?_, fun ys hy => ?_⟩
      · have := C14_C59_pipe env he _ (fun op hop => by
          rcases List.mem_append.mp hop with hop | hop
          · exact basicOps_builtin env op hop
          · rw [List.mem_singleton.mp hop]
            exact fullOp_builtin env) _ _ _ _ hrun (fun i op t hop ht => by
          by_cases hi : i < (basicOps env).length
          · have : (basicOps env)[i]? = some op := by rw [← hop]; exact (List.getElem?_append_left hi).symm
            exact basicOps_safe env op (List.mem_of_getElem? this) t
          · have hi' : i = 7 := by
              have : i < (basicOps env ++ [subwordOp env Bert.fullVocab]).length := by
                rw [List.getElem?_eq_some_iff] at hop
                exact hop.1
              simp [basicOps] at hi this
              omega
            subst hi'
            injection (show some (subwordOp env Bert.fullVocab) = some op from hop) with hop
            have ht' : coll[7]? = some t := by
              rw [← ht]; exact (List.getElem?_append_left (by rw [hsame.2.1]; decide)).symm
            rw [hsame.2.2] at ht'
            injection ht' with ht'
            rw [← hop, ← ht']
            exact subwordOp_safe env _ _ hw)
        rw [← hlen]; exact this
      · rw [alignAll_append', hy, Except.bind_ok]
        show (a.transform ys >>= fun ls => .ok ls) = _
        have : ys.length = (wordsOf (unaccented env.u (bertText env.u s))).length := by
          by_cases hls : ls.length = s.length
          · obtain ⟨ys', e, hl', _⟩ := hF.forward ls hls
            rw [hy] at e
            injection e with e
            exact e ▸ hl'
          · have := hF.refuse hsame.1 ls hls
            rw [hy] at this
            cases this
        rw [f2 ys this]
        rfl
      · rw [realignAll_append']
        show ((a.inverseTransform ys >>= fun ls => .ok ls) >>= _) = _
        rw [b2 ys hy]
        rfl
    · rw [bad hl] at h
      cases h

/-- C68: the vocabularies kept by the last steps of `full_pipe` and `word_piece_pipe`: the entries are numbered from 0 in
the order in which they are listed. -/
theorem C68_configs (env : Env) :
    (∃ p op v, Bert.fullPipe (Builtin.registryDefault env) = .ok p ∧ p.steps.getLast? = some op ∧
      op.configs = [("vocab".toList, .dict v), ("unk_token".toList, .str "[UNK]".toList), ("maxlen_per_token".toList, .int 200)] ∧
      v.map Prod.fst = fullEntries ∧ ∀ (i : Nat) k w, v[i]? = some (k, w) → w = .int i) ∧
    (∃ p op v, Bert.wordPiecePipe (Builtin.registryDefault env) = .ok p ∧ p.steps.getLast? = some op ∧
      op.configs = [("vocab".toList, .dict v), ("unk_token".toList, .str "[UNK]".toList), ("maxlen_per_token".toList, .int 200)] ∧
      v.map Prod.fst = wordPieceEntries ∧ ∀ (i : Nat) k w, v[i]? = some (k, w) → w = .int i) := by
  have num : ∀ (l : List String) (i : Nat) k w,
      (l.zipIdx.map fun t => (t.1.toList, PyVal.int t.2))[i]? = some (k, w) → w = .int i := by
    intro l i k w h
    rw [List.getElem?_map, List.getElem?_zipIdx] at h
    cases hl : l[i]? with
    | none => rw [hl] at h; cases h
    | some x =>
      rw [hl] at h
      simp only [Option.map_some, Option.some.injEq, Prod.mk.injEq, Nat.zero_add] at h
      exact h.2.symm
  exact ⟨⟨_, _, _, fullPipe_eq env, rfl, rfl, rfl, num _⟩, ⟨_, _, _, wordPiecePipe_eq env, rfl, rfl, rfl, num _⟩⟩

/-- C68: the tokens of `basic_pipe` are not empty and contain no whitespace. -/
theorem C68_solid (env : Env) (he : env.Sane) (s : Str) (p : Pipe)
    (hp : Bert.basicPipe (Builtin.registryDefault env) = .ok p) (o : Seq) (as : List Aligner) (coll : List Seq)
    (h : p.transformSequence (.str s) = .ok (o, as, coll)) :
    ∃ words : List Str, o = .list (words.map Tok.str) ∧ ∀ w ∈ words, w ≠ [] ∧ ∀ c ∈ w, isSpace c = false := by
  obtain ⟨p', hp', ok, bad⟩ := C68_basic env he s
  rw [hp] at hp'
  injection hp' with hp'
  subst hp'
  by_cases hl : (unaccented env.u (bertText env.u s)).length = (bertText env.u s).length
  · obtain ⟨_, _, h', _⟩ := ok hl
    rw [h] at h'
    injection h' with h'
    injection h' with e1 _
    exact ⟨_, e1, wordsOf_nonempty _⟩
  · rw [bad hl] at h
    cases h

/-- C68: every text has such a division into tokens; in it every punctuation character and ideograph of the text is
a token of its own, and the tokens together are the text without its whitespace. -/
theorem C68_alone (u : Unicode) (s : Str) :
    ∃ ps tail, TokenizedBy (standsAlone u) (s.map asciiLower) ps tail ∧
      (∀ q ∈ ps, ∀ c ∈ q.2, standsAlone u c = true → q.2 = [c]) ∧
      (ps.map Prod.snd).flatten = (s.map asciiLower).filter fun c => !isSpace c := by
  obtain ⟨_, ps, tail, _, h, _⟩ := C40_C42_zh SetOrder.id u (s.map asciiLower)
  rw [standsAlone_eq] at h
  exact ⟨ps, tail, h, h.alone, C39_C40_join _ _ _ _ h⟩

/-- A table in which `≠` decomposes into `=` and a combining stroke, as it does in Unicode. -/
def strokeEnv : Env where
  σ := SetOrder.id
  u := { isDecimal := fun _ => false, isCatP := fun _ => false, isMn := fun c => c.toNat == 0x338
         nfd := fun s => s.flatMap fun c => if c = '≠' then ['=', Char.ofNat 0x338] else [c] }
  compile := fun p => some (Re.lit p).search

theorem strokeEnv_sane : strokeEnv.Sane := by
  refine ⟨rfl, fun p m h s => ?_⟩
  injection h with h
  rw [← h]
  exact C24_regex_sound _ _

/-- C68 does not extend to the characters of the output: accents are stripped after punctuation has been spaced out,
so a token can come to contain punctuation that was not in the text. -/
theorem C68_made_punctuation :
    ∃ (env : Env) (s : Str) (p : Pipe) (as : List Aligner) (coll : List Seq), env.Sane ∧
      Bert.basicPipe (Builtin.registryDefault env) = .ok p ∧
      p.transformSequence (.str s) = .ok (.list [.str "a=b".toList], as, coll) ∧ punctuation env.u '=' = true := by
  obtain ⟨p, hp, h, _⟩ := C68_basic strokeEnv strokeEnv_sane "a≠b".toList
  obtain ⟨as, coll, h, _⟩ := h rfl
  exact ⟨strokeEnv, _, p, as, coll, strokeEnv_sane, hp, h, rfl⟩

/-! ### examples -/

/-- Stripping accents with the table of the examples. -/
theorem exEnv_charwise (s : Str) (h : Char.ofNat 0x301 ∉ s.map asciiLower) :
    Charwise exEnv.u (fun c => if c = 'é' then 'e' else c) s := by
  constructor
  · intro t ht
    induction t with
    | nil => rfl
    | cons c t ih =>
      have ih := ih fun d hd => ht d (List.mem_cons_of_mem _ hd)
      have hc : exEnv.u.isMn c = false := by
        have h' : c ≠ Char.ofNat 0x301 := by
          rcases ht c (List.mem_cons_self ..) with e | e
          · rw [e]; decide
          · exact fun h' => h (h' ▸ e)
        show (c.toNat == 0x301) = false
        rw [beq_eq_false_iff_ne]
        exact fun e => h' (by rw [← e, Char.ofNat_toNat])
      have step : unaccented exEnv.u (c :: t) =
          (if c = 'é' then ['e', Char.ofNat 0x301] else [c]).filter (fun c => !exEnv.u.isMn c) ++
            unaccented exEnv.u t := by
        show ((c :: t).flatMap fun c => if c = 'é' then ['e', Char.ofNat 0x301] else [c]).filter
          (fun c => !exEnv.u.isMn c) = _
        rw [List.flatMap_cons, List.filter_append]
        rfl
      rw [step, ih, List.map_cons]
      by_cases e : c = 'é'
      · rw [if_pos e, if_pos e]; rfl
      · rw [if_neg e, if_neg e, List.filter_cons_of_pos (by simp [hc])]; rfl
  · intro c _
    by_cases e : c = 'é'
    · rw [if_pos e, e]; rfl
    · rw [if_neg e]

example : ∃ p as coll, Bert.basicPipe (Builtin.registryDefault exEnv) = .ok p ∧
    p.transformSequence (.str "Hé,中".toList) =
      .ok (.list [.str "he".toList, .str ",".toList, .str "中".toList], as, coll) ∧
    FaithfulAll as 4 3 := by
  obtain ⟨p, hp, h, _⟩ := C68_basic exEnv exEnv_sane "Hé,中".toList
  obtain ⟨as, coll, h, hF⟩ := h rfl
  exact ⟨p, as, coll, hp, h, hF⟩

example : ∃ p as coll, Bert.basicPipe (Builtin.registryDefault exEnv) = .ok p ∧
    p.transformSequence (.str "Hé,中".toList) =
      .ok (.list [.str "he".toList, .str ",".toList, .str "中".toList], as, coll) ∧
    alignAll as [5, 5, 0, 7] = .ok [5, 0, 7] ∧ realignAll as [5, 0, 7] = .ok [5, 5, 0, 7] := by
  have hps' : TokenizedBy (standsAlone exEnv.u) ("Hé,中".toList.map asciiLower)
      [([], "hé".toList), ([], ",".toList), ([], "中".toList)] [] := by
    refine ⟨rfl, by simp, by simp, by simp, ?_, ?_, ?_⟩
    · decide
    · decide
    · exact ⟨fun _ => Or.inr ⟨',', rfl, rfl⟩, fun _ => Or.inl ⟨',', rfl, rfl⟩, trivial⟩
  obtain ⟨p, as, coll, hp, h, f, b, _⟩ := C68_tokens exEnv "Hé,中".toList _ (exEnv_charwise _ (by decide)) _ _ hps'
  exact ⟨p, as, coll, hp, h, f [5, 5, 0, 7] rfl, b [5, 0, 7] rfl (by unfold uintLabels; decide)⟩

example : ∃ p as coll, Bert.wordPiecePipe (Builtin.registryDefault exEnv) = .ok p ∧
    p.transformSequence (.str " x".toList) = .ok (.list [.str "[UNK]".toList], as, coll) ∧
    alignAll as [0, 3] = .ok [3] ∧ realignAll as [3] = .ok [0, 3] := by
  obtain ⟨p, ps, tail, subs, as, coll, hp, hps, hs, h, _, f, b⟩ := C68_word_piece exEnv exEnv_sane " x".toList
  have hps' : TokenizedBy (fun _ => false) " x".toList [(" ".toList, "x".toList)] [] := by
    refine ⟨rfl, by decide, by simp, by simp, by decide, by simp, trivial⟩
  obtain ⟨rfl, rfl⟩ := C40_cuts_unique _ _ _ _ _ _ hps hps'
  have hx : subs "x".toList = ["[UNK]".toList] := by
    rcases hs "x".toList with ⟨_, rs, hg, _⟩ | ⟨_, e⟩
    · cases rs with
      | nil => cases hg
      | cons r rs =>
        obtain ⟨h1, h2, _, r', h3, _⟩ := hg
        cases r with
        | nil => exact absurd rfl h1
        | cons c r =>
          injection h3 with h3 h4
          have : r = [] := by
            cases r with
            | nil => rfl
            | cons => cases h4
          subst this h3
          exact absurd h2 (by decide)
    · exact e
  have e1 : ([(" ".toList, "x".toList)].flatMap fun q => (subs q.2).map Tok.str) = [.str "[UNK]".toList] := by
    simp only [List.flatMap_cons, List.flatMap_nil, hx]; rfl
  refine ⟨p, as, coll, hp, by rw [h, e1], ?_, ?_⟩
  · rw [f [0, 3] rfl]
    simp only [tokenSegs, List.zip_cons_cons, List.zip_nil_left, List.flatMap_cons, List.flatMap_nil, hx]
    rfl
  · rw [b [3] (by simp only [List.flatMap_cons, List.flatMap_nil, hx]; rfl) (by unfold uintLabels; decide)]
    simp only [List.map_cons, List.map_nil, hx]
    rfl

example : ∃ p o as coll, Bert.fullPipe (Builtin.registryDefault exEnv) = .ok p ∧
    p.transformSequence (.str "Hé,中".toList) = .ok (o, as, coll) ∧ FaithfulAll as 4 o.length := by
  obtain ⟨b, p, hb, hp, _, h⟩ := C68_full exEnv exEnv_sane "Hé,中".toList
  obtain ⟨b', hb', h', _⟩ := C68_basic exEnv exEnv_sane "Hé,中".toList
  rw [hb] at hb'
  injection hb' with hb'
  subst hb'
  obtain ⟨as, coll, h', _⟩ := h' rfl
  obtain ⟨words, subs, a, _, _, ⟨coll', h1⟩, h2, _⟩ := h _ _ _ h'
  refine ⟨p, _, _, coll', hp, h1, ?_⟩
  have : (words.flatMap fun w => (subs w).map Tok.str).length = (words.flatMap subs).length := by
    simp [List.length_flatMap]
  show FaithfulAll _ _ (words.flatMap fun w => (subs w).map Tok.str).length
  rw [this]
  exact h2

end Uttut
