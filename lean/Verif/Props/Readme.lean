import Verif.Props.Bert
import Verif.Spec.Readme

/-! The pipe of the README (C70). -/

namespace Uttut

open Spec

/-! ### helpers -/

theorem tokens_through (own : Char → Bool) (as : List Aligner) (t t' : Str)
    (hstep : ∀ ls, ls.length = t.length → ∃ L, alignAll as ls = .ok L ∧ L.length = t'.length ∧
      cutWords own (t'.zip L) [] = cutWords own (t.zip ls) [] ∧
      (ZeroSpace (t.zip ls) → ZeroSpace (t'.zip L) ∧ realignAll as L = .ok ls))
    (a : Aligner) (qs : List (Str × Str)) (tail' : Str) (hqs : TokenizedBy own t' qs tail')
    (hl : TokenLabels a qs tail') (ps : List (Str × Str)) (tail : Str) (hps : TokenizedBy own t ps tail) :
    qs.map Prod.snd = ps.map Prod.snd ∧
    (∀ ls, ls.length = t.length → alignAll (as ++ [a]) ls = .ok ((tokenSegs ps ls).map tokenLabel)) ∧
    (∀ ys, ys.length = ps.length → uintLabels ys → realignAll (as ++ [a]) ys = .ok (charLabels ps tail ys)) ∧
    (∀ ys, ys.length = ps.length → ¬ uintLabels ys → realignAll (as ++ [a]) ys = .error .overflowError) := by
  have step : ∀ ls, ls.length = t.length → ∃ L, alignAll as ls = .ok L ∧ L.length = t'.length ∧
      tokenSegs qs L = tokenSegs ps ls ∧ qs.map Prod.snd = ps.map Prod.snd ∧
      (ZeroSpace (t.zip ls) → ZeroSpace (t'.zip L) ∧ realignAll as L = .ok ls) := by
    intro ls hl
    obtain ⟨L, x1, x2, x3, x4⟩ := hstep ls hl
    have hM : (t'.zip L).map Prod.fst = t' := List.map_fst_zip (by omega)
    have hM2 : (t'.zip L).map Prod.snd = L := List.map_snd_zip (by omega)
    have hl0 : (t.zip ls).map Prod.fst = t := List.map_fst_zip (by omega)
    have hl2 : (t.zip ls).map Prod.snd = ls := List.map_snd_zip (by omega)
    rw [cutWords_tokens _ _ qs tail' hqs _ hM, cutWords_tokens _ _ ps tail hps _ hl0] at x3
    refine ⟨L, x1, x2, ?_, ?_, x4⟩
    · have := congrArg (List.map (List.map Prod.snd)) x3
      rwa [tokenParts_labels, tokenParts_labels, hM2, hl2] at this
    · have := congrArg (List.map (List.map Prod.fst)) x3
      rwa [tokenParts_tokens qs tail' _ (by rw [hM]; exact hqs.text),
        tokenParts_tokens ps tail _ (by rw [hl0]; exact hps.text)] at this
  have htoks : qs.map Prod.snd = ps.map Prod.snd := by
    obtain ⟨_, _, _, _, h, _⟩ := step (List.replicate t.length 0) (by simp)
    exact h
  have hcount : qs.length = ps.length := by simpa using congrArg List.length htoks
  have hlay : (layout qs tail').length = t'.length := by rw [← hqs.text]
  refine ⟨htoks, fun ls h => ?_, fun ys hy hu => ?_, fun ys hy hu => ?_⟩
  · obtain ⟨L, x1, x2, x3, _⟩ := step ls h
    rw [alignAll_append', x1, Except.bind_ok]
    show (a.transform L >>= fun ls => .ok ls) = _
    rw [hl.forward L (by rw [hlay]; exact x2), x3]
    rfl
  · have hlen : (charLabels ps tail ys).length = t.length := by
      rw [charLabels_length ps tail ys hy, ← hps.text]
    obtain ⟨L, x1, x2, x3, _, x4⟩ := step (charLabels ps tail ys) hlen
    obtain ⟨z1, z2⟩ := x4 (by
      rw [hps.text]
      exact zeroSpace_charLabels ps tail ys hy hps.solid)
    have hL : L = charLabels qs tail' ys := by
      refine eq_charLabels qs tail' ys L (by omega) hqs.gaps hqs.last (by rw [hlay]; exact x2) ?_ ?_
      · rw [← hqs.text]; exact z1
      · rw [x3, tokenSegs_charLabels ps tail ys hy]
        have : qs.map Prod.snd = ps.map fun p => p.2.map id := by rw [htoks]; simp
        rw [length_of_map_eq this]
    rw [realignAll_append']
    show ((a.inverseTransform ys >>= fun ls => .ok ls) >>= _) = _
    rw [hl.backward ys (by omega) hu, ← hL]
    exact z2
  · rw [realignAll_append']
    show ((a.inverseTransform ys >>= fun ls => .ok ls) >>= _) = _
    rw [hl.overflow ys (by omega) hu]
    rfl

theorem mapRuns_length_le (p : Char → Bool) (g : Str → Str) (k : Nat) (hk : 1 ≤ k)
    (h : ∀ r, r ≠ [] → (g r).length ≤ k * r.length) (s : Str) : (mapRuns p g s).length ≤ k * s.length := by
  have e : s.length = (runs p s).flatten.length := by rw [runs_flatten]
  have hne : ∀ r ∈ runs p s, r ≠ [] := fun r hr => (mem_runs p s r hr).1
  unfold mapRuns
  rw [e]
  generalize runs p s = rs at hne
  induction rs with
  | nil => simp
  | cons r rs ih =>
    have h1 := ih (fun q hq => hne q (by simp [hq]))
    have h2 : (if isRunOf p r then g r else r).length ≤ k * r.length := by
      split
      · exact h r (hne r (by simp))
      · exact Nat.le_mul_of_pos_left _ (by omega)
    simp only [List.flatMap_cons, List.flatten_cons, List.length_append, Nat.mul_add]
    omega

theorem withNumbers_length (u : Unicode) (s : Str) : (withNumbers u s).length ≤ 63 * s.length := by
  have h1 : (withInts u s).length ≤ 7 * s.length := by
    refine mapRuns_length_le _ _ 7 (by omega) (fun r hr => ?_) s
    have : 0 < r.length := List.length_pos_iff.mpr hr
    split
    · show 7 ≤ _
      omega
    · omega
  have h2 : (withNumbers u s).length ≤ 9 * (withInts u s).length := by
    refine mapRuns_length_le _ _ 9 (by omega) (fun r hr => ?_) _
    have : 0 < r.length := List.length_pos_iff.mpr hr
    split
    · show 9 ≤ _
      omega
    · omega
  omega

theorem tokens_le_text {own : Char → Bool} {t : Str} {ps : List (Str × Str)} {tail : Str}
    (h : TokenizedBy own t ps tail) : ps.length ≤ t.length := by
  have h1 := h.nonempty
  rw [h.text]
  clear h
  induction ps with
  | nil => simp
  | cons p ps ih =>
    have h2 := ih (fun q hq => h1 q (by simp [hq]))
    have h3 : 0 < p.2.length := List.length_pos_iff.mpr (h1 p (by simp))
    simp only [layout, List.flatMap_cons, List.length_append, List.length_cons] at h2 ⊢
    omega

/-! ### the pipe -/

/-- Up to the tokeniser. -/
def readmeFront (env : Env) : List Op :=
  [⟨Builtin.intTokSpace env, [], strOp (IntTokenWithSpace.transform env.σ env.u)⟩,
   ⟨Builtin.floatTokSpace env, [], strOp (FloatTokenWithSpace.transform env.σ env.u)⟩,
   ⟨Builtin.mergeWs env, [], strOp (MergeWhiteSpaceCharacters.transform env.σ)⟩,
   ⟨Builtin.stripWs env, [], strOp (StripWhiteSpaceCharacters.transform env.σ)⟩,
   ⟨Builtin.engTok env, [], tokOp (EngTokenizer.transform env.σ env.u)⟩]

/-- `AddSosEos()`. -/
def sosEosOp (env : Env) : Op :=
  ⟨Builtin.sosEos env, [("end_token".toList, .str endToken), ("start_token".toList, .str startToken)],
    lstOp (AddSosEos.transform env.σ (.str startToken) (.str endToken))⟩

/-- `Pad(maxlen=n)`. -/
def padOp (env : Env) (n : Nat) : Op :=
  ⟨Builtin.pad env, [("maxlen".toList, .int n), ("pad_token".toList, .str padToken)],
    lstOp (Pad.transform env.σ n (.str padToken))⟩

/-- `Token2Index(token2index=d)`. -/
def indexOp (env : Env) (d : List (Str × Int)) : Op :=
  ⟨Builtin.token2index env,
    [("token2index".toList, .dict (d.map fun kv => (kv.1, .int kv.2))), ("unk_token".toList, .str unkToken)],
    lstOp (Token2Index.transform env.σ d unkToken)⟩

/-- The whole pipe. -/
def readmePipe (env : Env) (n : Nat) (d : List (Str × Int)) : Pipe :=
  ⟨readmeFront env ++ [sosEosOp env, padOp env n, indexOp env d], [("result_of_add_sos_eos".toList, 6)]⟩

theorem asIndex_dict (d : List (Str × Int)) :
    PyVal.asIndex (.dict (d.map fun kv => (kv.1, .int kv.2))) = .ok d := by
  have key : ((d.map fun kv => (kv.1, PyVal.int kv.2)).mapM fun kv =>
      (kv.2.asInt >>= fun i => pure (kv.1, i) : Res (Str × Int))) = .ok d := by
    induction d with
    | nil => rfl
    | cons x d ih =>
      rw [List.map_cons, List.mapM_cons, ih]
      rfl
  unfold PyVal.asIndex
  dsimp only
  rw [key]

theorem indexOp_call (env : Env) (d : List (Str × Int)) (h : Token2Index.init d unkToken = .ok ()) :
    (Builtin.token2index env).call [] [("token2index".toList, .dict (d.map fun kv => (kv.1, .int kv.2)))] =
      .ok (indexOp env d) := by
  have h1 : Builtin.token2indexInit env [.dict (d.map fun kv => (kv.1, .int kv.2)), .str unkToken] =
      .ok (lstOp (Token2Index.transform env.σ d unkToken)) := by
    show (PyVal.asIndex _ >>= fun d => _) = _
    rw [asIndex_dict, Except.bind_ok]
    show (Token2Index.init d unkToken >>= _) = _
    rw [h]
    rfl
  show (Builtin.token2indexInit env [.dict (d.map fun kv => (kv.1, .int kv.2)), .str unkToken] >>= _) = _
  rw [h1]
  rfl

theorem add_of {f : Factory} {p : Pipe} {name : Str} {kw : List (Str × PyVal)} {ck : Option Str} {c : OpClass} {op : Op}
    (hf : f.getVal (.str name) = .ok c) (hc : c.call [] kw = .ok op) :
    p.add f name (some kw) ck = p.addOp op ck := by
  have h : Op.fromDict f (.dict [("op_name".toList, .str name), ("op_kwargs".toList, .dict kw)]) = .ok op := by
    show (f.getVal (.str name) >>= fun c => c.call [] kw) = _
    rw [hf]
    exact hc
  unfold Pipe.add
  rw [Option.getD_some, h]

theorem call_of {c : OpClass} {kw : List (Str × PyVal)} {vals : List PyVal} {run : Seq → Res (Seq × Aligner)}
    (h1 : c.bindArgs [] kw = .ok vals) (h2 : c.init vals = .ok run) :
    c.call [] kw = .ok ⟨c, c.capture [] kw, run⟩ := by
  unfold OpClass.call
  rw [h1, Except.bind_ok, h2]
  rfl

theorem addCalls_cons {f : Factory} {c : AddCall} {cs : List AddCall} {p q : Pipe}
    (h : p.add f c.name.toList (some c.kwargs) c.checkpoint = (q, .ok ())) :
    addCalls f (c :: cs) p = addCalls f cs q := by
  show (match p.add f c.name.toList (some c.kwargs) c.checkpoint with
    | (p, .ok _) => addCalls f cs p
    | (_, .error e) => .error e) = _
  rw [h]

theorem readme_build (env : Env) (n : Nat) (d : List (Str × Int)) (h : Token2Index.init d unkToken = .ok ()) :
    addCalls (Builtin.registryDefault env) (readmeCalls n d) Pipe.empty = .ok (readmePipe env n d) := by
  refine (addCalls_cons (q := ⟨(readmeFront env).take 1, []⟩) rfl).trans ?_
  refine (addCalls_cons (q := ⟨(readmeFront env).take 2, []⟩) rfl).trans ?_
  refine (addCalls_cons (q := ⟨(readmeFront env).take 3, []⟩) rfl).trans ?_
  refine (addCalls_cons (q := ⟨(readmeFront env).take 4, []⟩) rfl).trans ?_
  refine (addCalls_cons (q := ⟨readmeFront env, []⟩) rfl).trans ?_
  refine (addCalls_cons (q := ⟨readmeFront env ++ [sosEosOp env], [("result_of_add_sos_eos".toList, 6)]⟩) rfl).trans ?_
  refine (addCalls_cons (q := ⟨readmeFront env ++ [sosEosOp env, padOp env n],
    [("result_of_add_sos_eos".toList, 6)]⟩) ?_).trans ?_
  · have hc : (Builtin.pad env).call [] [("maxlen".toList, .int n)] = .ok (padOp env n) :=
      call_of (c := Builtin.pad env) (vals := [.int n, .str padToken]) rfl rfl
    have hf : (Builtin.registryDefault env).getVal (.str "Pad".toList) = .ok (Builtin.pad env) := rfl
    exact (add_of hf hc).trans rfl
  refine (addCalls_cons (q := readmePipe env n d) ?_).trans rfl
  have hf : (Builtin.registryDefault env).getVal (.str "Token2Index".toList) = .ok (Builtin.token2index env) := rfl
  exact (add_of hf (indexOp_call env d h)).trans rfl

/-! ### running it -/

theorem lstStep {c : OpClass} {configs : List (Str × PyVal)} {f : List Tok → Res (List Tok × Aligner)} {l out : List Tok}
    {a : Aligner} (hin : c.inputType = .list) (hout : c.outputType = .list) (h : f l = .ok (out, a)) :
    (⟨c, configs, lstOp f⟩ : Op).transform (.list l) = .ok (.list out, a) := by
  have h1 : lstOp f (.list l) = .ok (.list out, a) := by
    show (f l >>= _) = _
    rw [h]
    rfl
  unfold Op.transform
  simp only [hin, hout, h1, Seq.type]
  rfl

/-- The texts and tokens between the first steps. -/
def readmeColl (u : Unicode) (s : Str) (words : List Str) : List Seq :=
  [.str s, .str (withInts u s), .str (withNumbers u s),
   .str (mapRuns isSpace (fun _ => [' ']) (withNumbers u s)),
   .str (strip (mapRuns isSpace (fun _ => [' ']) (withNumbers u s))), .list (words.map Tok.str)]

theorem readme_front (env : Env) (hdot : env.u.isDecimal '.' = false) (s : Str) (ps : List (Str × Str)) (tail : Str)
    (hps : TokenizedBy (punctuation env.u) (withNumbers env.u s) ps tail) :
    ∃ as : List Aligner,
      (∀ rest, Pipe.runSteps (readmeFront env ++ rest) (.str s) [] [.str s] =
        Pipe.runSteps rest (.list ((ps.map Prod.snd).map Tok.str)) as (readmeColl env.u s (ps.map Prod.snd))) ∧
      (∀ ls, ls.length = s.length →
        alignAll as ls = .ok ((tokenSegs ps (numberedLabels env.u s ls)).map tokenLabel)) ∧
      (∀ ys, ys.length = ps.length → uintLabels ys →
        realignAll as ys = .ok (unnumberedLabels env.u s (charLabels ps tail ys))) ∧
      (∀ ys, ys.length = ps.length → ¬ uintLabels ys → realignAll as ys = .error .overflowError) := by
  obtain ⟨a1, h1, l1, f1, b1, _⟩ := (C18_C19_int_token_with_space env.σ env.u s).run
  obtain ⟨a2, h2, l2, f2, b2, _⟩ := (C18_C19_float_token_with_space env.σ env.u hdot (withInts env.u s)).run
  obtain ⟨a3, h3, w3⟩ := wordStep_merge env.σ (punctuation env.u) (withNumbers env.u s)
  obtain ⟨a4, h4, w4⟩ := wordStep_strip env.σ (punctuation env.u)
    (mapRuns isSpace (fun _ => [' ']) (withNumbers env.u s))
  obtain ⟨a5, qs, tail', h5, hqs, t5⟩ := C40_C42_eng env.σ env.u
    (strip (mapRuns isSpace (fun _ => [' ']) (withNumbers env.u s)))
  have e2 : (fun c => isPunctuation env.u c) = punctuation env.u := funext (punctuation_eq env.u)
  rw [e2] at hqs
  obtain ⟨htoks, hF, hB, hO⟩ := tokens_through (punctuation env.u) [a3, a4] (withNumbers env.u s)
    (strip (mapRuns isSpace (fun _ => [' ']) (withNumbers env.u s))) (by
      intro ls hl
      obtain ⟨L3, x3, y3, c3, z3⟩ := w3 ls hl
      obtain ⟨L4, x4, y4, c4, z4⟩ := w4 L3 y3
      rw [map_id_words] at c3 c4
      refine ⟨L4, ?_, y4, c4.trans c3, fun hz => ?_⟩
      · show (a3.transform ls >>= fun ls => a4.transform ls >>= fun ls => .ok ls) = _
        rw [x3, Except.bind_ok, x4]
        rfl
      · obtain ⟨u3, i3⟩ := z3 hz
        obtain ⟨u4, i4⟩ := z4 u3
        refine ⟨u4, ?_⟩
        show (a4.inverseTransform L4 >>= fun ls => a3.inverseTransform ls >>= fun ls => .ok ls) = _
        rw [i4, Except.bind_ok, i3]
        rfl) a5 qs tail' hqs t5 ps tail hps
  have hlay : (layout ps tail).length = (withNumbers env.u s).length := by rw [← hps.text]
  refine ⟨[a1, a2] ++ ([a3, a4] ++ [a5]), fun rest => ?_, fun ls hl => ?_, fun ys hy hu => ?_, fun ys hy hu => ?_⟩
  · rw [← htoks]
    show Pipe.runSteps (_ :: _ :: _ :: _ :: _ :: rest) _ _ _ = _
    refine (runSteps_cons (strStep h1) _ _).trans ?_
    refine (runSteps_cons (strStep h2) _ _).trans ?_
    refine (runSteps_cons (strStep h3) _ _).trans ?_
    refine (runSteps_cons (strStep h4) _ _).trans ?_
    exact runSteps_cons (tokStep h5) _ _
  · have g1 : a1.transform ls = .ok (replacedLabels env.u (isInteger env.u) 5 s ls) := f1 ls hl
    have n1 : (replacedLabels env.u (isInteger env.u) 5 s ls).length = (withInts env.u s).length := by
      obtain ⟨y, hy, hy'⟩ := l1.forward ls hl
      rw [Except.ok.inj (g1.symm.trans hy)]
      exact hy'
    have g2 : a2.transform (replacedLabels env.u (isInteger env.u) 5 s ls) = .ok (numberedLabels env.u s ls) := f2 _ n1
    have n2 : (numberedLabels env.u s ls).length = (withNumbers env.u s).length := by
      obtain ⟨y, hy, hy'⟩ := l2.forward _ n1
      rw [Except.ok.inj (g2.symm.trans hy)]
      exact hy'
    rw [alignAll_append', ← hF _ n2]
    show ((a1.transform ls >>= fun ls => a2.transform ls >>= fun ls => .ok ls) >>= _) = _
    rw [g1, Except.bind_ok, g2]
    rfl
  · have hlen : (charLabels ps tail ys).length = (withNumbers env.u s).length := by
      rw [charLabels_length ps tail ys hy, ← hps.text]
    have g2 : a2.inverseTransform (charLabels ps tail ys) =
        .ok (restoredLabels env.u (isFloat env.u) " _float_ ".toList (withInts env.u s) (charLabels ps tail ys)) :=
      b2 _ hlen
    have n2 : (restoredLabels env.u (isFloat env.u) " _float_ ".toList (withInts env.u s) (charLabels ps tail ys)).length =
        (withInts env.u s).length := by
      obtain ⟨y, hy, hy'⟩ := l2.backward _ hlen trivial
      rw [Except.ok.inj (g2.symm.trans hy)]
      exact hy'
    have g1 : a1.inverseTransform (restoredLabels env.u (isFloat env.u) " _float_ ".toList (withInts env.u s)
        (charLabels ps tail ys)) = .ok (unnumberedLabels env.u s (charLabels ps tail ys)) := b1 _ n2
    rw [realignAll_append', hB ys hy hu, Except.bind_ok]
    show (a2.inverseTransform _ >>= fun ls => a1.inverseTransform ls >>= fun ls => .ok ls) = _
    rw [g2, Except.bind_ok, g1]
    rfl
  · rw [realignAll_append', hO ys hy hu]
    rfl

theorem sosEos_words (σ : SetOrder) (words : List Str) (h : words.length < 2 ^ 32) :
    ∃ (framed : List Str) (a : Aligner), Framed words framed ∧
      AddSosEos.transform σ (.str startToken) (.str endToken) (words.map Tok.str) = .ok (framed.map Tok.str, a) ∧
      (∀ ls : List Int, ls.length = words.length → a.transform ls = .ok (0 :: ls ++ [0])) ∧
      (∀ (ls : List Int) (x y : Int), ls.length = words.length → a.inverseTransform (x :: ls ++ [y]) = .ok ls) := by
  by_cases hw : words = []
  · subst hw
    obtain ⟨out, a, h1, h2, _, h3, h4⟩ := C29_empty_list σ (.str startToken) (.str endToken) (by decide)
    have hb : ∀ (ls : List Int) (x y : Int), ls.length = ([] : List Str).length →
        a.inverseTransform (x :: ls ++ [y]) = .ok ls := by
      intro ls x y hl
      rw [List.eq_nil_of_length_eq_zero hl]
      exact h4 x y
    have hfw : ∀ ls : List Int, ls.length = ([] : List Str).length → a.transform ls = .ok (0 :: ls ++ [0]) := by
      intro ls hl
      rw [List.eq_nil_of_length_eq_zero hl]
      exact h3
    rcases h2 with rfl | rfl
    · exact ⟨[startToken, endToken], a, Or.inl rfl, h1, hfw, hb⟩
    · exact ⟨[endToken, startToken], a, Or.inr ⟨rfl, rfl⟩, h1, hfw, hb⟩
  · obtain ⟨a, h1, _, h3, h4⟩ := C28_add_sos_eos σ (.str startToken) (.str endToken) (words.map Tok.str) (by simpa using hw)
      (by simpa using h)
    refine ⟨startToken :: words ++ [endToken], a, Or.inl rfl, ?_, ?_, ?_⟩
    · rw [h1]
      simp
    · intro ls hl
      exact h3 ls (by simpa using hl)
    · intro ls x y hl
      exact h4 ls x y (by simpa using hl)

theorem framed_length {words framed : List Str} (h : Framed words framed) : framed.length = words.length + 2 := by
  rcases h with rfl | ⟨rfl, rfl⟩
  · simp
  · rfl

theorem unframe (ys : List Int) (w n : Nat) (hy : ys.length = n) :
    ∃ x y, ys.take (w + 2) ++ List.replicate (w + 2 - n) 0 =
      x :: ((ys ++ List.replicate (w + 1) 0).drop 1).take w ++ [y] := by
  have hl : (ys.take (w + 2) ++ List.replicate (w + 2 - n) 0).length = w + 2 := by
    simp
    omega
  obtain ⟨x, l, e⟩ : ∃ x l, ys.take (w + 2) ++ List.replicate (w + 2 - n) 0 = x :: l := by
    cases h : ys.take (w + 2) ++ List.replicate (w + 2 - n) 0 with
    | nil => rw [h] at hl; simp at hl
    | cons x l => exact ⟨x, l, rfl⟩
  have hl' : l.length = w + 1 := by rw [e] at hl; simpa using hl
  have hne : l ≠ [] := by intro h; rw [h] at hl'; simp at hl'
  refine ⟨x, l.getLast hne, ?_⟩
  have : ((ys ++ List.replicate (w + 1) 0).drop 1).take w = l.dropLast := by
    apply List.ext_getElem?
    intro i
    rw [List.getElem?_take, List.getElem?_dropLast, List.getElem?_drop]
    by_cases hi : i < w
    · rw [if_pos hi, if_pos (by omega)]
      have : l[i]? = (x :: l)[1 + i]? := by rw [Nat.add_comm, List.getElem?_cons_succ]
      rw [this, ← e]
      by_cases hlt : 1 + i < n
      · rw [List.getElem?_append_left (by omega), List.getElem?_append_left (by simp; omega),
          List.getElem?_take, if_pos (by omega)]
      · rw [List.getElem?_append_right (by omega), List.getElem?_append_right (by simp; omega),
          List.getElem?_replicate, List.getElem?_replicate, if_pos (by omega),
          if_pos (by simp; omega)]
    · rw [if_neg hi, if_neg (by omega)]
  rw [this, e, List.cons_append, List.dropLast_concat_getLast]

theorem readme_tail (env : Env) (n : Nat) (d : List (Str × Int)) (hkeys : (d.map Prod.fst).Nodup)
    (hinit : Token2Index.init d unkToken = .ok ()) (words : List Str) (h : words.length + 2 < 2 ^ 32) :
    ∃ (framed : List Str) (out : List Int) (bs : List Aligner), Framed words framed ∧
      (∀ as coll, Pipe.runSteps [sosEosOp env, padOp env n, indexOp env d] (.list (words.map Tok.str)) as coll =
        .ok (.list (out.map Tok.int), as ++ bs, coll ++ [.list (framed.map Tok.str),
          .list ((fitted n framed).map Tok.str), .list (out.map Tok.int)])) ∧
      out.length = n ∧ (∀ p ∈ (fitted n framed).zip out, IsIndex d p.1 p.2) ∧ (∀ i ∈ out, 0 ≤ i ∧ i < d.length) ∧
      (∀ ls, ls.length = words.length →
        alignAll bs ls = .ok ((0 :: ls ++ [0]).take n ++ List.replicate (n - (words.length + 2)) 0)) ∧
      (∀ ys, ys.length = n →
        realignAll bs ys = .ok (((ys ++ List.replicate (words.length + 1) 0).drop 1).take words.length)) := by
  obtain ⟨framed, a1, hfr, h1, f1, b1⟩ := sosEos_words env.σ words (by omega)
  have hfl := framed_length hfr
  obtain ⟨a2, h2, _, f2, b2⟩ := C30_pad env.σ n (.str padToken) (framed.map Tok.str) (Or.inr (by simp; omega))
  have h2' : Pad.transform env.σ n (.str padToken) (framed.map Tok.str) = .ok ((fitted n framed).map Tok.str, a2) := by
    rw [h2]
    simp only [fitted, List.map_append, List.map_take, List.map_replicate, List.length_map]
    rfl
  obtain ⟨out, a3, h3, l3, p3, _, i3, r3⟩ := C31_transform env.σ d unkToken hkeys hinit ((fitted n framed).map Tok.str)
  have hfit : (fitted n framed).length = n := by simp [fitted]; omega
  rw [List.length_map, hfit] at l3 p3
  refine ⟨framed, out, [a1, a2, a3], hfr, fun as coll => ?_, l3, fun p hp => ?_, r3, fun ls hl => ?_, fun ys hy => ?_⟩
  · refine (runSteps_cons (lstStep rfl rfl h1) _ _).trans ?_
    refine (runSteps_cons (lstStep rfl rfl h2') _ _).trans ?_
    refine (runSteps_cons (lstStep rfl rfl h3) _ _).trans ?_
    show Except.ok _ = _
    simp only [List.append_assoc, List.cons_append, List.nil_append]
  · have := (i3 (.str p.1, p.2) (by
      rw [List.zip_map_left]
      exact List.mem_map.mpr ⟨p, hp, rfl⟩)).1
    exact this
  · have g2 := f2 (0 :: ls ++ [0]) (by simp; omega)
    rw [List.length_map, hfl] at g2
    show (a1.transform ls >>= fun ls => a2.transform ls >>= fun ls => a3.transform ls >>= fun ls => .ok ls) = _
    rw [f1 ls hl, Except.bind_ok, g2, Except.bind_ok, (p3 _ (by simp; omega)).1]
    rfl
  · have g2 := b2 ys hy
    rw [List.length_map, hfl] at g2
    obtain ⟨x, y, e⟩ := unframe ys words.length n hy
    rw [e] at g2
    show (a3.inverseTransform ys >>= fun ls => a2.inverseTransform ls >>= fun ls => a1.inverseTransform ls >>=
      fun ls => .ok ls) = _
    rw [(p3 ys hy).2, Except.bind_ok, g2, Except.bind_ok, b1 _ x y (by simp)]
    rfl

/-! ### C70 -/

theorem tokenSegs_count (ps : List (Str × Str)) (ls : List Int) : (tokenSegs ps ls).length = ps.length := by
  induction ps generalizing ls with
  | nil => rfl
  | cons p ps ih => simp [tokenSegs, ih]

/-- C70: the README's pipe with any size and any valid vocabulary. It can be built. For every text, with `ps` the English
words of the text whose numbers have been replaced, it returns exactly `n` indices of the vocabulary: those of `<sos>`,
the words, `<eos>`, cut or filled up with `<pad>`. The checkpoint holds the words between `<sos>` and `<eos>`. Labels are
those of the words with 0 for the added tokens; going back, words that were cut off get 0. -/
theorem C70_index_pipe (env : Env) (hdot : env.u.isDecimal '.' = false) (n : Nat) (d : List (Str × Int))
    (hkeys : (d.map Prod.fst).Nodup) (hd : Continuous d) (hunk : "<unk>".toList ∈ d.map Prod.fst) :
    ∃ p, addCalls (Builtin.registryDefault env) (readmeCalls n d) Pipe.empty = .ok p ∧
      ∀ (s : Str) (ps : List (Str × Str)) (tail : Str), s.length < 2 ^ 26 →
        TokenizedBy (punctuation env.u) (withNumbers env.u s) ps tail →
        ∃ (framed : List Str) (out : List Int) (as : List Aligner) (coll : List Seq),
          Framed (ps.map Prod.snd) framed ∧
          p.transformSequence (.str s) = .ok (.list (out.map Tok.int), as, coll) ∧
          out.length = n ∧ (∀ x ∈ (fitted n framed).zip out, IsIndex d x.1 x.2) ∧ (∀ i ∈ out, 0 ≤ i ∧ i < d.length) ∧
          getFromCheckpoint p.checkpoints coll "result_of_add_sos_eos".toList = .ok (.list (framed.map Tok.str)) ∧
          (∀ ls, ls.length = s.length → alignAll as ls =
            .ok ((0 :: (tokenSegs ps (numberedLabels env.u s ls)).map tokenLabel ++ [0]).take n ++
              List.replicate (n - (ps.length + 2)) 0)) ∧
          (∀ ys, ys.length = n → uintLabels ys → realignAll as ys =
            .ok (unnumberedLabels env.u s
              (charLabels ps tail (((ys ++ List.replicate (ps.length + 1) 0).drop 1).take ps.length)))) := by
  have hinit : Token2Index.init d unkToken = .ok () := (C31_init d unkToken).1.mpr ⟨hd, hunk⟩
  refine ⟨_, readme_build env n d hinit, fun s ps tail hs hps => ?_⟩
  have hcount : ps.length + 2 < 2 ^ 32 := by
    have h1 := tokens_le_text hps
    have h2 := withNumbers_length env.u s
    omega
  obtain ⟨as, r1, f1, b1, _⟩ := readme_front env hdot s ps tail hps
  obtain ⟨framed, out, bs, hfr, r2, hlen, hidx, hrange, f2, b2⟩ := readme_tail env n d hkeys hinit (ps.map Prod.snd)
    (by simpa using hcount)
  rw [List.length_map] at f2 b2
  refine ⟨framed, out, as ++ bs, _, hfr, ((r1 _).trans (r2 _ _)), hlen, hidx, hrange, rfl, fun ls hl => ?_,
    fun ys hy hu => ?_⟩
  · rw [alignAll_append', f1 ls hl, Except.bind_ok]
    exact f2 _ (by simp [tokenSegs_count])
  · rw [realignAll_append', b2 ys hy, Except.bind_ok]
    refine b1 _ (by simp) (fun x hx => ?_)
    have hx := List.mem_of_mem_drop (List.mem_of_mem_take hx)
    rcases List.mem_append.mp hx with hx | hx
    · exact hu x hx
    · rw [List.eq_of_mem_replicate hx]
      exact ⟨by omega, by omega⟩

/-- A text has exactly one such division into words. -/
theorem C70_words_exist (env : Env) (s : Str) :
    ∃ ps tail, TokenizedBy (punctuation env.u) (withNumbers env.u s) ps tail ∧
      ∀ ps' tail', TokenizedBy (punctuation env.u) (withNumbers env.u s) ps' tail' → ps' = ps ∧ tail' = tail := by
  obtain ⟨_, ps, tail, _, h, _⟩ := C40_C42_eng env.σ env.u (withNumbers env.u s)
  have e2 : (fun c => isPunctuation env.u c) = punctuation env.u := funext (punctuation_eq env.u)
  rw [e2] at h
  exact ⟨ps, tail, h, fun ps' tail' h' => C40_cuts_unique _ _ _ _ _ _ h' h⟩

theorem nodup_snd_inj (d : List (Str × Int)) (h : (d.map Prod.snd).Nodup) {a b : Str} {i : Int} (ha : (a, i) ∈ d)
    (hb : (b, i) ∈ d) : a = b := by
  induction d with
  | nil => simp at ha
  | cons x d ih =>
    rw [List.map_cons, List.nodup_cons] at h
    rcases List.mem_cons.mp ha with ha | ha <;> rcases List.mem_cons.mp hb with hb | hb
    · rw [← hb] at ha
      exact (Prod.mk.inj ha).1
    · exact absurd (List.mem_map.mpr ⟨_, hb, by rw [← ha]⟩) h.1
    · exact absurd (List.mem_map.mpr ⟨_, ha, by rw [← hb]⟩) h.1
    · exact ih h.2 ha hb

theorem isIndex_word {d : List (Str × Int)} (hd : Continuous d) {w v : Str} {i : Int} (hw : (w, i) ∈ d)
    (h : IsIndex d v i) : v = w ∨ w = "<unk>".toList := by
  have inj : ∀ a b, (a, i) ∈ d → (b, i) ∈ d → a = b := by
    intro a b ha hb
    exact nodup_snd_inj d hd.2.1 ha hb
  rcases h with h | ⟨_, h⟩
  · exact Or.inl (inj _ _ h hw)
  · exact Or.inr (inj _ _ hw h)

/-- C70: an entry of the vocabulary that contains a punctuation character among others, and is not one of the four special
tokens, is never produced. This holds for `_int_` and `_float_`: the tokeniser cuts them at the underscores. -/
theorem C70_unreachable (env : Env) (hdot : env.u.isDecimal '.' = false) (n : Nat) (d : List (Str × Int))
    (hkeys : (d.map Prod.fst).Nodup) (hd : Continuous d) (hunk : "<unk>".toList ∈ d.map Prod.fst) (p : Pipe)
    (hp : addCalls (Builtin.registryDefault env) (readmeCalls n d) Pipe.empty = .ok p) (s : Str) (hs : s.length < 2 ^ 26)
    (out : List Int) (as : List Aligner) (coll : List Seq)
    (h : p.transformSequence (.str s) = .ok (.list (out.map Tok.int), as, coll)) (w : Str) (i : Int) (hw : (w, i) ∈ d)
    (hspecial : w ∉ ["<sos>".toList, "<eos>".toList, "<pad>".toList, "<unk>".toList])
    (hpunct : ∃ c ∈ w, punctuation env.u c = true ∧ w ≠ [c]) : i ∉ out := by
  obtain ⟨p', hp', hall⟩ := C70_index_pipe env hdot n d hkeys hd hunk
  rw [hp] at hp'
  injection hp' with hp'
  subst hp'
  obtain ⟨ps, tail, hps, _⟩ := C70_words_exist env s
  obtain ⟨framed, out', as', coll', hfr, h', hlen, hidx, _⟩ := hall s ps tail hs hps
  rw [h] at h'
  have e : out = out' := by
    have := congrArg (fun r : Seq × List Aligner × List Seq => r.1) (Except.ok.inj h')
    have := Seq.list.inj this
    exact List.map_injective_iff.mpr (fun a b h => Tok.int.inj h) this
  subst e
  intro hi
  have hfit : (fitted n framed).length = n := by simp [fitted]; omega
  obtain ⟨k, hk, rfl⟩ := List.getElem_of_mem hi
  have hkf : k < (fitted n framed).length := by omega
  have := hidx ((fitted n framed)[k], out[k]) (List.mem_of_getElem? (i := k) (by
    rw [List.getElem?_zip_eq_some]
    exact ⟨List.getElem?_eq_getElem hkf, List.getElem?_eq_getElem hk⟩))
  simp only [List.mem_cons, List.not_mem_nil, or_false, not_or] at hspecial
  rcases isIndex_word hd hw this with he | he
  · have hm : w ∈ fitted n framed := he ▸ List.getElem_mem hkf
    have hcase : w ∈ framed ∨ w = "<pad>".toList := by
      rcases List.mem_append.mp hm with hm | hm
      · exact Or.inl (List.mem_of_mem_take hm)
      · exact Or.inr (List.eq_of_mem_replicate hm)
    rcases hcase with hm | hm
    · have hm' : w = "<sos>".toList ∨ w = "<eos>".toList ∨ w ∈ ps.map Prod.snd := by
        rcases hfr with rfl | ⟨_, rfl⟩
        · simp only [List.cons_append, List.mem_cons, List.mem_append, List.not_mem_nil, or_false] at hm
          rcases hm with hm | hm | hm
          · exact Or.inl hm
          · exact Or.inr (Or.inr hm)
          · exact Or.inr (Or.inl hm)
        · simp only [List.mem_cons, List.not_mem_nil, or_false] at hm
          rcases hm with hm | hm
          · exact Or.inr (Or.inl hm)
          · exact Or.inl hm
      rcases hm' with hm | hm | hm
      · exact hspecial.1 hm
      · exact hspecial.2.1 hm
      · obtain ⟨q, hq, rfl⟩ := List.mem_map.mp hm
        obtain ⟨c, hc, hpc, hne⟩ := hpunct
        exact hne (hps.alone q hq c hc hpc)
    · exact hspecial.2.2.1 hm
  · exact hspecial.2.2.2 he

/-- C70: `<eos>` is among the indices exactly if it fits: a text of at least one word keeps its end token if and only if
`n` is at least the number of words plus 2. No word of a text is taken for `<eos>`. -/
theorem C70_end_token (env : Env) (hdot : env.u.isDecimal '.' = false) (n : Nat) (d : List (Str × Int))
    (hkeys : (d.map Prod.fst).Nodup) (hd : Continuous d) (hunk : "<unk>".toList ∈ d.map Prod.fst) (p : Pipe)
    (hp : addCalls (Builtin.registryDefault env) (readmeCalls n d) Pipe.empty = .ok p) (s : Str) (hs : s.length < 2 ^ 26)
    (ps : List (Str × Str)) (tail : Str) (hps : TokenizedBy (punctuation env.u) (withNumbers env.u s) ps tail)
    (hne : ps ≠ []) (out : List Int) (as : List Aligner) (coll : List Seq)
    (h : p.transformSequence (.str s) = .ok (.list (out.map Tok.int), as, coll)) (i : Int)
    (hw : ("<eos>".toList, i) ∈ d) : i ∈ out ↔ ps.length + 2 ≤ n := by
  obtain ⟨p', hp', hall⟩ := C70_index_pipe env hdot n d hkeys hd hunk
  rw [hp] at hp'
  injection hp' with hp'
  subst hp'
  obtain ⟨framed, out', as', coll', hfr, h', hlen, hidx, _⟩ := hall s ps tail hs hps
  rw [h] at h'
  have e : out = out' := by
    have := congrArg (fun r : Seq × List Aligner × List Seq => r.1) (Except.ok.inj h')
    have := Seq.list.inj this
    exact List.map_injective_iff.mpr (fun a b h => Tok.int.inj h) this
  subst e
  have hfr : framed = "<sos>".toList :: ps.map Prod.snd ++ ["<eos>".toList] := by
    rcases hfr with h | ⟨h, _⟩
    · exact h
    · exact absurd (List.map_eq_nil_iff.mp h) hne
  have hfl : framed.length = ps.length + 2 := by rw [hfr]; simp
  have hfit : (fitted n framed).length = n := by simp [fitted]; omega
  have hzip : ∀ k (hk : k < out.length) (hkf : k < (fitted n framed).length), IsIndex d (fitted n framed)[k] out[k] := by
    intro k hk hkf
    exact hidx ((fitted n framed)[k], out[k]) (List.mem_of_getElem? (i := k) (by
      rw [List.getElem?_zip_eq_some]
      exact ⟨List.getElem?_eq_getElem hkf, List.getElem?_eq_getElem hk⟩))
  constructor
  · intro hi
    obtain ⟨k, hk, he⟩ := List.getElem_of_mem hi
    have hkf : k < (fitted n framed).length := by omega
    have hx := hzip k hk hkf
    rw [he] at hx
    rcases isIndex_word hd hw hx with hx | hx
    · by_cases hfits : ps.length + 2 ≤ n
      · exact hfits
      · exfalso
        have hm : "<eos>".toList ∈ fitted n framed := hx ▸ List.getElem_mem hkf
        have hm : "<eos>".toList ∈ ("<sos>".toList :: ps.map Prod.snd).take n := by
          rw [fitted, show n - framed.length = 0 by omega, List.replicate_zero, List.append_nil, hfr,
            List.take_append_of_le_length (by simp; omega)] at hm
          exact hm
        rcases List.mem_cons.mp (List.mem_of_mem_take hm) with hm | hm
        · exact absurd hm (by decide)
        · obtain ⟨q, hq, hq'⟩ := List.mem_map.mp hm
          have := hps.alone q hq '<' (by rw [hq']; decide) (by
            unfold punctuation
            rw [Bool.or_eq_true]
            exact Or.inl (by decide))
          rw [hq'] at this
          exact absurd this (by decide)
    · exact absurd hx (by decide)
  · intro hfits
    have hk : ps.length + 1 < out.length := by omega
    have hkf : ps.length + 1 < (fitted n framed).length := by omega
    have hx := hzip _ hk hkf
    have hv : (fitted n framed)[ps.length + 1] = "<eos>".toList := by
      have : (fitted n framed)[ps.length + 1]? = some "<eos>".toList := by
        rw [fitted, List.getElem?_append_left (by simp; omega), List.getElem?_take, if_pos (by omega), hfr,
          List.getElem?_append_right (by simp)]
        simp
      rw [List.getElem?_eq_getElem hkf] at this
      exact Option.some.inj this
    rw [hv] at hx
    have : out[ps.length + 1] = i := by
      rcases hx with hx | ⟨hx, _⟩
      · have h1 := dictGet_of_mem d _ _ hkeys hx
        have h2 := dictGet_of_mem d _ _ hkeys hw
        rw [h1] at h2
        exact Option.some.inj h2
      · exact absurd (List.mem_map.mpr ⟨_, hw, rfl⟩) hx
    exact this ▸ List.getElem_mem hk

/-! ### the README's own numbers -/

/-- `README.md:51-59`. -/
def readmeVocab : List (Str × Int) :=
  [("<sos>".toList, 0), ("<eos>".toList, 1), ("<unk>".toList, 2), ("<pad>".toList, 3), ("_int_".toList, 4),
   ("_float_".toList, 5), ("I".toList, 6), ("apples".toList, 7)]

theorem readmeVocab_continuous : Continuous readmeVocab := (C31_continuity readmeVocab).mp (by decide)

/-- C70: the README's example `p.transform_sequence('I like apples.')` returns 5 indices, of which the fifth is that of an
unknown token (the full stop) and none is that of `<eos>`; the README shows `[0, 6, 2, 7, 1, 3, 3]`. -/
theorem C70_readme_output : ∃ p as coll,
    addCalls (Builtin.registryDefault exEnv) (readmeCalls 5 readmeVocab) Pipe.empty = .ok p ∧
      p.transformSequence (.str "I like apples.".toList) = .ok (.list ([0, 6, 2, 7, 2].map Tok.int), as, coll) := by
  obtain ⟨p, hp, hall⟩ := C70_index_pipe exEnv exEnv_sane.dot 5 readmeVocab (by decide) readmeVocab_continuous (by decide)
  obtain ⟨framed, out, as, coll, hfr, h, hlen, hidx, _⟩ := hall "I like apples.".toList
    [([], "I".toList), (" ".toList, "like".toList), (" ".toList, "apples".toList), ([], ".".toList)] [] (by decide)
    (by
      have : withNumbers exEnv.u "I like apples.".toList = "I like apples.".toList := by decide
      rw [this]
      refine ⟨by decide, by decide, by decide, by decide, by decide, by decide, ?_⟩
      refine ⟨by decide, by decide, fun _ => Or.inr ⟨'.', by decide, by decide⟩, trivial⟩)
  have hfr : framed = ["<sos>".toList, "I".toList, "like".toList, "apples".toList, ".".toList, "<eos>".toList] := by
    rcases hfr with hfr | ⟨hfr, _⟩
    · exact hfr
    · exact absurd hfr (by decide)
  subst hfr
  have idx : ∀ (w : Str) (i j : Int), IsIndex readmeVocab w i →
      (dictGet readmeVocab w).getD 2 = j → i = j := by
    intro w i j hi hj
    rcases hi with hi | ⟨hi, hi'⟩
    · rw [dictGet_of_mem readmeVocab w i (by decide) hi] at hj
      exact hj
    · have h2 : dictGet readmeVocab w = none := (dictGet_none _ _).mpr hi
      rw [h2] at hj
      have h3 := dictGet_of_mem readmeVocab _ _ (by decide) hi'
      rw [show dictGet readmeVocab "<unk>".toList = some 2 from by decide] at h3
      rw [← hj]
      exact (Option.some.inj h3).symm
  match out, hlen with
  | [o1, o2, o3, o4, o5], _ =>
    have z : (fitted 5 ["<sos>".toList, "I".toList, "like".toList, "apples".toList, ".".toList, "<eos>".toList]).zip
        [o1, o2, o3, o4, o5] = [("<sos>".toList, o1), ("I".toList, o2), ("like".toList, o3), ("apples".toList, o4),
          (".".toList, o5)] := rfl
    rw [z] at hidx
    have e1 := idx "<sos>".toList _ 0 (hidx ("<sos>".toList, o1) (by simp)) (by decide)
    have e2 := idx "I".toList _ 6 (hidx ("I".toList, o2) (by simp)) (by decide)
    have e3 := idx "like".toList _ 2 (hidx ("like".toList, o3) (by simp)) (by decide)
    have e4 := idx "apples".toList _ 7 (hidx ("apples".toList, o4) (by simp)) (by decide)
    have e5 := idx ".".toList _ 2 (hidx (".".toList, o5) (by simp)) (by decide)
    subst e1 e2 e3 e4 e5
    exact ⟨p, as, coll, hp, h⟩

example : ∀ s : Str, s.length < 2 ^ 26 → ∀ p as coll (out : List Int),
    addCalls (Builtin.registryDefault exEnv) (readmeCalls 5 readmeVocab) Pipe.empty = .ok p →
    p.transformSequence (.str s) = .ok (.list (out.map Tok.int), as, coll) → (4 : Int) ∉ out :=
  fun s hs p as coll out hp h => C70_unreachable exEnv exEnv_sane.dot 5 readmeVocab (by decide) readmeVocab_continuous
    (by decide) p hp s hs out as coll h "_int_".toList 4 (by decide) (by decide) ⟨'_', by decide, by decide, by decide⟩

example : ∀ p as coll (out : List Int),
    addCalls (Builtin.registryDefault exEnv) (readmeCalls 5 readmeVocab) Pipe.empty = .ok p →
    p.transformSequence (.str "a, b.".toList) = .ok (.list (out.map Tok.int), as, coll) → (1 : Int) ∉ out := by
  intro p as coll out hp h hi
  have := (C70_end_token exEnv exEnv_sane.dot 5 readmeVocab (by decide) readmeVocab_continuous (by decide) p hp
    "a, b.".toList (by decide) [([], "a".toList), ([], ",".toList), (" ".toList, "b".toList), ([], ".".toList)] []
    (by
      have : withNumbers exEnv.u "a, b.".toList = "a, b.".toList := by decide
      rw [this]
      refine ⟨by decide, by decide, by decide, by decide, by decide, by decide, ?_⟩
      exact ⟨fun _ => Or.inr ⟨',', by decide, by decide⟩, fun h => absurd h (by decide),
        fun _ => Or.inr ⟨'.', by decide, by decide⟩, trivial⟩) (by simp) out as coll h 1 (by decide)).mp hi
  simp at this

end Uttut
