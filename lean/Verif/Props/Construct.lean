import Verif.Spec.Construct
import Verif.Props.Builtins

/-! C74: making operators by name, with positional, keyword and default arguments. -/

namespace Uttut

open Spec

theorem bindParam_eq (c : OpClass) (kwargs : List (Str × PyVal)) (p : Param) (hd : c.default? p.1.toList = p.2) :
    c.bindParam kwargs p.1.toList =
      match dictGet kwargs p.1.toList, p.2 with
      | some v, _ => .ok v
      | none, some v => .ok v
      | none, none => .error .typeError := by
  unfold OpClass.bindParam
  rw [hd]
  cases dictGet kwargs p.1.toList <;> cases p.2 <;> rfl

theorem fill_nil (p : Param) (ps : List Param) (kwargs : List (Str × PyVal)) :
    fill (p :: ps) [] kwargs =
      match dictGet kwargs p.1.toList, p.2 with
      | some v, _ => (fill ps [] kwargs).map (v :: ·)
      | none, some v => (fill ps [] kwargs).map (v :: ·)
      | none, none => none := rfl

theorem fill_drop (c : OpClass) (kwargs : List (Str × PyVal)) (sig : List Param)
    (hd : ∀ p ∈ sig, c.default? p.1.toList = p.2) :
    (sig.map fun p => p.1.toList).mapM (c.bindParam kwargs) =
      match fill sig [] kwargs with
      | some vals => .ok vals
      | none => .error .typeError := by
  induction sig with
  | nil => rfl
  | cons p sig ih =>
    have ih := ih fun q hq => hd q (List.mem_cons_of_mem _ hq)
    rw [List.map_cons, List.mapM_cons, bindParam_eq c kwargs p (hd p List.mem_cons_self), ih]
    rw [fill_nil]
    cases dictGet kwargs p.1.toList with
    | some v => cases fill sig [] kwargs <;> rfl
    | none =>
      cases p.2 with
      | none => rfl
      | some v => cases fill sig [] kwargs <;> rfl

theorem fill_take (kwargs : List (Str × PyVal)) (sig : List Param) (args : List PyVal) :
    fill sig args kwargs = if args.length > sig.length then none
      else if ∃ p ∈ sig.take args.length, p.1.toList ∈ kwargs.map Prod.fst then none
      else (fill (sig.drop args.length) [] kwargs).map (args ++ ·) := by
  induction sig generalizing args with
  | nil =>
    cases args with
    | nil => rfl
    | cons a args => rfl
  | cons p sig ih =>
    cases args with
    | nil =>
      have e : (fun x : List PyVal => [] ++ x) = id := rfl
      rw [if_neg (show ¬ ([] : List PyVal).length > (p :: sig).length by simp),
        if_neg (show ¬ ∃ q ∈ (p :: sig).take ([] : List PyVal).length, q.1.toList ∈ kwargs.map Prod.fst by simp), e,
        Option.map_id_fun]
      rfl
    | cons a args =>
      show (if p.1.toList ∈ kwargs.map Prod.fst then none else (fill sig args kwargs).map (a :: ·)) = _
      rw [ih args]
      by_cases hp : p.1.toList ∈ kwargs.map Prod.fst
      · rw [if_pos hp]
        split
        · rfl
        · rw [if_pos ⟨p, by simp, hp⟩]
      · rw [if_neg hp]
        by_cases hl : args.length > sig.length
        · rw [if_pos hl, if_pos (show (a :: args).length > (p :: sig).length by simpa using hl)]
          rfl
        · rw [if_neg hl, if_neg (show ¬ (a :: args).length > (p :: sig).length by simpa using hl)]
          have : (∃ q ∈ (p :: sig).take (a :: args).length, q.1.toList ∈ kwargs.map Prod.fst) ↔
              ∃ q ∈ sig.take args.length, q.1.toList ∈ kwargs.map Prod.fst := by
            constructor
            · rintro ⟨q, hq, h⟩
              rcases List.mem_cons.mp hq with rfl | hq
              · exact absurd h hp
              · exact ⟨q, hq, h⟩
            · rintro ⟨q, hq, h⟩
              exact ⟨q, List.mem_cons_of_mem _ hq, h⟩
          by_cases he : ∃ q ∈ sig.take args.length, q.1.toList ∈ kwargs.map Prod.fst
          · rw [if_pos he, if_pos (this.mpr he)]
            rfl
          · rw [if_neg he, if_neg (fun h => he (this.mp h))]
            show _ = (fill (sig.drop args.length) [] kwargs).map _
            cases fill (sig.drop args.length) [] kwargs <;> rfl

/-- Binding arguments in the model agrees with `bound`. -/
theorem bindArgs_bound (c : OpClass) (sig : List Param) (hp : c.params = sig.map fun p => p.1.toList)
    (hn : c.params.Nodup) (hd : ∀ p ∈ sig, c.default? p.1.toList = p.2) (args : List PyVal)
    (kwargs : List (Str × PyVal)) :
    c.bindArgs args kwargs =
      match bound sig args kwargs with
      | some vals => .ok vals
      | none => .error .typeError := by
  unfold OpClass.bindArgs bound
  have hlen : c.params.length = sig.length := by rw [hp, List.length_map]
  have hdrop : c.params.drop args.length = (sig.drop args.length).map fun p => p.1.toList := by
    rw [hp, List.map_drop]
  by_cases hl : args.length > c.params.length
  · have hl' : args.length > sig.length := hlen ▸ hl
    rw [if_pos hl, fill_take, if_pos hl', ite_self]
  · have hl' : ¬ args.length > sig.length := hlen ▸ hl
    rw [if_neg hl]
    have hany : kwargs.any (fun kv => !(c.params.drop args.length).contains kv.1) = true ↔
        (¬ ∀ kv ∈ kwargs, kv.1 ∈ sig.map fun p => p.1.toList) ∨
          ∃ p ∈ sig.take args.length, p.1.toList ∈ kwargs.map Prod.fst := by
      rw [List.any_eq_true]
      constructor
      · rintro ⟨kv, hkv, h⟩
        have h : kv.1 ∉ c.params.drop args.length := by simpa using h
        by_cases hm : kv.1 ∈ c.params
        · right
          rw [← List.take_append_drop args.length c.params] at hm
          rcases List.mem_append.mp hm with hm | hm
          · rw [hp, ← List.map_take] at hm
            obtain ⟨p, hp1, hp2⟩ := List.mem_map.mp hm
            exact ⟨p, hp1, hp2 ▸ List.mem_map_of_mem hkv⟩
          · exact absurd hm h
        · left
          intro hall
          rw [hp] at hm
          exact hm (hall kv hkv)
      · rintro (h | ⟨p, hp1, hp2⟩)
        · have ⟨kv, h⟩ := Classical.not_forall.mp h
          have ⟨hkv, h⟩ := Classical.not_imp.mp h
          refine ⟨kv, hkv, ?_⟩
          rw [← hp] at h
          simpa using fun hm => h (List.mem_of_mem_drop hm)
        · obtain ⟨kv, hkv, e⟩ := List.mem_map.mp hp2
          refine ⟨kv, hkv, ?_⟩
          have hmt : kv.1 ∈ c.params.take args.length := by
            rw [e, hp, ← List.map_take]
            exact List.mem_map_of_mem hp1
          have hnd := hn
          rw [← List.take_append_drop args.length c.params] at hnd
          have := (List.nodup_append.mp hnd).2.2 _ hmt
          simpa using fun hm => this _ hm rfl
    by_cases hk : ∀ kv ∈ kwargs, kv.1 ∈ sig.map fun p => p.1.toList
    · rw [if_pos hk, fill_take, if_neg hl']
      by_cases he : ∃ p ∈ sig.take args.length, p.1.toList ∈ kwargs.map Prod.fst
      · rw [if_pos (hany.mpr (Or.inr he)), if_pos he]
      · rw [if_neg he, if_neg fun h => (hany.mp h).elim (fun h => h hk) he, hdrop,
          fill_drop c kwargs _ fun p hp => hd p (List.mem_of_mem_drop hp)]
        cases fill (sig.drop args.length) [] kwargs <;> rfl
    · rw [if_pos (hany.mpr (Or.inl hk)), if_neg hk]

/-- The outcome of a call, given the constructor's signature. -/
theorem create_eq {env : Env} {name : String} {c : OpClass} (hc : (Builtin.registry env).get name.toList = .ok c)
    (sig : List Param) (hp : c.params = sig.map fun p => p.1.toList)
    (hd : (sig.map fun p => c.default? p.1.toList) = sig.map Prod.snd) (hn : (sig.map fun p => p.1.toList).Nodup)
    (args : List PyVal) (kwargs : List (Str × PyVal)) :
    (∀ vals run, bound sig args kwargs = some vals → c.init vals = .ok run →
      create env name args kwargs = .ok ⟨c, c.capture args kwargs, run⟩) ∧
    (∀ vals e, bound sig args kwargs = some vals → c.init vals = .error e →
      create env name args kwargs = .error e) ∧
    (bound sig args kwargs = none → create env name args kwargs = .error .typeError) := by
  unfold create
  rw [hc, Except.bind_ok]
  unfold OpClass.call
  rw [bindArgs_bound c sig hp (hp ▸ hn) (List.map_inj_left.mp hd)]
  refine ⟨fun vals run h1 h2 => ?_, fun vals e h1 h2 => ?_, fun h => ?_⟩
  · rw [h1]
    simp only [Except.bind_ok, h2]
    rfl
  · rw [h1]
    simp only [Except.bind_ok, h2]
    rfl
  · rw [h]
    rfl

theorem gives_list {c : OpClass} {cfg : List (Str × PyVal)} {f : List Tok → Res (List Tok × Aligner)}
    (hi : c.inputType = .list) (ho : c.outputType = .list) {l out : List Tok} {a : Aligner} (h : f l = .ok (out, a)) :
    Gives ⟨c, cfg, lstOp f⟩ (.list l) (.list out) := by
  refine ⟨a, ?_⟩
  unfold Op.transform
  rw [if_neg (by simp [hi, Seq.type])]
  have : lstOp f (.list l) = .ok (.list out, a) := by
    show (f l >>= _) = _
    rw [h]
    rfl
  simp only [this, Except.bind_ok]
  rw [if_neg (by simp [ho, Seq.type])]
  rfl

theorem gives_tok {c : OpClass} {cfg : List (Str × PyVal)} {f : Str → Res (List Str × Aligner)}
    (hi : c.inputType = .str) (ho : c.outputType = .list) {s : Str} {out : List Str} {a : Aligner}
    (h : f s = .ok (out, a)) : Gives ⟨c, cfg, tokOp f⟩ (.str s) (.list (out.map Tok.str)) := by
  refine ⟨a, ?_⟩
  unfold Op.transform
  rw [if_neg (by simp [hi, Seq.type])]
  have : tokOp f (.str s) = .ok (.list (out.map Tok.str), a) := by
    show (f s >>= _) = _
    rw [h]
    rfl
  simp only [this, Except.bind_ok]
  rw [if_neg (by simp [ho, Seq.type])]
  rfl

theorem gives_str {c : OpClass} {cfg : List (Str × PyVal)} {f : Str → Res (Str × Aligner)}
    (hi : c.inputType = .str) (ho : c.outputType = .str) {s out : Str} {a : Aligner}
    (h : f s = .ok (out, a)) : Gives ⟨c, cfg, strOp f⟩ (.str s) (.str out) := by
  refine ⟨a, ?_⟩
  unfold Op.transform
  rw [if_neg (by simp [hi, Seq.type])]
  have : strOp f (.str s) = .ok (.str out, a) := by
    show (f s >>= _) = _
    rw [h]
    rfl
  simp only [this, Except.bind_ok]
  rw [if_neg (by simp [ho, Seq.type])]
  rfl

/-! ### classes with parameters -/

theorem C74_sos_eos (env : Env) (args : List PyVal) (kwargs : List (Str × PyVal)) :
    (∀ s e, bound sosEosParams args kwargs = some [.str s, .str e] →
      CreatesMap (create env "AddSosEos" args kwargs) Seq.list Seq.list (fun l => l ≠ [] ∧ l.length < 2 ^ 32)
        fun l => .str s :: l ++ [.str e]) ∧
    (bound sosEosParams args kwargs = none → create env "AddSosEos" args kwargs = .error .typeError) := by
  obtain ⟨h1, _, h3⟩ := create_eq (env := env) (name := "AddSosEos") (c := Builtin.sosEos env) rfl sosEosParams rfl
    rfl (by decide) args kwargs
  refine ⟨fun s e hb => ⟨_, h1 _ _ hb rfl, fun l hl => ?_⟩, h3⟩
  obtain ⟨a, h, _⟩ := C28_add_sos_eos env.σ (.str s) (.str e) l hl.1 hl.2
  exact gives_list rfl rfl h

theorem C74_end_token (env : Env) (args : List PyVal) (kwargs : List (Str × PyVal)) :
    (∀ e, e ≠ [] → bound endTokenParams args kwargs = some [.str e] →
      CreatesMap (create env "AddEndToken" args kwargs) Seq.list Seq.list (fun l => l.length < 2 ^ 32)
        fun l => l ++ [.str e]) ∧
    (bound endTokenParams args kwargs = some [.none] ∨ bound endTokenParams args kwargs = some [.str []] →
      create env "AddEndToken" args kwargs = .error .valueError) ∧
    (bound endTokenParams args kwargs = none → create env "AddEndToken" args kwargs = .error .typeError) := by
  obtain ⟨h1, h2, h3⟩ := create_eq (env := env) (name := "AddEndToken") (c := Builtin.endTok env) rfl endTokenParams rfl
    rfl (by decide) args kwargs
  refine ⟨fun e he hb => ?_, ?_, h3⟩
  · refine ⟨_, h1 _ (lstOp (AddEndToken.transform env.σ (.str e))) hb ?_, fun l hl => ?_⟩
    · show (AddEndToken.init e >>= _) = _
      rw [(C28_empty_end_token e).2 he]
      rfl
    · obtain ⟨a, h, _⟩ := C28_add_end_token env.σ (.str e) l hl
      exact gives_list rfl rfl h
  · rintro (h | h)
    · exact h2 _ _ h rfl
    · exact h2 _ _ h rfl

theorem C74_pad (env : Env) (args : List PyVal) (kwargs : List (Str × PyVal)) :
    (∀ (n : Nat) t, bound padParams args kwargs = some [.int n, .str t] →
      CreatesMap (create env "Pad" args kwargs) Seq.list Seq.list (fun l => l.length < 2 ^ 32)
        fun l => l.take n ++ List.replicate (n - l.length) (.str t)) ∧
    (bound padParams args kwargs = none → create env "Pad" args kwargs = .error .typeError) := by
  obtain ⟨h1, _, h3⟩ := create_eq (env := env) (name := "Pad") (c := Builtin.pad env) rfl padParams rfl
    rfl (by decide) args kwargs
  refine ⟨fun n t hb => ⟨_, h1 _ _ hb rfl, fun l hl => ?_⟩, h3⟩
  obtain ⟨a, h, _⟩ := C30_pad env.σ n (.str t) l (Or.inr hl)
  exact gives_list rfl rfl h

theorem asIndex_ok (d : List (Str × Int)) : (PyVal.dict (d.map fun kv => (kv.1, .int kv.2))).asIndex = .ok d := by
  have key : ((d.map fun kv => (kv.1, PyVal.int kv.2)).mapM fun kv =>
      (kv.2.asInt >>= fun i => pure (kv.1, i) : Res (Str × Int))) = .ok d := by
    induction d with
    | nil => rfl
    | cons x d ih =>
      rw [List.map_cons, List.mapM_cons, ih]
      rfl
  unfold PyVal.asIndex
  dsimp only
  rw [key]

theorem C74_token2index (env : Env) (args : List PyVal) (kwargs : List (Str × PyVal)) :
    (∀ (d : List (Str × Int)) unk, (d.map Prod.fst).Nodup →
      bound token2indexParams args kwargs = some [.dict (d.map fun kv => (kv.1, .int kv.2)), .str unk] →
      (Continuous d → unk ∈ d.map Prod.fst → ∃ op, create env "Token2Index" args kwargs = .ok op ∧
        ∀ (l : List Tok) (out : List Int), out.length = l.length → (∀ p ∈ l.zip out, IndexOf d unk p.1 p.2) →
          Gives op (.list l) (.list (out.map Tok.int))) ∧
      (¬ Continuous d → create env "Token2Index" args kwargs = .error .valueError) ∧
      (Continuous d → unk ∉ d.map Prod.fst → create env "Token2Index" args kwargs = .error .keyError)) ∧
    (bound token2indexParams args kwargs = none → create env "Token2Index" args kwargs = .error .typeError) := by
  obtain ⟨h1, h2, h3⟩ := create_eq (env := env) (name := "Token2Index") (c := Builtin.token2index env) rfl
    token2indexParams rfl rfl (by decide) args kwargs
  refine ⟨fun d unk hd hb => ?_, h3⟩
  obtain ⟨i1, i2, i3⟩ := C31_init d unk
  have hini : ∀ r, Token2Index.init d unk = r → (Builtin.token2index env).init
      [.dict (d.map fun kv => (kv.1, .int kv.2)), .str unk] =
        r >>= fun _ => .ok (lstOp (Token2Index.transform env.σ d unk)) := by
    intro r hr
    show ((PyVal.dict _).asIndex >>= _) = _
    rw [asIndex_ok, Except.bind_ok]
    show (Token2Index.init d unk >>= _) = _
    rw [hr]
    rfl
  refine ⟨fun g1 g2 => ?_, fun g => ?_, fun g1 g2 => ?_⟩
  · have hok := i1.mpr ⟨g1, g2⟩
    refine ⟨_, h1 _ _ hb (hini _ hok), fun l out hl ho => ?_⟩
    obtain ⟨out', a, h, hl', _, _, hu, _⟩ := C31_transform env.σ d unk hd hok l
    have : out = out' := by
      refine List.ext_getElem (by rw [hl, hl']) fun i hi hi' => ?_
      have hm : (l[i]'(hl ▸ hi), out'[i]) ∈ l.zip out' := by
        refine List.mem_of_getElem? (i := i) (List.getElem?_zip_eq_some.mpr ⟨?_, ?_⟩) <;> simp
      have hm' : (l[i]'(hl ▸ hi), out[i]) ∈ l.zip out := by
        refine List.mem_of_getElem? (i := i) (List.getElem?_zip_eq_some.mpr ⟨?_, ?_⟩) <;> simp
      exact (hu _ hm).2 _ (ho _ hm')
    rw [this]
    exact gives_list rfl rfl h
  · exact h2 _ _ hb ((hini _ (i2 g)).trans rfl)
  · exact h2 _ _ hb ((hini _ (i3 g1 g2)).trans rfl)

theorem C74_token2index_hash (env : Env) (args : List PyVal) (kwargs : List (Str × PyVal)) :
    (∀ (d : List (Str × Int)), (d.map Prod.fst).Nodup →
      bound token2indexHashParams args kwargs = some [.dict (d.map fun kv => (kv.1, .int kv.2))] →
      (Continuous d → ∃ op, create env "Token2IndexwithHash" args kwargs = .ok op ∧
        ∀ l : List Str, ∃ idx : Str → Int, Gives op (.list (l.map Tok.str)) (.list (l.map fun s => .int (idx s))) ∧
          (∀ s i, (s, i) ∈ d → idx s = i) ∧
          ∀ s, s ∉ d.map Prod.fst →
            idx s = ((Murmur.x86_32 (s.flatMap String.utf8EncodeChar) 0#32).toNat % d.length : Nat)) ∧
      (¬ Continuous d → create env "Token2IndexwithHash" args kwargs = .error .valueError)) ∧
    (bound token2indexHashParams args kwargs = none →
      create env "Token2IndexwithHash" args kwargs = .error .typeError) := by
  obtain ⟨h1, h2, h3⟩ := create_eq (env := env) (name := "Token2IndexwithHash") (c := Builtin.token2indexHash env) rfl
    token2indexHashParams rfl rfl (by decide) args kwargs
  refine ⟨fun d hd hb => ?_, h3⟩
  have hini : ∀ r, Token2IndexwithHash.init d = r → (Builtin.token2indexHash env).init
      [.dict (d.map fun kv => (kv.1, .int kv.2))] =
        r >>= fun _ => .ok (lstOp (Token2IndexwithHash.transform env.σ d)) := by
    intro r hr
    show ((PyVal.dict _).asIndex >>= _) = _
    rw [asIndex_ok, Except.bind_ok]
    show (Token2IndexwithHash.init d >>= _) = _
    rw [hr]
    rfl
  have hic : (Token2IndexwithHash.init d = .ok () ↔ Continuous d) ∧
      (¬ Continuous d → Token2IndexwithHash.init d = .error .valueError) := by
    refine ⟨C31_continuity d, fun h => ?_⟩
    have h' : validateContinuity d ≠ .ok () := fun g => h ((C31_continuity d).mp g)
    show validateContinuity d = _
    unfold validateContinuity at h' ⊢
    dsimp only at h' ⊢
    split
    · rfl
    · rename_i hl
      rw [if_neg hl] at h'
      split
      · rename_i h1 h2
        rw [h1, h2] at h'
        dsimp only at h'
        split
        · rename_i hc
          rw [if_pos hc] at h'
          exact absurd rfl h'
        · rfl
      · rfl
  refine ⟨fun g => ?_, fun g => h2 _ _ hb ((hini _ (hic.2 g)).trans rfl)⟩
  have hok := hic.1.mpr g
  refine ⟨_, h1 _ _ hb (hini _ hok), fun l => ?_⟩
  obtain ⟨idx, a, g1, g2, g3, _⟩ := C32_transform env.σ d hd hok l
  exact ⟨idx, gives_list rfl rfl g1, g2, g3⟩

theorem C74_replace (env : Env) (he : env.Sane) (args : List PyVal) (kwargs : List (Str × PyVal)) :
    (∀ a b, bound replaceParams args kwargs = some [.str a, .str b] →
      (∀ m, env.compile a = some m → ∃ op, create env "ReplaceAwithB" args kwargs = .ok op ∧
        ∀ s ms, Scan m s 0 ms → Gives op (.str s) (.str (replaceMatches s b 0 ms))) ∧
      (env.compile a = none → create env "ReplaceAwithB" args kwargs = .error .reError)) ∧
    (bound replaceParams args kwargs = none → create env "ReplaceAwithB" args kwargs = .error .typeError) := by
  obtain ⟨h1, h2, h3⟩ := create_eq (env := env) (name := "ReplaceAwithB") (c := Builtin.replace env) rfl
    replaceParams rfl rfl (by decide) args kwargs
  refine ⟨fun a b hb => ⟨fun m hm => ?_, fun hn => ?_⟩, h3⟩
  · refine ⟨_, h1 _ (strOp (ReplaceAwithB.transform env.σ m b)) hb ?_, fun s ms hs => ?_⟩
    · show Builtin.replaceInit env [.str a, .str b] = _
      simp only [Builtin.replaceInit, PyVal.asStr, hm, Except.bind_ok]
      rfl
    · obtain ⟨al, h, _⟩ := C25_replace env.σ m b s (he.sound a m hm s) ms hs
      exact gives_str rfl rfl h
  · refine h2 _ _ hb ?_
    show Builtin.replaceInit env [.str a, .str b] = _
    simp only [Builtin.replaceInit, PyVal.asStr, hn, Except.bind_ok]

/-- The words are accepted: at least one, and no non-empty word twice. -/
def GoodWords (ws : List Str) : Prop := ws ≠ [] ∧ (ws.filter fun w => w ≠ []).Nodup

theorem userWords_eq (ws : List Str) : Builtin.userWords (.list (ws.map PyVal.str)) = Trie.ofUserWords ws := by
  exact userWords_list ws

theorem C74_custom_tokenizer (env : Env) (args : List PyVal) (kwargs : List (Str × PyVal)) :
    (∀ ws sh, bound wordParams args kwargs = some [.list (ws.map PyVal.str), .bool sh] →
      (GoodWords ws → ∃ op, create env "CustomWordTokenizer" args kwargs = .ok op ∧
        ∀ s segs, WordSegs ws sh s segs → Gives op (.str s) (.list (segs.map Tok.str))) ∧
      (ws = [] → create env "CustomWordTokenizer" args kwargs = .error .valueError)) ∧
    (∀ v, bound wordParams args kwargs = some [.none, v] →
      create env "CustomWordTokenizer" args kwargs = .error .valueError) ∧
    (bound wordParams args kwargs = none → create env "CustomWordTokenizer" args kwargs = .error .typeError) := by
  obtain ⟨h1, h2, h3⟩ := create_eq (env := env) (name := "CustomWordTokenizer") (c := Builtin.customTok env) rfl
    wordParams rfl rfl (by decide) args kwargs
  refine ⟨fun ws sh hb => ⟨fun hg => ?_, fun hn => ?_⟩, fun v hb => h2 _ _ hb rfl, h3⟩
  · obtain ⟨t, ht⟩ := (C36_build ws).1.mpr hg
    refine ⟨_, h1 _ (tokOp (CustomWordTokenizer.transform env.σ t sh)) hb ?_, fun s segs hs => ?_⟩
    · show (Builtin.userWords _ >>= _) = _
      rw [userWords_eq, ht]
      rfl
    · obtain ⟨a, segs', g1, g2, _⟩ := C37_C42_custom env.σ ws t ht sh s
      rw [C37_division_unique ws sh s segs segs' hs g2]
      exact gives_tok rfl rfl g1
  · refine h2 _ _ hb ?_
    show (Builtin.userWords _ >>= _) = _
    rw [userWords_eq, (C36_build ws).2.1 hn]
    rfl

theorem C74_around_words (env : Env) (args : List PyVal) (kwargs : List (Str × PyVal)) :
    (∀ ws sh, bound wordParams args kwargs = some [.list (ws.map PyVal.str), .bool sh] →
      (GoodWords ws → ∃ op, create env "AddWhitespaceAroundWordnZhChar" args kwargs = .ok op ∧
        ∀ s segs, WordSegs ws sh s segs → Gives op (.str s) (.str (segs.flatMap (spaced ws)))) ∧
      (ws = [] → create env "AddWhitespaceAroundWordnZhChar" args kwargs = .error .valueError)) ∧
    (∀ v, bound wordParams args kwargs = some [.none, v] →
      create env "AddWhitespaceAroundWordnZhChar" args kwargs = .error .valueError) ∧
    (bound wordParams args kwargs = none →
      create env "AddWhitespaceAroundWordnZhChar" args kwargs = .error .typeError) := by
  obtain ⟨h1, h2, h3⟩ := create_eq (env := env) (name := "AddWhitespaceAroundWordnZhChar") (c := Builtin.aroundWord env)
    rfl wordParams rfl rfl (by decide) args kwargs
  refine ⟨fun ws sh hb => ⟨fun hg => ?_, fun hn => ?_⟩, fun v hb => h2 _ _ hb rfl, h3⟩
  · obtain ⟨t, ht⟩ := (C36_build ws).1.mpr hg
    refine ⟨_, h1 _ (strOp (AddWhitespaceAroundWordnZhChar.transform env.σ t sh)) hb ?_, fun s segs hs => ?_⟩
    · show (Builtin.userWords _ >>= _) = _
      rw [userWords_eq, ht]
      rfl
    · obtain ⟨a, segs', g2, _, g1, _⟩ := C38_spaces env.σ ws t ht sh s
      rw [C37_division_unique ws sh s segs segs' hs g2]
      exact gives_str rfl rfl g1
  · refine h2 _ _ hb ?_
    show (Builtin.userWords _ >>= _) = _
    rw [userWords_eq, (C36_build ws).2.1 hn]
    rfl

/-- The pieces of one word. -/
def PiecesOf (vocab : List Str) (unk : Str) (n : Int) (w : Str) (ps : List Str) : Prop :=
  ((w.length : Int) ≤ n ∧ ∃ rs, Greedy (fun w => vocab.contains w) true w rs ∧ ps = wordPieces rs) ∨
  ((n < w.length ∨ ¬ ∃ rs, Greedy (fun w => vocab.contains w) true w rs) ∧ ps = [unk])

theorem C74_subwords (env : Env) (args : List PyVal) (kwargs : List (Str × PyVal)) :
    (∀ (d : List (Str × PyVal)) unk n, bound subwordParams args kwargs = some [.dict d, .str unk, .int n] →
      ∃ op, create env "SpanSubwords" args kwargs = .ok op ∧
        ∀ (l : List Str) (subs : Str → List Str), (∀ w ∈ l, PiecesOf (d.map Prod.fst) unk n w (subs w)) →
          Gives op (.list (l.map Tok.str)) (.list (l.flatMap fun w => (subs w).map Tok.str))) ∧
    (bound subwordParams args kwargs = none → create env "SpanSubwords" args kwargs = .error .typeError) := by
  obtain ⟨h1, h2, h3⟩ := create_eq (env := env) (name := "SpanSubwords") (c := Builtin.spanSubwords env)
    rfl subwordParams rfl rfl (by decide) args kwargs
  refine ⟨fun d unk n hb => ⟨_, h1 _ _ hb rfl, fun l subs hs => ?_⟩, h3⟩
  obtain ⟨a, h, _⟩ := C34_transform env.σ (fun w => (d.map Prod.fst).contains w) unk n l subs fun w hw => by
    rcases hs w hw with ⟨g1, rs, g2, g3⟩ | ⟨g1, g2⟩
    · rw [g3]; exact C33_segmentation _ _ _ _ _ g1 g2
    · rw [g2]; exact C33_unknown _ _ _ _ g1
  exact gives_list rfl rfl h

theorem C74_pure_num (env : Env) (args : List PyVal) (kwargs : List (Str × PyVal)) :
    (∀ v t, bound pureNumParams args kwargs = some [v] → v = .none ∧ t = "_num_".toList ∨ v = .str t →
      CreatesMap (create env "PureNum2Token" args kwargs) (fun l : List Str => Seq.list (l.map Tok.str))
        (fun l : List Str => Seq.list (l.map Tok.str)) (fun _ => True) fun l =>
          l.map fun s => if s ≠ [] ∧ ∀ c ∈ s, isDigit env.u c = true then t else s) ∧
    (bound pureNumParams args kwargs = none → create env "PureNum2Token" args kwargs = .error .typeError) := by
  obtain ⟨h1, h2, h3⟩ := create_eq (env := env) (name := "PureNum2Token") (c := Builtin.pureNum env)
    rfl pureNumParams rfl rfl (by decide) args kwargs
  refine ⟨fun v t hb hv => ?_, h3⟩
  have hini : (Builtin.pureNum env).init [v] = .ok (lstOp (PureNum2Token.transform env.σ env.u (.str t))) := by
    rcases hv with ⟨rfl, rfl⟩ | rfl
    · rfl
    · rfl
  refine ⟨_, h1 _ _ hb hini, fun l _ => ?_⟩
  obtain ⟨a, h, _⟩ := C35_transform env.σ env.u (.str t) l
  have e : (l.map fun s => if s ≠ [] ∧ ∀ c ∈ s, isDigit env.u c = true then t else s).map Tok.str =
      l.map fun s => if s ≠ [] ∧ ∀ c ∈ s, isDigit env.u c = true then Tok.str t else Tok.str s := by
    rw [List.map_map]
    refine List.map_congr_left fun s _ => ?_
    show Tok.str (if _ then t else s) = _
    split <;> rfl
  dsimp only
  rw [e]
  exact gives_list rfl rfl h

/-! ### classes without parameters -/

theorem create_simple {env : Env} {name : String} {i o : SeqType} {run : Seq → Res (Seq × Aligner)}
    (hc : (Builtin.registry env).get name.toList = .ok (Builtin.simple name i o run)) :
    create env name [] [] = .ok ⟨Builtin.simple name i o run, [], run⟩ ∧
      ∀ args kwargs, args ≠ [] ∨ kwargs ≠ [] → create env name args kwargs = .error .typeError := by
  obtain ⟨h1, _, h3⟩ := create_eq hc [] rfl rfl (by decide) [] []
  refine ⟨h1 [] run rfl rfl, fun args kwargs h => ?_⟩
  refine (create_eq hc [] rfl rfl (by decide) args kwargs).2.2 ?_
  unfold bound
  rcases h with h | h
  · cases args with
    | nil => exact absurd rfl h
    | cons a args => split <;> rfl
  · cases kwargs with
    | nil => exact absurd rfl h
    | cons kv kwargs =>
      rw [if_neg fun hk => by simpa using hk kv List.mem_cons_self]

theorem creates_str {env : Env} {name : String} {f : Str → Res (Str × Aligner)} {dom : Str → Prop} {g : Str → Str}
    (hc : (Builtin.registry env).get name.toList = .ok (Builtin.simple name .str .str (strOp f)))
    (h : ∀ s, dom s → ∃ a, f s = .ok (g s, a)) :
    CreatesMap (create env name [] []) Seq.str Seq.str dom g := by
  refine ⟨_, (create_simple hc).1, fun s hs => ?_⟩
  obtain ⟨a, ha⟩ := h s hs
  exact gives_str rfl rfl ha

theorem creates_tok {env : Env} {name : String} {f : Str → Res (List Str × Aligner)} {dom : Str → Prop}
    {g : Str → List Str}
    (hc : (Builtin.registry env).get name.toList = .ok (Builtin.simple name .str .list (tokOp f)))
    (h : ∀ s, dom s → ∃ a, f s = .ok (g s, a)) :
    CreatesMap (create env name [] []) Seq.str (fun ts => Seq.list (ts.map Tok.str)) dom g := by
  refine ⟨_, (create_simple hc).1, fun s hs => ?_⟩
  obtain ⟨a, ha⟩ := h s hs
  exact gives_tok rfl rfl ha

/-- C74: the operators on texts that take no arguments, by name. -/
theorem C74_text_operators (env : Env) (he : env.Sane) :
    let creates := fun (name : String) (g : Str → Str) =>
      CreatesMap (create env name [] []) Seq.str Seq.str (fun _ => True) g
    let numbers := fun (q : Str → Bool) (token : String) =>
      mapRuns (numeric env.u) fun r => if q r then token.toList else r
    creates "Lowercase" (fun s => s.map asciiLower) ∧
    creates "AddWhitespaceAroundCJK" (fun s => s.flatMap fun c =>
      if ∃ b ∈ cjkBlocks, b.1 ≤ c.toNat ∧ c.toNat ≤ b.2 then [' ', c, ' '] else [c]) ∧
    creates "AddWhitespaceAroundPunctuation" (fun s => s.flatMap fun c =>
      if c ∈ asciiPunctuation ∨ env.u.isCatP c = true then [' ', c, ' '] else [c]) ∧
    creates "PunctuationExceptEndpointToWhitespace" (fun s => s.map (punctuationBlanked env.u)) ∧
    creates "IntToken" (numbers (isInteger env.u) "_int_") ∧
    creates "FloatToken" (numbers (isFloat env.u) "_float_") ∧
    creates "IntTokenWithSpace" (numbers (isInteger env.u) " _int_ ") ∧
    creates "FloatTokenWithSpace" (numbers (isFloat env.u) " _float_ ") ∧
    creates "NumTokenWithSpace" (numbers (isInteger env.u) " _num_ ") ∧
    creates "MergeWhiteSpaceCharacters" (mapRuns isSpace fun _ => [' ']) ∧
    creates "StripWhiteSpaceCharacters" strip ∧
    CreatesMap (create env "StripAccentToken" [] []) Seq.str Seq.str
      (fun s => ((env.u.nfd s).filter fun c => !env.u.isMn c).length = s.length)
      (fun s => (env.u.nfd s).filter fun c => !env.u.isMn c) := by
  dsimp only
  refine ⟨creates_str rfl fun s _ => ?_, creates_str rfl fun s _ => ?_, creates_str rfl fun s _ => ?_,
    creates_str rfl fun s _ => ?_, creates_str rfl fun s _ => ?_, creates_str rfl fun s _ => ?_,
    creates_str rfl fun s _ => ?_, creates_str rfl fun s _ => ?_, creates_str rfl fun s _ => ?_,
    creates_str rfl fun s _ => ?_, creates_str rfl fun s _ => ?_, creates_str rfl fun s hs => ?_⟩
  · obtain ⟨a, h, _⟩ := C16_lowercase env.σ s; exact ⟨a, h⟩
  · obtain ⟨a, h, _⟩ := C17_cjk_op env.σ s; exact ⟨a, h⟩
  · obtain ⟨a, h, _⟩ := C17_punctuation_op env.σ env.u s; exact ⟨a, h⟩
  · obtain ⟨a, h, _⟩ := C26_transform env.σ env.u s; exact ⟨a, h⟩
  · obtain ⟨a, h, _⟩ := (C18_C19_int_token env.σ env.u s).run; exact ⟨a, h⟩
  · obtain ⟨a, h, _⟩ := (C18_C19_float_token env.σ env.u he.dot s).run; exact ⟨a, h⟩
  · obtain ⟨a, h, _⟩ := (C18_C19_int_token_with_space env.σ env.u s).run; exact ⟨a, h⟩
  · obtain ⟨a, h, _⟩ := (C18_C19_float_token_with_space env.σ env.u he.dot s).run; exact ⟨a, h⟩
  · obtain ⟨a, h, _⟩ := (C18_C19_num_token_with_space env.σ env.u s).run; exact ⟨a, h⟩
  · obtain ⟨a, h, _⟩ := C21_merge env.σ s; exact ⟨a, h⟩
  · obtain ⟨a, h, _⟩ := C22_strip env.σ s; exact ⟨a, h⟩
  · obtain ⟨a, h, _⟩ := C27_transform env.σ env.u s hs; exact ⟨a, h⟩

/-- C74: the remaining operator on texts and the tokenizers without arguments, by name. -/
theorem C74_tokenizers (env : Env) :
    (∃ op, create env "StopwordsToWhitespace" [] [] = .ok op ∧
      ∀ s segs, Segmented StopwordsToWhitespace.stopwords s segs →
        Gives op (.str s) (.str (segs.flatMap fun w => if w ∈ StopwordsToWhitespace.stopwords then [' '] else w))) ∧
    CreatesMap (create env "CharTokenizer" [] []) Seq.str (fun ts => Seq.list (ts.map Tok.str)) (fun _ => True)
      (fun s => s.map fun c => [c]) ∧
    CreatesMap (create env "WhiteSpaceTokenizer" [] []) Seq.str (fun ts => Seq.list (ts.map Tok.str)) (fun _ => True)
      wordsOf ∧
    (∃ op, create env "EngTokenizer" [] [] = .ok op ∧
      ∀ s ps tail, TokenizedBy (fun c => isPunctuation env.u c) s ps tail →
        Gives op (.str s) (.list (ps.map fun p => .str p.2))) ∧
    ∃ op, create env "ZhCharTokenizer" [] [] = .ok op ∧
      ∀ s ps tail, TokenizedBy (fun c => isPunctuation env.u c || isCJK c) s ps tail →
        Gives op (.str s) (.list (ps.map fun p => .str p.2)) := by
  refine ⟨⟨_, (create_simple rfl).1, fun s segs hs => ?_⟩, creates_tok rfl fun s _ => ?_, creates_tok rfl fun s _ => ?_,
    ⟨_, (create_simple rfl).1, fun s ps tail h => ?_⟩, ⟨_, (create_simple rfl).1, fun s ps tail h => ?_⟩⟩
  · obtain ⟨a, h, _⟩ := C23_stopwords env.σ s segs hs
    exact gives_str rfl rfl h
  · obtain ⟨a, h, _⟩ := C41_char env.σ s; exact ⟨a, h⟩
  · exact C39_words env.σ s
  · obtain ⟨a, ps', tail', h1, h2, _⟩ := C40_C42_eng env.σ env.u s
    rw [(C40_cuts_unique _ _ _ _ _ _ h h2).1]
    have := gives_tok (c := Builtin.engTok env) (cfg := []) rfl rfl h1
    rw [List.map_map] at this
    exact this
  · obtain ⟨a, ps', tail', h1, h2, _⟩ := C40_C42_zh env.σ env.u s
    rw [(C40_cuts_unique _ _ _ _ _ _ h h2).1]
    have := gives_tok (c := Builtin.zhTok env) (cfg := []) rfl rfl h1
    rw [List.map_map] at this
    exact this

/-- The names of the operators without parameters. -/
def plainNames : List String :=
  ["Lowercase", "AddWhitespaceAroundCJK", "AddWhitespaceAroundPunctuation", "PunctuationExceptEndpointToWhitespace",
   "IntToken", "FloatToken", "IntTokenWithSpace", "FloatTokenWithSpace", "NumTokenWithSpace",
   "MergeWhiteSpaceCharacters", "StripWhiteSpaceCharacters", "StripAccentToken", "StopwordsToWhitespace",
   "CharTokenizer", "WhiteSpaceTokenizer", "EngTokenizer", "ZhCharTokenizer"]

/-- C74: these refuse every argument. -/
theorem C74_no_arguments (env : Env) (name : String) (hn : name ∈ plainNames) (args : List PyVal)
    (kwargs : List (Str × PyVal)) (h : args ≠ [] ∨ kwargs ≠ []) :
    create env name args kwargs = .error .typeError := by
  simp only [plainNames, List.mem_cons, List.not_mem_nil, or_false] at hn
  rcases hn with rfl | rfl | rfl | rfl | rfl | rfl | rfl | rfl | rfl | rfl | rfl | rfl | rfl | rfl | rfl | rfl | rfl <;>
    exact (create_simple rfl).2 args kwargs h

/-- The names of the operators with parameters. -/
def otherNames : List String :=
  ["AddWhitespaceAroundWordnZhChar", "ReplaceAwithB", "CustomWordTokenizer", "AddSosEos", "AddEndToken", "Pad",
   "Token2Index", "Token2IndexwithHash", "SpanSubwords", "PureNum2Token"]

/-- The names of the base classes, which are registered too. -/
def baseNames : List String := ["Operator", "AddWhitespaceAroundCharacter", "PatternRecognizer", "Tokenizer"]

/-- C74: any other name raises KeyError. -/
theorem C74_names (env : Env) (name : Str) (h : name ∉ (plainNames ++ otherNames ++ baseNames).map String.toList) :
    (Builtin.registry env).get name = .error .keyError := by
  unfold Factory.get
  have : dictGet (Builtin.registry env) name = none := by
    rw [dictGet_none]
    intro hm
    apply h
    have e : (Builtin.registry env).map Prod.fst = ["Operator", "AddWhitespaceAroundCharacter", "PatternRecognizer",
      "Tokenizer", "Lowercase", "AddWhitespaceAroundCJK", "AddWhitespaceAroundPunctuation",
      "AddWhitespaceAroundWordnZhChar", "StripAccentToken", "PunctuationExceptEndpointToWhitespace", "IntToken",
      "FloatToken", "IntTokenWithSpace", "FloatTokenWithSpace", "MergeWhiteSpaceCharacters",
      "StripWhiteSpaceCharacters", "StopwordsToWhitespace", "NumTokenWithSpace", "ReplaceAwithB", "CharTokenizer",
      "EngTokenizer", "ZhCharTokenizer", "WhiteSpaceTokenizer", "CustomWordTokenizer", "AddSosEos", "Pad",
      "Token2Index", "SpanSubwords", "Token2IndexwithHash", "PureNum2Token", "AddEndToken"].map String.toList := rfl
    rw [e] at hm
    obtain ⟨n, hn, rfl⟩ := List.mem_map.mp hm
    refine List.mem_map_of_mem ?_
    revert n
    decide
  rw [this]

/-- C74: importing `uttut.pipeline` alone registers all of these but `AddEndToken`. -/
theorem C74_after_import (env : Env) :
    (Builtin.registryDefault env).get "AddEndToken".toList = .error .keyError ∧
    ∀ name, name ≠ "AddEndToken".toList → (Builtin.registryDefault env).get name = (Builtin.registry env).get name := by
  refine ⟨rfl, fun name hn => ?_⟩
  have e : Builtin.registry env = Builtin.registryDefault env ++ [("AddEndToken".toList, Builtin.endTok env)] := rfl
  unfold Factory.get
  rw [e]
  have : dictGet (Builtin.registryDefault env ++ [("AddEndToken".toList, Builtin.endTok env)]) name =
      dictGet (Builtin.registryDefault env) name := by
    generalize Builtin.registryDefault env = f
    induction f with
    | nil =>
      show (if "AddEndToken".toList = name then _ else _) = _
      rw [if_neg fun h => hn h.symm]
    | cons kv f ih =>
      show (if kv.1 = name then some kv.2 else dictGet (f ++ [("AddEndToken".toList, Builtin.endTok env)]) name) =
        (if kv.1 = name then some kv.2 else dictGet f name)
      rw [ih]
  rw [this]

/-! ### examples -/

/-- `Pad(3)` and `Pad(pad_token="x", maxlen=3)`. -/
example (env : Env) : bound padParams [.int 3] [] = some [.int 3, .str "<pad>".toList] ∧
    bound padParams [] [("pad_token".toList, .str "x".toList), ("maxlen".toList, .int 3)] =
      some [.int 3, .str "x".toList] ∧
    CreatesMap (create env "Pad" [.int 3] []) Seq.list Seq.list (fun l => l.length < 2 ^ 32)
      (fun l => l.take 3 ++ List.replicate (3 - l.length) (.str "<pad>".toList)) :=
  ⟨rfl, rfl, (C74_pad env [.int 3] []).1 3 _ rfl⟩

/-- `Pad()` and `Pad(3, maxlen=4)` are refused. -/
example (env : Env) : create env "Pad" [] [] = .error .typeError ∧
    create env "Pad" [.int 3] [("maxlen".toList, .int 4)] = .error .typeError :=
  ⟨(C74_pad env _ _).2 rfl, (C74_pad env _ _).2 rfl⟩

example (env : Env) : CreatesMap (create env "AddSosEos" [] [("end_token".toList, .str "E".toList)]) Seq.list Seq.list
    (fun l => l ≠ [] ∧ l.length < 2 ^ 32) (fun l => .str "<sos>".toList :: l ++ [.str "E".toList]) :=
  (C74_sos_eos env _ _).1 _ _ rfl

example (env : Env) : CreatesMap (create env "AddEndToken" [] []) Seq.list Seq.list (fun l => l.length < 2 ^ 32)
    (fun l => l ++ [.str "<eos>".toList]) ∧ create env "AddEndToken" [.none] [] = .error .valueError :=
  ⟨(C74_end_token env _ _).1 _ (by decide) rfl, (C74_end_token env _ _).2.1 (Or.inl rfl)⟩

/-- `Token2Index` without the default unknown token. -/
example (env : Env) : create env "Token2Index" [.dict [("a".toList, .int 0)]] [] = .error .keyError :=
  (((C74_token2index env _ _).1 [("a".toList, 0)] "<unk>".toList (by decide) rfl).2.2
    ((C31_continuity _).mp rfl) (by decide))

example (env : Env) : create env "Token2IndexwithHash" [.dict [("a".toList, .int 1)]] [] = .error .valueError :=
  ((C74_token2index_hash env _ _).1 [("a".toList, 1)] (by decide) rfl).2
    fun h => by have := (C31_continuity _).mpr h; cases this

/-- `ReplaceAwithB(b="y", a="x")`: the keyword decides, not the order. -/
example : ∃ op, create exEnv "ReplaceAwithB" [] [("b".toList, .str "y".toList), ("a".toList, .str "x".toList)] = .ok op ∧
    Gives op (.str "axb".toList) (.str "ayb".toList) := by
  obtain ⟨op, h1, h2⟩ := ((C74_replace exEnv exEnv_sane [] [("b".toList, .str "y".toList), ("a".toList, .str "x".toList)]).1
    "x".toList "y".toList rfl).1 _ rfl
  exact ⟨op, h1, h2 "axb".toList [(1, 2)] (.match_ 0 1 2 _ (by decide) (by decide) (.noMatch 2 (by decide) (by decide)))⟩

/-- Longest match is the default. -/
example (env : Env) (ws : List Str) (h : GoodWords ws) :
    ∃ op, create env "CustomWordTokenizer" [.list (ws.map PyVal.str)] [] = .ok op ∧
      ∀ s segs, WordSegs ws false s segs → Gives op (.str s) (.list (segs.map Tok.str)) :=
  ((C74_custom_tokenizer env _ _).1 ws false rfl).1 h

example (env : Env) (ws : List Str) (h : GoodWords ws) :
    ∃ op, create env "AddWhitespaceAroundWordnZhChar" [.list (ws.map PyVal.str), .bool true] [] = .ok op ∧
      ∀ s segs, WordSegs ws true s segs → Gives op (.str s) (.str (segs.flatMap (spaced ws))) :=
  ((C74_around_words env _ _).1 ws true rfl).1 h

example : GoodWords ["ab".toList, "abc".toList] := by unfold GoodWords; decide

/-- `SpanSubwords(vocab)`: unknown words become "<unk>". -/
example (env : Env) : ∃ op, create env "SpanSubwords" [.dict [("un".toList, .int 0)]] [] = .ok op ∧
    ∀ (l : List Str) (subs : Str → List Str),
      (∀ w ∈ l, PiecesOf ["un".toList] "<unk>".toList 200 w (subs w)) →
        Gives op (.list (l.map Tok.str)) (.list (l.flatMap fun w => (subs w).map Tok.str)) :=
  (C74_subwords env _ _).1 [("un".toList, .int 0)] _ _ rfl

example (env : Env) : CreatesMap (create env "PureNum2Token" [] []) (fun l : List Str => Seq.list (l.map Tok.str))
    (fun l : List Str => Seq.list (l.map Tok.str)) (fun _ => True)
    (fun l => l.map fun s => if s ≠ [] ∧ ∀ c ∈ s, isDigit env.u c = true then "_num_".toList else s) :=
  (C74_pure_num env _ _).1 .none _ rfl (Or.inl ⟨rfl, rfl⟩)

example (env : Env) : create env "Lowercase" [.int 1] [] = .error .typeError :=
  C74_no_arguments env _ (by decide) _ _ (Or.inl (by decide))

example (env : Env) : (Builtin.registry env).get "Uppercase".toList = .error .keyError :=
  C74_names env _ (by decide)

end Uttut
