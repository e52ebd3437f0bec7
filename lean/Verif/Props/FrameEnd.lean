import Verif.Props.Frame
import Verif.Spec.FrameEnd

/-! C108: pipes that end in `AddEndToken`, `Pad` and `Token2Index`. -/

namespace Uttut

open Spec

/-- `op` is `AddEndToken(e)`. -/
def IsEndToken (env : Env) (e : Str) (op : Op) : Prop :=
  ∃ args kwargs, bound endTokenParams args kwargs = some [.str e] ∧ create env "AddEndToken" args kwargs = .ok op

theorem isEndToken_run {env : Env} {e : Str} {op : Op} (h : IsEndToken env e op) :
    ∃ cfg, op = ⟨Builtin.endTok env, cfg, lstOp (AddEndToken.transform env.σ (.str e))⟩ := by
  obtain ⟨args, kwargs, hb, hc⟩ := h
  obtain ⟨h1, h2, _⟩ := create_eq (env := env) (name := "AddEndToken") (c := Builtin.endTok env) rfl endTokenParams rfl
    rfl (by decide) args kwargs
  have hini : (Builtin.endTok env).init [.str e] =
      AddEndToken.init e >>= fun e => .ok (lstOp (AddEndToken.transform env.σ (.str e))) := rfl
  unfold AddEndToken.init at hini
  split at hini
  · rw [h2 _ _ hb hini] at hc
    cases hc
  · rw [h1 _ _ hb hini] at hc
    injection hc with hc
    exact ⟨_, hc.symm⟩

theorem length_ended {α : Type} (e p : α) (n : Nat) (toks : List α) : (ended e p n toks).length = n := by
  unfold ended
  rw [List.length_append, List.length_take, List.length_replicate]
  simp
  omega

theorem unend_aux (n L : Nat) (ys : List Int) (h : ys.length = n) :
    ∃ y, ys.take (L + 1) ++ List.replicate (L + 1 - n) 0 = unended n L ys ++ [y] ∧ (unended n L ys).length = L := by
  have hl : (unended n L ys).length = L := by
    unfold unended
    rw [List.length_append, List.length_take, List.length_replicate]
    omega
  refine ⟨ys.getD L 0, ?_, hl⟩
  unfold unended
  by_cases hn : L < n
  · rw [show L + 1 - n = 0 by omega, show L - n = 0 by omega, List.replicate_zero, List.append_nil, List.append_nil,
      List.take_succ, List.getD_eq_getElem?_getD, List.getElem?_eq_getElem (by omega)]
    rfl
  · rw [List.take_of_length_le (by omega), List.take_of_length_le (by omega), show L + 1 - n = (L - n) + 1 by omega,
      List.replicate_succ', List.getD_eq_getElem?_getD, List.getElem?_eq_none (by omega), List.append_assoc]
    rfl

/-- C108: if the steps in front return the tokens `toks`, possibly none, then the whole pipe returns the indices of
`toks` and that of the end token, cut or filled up to `n`; labels of `toks` get the label 0 behind them in the same way;
and of `n` labels only those on tokens of `toks` are handed back to the steps in front. -/
theorem C108_ended (env : Env) (e p unk : Str) (n : Nat) (d : List (Str × Int)) (front : List Op)
    (eos pad index : Op) (hs : IsEndToken env e eos) (hp : IsPad env n p pad) (hi : IsIndex env d unk index)
    (cks cks' : List (Str × Int)) (s : Seq) (toks : List Tok) (as0 : List Aligner) (coll0 : List Seq)
    (hf : (⟨front, cks⟩ : Pipe).transformSequence s = .ok (.list toks, as0, coll0))
    (hlen : toks.length + 1 < 2 ^ 32) :
    ∃ out as coll, (⟨front ++ [eos, pad, index], cks'⟩ : Pipe).transformSequence s =
        .ok (.list (out.map Tok.int), as, coll) ∧ out.length = n ∧
      (∀ q ∈ (ended (.str e) (.str p) n toks).zip out, IndexOf d unk q.1 q.2) ∧
      (∀ ls ms, alignAll as0 ls = .ok ms → ms.length = toks.length → alignAll as ls = .ok (ended 0 0 n ms)) ∧
      ∀ ys, ys.length = n → realignAll as ys = realignAll as0 (unended n toks.length ys) := by
  obtain ⟨rs, r1, r2, rfl, _⟩ := (C58_composition _ _ _ as0 coll0).mp hf
  obtain ⟨cfg1, rfl⟩ := isEndToken_run hs
  obtain ⟨cfg2, rfl⟩ := isPad_run hp
  obtain ⟨hini, cfg3, rfl⟩ := isIndex_run hi
  obtain ⟨a1, f1, g1, t1, i1⟩ := C28_add_end_token env.σ (.str e) toks (by omega)
  have hl1 : (toks ++ [Tok.str e]).length = toks.length + 1 := by simp
  obtain ⟨a2, f2, g2, t2, i2⟩ := C30_pad env.σ n (.str p) (toks ++ [Tok.str e]) (by omega)
  rw [hl1] at f2 g2 t2 i2
  obtain ⟨out, a3, f3, hout, pt, g3, hidx, _⟩ :=
    C31_transform env.σ d unk hi.1 hini (ended (.str e) (.str p) n toks)
  rw [length_ended] at hout pt g3
  have run3 : Runs [⟨Builtin.endTok env, cfg1, lstOp (AddEndToken.transform env.σ (.str e))⟩,
      ⟨Builtin.pad env, cfg2, lstOp (Pad.transform env.σ n (.str p))⟩,
      ⟨Builtin.token2index env, cfg3, lstOp (Token2Index.transform env.σ d unk)⟩] (.list toks)
      [(.list (toks ++ [Tok.str e]), a1), (.list (ended (.str e) (.str p) n toks), a2),
        (.list (out.map Tok.int), a3)] :=
    .cons (lst_transform rfl rfl f1) (.cons (lst_transform rfl rfl f2) (.cons (lst_transform rfl rfl f3) (.nil _)))
  have run := Runs.append r1 (r2 ▸ run3)
  refine ⟨out, rs.map Prod.snd ++ [a1, a2, a3], _, (C58_composition _ _ _ _ _).mpr ⟨_, run, ?_, by simp, rfl⟩, hout,
    fun q hq => (hidx q hq).1, ?_, ?_⟩
  · rw [show ∀ x y z, rs ++ [x, y, z] = (rs ++ [x, y]) ++ [z] by simp]
    exact (finalOf_append_cons _ _ _ _).symm
  · intro ls ms hm hml
    rw [alignAll_snoc, hm, Except.bind_ok]
    have e2 := t2 (ms ++ [0]) (by simp [hml])
    have e3 : (ms ++ [0] : List Int).take n ++ List.replicate (n - (toks.length + 1)) 0 = ended 0 0 n ms := by
      unfold ended
      rw [hml]
    rw [e3] at e2
    unfold alignAll
    rw [t1 ms hml, Except.bind_ok]
    unfold alignAll
    rw [e2, Except.bind_ok]
    unfold alignAll
    rw [(pt _ (length_ended _ _ _ _)).1, Except.bind_ok]
    rfl
  · intro ys hy
    rw [realignAll_snoc]
    have : realignAll [a1, a2, a3] ys = .ok (unended n toks.length ys) := by
      obtain ⟨y, hxy, hul⟩ := unend_aux n toks.length ys hy
      rw [realignAll_cons, realignAll_cons, realignAll_cons]
      rw [show realignAll [] ys = .ok ys from rfl, Except.bind_ok, (pt ys hy).2, Except.bind_ok, i2 ys hy, Except.bind_ok,
        hxy, i1 _ y hul]
    rw [this, Except.bind_ok]

theorem unended_ended (n : Nat) (ms : List Int) :
    unended n ms.length (ended 0 0 n ms) = ms.take n ++ List.replicate (ms.length - n) 0 := by
  unfold unended
  congr 1
  unfold ended
  apply List.ext_getElem?
  intro k
  rw [List.getElem?_take, List.getElem?_take]
  by_cases h1 : k < ms.length
  · rw [if_pos h1]
    by_cases h2 : k < n
    · rw [if_pos h2, List.getElem?_append_left (by simp; omega), List.getElem?_take_of_lt h2, List.getElem?_append_left h1]
    · rw [if_neg h2, List.getElem?_append_right (by simp; omega), List.getElem?_eq_none (by simp; omega)]
  · rw [if_neg h1, List.getElem?_eq_none (by omega)]
    simp

/-- C108: through `AddEndToken`, `Pad(n)` and `Token2Index` labels go to the model and come back as if the three steps were
not there, if `n` has room for the tokens; if it has not, the labels of the tokens that do not fit are lost. What is
predicted for the end token and the filling has no influence. -/
theorem C108_ended_round_trip (env : Env) (e p unk : Str) (n : Nat) (d : List (Str × Int)) (front : List Op)
    (eos pad index : Op) (hs : IsEndToken env e eos) (hp : IsPad env n p pad) (hi : IsIndex env d unk index)
    (cks cks' : List (Str × Int)) (s o : Seq) (toks : List Tok) (as0 as : List Aligner) (coll0 coll : List Seq)
    (hf : (⟨front, cks⟩ : Pipe).transformSequence s = .ok (.list toks, as0, coll0))
    (hlen : toks.length + 1 < 2 ^ 32)
    (h : (⟨front ++ [eos, pad, index], cks'⟩ : Pipe).transformSequence s = .ok (o, as, coll)) :
    (∀ ls ms, alignAll as0 ls = .ok ms → ms.length = toks.length →
      (alignAll as ls >>= realignAll as) = realignAll as0 (ms.take n ++ List.replicate (toks.length - n) 0) ∧
        (toks.length ≤ n → (alignAll as ls >>= realignAll as) = (alignAll as0 ls >>= realignAll as0))) ∧
      ∀ ys zs : List Int, ys.length = n → zs.length = n → (∀ k < toks.length, ys[k]? = zs[k]?) →
        realignAll as ys = realignAll as zs := by
  obtain ⟨out, as', coll', h', _, _, ht, hr⟩ :=
    C108_ended env e p unk n d front eos pad index hs hp hi cks cks' s toks as0 coll0 hf hlen
  rw [h] at h'
  injection h' with h'
  injection h' with _ h'
  injection h' with h' _
  subst h'
  constructor
  · intro ls ms hm hml
    have main : (alignAll as ls >>= realignAll as) =
        realignAll as0 (ms.take n ++ List.replicate (toks.length - n) 0) := by
      rw [ht ls ms hm hml, Except.bind_ok, hr _ (length_ended _ _ _ _), ← hml, unended_ended]
    refine ⟨main, fun hn => ?_⟩
    rw [main, hm, Except.bind_ok, List.take_of_length_le (by omega), show toks.length - n = 0 by omega]
    simp
  · intro ys zs hy hz hyz
    rw [hr ys hy, hr zs hz]
    congr 1
    unfold unended
    congr 1
    apply List.ext_getElem?
    intro k
    rw [List.getElem?_take, List.getElem?_take]
    split
    · exact hyz _ (by assumption)
    · rfl

/-- The hypotheses hold for the operators written `AddEndToken()`, `Pad(4)`, `Token2Index(vocab)` behind `CharTokenizer`,
also for the empty text. -/
example : ∃ chars eos pad index as0 coll0 as1 coll1, create exEnv "CharTokenizer" [] [] = .ok chars ∧
    IsEndToken exEnv "<eos>".toList eos ∧ IsPad exEnv 4 "<pad>".toList pad ∧ IsIndex exEnv exVocab "<unk>".toList index ∧
    (⟨[chars], []⟩ : Pipe).transformSequence (.str "ab".toList) =
      .ok (.list [.str "a".toList, .str "b".toList], as0, coll0) ∧
    (⟨[chars], []⟩ : Pipe).transformSequence (.str []) = .ok (.list [], as1, coll1) ∧
    ((⟨[chars, eos, pad, index], []⟩ : Pipe).transformSequence (.str "ab".toList)).map Prod.fst =
      .ok (.list [.int 4, .int 0, .int 2, .int 3]) ∧
    ((⟨[chars, eos, pad, index], []⟩ : Pipe).transformSequence (.str [])).map Prod.fst =
      .ok (.list [.int 2, .int 3, .int 3, .int 3]) :=
  ⟨_, _, _, _, _, _, _, _, rfl, ⟨[], [], rfl, rfl⟩, ⟨[.int 4], [], rfl, rfl⟩,
    ⟨by decide, [.dict (exVocab.map fun kv => (kv.1, .int kv.2))], [], rfl, rfl⟩, rfl, rfl, rfl, rfl⟩

example : ended 0 0 5 [7, 8, 9] = [7, 8, 9, 0, 0] ∧ ended 0 0 2 [7, 8, 9] = [7, 8] ∧
    unended 5 3 [7, 8, 9, 2, 3] = [7, 8, 9] ∧ unended 2 3 [7, 8] = [7, 8, 0] := by decide

end Uttut
