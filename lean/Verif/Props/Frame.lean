import Verif.Spec.Frame
import Verif.Props.Construct
import Verif.Props.Builtins
import Verif.Props.Align

/-!
C108: pipes that end in `AddSosEos`, `Pad` and `Token2Index`.
-/

namespace Uttut

open Spec

/-- `op` is `Pad(n, p)`. -/
def IsPad (env : Env) (n : Nat) (p : Str) (op : Op) : Prop :=
  ∃ args kwargs, bound padParams args kwargs = some [.int n, .str p] ∧ create env "Pad" args kwargs = .ok op

/-- `op` is `AddSosEos(b, e)`. -/
def IsSosEos (env : Env) (b e : Str) (op : Op) : Prop :=
  ∃ args kwargs, bound sosEosParams args kwargs = some [.str b, .str e] ∧ create env "AddSosEos" args kwargs = .ok op

/-- `op` is `Token2Index(d, unk)`. -/
def IsIndex (env : Env) (d : List (Str × Int)) (unk : Str) (op : Op) : Prop :=
  (d.map Prod.fst).Nodup ∧ ∃ args kwargs,
    bound token2indexParams args kwargs = some [.dict (d.map fun kv => (kv.1, .int kv.2)), .str unk] ∧
      create env "Token2Index" args kwargs = .ok op

theorem lst_transform {c : OpClass} {cfg : List (Str × PyVal)} {f : List Tok → Res (List Tok × Aligner)}
    (hi : c.inputType = .list) (ho : c.outputType = .list) {l out : List Tok} {a : Aligner} (h : f l = .ok (out, a)) :
    Op.transform ⟨c, cfg, lstOp f⟩ (.list l) = .ok (.list out, a) := by
  unfold Op.transform
  rw [if_neg (by simp [hi, Seq.type])]
  have : lstOp f (.list l) = .ok (.list out, a) := by
    show (f l >>= _) = _
    rw [h]
    rfl
  simp only [this, Except.bind_ok]
  rw [if_neg (by simp [ho, Seq.type])]
  rfl

theorem lst_inv {f : List Tok → Res (List Tok × Aligner)} {s t : Seq} {a : Aligner} (h : lstOp f s = .ok (t, a)) :
    ∃ l out, s = .list l ∧ t = .list out ∧ f l = .ok (out, a) := by
  cases s with
  | str s => cases h
  | list l =>
    obtain ⟨⟨out, a'⟩, h1, h2⟩ := bind_eq_ok h
    injection h2 with h2
    injection h2 with e1 e2
    subst e1; subst e2
    exact ⟨l, out, rfl, rfl, h1⟩

theorem isPad_run {env : Env} {n : Nat} {p : Str} {op : Op} (h : IsPad env n p op) :
    ∃ cfg, op = ⟨Builtin.pad env, cfg, lstOp (Pad.transform env.σ n (.str p))⟩ := by
  obtain ⟨args, kwargs, hb, hc⟩ := h
  obtain ⟨h1, _, _⟩ := create_eq (env := env) (name := "Pad") (c := Builtin.pad env) rfl padParams rfl
    rfl (by decide) args kwargs
  have := h1 _ (lstOp (Pad.transform env.σ n (.str p))) hb rfl
  rw [hc] at this
  injection this with this
  exact ⟨_, this⟩

theorem isSosEos_run {env : Env} {b e : Str} {op : Op} (h : IsSosEos env b e op) :
    ∃ cfg, op = ⟨Builtin.sosEos env, cfg, lstOp (AddSosEos.transform env.σ (.str b) (.str e))⟩ := by
  obtain ⟨args, kwargs, hb, hc⟩ := h
  obtain ⟨h1, _, _⟩ := create_eq (env := env) (name := "AddSosEos") (c := Builtin.sosEos env) rfl sosEosParams rfl
    rfl (by decide) args kwargs
  have := h1 _ (lstOp (AddSosEos.transform env.σ (.str b) (.str e))) hb rfl
  rw [hc] at this
  injection this with this
  exact ⟨_, this⟩

theorem isIndex_run {env : Env} {d : List (Str × Int)} {unk : Str} {op : Op} (h : IsIndex env d unk op) :
    Token2Index.init d unk = .ok () ∧
      ∃ cfg, op = ⟨Builtin.token2index env, cfg, lstOp (Token2Index.transform env.σ d unk)⟩ := by
  obtain ⟨_, args, kwargs, hb, hc⟩ := h
  obtain ⟨h1, h2, _⟩ := create_eq (env := env) (name := "Token2Index") (c := Builtin.token2index env) rfl
    token2indexParams rfl rfl (by decide) args kwargs
  have hini : (Builtin.token2index env).init [.dict (d.map fun kv => (kv.1, .int kv.2)), .str unk] =
      Token2Index.init d unk >>= fun _ => .ok (lstOp (Token2Index.transform env.σ d unk)) := by
    show ((PyVal.dict _).asIndex >>= _) = _
    rw [asIndex_ok, Except.bind_ok]
    rfl
  cases hi : Token2Index.init d unk with
  | error e =>
    rw [hi] at hini
    rw [h2 _ e hb hini] at hc
    cases hc
  | ok x =>
    rw [hi] at hini
    rw [h1 _ _ hb hini] at hc
    injection hc with hc
    exact ⟨rfl, _, hc.symm⟩

/-! ### the size -/

theorem finalOf_append_cons (s t : Seq) (a : Aligner) (rs : List (Seq × Aligner)) :
    finalOf s (rs ++ [(t, a)]) = t := by
  unfold finalOf
  rw [List.getLast?_append]
  rfl

theorem alignAll_snoc (as bs : List Aligner) (ls : List Int) :
    alignAll (as ++ bs) ls = alignAll as ls >>= alignAll bs := by
  induction as generalizing ls with
  | nil => rfl
  | cons a as ih =>
    rw [List.cons_append]
    unfold alignAll
    cases a.transform ls with
    | error e => rfl
    | ok ms => exact ih ms

theorem realignAll_snoc (as bs : List Aligner) (ys : List Int) :
    realignAll (as ++ bs) ys = realignAll bs ys >>= realignAll as := by
  induction as with
  | nil =>
    rw [List.nil_append]
    cases realignAll bs ys <;> rfl
  | cons a as ih =>
    rw [List.cons_append, realignAll_cons, ih]
    cases realignAll bs ys with
    | error e => rfl
    | ok ms => rw [Except.bind_ok, Except.bind_ok, realignAll_cons]

theorem isPad_ok {env : Env} {n : Nat} {p : Str} {op : Op} (h : IsPad env n p op) {s t : Seq} {a : Aligner}
    (ht : op.transform s = .ok (t, a)) : ∃ l : List Tok, t = .list l ∧ l.length = n := by
  obtain ⟨cfg, rfl⟩ := isPad_run h
  obtain ⟨l, out, rfl, rfl, hf⟩ := lst_inv (transform_run ht)
  refine ⟨out, rfl, ?_⟩
  have hlen : l.length = n ∨ l.length < 2 ^ 32 := by
    by_contra hc
    exact C30_too_long env.σ n (.str p) l (by omega) (by omega) _ hf
  obtain ⟨a', h1, _⟩ := C30_pad env.σ n (.str p) l hlen
  rw [h1] at hf
  injection hf with hf
  injection hf with e1 _
  rw [← e1, List.length_append, List.length_take, List.length_replicate]
  omega

/-- C108: whatever the other steps are, a pipe that ends in `Pad(n)` and `Token2Index` returns exactly `n` indices, all
of them indices of the mapping, and takes and returns exactly `n` labels. -/
theorem C108_size (env : Env) (n : Nat) (p : Str) (d : List (Str × Int)) (unk : Str) (front : List Op) (pad index : Op)
    (hp : IsPad env n p pad) (hi : IsIndex env d unk index) (cks : List (Str × Int)) (s o : Seq) (as : List Aligner)
    (coll : List Seq) (h : (⟨front ++ [pad, index], cks⟩ : Pipe).transformSequence s = .ok (o, as, coll)) :
    (∃ out : List Int, o = .list (out.map Tok.int) ∧ out.length = n ∧ ∀ i ∈ out, 0 ≤ i ∧ i < d.length) ∧
      (∀ ls ys, alignAll as ls = .ok ys → ys.length = n) ∧ ∀ ys ls, realignAll as ys = .ok ls → ys.length = n := by
  obtain ⟨rs, r1, rfl, rfl, _⟩ := (C58_composition _ _ o as coll).mp h
  obtain ⟨rs1, rs2, rfl, q1, q2⟩ := Runs.split r1
  cases q2 with
  | cons h1 q3 =>
    cases q3 with
    | cons h2 q4 =>
      cases q4
      rename_i t1 a1 t2 a2 _
      obtain ⟨l, rfl, hl⟩ := isPad_ok hp h1
      obtain ⟨hini, cfg, rfl⟩ := isIndex_run hi
      obtain ⟨out, a, e1, e2, e3, e4, _, e5⟩ := C31_transform env.σ d unk hi.1 hini l
      rw [lst_transform rfl rfl e1] at h2
      injection h2 with h2
      injection h2 with h2 h3
      subst h2; subst h3
      rw [show rs1 ++ [(Seq.list l, a1), (Seq.list (out.map Tok.int), a)] =
        (rs1 ++ [(Seq.list l, a1)]) ++ [(Seq.list (out.map Tok.int), a)] by simp]
      refine ⟨⟨out, finalOf_append_cons _ _ _ _, e2.trans hl, e5⟩, ?_, ?_⟩
      · intro ls ys hy
        rw [List.map_append, alignAll_snoc] at hy
        obtain ⟨ms, _, hy⟩ := bind_eq_ok hy
        obtain ⟨zs, hz, hy⟩ := bind_eq_ok hy
        injection hy with hy
        rw [← hy, (C15_transform_length a ms zs hz).2, e4.output, hl]
      · intro ys ls hy
        rw [List.map_append, realignAll_snoc] at hy
        obtain ⟨ms, hy, _⟩ := bind_eq_ok hy
        rw [List.map_cons, realignAll_cons] at hy
        obtain ⟨zs, hz, hy⟩ := bind_eq_ok hy
        injection hz with hz
        subst hz
        rw [(C15_inverse_length a ys ms hy).1, e4.output, hl]

/-! ### the contents -/

theorem length_framed {α : Type} (b e p : α) (n : Nat) (toks : List α) : (framed b e p n toks).length = n := by
  unfold framed
  rw [List.length_append, List.length_take, List.length_replicate]
  simp
  omega

theorem unframe_aux (n L : Nat) (ys : List Int) (h : ys.length = n) :
    ∃ x y, ys.take (L + 2) ++ List.replicate (L + 2 - n) 0 = x :: unframed n L ys ++ [y] ∧
      (unframed n L ys).length = L := by
  have hl : (unframed n L ys).length = L := by
    unfold unframed
    rw [List.length_append, List.length_take, List.length_drop, List.length_replicate]
    omega
  refine ⟨ys.getD 0 0, ys.getD (L + 1) 0, ?_, hl⟩
  apply List.ext_getElem?
  intro k
  have e1 : (ys.take (L + 2) ++ List.replicate (L + 2 - n) 0)[k]? = if k < L + 2 then some (ys.getD k 0) else none := by
    by_cases hk : k < L + 2
    · rw [if_pos hk]
      by_cases hkn : k < n
      · rw [List.getElem?_append_left (by rw [List.length_take]; omega), List.getElem?_take_of_lt hk]
        rw [List.getD_eq_getElem?_getD, List.getElem?_eq_getElem (by omega)]
        rfl
      · rw [List.getElem?_append_right (by rw [List.length_take]; omega), List.getElem?_replicate, if_pos]
        · rw [List.getD_eq_getElem?_getD, List.getElem?_eq_none (by omega)]
          rfl
        · rw [List.length_take]
          omega
    · rw [if_neg hk, List.getElem?_eq_none]
      rw [List.length_append, List.length_take, List.length_replicate]
      omega
  rw [e1, List.cons_append]
  cases k with
  | zero => rfl
  | succ k =>
    rw [List.getElem?_cons_succ]
    by_cases hk : k < L
    · rw [if_pos (by omega), List.getElem?_append_left (by omega)]
      unfold unframed
      by_cases hkn : k + 1 < n
      · rw [List.getElem?_append_left (by rw [List.length_take, List.length_drop]; omega), List.getElem?_take_of_lt hk,
          List.getElem?_drop, Nat.add_comm 1 k]
        rw [List.getD_eq_getElem?_getD, List.getElem?_eq_getElem (by omega)]
        rfl
      · rw [List.getElem?_append_right (by rw [List.length_take, List.length_drop]; omega), List.getElem?_replicate, if_pos]
        · rw [List.getD_eq_getElem?_getD, List.getElem?_eq_none (by omega)]
          rfl
        · rw [List.length_take, List.length_drop]
          omega
    · rw [List.getElem?_append_right (by omega), hl]
      by_cases hk' : k = L
      · subst hk'
        rw [if_pos (by omega), Nat.sub_self]
        rfl
      · rw [if_neg (by omega), List.getElem?_eq_none (by simp; omega)]

/-- C108: if the steps in front return the tokens `toks`, then the whole pipe returns the index of the start token,
those of `toks` and that of the end token, cut or filled up to `n`; labels of `toks` get the label 0 around them in the
same way; and of `n` labels only those on tokens of `toks` are handed back to the steps in front. -/
theorem C108_framed (env : Env) (b e p unk : Str) (n : Nat) (d : List (Str × Int)) (front : List Op)
    (sos pad index : Op) (hs : IsSosEos env b e sos) (hp : IsPad env n p pad) (hi : IsIndex env d unk index)
    (cks cks' : List (Str × Int)) (s : Seq) (toks : List Tok) (as0 : List Aligner) (coll0 : List Seq)
    (hf : (⟨front, cks⟩ : Pipe).transformSequence s = .ok (.list toks, as0, coll0)) (hne : toks ≠ [])
    (hlen : toks.length + 2 < 2 ^ 32) :
    ∃ out as coll, (⟨front ++ [sos, pad, index], cks'⟩ : Pipe).transformSequence s =
        .ok (.list (out.map Tok.int), as, coll) ∧ out.length = n ∧
      (∀ q ∈ (framed (.str b) (.str e) (.str p) n toks).zip out, IndexOf d unk q.1 q.2) ∧
      (∀ ls ms, alignAll as0 ls = .ok ms → ms.length = toks.length → alignAll as ls = .ok (framed 0 0 0 n ms)) ∧
      ∀ ys, ys.length = n → realignAll as ys = realignAll as0 (unframed n toks.length ys) := by
  obtain ⟨rs, r1, r2, rfl, _⟩ := (C58_composition _ _ _ as0 coll0).mp hf
  obtain ⟨cfg1, rfl⟩ := isSosEos_run hs
  obtain ⟨cfg2, rfl⟩ := isPad_run hp
  obtain ⟨hini, cfg3, rfl⟩ := isIndex_run hi
  obtain ⟨a1, f1, g1, t1, i1⟩ := C28_add_sos_eos env.σ (.str b) (.str e) toks hne (by omega)
  have hl1 : (Tok.str b :: toks ++ [Tok.str e]).length = toks.length + 2 := by simp
  obtain ⟨a2, f2, g2, t2, i2⟩ := C30_pad env.σ n (.str p) (Tok.str b :: toks ++ [Tok.str e]) (by omega)
  rw [hl1] at f2 g2 t2 i2
  obtain ⟨out, a3, f3, hout, pt, g3, hidx, _⟩ :=
    C31_transform env.σ d unk hi.1 hini (framed (.str b) (.str e) (.str p) n toks)
  rw [length_framed] at hout pt g3
  have run3 : Runs [⟨Builtin.sosEos env, cfg1, lstOp (AddSosEos.transform env.σ (.str b) (.str e))⟩,
      ⟨Builtin.pad env, cfg2, lstOp (Pad.transform env.σ n (.str p))⟩,
      ⟨Builtin.token2index env, cfg3, lstOp (Token2Index.transform env.σ d unk)⟩] (.list toks)
      [(.list (Tok.str b :: toks ++ [Tok.str e]), a1), (.list (framed (.str b) (.str e) (.str p) n toks), a2),
        (.list (out.map Tok.int), a3)] :=
    .cons (lst_transform rfl rfl f1) (.cons (lst_transform rfl rfl f2) (.cons (lst_transform rfl rfl f3) (.nil _)))
  have run := Runs.append r1 (r2 ▸ run3)
  refine ⟨out, rs.map Prod.snd ++ [a1, a2, a3], _, (C58_composition _ _ _ _ _).mpr ⟨_, run, ?_, by simp, rfl⟩, hout,
    fun q hq => (hidx q hq).1, ?_, ?_⟩
  · rw [show ∀ x y z, rs ++ [x, y, z] = (rs ++ [x, y]) ++ [z] by simp]
    exact (finalOf_append_cons _ _ _ _).symm
  · intro ls ms hm hml
    rw [alignAll_snoc, hm, Except.bind_ok]
    have e2 := t2 (0 :: ms ++ [0]) (by simp [hml])
    have e3 : (0 :: ms ++ [0] : List Int).take n ++ List.replicate (n - (toks.length + 2)) 0 = framed 0 0 0 n ms := by
      unfold framed
      rw [hml]
    rw [e3] at e2
    unfold alignAll
    rw [t1 ms hml, Except.bind_ok]
    unfold alignAll
    rw [e2, Except.bind_ok]
    unfold alignAll
    rw [(pt _ (length_framed _ _ _ _ _)).1, Except.bind_ok]
    rfl
  · intro ys hy
    rw [realignAll_snoc]
    have : realignAll [a1, a2, a3] ys = .ok (unframed n toks.length ys) := by
      obtain ⟨x, y, hxy, hul⟩ := unframe_aux n toks.length ys hy
      rw [realignAll_cons, realignAll_cons, realignAll_cons]
      rw [show realignAll [] ys = .ok ys from rfl, Except.bind_ok, (pt ys hy).2, Except.bind_ok, i2 ys hy, Except.bind_ok,
        hxy, i1 _ x y hul]
    rw [this, Except.bind_ok]

/-- C108: the labels predicted for the start token, the end token and the filling have no influence on the labels of the
input. -/
theorem C108_ignored (env : Env) (b e p unk : Str) (n : Nat) (d : List (Str × Int)) (front : List Op)
    (sos pad index : Op) (hs : IsSosEos env b e sos) (hp : IsPad env n p pad) (hi : IsIndex env d unk index)
    (cks cks' : List (Str × Int)) (s o : Seq) (toks : List Tok) (as0 as : List Aligner) (coll0 coll : List Seq)
    (hf : (⟨front, cks⟩ : Pipe).transformSequence s = .ok (.list toks, as0, coll0)) (hne : toks ≠ [])
    (hlen : toks.length + 2 < 2 ^ 32)
    (h : (⟨front ++ [sos, pad, index], cks'⟩ : Pipe).transformSequence s = .ok (o, as, coll)) (ys zs : List Int)
    (hy : ys.length = n) (hz : zs.length = n) (hyz : ∀ k, 1 ≤ k → k ≤ toks.length → ys[k]? = zs[k]?) :
    realignAll as ys = realignAll as zs := by
  obtain ⟨out, as', coll', h', _, _, _, hr⟩ :=
    C108_framed env b e p unk n d front sos pad index hs hp hi cks cks' s toks as0 coll0 hf hne hlen
  rw [h] at h'
  injection h' with h'
  injection h' with _ h'
  injection h' with h' _
  subst h'
  rw [hr ys hy, hr zs hz]
  congr 1
  unfold unframed
  congr 1
  apply List.ext_getElem?
  intro k
  rw [List.getElem?_take, List.getElem?_take]
  split
  · rw [List.getElem?_drop, List.getElem?_drop]
    exact hyz _ (by omega) (by omega)
  · rfl

theorem unframed_framed (n : Nat) (ms : List Int) :
    unframed n ms.length (framed 0 0 0 n ms) = ms.take (n - 1) ++ List.replicate (ms.length - (n - 1)) 0 := by
  unfold unframed
  congr 1
  unfold framed
  cases n with
  | zero => simp
  | succ n =>
    rw [List.cons_append, List.take_succ_cons, List.cons_append, List.drop_succ_cons, List.drop_zero, Nat.add_sub_cancel]
    apply List.ext_getElem?
    intro k
    rw [List.getElem?_take, List.getElem?_take]
    by_cases h1 : k < ms.length
    · rw [if_pos h1]
      by_cases h2 : k < n
      · rw [if_pos h2, List.getElem?_append_left (by simp; omega), List.getElem?_take_of_lt h2,
          List.getElem?_append_left h1]
      · rw [if_neg h2, List.getElem?_append_right (by simp; omega), List.getElem?_eq_none (by simp; omega)]
    · rw [if_neg h1, List.getElem?_eq_none (by omega)]
      simp

/-- C108: labels go to the model and come back as if the three steps were not there, if `n` has room for the start token
and the tokens (the end token need not fit); if it has not, the labels of the tokens that do not fit are lost. -/
theorem C108_round_trip (env : Env) (b e p unk : Str) (n : Nat) (d : List (Str × Int)) (front : List Op)
    (sos pad index : Op) (hs : IsSosEos env b e sos) (hp : IsPad env n p pad) (hi : IsIndex env d unk index)
    (cks cks' : List (Str × Int)) (s o : Seq) (toks : List Tok) (as0 as : List Aligner) (coll0 coll : List Seq)
    (hf : (⟨front, cks⟩ : Pipe).transformSequence s = .ok (.list toks, as0, coll0)) (hne : toks ≠ [])
    (hlen : toks.length + 2 < 2 ^ 32)
    (h : (⟨front ++ [sos, pad, index], cks'⟩ : Pipe).transformSequence s = .ok (o, as, coll)) (ls ms : List Int)
    (hm : alignAll as0 ls = .ok ms) (hml : ms.length = toks.length) :
    (alignAll as ls >>= realignAll as) = realignAll as0 (ms.take (n - 1) ++ List.replicate (toks.length - (n - 1)) 0) ∧
      (toks.length + 1 ≤ n → (alignAll as ls >>= realignAll as) = (alignAll as0 ls >>= realignAll as0)) := by
  obtain ⟨out, as', coll', h', _, _, ht, hr⟩ :=
    C108_framed env b e p unk n d front sos pad index hs hp hi cks cks' s toks as0 coll0 hf hne hlen
  rw [h] at h'
  injection h' with h'
  injection h' with _ h'
  injection h' with h' _
  subst h'
  have main : (alignAll as ls >>= realignAll as) =
      realignAll as0 (ms.take (n - 1) ++ List.replicate (toks.length - (n - 1)) 0) := by
    rw [ht ls ms hm hml, Except.bind_ok, hr _ (length_framed _ _ _ _ _), ← hml, unframed_framed]
  refine ⟨main, fun hn => ?_⟩
  rw [main, hm, Except.bind_ok, List.take_of_length_le (by omega), show toks.length - (n - 1) = 0 by omega]
  simp

/-- C108: the model does not see the end token if `n` is smaller than the number of tokens plus two: what it gets then is
the beginning of the start token and the tokens, with neither end token nor filling; otherwise it sees all of them. -/
theorem C108_end_token (env : Env) (b e p unk : Str) (n : Nat) (d : List (Str × Int)) (front : List Op)
    (sos pad index : Op) (hs : IsSosEos env b e sos) (hp : IsPad env n p pad) (hi : IsIndex env d unk index)
    (cks cks' : List (Str × Int)) (s : Seq) (toks : List Tok) (as0 : List Aligner) (coll0 : List Seq)
    (hf : (⟨front, cks⟩ : Pipe).transformSequence s = .ok (.list toks, as0, coll0)) (hne : toks ≠ [])
    (hlen : toks.length + 2 < 2 ^ 32) :
    ∃ out as coll, (⟨front ++ [sos, pad, index], cks'⟩ : Pipe).transformSequence s =
        .ok (.list (out.map Tok.int), as, coll) ∧ out.length = n ∧
      (n < toks.length + 2 → ∀ q ∈ ((Tok.str b :: toks).take n).zip out, IndexOf d unk q.1 q.2) ∧
      (toks.length + 2 ≤ n →
        (∀ q ∈ (Tok.str b :: toks).zip out, IndexOf d unk q.1 q.2) ∧
        (∃ i, out[toks.length + 1]? = some i ∧ IndexOf d unk (.str e) i) ∧
        ∀ k, toks.length + 2 ≤ k → k < n → ∃ i, out[k]? = some i ∧ IndexOf d unk (.str p) i) := by
  obtain ⟨out, as, coll, h, hn, hq, _, _⟩ :=
    C108_framed env b e p unk n d front sos pad index hs hp hi cks cks' s toks as0 coll0 hf hne hlen
  refine ⟨out, as, coll, h, hn, ?_, ?_⟩
  · intro hlt
    have : framed (.str b) (.str e) (.str p) n toks = (Tok.str b :: toks).take n := by
      unfold framed
      rw [show n - (toks.length + 2) = 0 by omega, List.take_append_of_le_length (by simp; omega)]
      simp
    rw [← this]
    exact hq
  · intro hge
    have hfr : framed (.str b) (.str e) (.str p) n toks =
        (Tok.str b :: toks) ++ (.str e :: List.replicate (n - (toks.length + 2)) (.str p)) := by
      unfold framed
      rw [List.take_of_length_le (by simp; omega)]
      simp
    have at_ : ∀ (k : Nat) (t : Tok), (framed (.str b) (.str e) (.str p) n toks)[k]? = some t →
        ∃ i, out[k]? = some i ∧ IndexOf d unk t i := by
      intro k t hk
      have hkl : k < out.length := by
        have := (List.getElem?_eq_some_iff.mp hk).1
        rw [length_framed] at this
        omega
      refine ⟨out[k], List.getElem?_eq_getElem hkl, hq (t, out[k]) ?_⟩
      apply List.mem_of_getElem? (i := k)
      rw [List.getElem?_zip_eq_some]
      exact ⟨hk, List.getElem?_eq_getElem hkl⟩
    refine ⟨?_, at_ _ _ ?_, fun k h1 h2 => at_ _ _ ?_⟩
    · intro q hq'
      obtain ⟨k, hk⟩ := List.mem_iff_getElem?.mp hq'
      rw [List.getElem?_zip_eq_some] at hk
      obtain ⟨i, hi1, hi2⟩ := at_ k q.1 (by
        rw [hfr, List.getElem?_append_left (List.getElem?_eq_some_iff.mp hk.1).1]
        exact hk.1)
      rw [hk.2] at hi1
      injection hi1 with hi1
      rw [hi1]
      exact hi2
    · rw [hfr, List.getElem?_append_right (by simp)]
      simp
    · rw [hfr, List.getElem?_append_right (by simp; omega)]
      rw [show k - (Tok.str b :: toks).length = (k - (toks.length + 2)) + 1 by simp; omega, List.getElem?_cons_succ,
        List.getElem?_replicate, if_pos (by omega)]

/-! ### examples -/

/-- The mapping of the examples. -/
def exVocab : List (Str × Int) :=
  [("<unk>".toList, 0), ("<sos>".toList, 1), ("<eos>".toList, 2), ("<pad>".toList, 3), ("a".toList, 4)]

/-- The hypotheses hold for the operators written `AddSosEos()`, `Pad(5)`, `Token2Index(vocab)` behind `CharTokenizer`. -/
example : ∃ chars sos pad index as0 coll0, create exEnv "CharTokenizer" [] [] = .ok chars ∧
    IsSosEos exEnv "<sos>".toList "<eos>".toList sos ∧ IsPad exEnv 5 "<pad>".toList pad ∧
    IsIndex exEnv exVocab "<unk>".toList index ∧
    (⟨[chars], []⟩ : Pipe).transformSequence (.str "ab".toList) =
      .ok (.list [.str "a".toList, .str "b".toList], as0, coll0) ∧
    ((⟨[chars, sos, pad, index], []⟩ : Pipe).transformSequence (.str "ab".toList)).map Prod.fst =
      .ok (.list [.int 1, .int 4, .int 0, .int 2, .int 3]) :=
  ⟨_, _, _, _, _, _, rfl, ⟨[], [], rfl, rfl⟩, ⟨[.int 5], [], rfl, rfl⟩,
    ⟨by decide, [.dict (exVocab.map fun kv => (kv.1, .int kv.2))], [], rfl, rfl⟩, rfl, rfl⟩

/-- `Pad(3)`: the end token is cut off, and nothing says so. -/
example : ∃ chars sos pad index, create exEnv "CharTokenizer" [] [] = .ok chars ∧
    IsSosEos exEnv "<sos>".toList "<eos>".toList sos ∧ IsPad exEnv 3 "<pad>".toList pad ∧
    IsIndex exEnv exVocab "<unk>".toList index ∧
    ((⟨[chars, sos, pad, index], []⟩ : Pipe).transformSequence (.str "ab".toList)).map Prod.fst =
      .ok (.list [.int 1, .int 4, .int 0]) :=
  ⟨_, _, _, _, rfl, ⟨[], [], rfl, rfl⟩, ⟨[.int 3], [], rfl, rfl⟩,
    ⟨by decide, [.dict (exVocab.map fun kv => (kv.1, .int kv.2))], [], rfl, rfl⟩, rfl⟩

example : framed 0 0 0 6 [7, 8, 9] = [0, 7, 8, 9, 0, 0] ∧ framed 0 0 0 3 [7, 8, 9] = [0, 7, 8] ∧
    unframed 6 3 [1, 7, 8, 9, 2, 3] = [7, 8, 9] ∧ unframed 3 3 [1, 7, 8] = [7, 8, 0] := by decide

end Uttut
