import Verif.Props.Frame

/-! C108: what the steps `AddSosEos`, `Pad` and `Token2Index` make of no tokens. -/

namespace Uttut

open Spec

/-- C108: if the steps in front return no tokens and start and end token differ, the whole pipe returns the index of the
start token and that of the end token, in one of the two orders, cut or filled up to `n`; the labels are `n` zeros, and
whatever is predicted, the steps in front get no labels back. -/
theorem C108_empty (env : Env) (b e p unk : Str) (n : Nat) (d : List (Str × Int)) (front : List Op)
    (sos pad index : Op) (hs : IsSosEos env b e sos) (hp : IsPad env n p pad) (hi : IsIndex env d unk index)
    (cks cks' : List (Str × Int)) (s : Seq) (as0 : List Aligner) (coll0 : List Seq)
    (hf : (⟨front, cks⟩ : Pipe).transformSequence s = .ok (.list [], as0, coll0)) (hbe : b ≠ e) :
    ∃ out as coll, (⟨front ++ [sos, pad, index], cks'⟩ : Pipe).transformSequence s =
        .ok (.list (out.map Tok.int), as, coll) ∧ out.length = n ∧
      ((∀ q ∈ (framed (Tok.str b) (.str e) (.str p) n []).zip out, IndexOf d unk q.1 q.2) ∨
        ∀ q ∈ (framed (Tok.str e) (.str b) (.str p) n []).zip out, IndexOf d unk q.1 q.2) ∧
      (∀ ls, alignAll as0 ls = .ok [] → alignAll as ls = .ok (List.replicate n 0)) ∧
      ∀ ys, ys.length = n → realignAll as ys = realignAll as0 [] := by
  obtain ⟨rs, r1, r2, rfl, _⟩ := (C58_composition _ _ _ as0 coll0).mp hf
  obtain ⟨cfg1, rfl⟩ := isSosEos_run hs
  obtain ⟨cfg2, rfl⟩ := isPad_run hp
  obtain ⟨hini, cfg3, rfl⟩ := isIndex_run hi
  obtain ⟨out1, a1, f1, ho, g1, t1, i1⟩ := C29_empty_list env.σ (.str b) (.str e) (by simpa using hbe)
  have hl1 : out1.length = 2 := by rcases ho with rfl | rfl <;> rfl
  obtain ⟨a2, f2, g2, t2, i2⟩ := C30_pad env.σ n (.str p) out1 (by omega)
  rw [hl1] at f2 g2 t2 i2
  have hl2 : (out1.take n ++ List.replicate (n - 2) (Tok.str p)).length = n := by
    rw [List.length_append, List.length_take, List.length_replicate]
    omega
  obtain ⟨out, a3, f3, hout, pt, g3, hidx, _⟩ :=
    C31_transform env.σ d unk hi.1 hini (out1.take n ++ List.replicate (n - 2) (Tok.str p))
  rw [hl2] at hout pt g3
  have run3 : Runs [⟨Builtin.sosEos env, cfg1, lstOp (AddSosEos.transform env.σ (.str b) (.str e))⟩,
      ⟨Builtin.pad env, cfg2, lstOp (Pad.transform env.σ n (.str p))⟩,
      ⟨Builtin.token2index env, cfg3, lstOp (Token2Index.transform env.σ d unk)⟩] (.list [])
      [(.list out1, a1), (.list (out1.take n ++ List.replicate (n - 2) (Tok.str p)), a2), (.list (out.map Tok.int), a3)] :=
    .cons (lst_transform rfl rfl f1) (.cons (lst_transform rfl rfl f2) (.cons (lst_transform rfl rfl f3) (.nil _)))
  have run := Runs.append r1 (r2 ▸ run3)
  refine ⟨out, rs.map Prod.snd ++ [a1, a2, a3], _, (C58_composition _ _ _ _ _).mpr ⟨_, run, ?_, by simp, rfl⟩, hout,
    ?_, ?_, ?_⟩
  · rw [show ∀ x y z, rs ++ [x, y, z] = (rs ++ [x, y]) ++ [z] by simp]
    exact (finalOf_append_cons _ _ _ _).symm
  · rcases ho with rfl | rfl
    · exact .inl fun q hq => (hidx q hq).1
    · exact .inr fun q hq => (hidx q hq).1
  · intro ls hm
    rw [alignAll_snoc, hm, Except.bind_ok]
    have e2 := t2 [0, 0] rfl
    have e3 : ([0, 0] : List Int).take n ++ List.replicate (n - 2) 0 = List.replicate n 0 := by
      match n with
      | 0 => rfl
      | 1 => rfl
      | n + 2 => simp [List.replicate_succ]
    rw [e3] at e2
    unfold alignAll
    rw [t1, Except.bind_ok]
    unfold alignAll
    rw [e2, Except.bind_ok]
    unfold alignAll
    rw [(pt _ List.length_replicate).1, Except.bind_ok]
    rfl
  · intro ys hy
    rw [realignAll_snoc]
    have : realignAll [a1, a2, a3] ys = .ok [] := by
      have hl : (ys.take 2 ++ List.replicate (2 - n) (0 : Int)).length = 2 := by
        rw [List.length_append, List.length_take, List.length_replicate]
        omega
      obtain ⟨x, y, hxy⟩ := List.length_eq_two.mp hl
      rw [realignAll_cons, realignAll_cons, realignAll_cons]
      rw [show realignAll [] ys = .ok ys from rfl, Except.bind_ok, (pt ys hy).2, Except.bind_ok, i2 ys hy, Except.bind_ok,
        hxy, i1 x y]
    rw [this, Except.bind_ok]

/-- The environment of the examples with sets gone through in the given order. -/
def exEnvIn (σ : SetOrder) : Env := { exEnv with σ := σ }

/-- C108: the default tokens, `Pad(3)` and the empty text: both orders occur, so what a model gets depends on the order in
which Python goes through a set. -/
theorem C108_empty_both : ∀ q ∈ [(SetOrder.id, [Tok.int 1, .int 2, .int 3]), (SetOrder.rev, [Tok.int 2, .int 1, .int 3])],
    ∃ chars sos pad index, create (exEnvIn q.1) "CharTokenizer" [] [] = .ok chars ∧
      IsSosEos (exEnvIn q.1) "<sos>".toList "<eos>".toList sos ∧ IsPad (exEnvIn q.1) 3 "<pad>".toList pad ∧
      IsIndex (exEnvIn q.1) exVocab "<unk>".toList index ∧
      ((⟨[chars], []⟩ : Pipe).transformSequence (.str [])).map Prod.fst = .ok (.list []) ∧
      ((⟨[chars, sos, pad, index], []⟩ : Pipe).transformSequence (.str [])).map Prod.fst = .ok (.list q.2) := by
  intro q hq
  rcases List.mem_cons.mp hq with rfl | hq
  · exact ⟨_, _, _, _, rfl, ⟨[], [], rfl, rfl⟩, ⟨[.int 3], [], rfl, rfl⟩,
      ⟨by decide, [.dict (exVocab.map fun kv => (kv.1, .int kv.2))], [], rfl, rfl⟩, rfl, rfl⟩
  · cases List.mem_singleton.mp hq
    exact ⟨_, _, _, _, rfl, ⟨[], [], rfl, rfl⟩, ⟨[.int 3], [], rfl, rfl⟩,
      ⟨by decide, [.dict (exVocab.map fun kv => (kv.1, .int kv.2))], [], rfl, rfl⟩, rfl, rfl⟩

end Uttut
