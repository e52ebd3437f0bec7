import Verif.Props.SettleSubwords
import Verif.Props.Recover

/-! C119: data in pipes that settle. -/

namespace Uttut

open Spec

theorem pack_ok {u : Str} {is ls : List Int} {d : Datum} (h : packToDatum u is ls = .ok d) (hu : u.length < 2 ^ 31) :
    ∃ js, unpackDatum d = .ok (u, js, ls) ∧ js.Pairwise (· < ·) ∧ ∀ l, l ∈ js ↔ l ∈ is := by
  obtain ⟨e1, e2, e3, e4⟩ := C46_pack_errors u is ls
  have hlen : u.length = ls.length := by
    by_contra hc
    rw [e1 hc] at h
    cases h
  have hi : ∀ l ∈ is, IsInt32 l := by
    by_contra hc
    push Not at hc
    rw [e2 hlen hc] at h
    cases h
  have hl : ∀ l ∈ ls, IsInt32 l := by
    by_contra hc
    push Not at hc
    obtain ⟨l, h1, h2⟩ := hc
    rw [e4 hlen ⟨l, h1, fun h0 => h2 (by rw [h0]; unfold IsInt32; omega), h2⟩] at h
    cases h
  have hne : u ≠ [] := by
    rintro rfl
    cases List.length_eq_zero_iff.mp hlen.symm
    rw [e3 hi] at h
    cases h
  obtain ⟨d', js, h1, _, _, _, h2, h3, h4⟩ := C46_pack u is ls hne hlen hu hi hl
  cases h.symm.trans h1
  exact ⟨js, h2, h3, h4⟩

theorem pack_intents {u : Str} {is js ls : List Int} (h : ∀ l, l ∈ js ↔ l ∈ is) : packToDatum u js ls = packToDatum u is ls := by
  have : pySorted (fun i : Int => i) (pyDedup js) = pySorted (fun i => i) (pyDedup is) := by
    have hp : (pyDedup js).Perm (pyDedup is) := (List.perm_ext_iff_of_nodup (nodup_pyDedup _) (nodup_pyDedup _)).mpr fun l => by
      rw [mem_pyDedup, mem_pyDedup, h]
    refine List.Perm.eq_of_pairwise (le := (· ≤ ·)) (fun a b _ _ h1 h2 => Int.le_antisymm h1 h2) (pySorted_pairwise _ _)
      (pySorted_pairwise _ _) (((pySorted_perm _ _).trans hp).trans (pySorted_perm _ _).symm)
  unfold packToDatum
  rw [this]

theorem pipe_transform_iff {p : Pipe} {d : Datum} {u : Str} {is ls : List Int} (h : unpackDatum d = .ok (u, is, ls))
    (t : Transformed) : p.transform d = .ok t ↔ ∃ as coll ys, p.transformSequence (.str u) = .ok (t.output, as, coll) ∧
      alignAll as ls = .ok ys ∧ t = ⟨t.output, is, ys, as, coll⟩ := by
  unfold Pipe.transform
  rw [h]
  simp only [Except.bind_ok]
  constructor
  · intro ht
    obtain ⟨⟨o, as, coll⟩, q1, q2⟩ := bind_eq_ok ht
    obtain ⟨ys, y1, y2⟩ := bind_eq_ok q2
    cases y2
    exact ⟨as, coll, ys, q1, y1, rfl⟩
  · rintro ⟨as, coll, ys, q1, q2, q3⟩
    rw [q1]
    simp only [Except.bind_ok]
    rw [q2]
    exact congrArg Except.ok q3.symm

/-- C119: through a pipe that settles, a datum whose labels have gone through the pipe and back is for the pipe the same as
the original: the same output, the same labels of the tokens, the same intents apart from order and repetition. -/
theorem C119_datum (p : Pipe) (hp : ∀ s o as coll, p.transformSequence s = .ok (o, as, coll) → SettlesAll as) (d d' : Datum)
    (t : Transformed) (ls : List Int) (ht : p.transform d = .ok t) (hr : realignAll t.aligners t.entityLabels = .ok ls)
    (hd : packToDatum d.utterance t.intentLabels ls = .ok d') (hu : d.utterance.length < 2 ^ 31) :
    ∃ t', p.transform d' = .ok t' ∧ t'.output = t.output ∧ t'.entityLabels = t.entityLabels ∧ t'.aligners = t.aligners ∧
      t'.collection = t.collection ∧ ∀ i, i ∈ t'.intentLabels ↔ i ∈ t.intentLabels := by
  obtain ⟨js, h1, _, h2⟩ := pack_ok hd hu
  cases hx : unpackDatum d with
  | error e =>
    unfold Pipe.transform at ht
    rw [hx] at ht
    cases ht
  | ok x =>
    obtain ⟨u, is, l0⟩ := x
    have : u = d.utterance := by
      unfold unpackDatum at hx
      obtain ⟨_, _, hx⟩ := bind_eq_ok hx
      cases hx
      rfl
    subst this
    obtain ⟨as, coll, ys, q1, q2, q3⟩ := (pipe_transform_iff hx t).mp ht
    rw [q3] at hr h2
    refine ⟨⟨t.output, js, ys, as, coll⟩, (pipe_transform_iff h1 _).mpr ⟨as, coll, ys, q1,
      (hp _ _ _ _ q1).fromInput _ _ _ q2 hr, rfl⟩, ?_⟩
    rw [q3]
    exact ⟨rfl, rfl, rfl, rfl, h2⟩

/-- C119: a datum packed from labels predicted for the output of a pipe that settles comes back when it is sent through the
pipe and packed from the labels carried back. -/
theorem C119_predicted (p : Pipe) (hp : ∀ s o as coll, p.transformSequence s = .ok (o, as, coll) → SettlesAll as) (u : Str)
    (o : Seq) (as : List Aligner) (coll : List Seq) (ys ls is : List Int) (d : Datum) (t : Transformed)
    (h : p.transformSequence (.str u) = .ok (o, as, coll)) (hr : realignAll as ys = .ok ls)
    (hd : packToDatum u is ls = .ok d) (hu : u.length < 2 ^ 31) (ht : p.transform d = .ok t) :
    t.output = o ∧ realignAll t.aligners t.entityLabels = .ok ls ∧ packToDatum u t.intentLabels ls = .ok d := by
  obtain ⟨js, h1, _, h2⟩ := pack_ok hd hu
  obtain ⟨as', coll', zs, q1, q2, q3⟩ := (pipe_transform_iff h1 t).mp ht
  rw [h] at q1
  injection q1 with q1
  injection q1 with e1 q1
  injection q1 with e2 e3
  subst e2
  rw [q3]
  exact ⟨e1.symm, (hp _ _ _ _ h).fromOutput _ _ _ hr q2, (pack_intents h2).trans hd⟩

/-- C119: the same for pipes of built-in operators, for any labels predicted and with nothing raised on the way. -/
theorem C119_predicted_builtin (env : Env) (he : env.Sane) (p : Pipe) (hb : ∀ op ∈ p.steps, IsBuiltin env op)
    (hp : ∀ s o as coll, p.transformSequence s = .ok (o, as, coll) → SettlesAll as) (u : Str) (o : Seq) (as : List Aligner)
    (coll : List Seq) (h : p.transformSequence (.str u) = .ok (o, as, coll))
    (hs : ∀ (i : Nat) op t, p.steps[i]? = some op → coll[i]? = some t → Safe env op t) (hne : u ≠ []) (hu : u.length < 2 ^ 31)
    (is ys : List Int) (hi : ∀ l ∈ is, IsInt32 l) (hl : ys.length = o.length) (hy : ∀ y ∈ ys, 0 ≤ y ∧ y < 2 ^ 31) :
    ∃ ls d t, realignAll as ys = .ok ls ∧ packToDatum u is ls = .ok d ∧ p.transform d = .ok t ∧ t.output = o ∧
      realignAll t.aligners t.entityLabels = .ok ls ∧ packToDatum u t.intentLabels ls = .ok d := by
  have hf := C14_C59_pipe env he p hb _ o as coll h hs
  obtain ⟨ls, h1, h2, h3⟩ := hf.backward ys hl fun l hl => by
    have := hy l hl
    unfold IsUInt
    omega
  obtain ⟨d, js, k1, _, _, _, k2, _, _⟩ := C46_pack u is ls hne h2.symm hu hi fun l hl => by
    unfold IsInt32
    rcases h3 l hl with h | h
    · omega
    · have := hy l h
      omega
  obtain ⟨zs, z1, _, _⟩ := hf.forward ls h2
  have ht : p.transform d = .ok ⟨o, js, zs, as, coll⟩ := (pipe_transform_iff k2 _).mpr ⟨as, coll, zs, h, z1, rfl⟩
  exact ⟨ls, d, _, h1, k1, ht, C119_predicted p hp u o as coll ys ls is d _ h h1 k1 hu ht⟩

/-- C119: pipes as models use them settle: any number of steps that clean or cut the text, then any number of steps that cut
words into pieces, add tokens, fix the length or replace tokens by numbers. -/
theorem C119_model (env : Env) (front back : List Op) (cks : List (Str × Int))
    (hf : ∀ op ∈ front, ∃ name ∈ ["Lowercase", "StripAccentToken", "MergeWhiteSpaceCharacters", "StripWhiteSpaceCharacters",
      "CharTokenizer", "WhiteSpaceTokenizer", "EngTokenizer", "ZhCharTokenizer", "CustomWordTokenizer"], Made env name op)
    (hb : ∀ op ∈ back, ∃ name ∈ ["SpanSubwords", "AddSosEos", "AddEndToken", "Pad", "Token2Index", "Token2IndexwithHash",
      "PureNum2Token"], Made env name op) (s o : Seq) (as : List Aligner) (coll : List Seq)
    (h : (⟨front ++ back, cks⟩ : Pipe).transformSequence s = .ok (o, as, coll)) : SettlesAll as := by
  refine C119_spread_pipe front back [] cks (fun op ho => ?_) (fun op ho => ?_) (fun _ h => by cases h) s o as coll
    (by rw [List.append_nil]; exact h)
  · obtain ⟨name, hn, hm⟩ := hf op ho
    refine C119_returns env name op hm ?_
    simp only [List.mem_cons, List.not_mem_nil, or_false] at hn ⊢
    tauto
  · obtain ⟨name, hn, hm⟩ := hb op ho
    rcases List.mem_cons.mp hn with rfl | hn
    · exact C119_spreads env op (Or.inl hm)
    · refine C119_spreads env op (Or.inr (C119_moves env name op hm ?_))
      simp only [List.mem_cons, List.not_mem_nil, or_false] at hn ⊢
      tauto

/-- Words cut to one: the second word of the datum loses its entity, and the entity of the first grows; the datum that comes
back is not the first one, but from then on nothing changes. It is also the datum packed from the label 5 predicted for the
first word (`C119_predicted`). -/
example : ∃ ops : List Op, (∀ s o as coll, (⟨ops, []⟩ : Pipe).transformSequence s = .ok (o, as, coll) → SettlesAll as) ∧
    ∃ d d' t t', packToDatum "ab c".toList [3, 1] [5, 0, 0, 7] = .ok d ∧ (⟨ops, []⟩ : Pipe).transform d = .ok t ∧
      t.entityLabels = [5] ∧ realignAll t.aligners t.entityLabels = .ok [5, 5, 0, 0] ∧
      packToDatum d.utterance t.intentLabels [5, 5, 0, 0] = .ok d' ∧ d'.eq d = false ∧
      (⟨ops, []⟩ : Pipe).transform d' = .ok t' ∧ t'.entityLabels = [5] := by
  obtain ⟨o1, h1⟩ : ∃ op, create exEnv "WhiteSpaceTokenizer" [] [] = .ok op := ⟨_, rfl⟩
  obtain ⟨o2, h2⟩ : ∃ op, create exEnv "Pad" [.int 1] [] = .ok op := ⟨_, rfl⟩
  refine ⟨[o1] ++ [o2] ++ [], fun s o as coll h => C119_spread_pipe [o1] [o2] [] [] ?_ ?_ ?_ s o as coll h, ?_⟩
  · intro op ho
    rw [List.mem_singleton] at ho
    subst ho
    exact C119_returns exEnv "WhiteSpaceTokenizer" _ ⟨_, _, h1⟩ (by decide)
  · intro op ho
    rw [List.mem_singleton] at ho
    subst ho
    exact C119_spreads exEnv _ (Or.inr (C119_moves exEnv "Pad" _ ⟨_, _, h2⟩ (by decide)))
  · exact fun _ h => by cases h
  · cases h1; cases h2
    exact ⟨_, _, _, _, rfl, rfl, rfl, rfl, rfl, rfl, rfl, rfl⟩

/-- Such a pipe of built-in operators, and one run of it. -/
example : ∃ ops : List Op, (∀ s o as coll, (⟨ops, []⟩ : Pipe).transformSequence s = .ok (o, as, coll) → SettlesAll as) ∧
    (∀ op ∈ ops, IsBuiltin exEnv op ∧ ∀ t, Safe exEnv op t) ∧
    ((⟨ops, []⟩ : Pipe).transformSequence (.str "ab c".toList)).map Prod.fst = .ok (.list [.str "ab".toList]) := by
  obtain ⟨o1, h1⟩ : ∃ op, create exEnv "WhiteSpaceTokenizer" [] [] = .ok op := ⟨_, rfl⟩
  obtain ⟨o2, h2⟩ : ∃ op, create exEnv "Pad" [.int 1] [] = .ok op := ⟨_, rfl⟩
  refine ⟨[o1] ++ [o2], fun s o as coll h => C119_model exEnv [o1] [o2] [] (fun op ho => ?_) (fun op ho => ?_) s o as coll h,
    ?_, ?_⟩
  · rw [List.mem_singleton] at ho
    subst ho
    exact ⟨"WhiteSpaceTokenizer", by decide, _, _, h1⟩
  · rw [List.mem_singleton] at ho
    subst ho
    exact ⟨"Pad", by decide, _, _, h2⟩
  · intro op ho
    have : op = o1 ∨ op = o2 := by simpa using ho
    rcases this with rfl | rfl
    · refine ⟨create_builtin h1, fun t => C14_safe _ _ _ (Or.inl ?_)⟩
      cases h1
      decide
    · refine ⟨create_builtin h2, fun t => C14_safe _ _ _ (Or.inl ?_)⟩
      cases h2
      decide
  · cases h1; cases h2
    rfl

end Uttut
