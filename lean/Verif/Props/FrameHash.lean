import Verif.Props.Frame
import Verif.Props.Grow

/-! C108: pipes that end in `Pad` and `Token2IndexwithHash`. -/

namespace Uttut

open Spec

/-- `op` is `Token2IndexwithHash(d)`. -/
def IsIndexHash (env : Env) (d : List (Str × Int)) (op : Op) : Prop :=
  (d.map Prod.fst).Nodup ∧ ∃ args kwargs,
    bound token2indexHashParams args kwargs = some [.dict (d.map fun kv => (kv.1, .int kv.2))] ∧
      create env "Token2IndexwithHash" args kwargs = .ok op

theorem words_or_number (l : List Tok) : (∃ ws : List Str, l = ws.map Tok.str) ∨ ∃ i, Tok.int i ∈ l := by
  induction l with
  | nil => exact Or.inl ⟨[], rfl⟩
  | cons x l ih =>
    rcases ih with ⟨ws, rfl⟩ | ⟨i, hi⟩
    · cases x with
      | int i => exact Or.inr ⟨i, List.mem_cons_self ..⟩
      | str w => exact Or.inl ⟨w :: ws, rfl⟩
    · exact Or.inr ⟨i, List.mem_cons_of_mem _ hi⟩

/-- C108: the same for pipes that end in `Pad(n)` and `Token2IndexwithHash`: exactly `n` indices, all of them indices of the
mapping, listed tokens getting their own, and exactly `n` labels in both directions. -/
theorem C108_size_hash (env : Env) (n : Nat) (p : Str) (d : List (Str × Int)) (front : List Op) (pad index : Op)
    (hp : IsPad env n p pad) (hi : IsIndexHash env d index) (cks : List (Str × Int)) (s o : Seq) (as : List Aligner)
    (coll : List Seq) (h : (⟨front ++ [pad, index], cks⟩ : Pipe).transformSequence s = .ok (o, as, coll)) :
    (∃ (ws : List Str) (out : List Int), coll[front.length + 1]? = some (.list (ws.map Tok.str)) ∧
      o = .list (out.map Tok.int) ∧ out.length = n ∧ (∀ i ∈ out, 0 ≤ i ∧ i < d.length) ∧
      ∀ q ∈ ws.zip out, ∀ i, (q.1, i) ∈ d → q.2 = i) ∧
      (∀ ls ys, alignAll as ls = .ok ys → ys.length = n) ∧ ∀ ys ls, realignAll as ys = .ok ls → ys.length = n := by
  obtain ⟨rs, r1, rfl, rfl, rfl⟩ := (C58_composition _ _ o as coll).mp h
  obtain ⟨rs1, rs2, rfl, q1, q2⟩ := Runs.split r1
  cases q2 with
  | cons h1 q3 =>
    cases q3 with
    | cons h2 q4 =>
      cases q4
      rename_i t1 a1 t2 a2
      obtain ⟨l, rfl, hl⟩ := isPad_ok hp h1
      obtain ⟨hk, args, kwargs, hb, hm⟩ := hi
      have hc : Continuous d := by
        by_contra hc
        rw [((C74_token2index_hash env args kwargs).1 d hk hb).2 hc] at hm
        cases hm
      obtain ⟨_, hr⟩ := hash_made hb hm
      have h3 := transform_run h2
      rw [hr] at h3
      obtain ⟨l', out', e, rfl, h4⟩ := lst_inv h3
      cases e
      rcases words_or_number l with ⟨ws, rfl⟩ | ⟨i, hi⟩
      · rw [List.length_map] at hl
        obtain ⟨idx, a, k1, k2, _, k3, _, k4⟩ := C32_transform env.σ d hk ((C31_continuity d).mpr hc) ws
        obtain ⟨e1, e2⟩ := det (f := Token2IndexwithHash.transform env.σ d) h4 k1
        have e1 : out' = ws.map fun s => Tok.int (idx s) := e1
        subst e1; subst e2
        rw [show rs1 ++ [(Seq.list (ws.map Tok.str), a1), (Seq.list (ws.map fun s => Tok.int (idx s)), a2)] =
          (rs1 ++ [(Seq.list (ws.map Tok.str), a1)]) ++ [(Seq.list (ws.map fun s => Tok.int (idx s)), a2)] by simp]
        refine ⟨⟨ws, ws.map idx, ?_, ?_, by simpa using hl, ?_, ?_⟩, ?_, ?_⟩
        · have := Runs.length q1
          simp [← this]
        · rw [finalOf_append_cons, List.map_map]
          rfl
        · intro i hi
          obtain ⟨w, _, rfl⟩ := List.mem_map.mp hi
          exact k3 w
        · intro q hq i hi
          have : q.2 = idx q.1 := by
            obtain ⟨k, hk⟩ := List.mem_iff_getElem?.mp hq
            obtain ⟨g1, g2⟩ := List.getElem?_zip_eq_some.mp hk
            rw [List.getElem?_map, g1] at g2
            exact (Option.some.inj g2).symm
          rw [this]
          exact k2 _ _ hi
        · intro ls ys hy
          rw [List.map_append, alignAll_snoc] at hy
          obtain ⟨ms, _, hy⟩ := bind_eq_ok hy
          obtain ⟨zs, hz, hy⟩ := bind_eq_ok hy
          injection hy with hy
          rw [← hy, (C15_transform_length a2 ms zs hz).2, k4.output, hl]
        · intro ys ls hy
          rw [List.map_append, realignAll_snoc] at hy
          obtain ⟨ms, hy, _⟩ := bind_eq_ok hy
          rw [List.map_cons, realignAll_cons] at hy
          obtain ⟨zs, hz, hy⟩ := bind_eq_ok hy
          injection hz with hz
          subst hz
          rw [(C15_inverse_length a2 ys ms hy).1, k4.output, hl]
      · rw [C32_non_string _ _ _ i hi] at h4
        cases h4

/-- The hypotheses hold for the operators written `Pad(3)`, `Token2IndexwithHash(vocab)` behind `CharTokenizer`. -/
example : ∃ chars pad index, create exEnv "CharTokenizer" [] [] = .ok chars ∧ IsPad exEnv 3 "<pad>".toList pad ∧
    IsIndexHash exEnv exVocab index ∧
    ((⟨[chars] ++ [pad, index], []⟩ : Pipe).transformSequence (.str "a".toList)).map Prod.fst =
      .ok (.list [.int 4, .int 3, .int 3]) :=
  ⟨_, _, _, rfl, ⟨[.int 3], [], rfl, rfl⟩, ⟨by decide,
    [.dict (exVocab.map fun kv => (kv.1, .int kv.2))], [], rfl, rfl⟩, rfl⟩

end Uttut
