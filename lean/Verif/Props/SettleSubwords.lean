import Verif.Props.Settle
import Verif.Lemmas.Regained

/-! C119: subwords, then steps that move labels. -/

namespace Uttut

open Spec

/-- The token that the `k`-th subword belongs to, given how many subwords each token has. -/
def ownerOf : List Nat → Nat → Nat
  | [], _ => 0
  | n :: ns, k => if k < n then 0 else ownerOf ns (k - n) + 1

theorem ownerOf_lt (ns : List Nat) (k : Nat) (h : k < ns.sum) : ownerOf ns k < ns.length := by
  induction ns generalizing k with
  | nil => simp at h
  | cons n ns ih =>
    rw [List.sum_cons] at h
    rw [ownerOf, List.length_cons]
    split
    · omega
    · have := ih (k - n) (by omega)
      omega

theorem getD_append_left' (a b : List Int) (k : Nat) (h : k < a.length) : (a ++ b).getD k 0 = a.getD k 0 := by
  rw [List.getD_eq_getElem?_getD, List.getElem?_append_left h, List.getD_eq_getElem?_getD]

theorem getD_append_right' (a b : List Int) (k : Nat) (h : a.length ≤ k) : (a ++ b).getD k 0 = b.getD (k - a.length) 0 := by
  rw [List.getD_eq_getElem?_getD, List.getElem?_append_right h, List.getD_eq_getElem?_getD]

theorem shared_getD {ι : Type} (len : ι → Nat) (l : List ι) (ls : List Int) (hl : ls.length = l.length) (k : Nat)
    (hk : k < (l.map len).sum) :
    ((l.zip ls).flatMap fun p => List.replicate (len p.1) p.2).getD k 0 = ls.getD (ownerOf (l.map len) k) 0 := by
  induction l generalizing ls k with
  | nil => simp at hk
  | cons x l ih => cases ls with
    | nil => cases hl
    | cons y ls =>
      rw [List.map_cons, List.sum_cons] at hk
      rw [List.zip_cons_cons, List.flatMap_cons, List.map_cons, ownerOf]
      dsimp only
      split
      · rename_i h
        rw [getD_append_left' _ _ _ (by simpa using h)]
        simp [h]
      · rename_i h
        rw [getD_append_right' _ _ _ (by simpa using h), List.length_replicate, ih ls (by simpa using hl) _ (by omega)]
        rfl

theorem segments_owned (ns : List Nat) (zs : List Int) (hz : zs.length = ns.sum) (i : Nat) (v : Int) :
    v ∈ (segments ns zs).getD i [] ↔ ∃ k < ns.sum, ownerOf ns k = i ∧ i < ns.length ∧ zs.getD k 0 = v := by
  induction ns generalizing zs i with
  | nil => simp [segments]
  | cons n ns ih =>
    rw [List.sum_cons] at hz
    rw [segments]
    have hd : ∀ k, zs.getD (n + k) 0 = (zs.drop n).getD k 0 := fun k => by
      rw [List.getD_eq_getElem?_getD, List.getD_eq_getElem?_getD, List.getElem?_drop]
    cases i with
    | zero =>
      rw [List.getD_cons_zero]
      constructor
      · intro h
        obtain ⟨k, hk⟩ := List.getElem?_of_mem h
        have hlt : k < n := by
          have := (List.getElem?_eq_some_iff.mp hk).1
          rw [List.length_take] at this
          omega
        rw [List.getElem?_take, if_pos hlt] at hk
        refine ⟨k, by rw [List.sum_cons]; omega, by rw [ownerOf, if_pos hlt], by simp, ?_⟩
        rw [List.getD_eq_getElem?_getD, hk]
        rfl
      · rintro ⟨k, hk, ho, _, rfl⟩
        rw [ownerOf] at ho
        split at ho
        · rename_i hlt
          refine List.mem_of_getElem? (i := k) ?_
          rw [List.getElem?_take, if_pos hlt, List.getD_eq_getElem?_getD, List.getElem?_eq_getElem (by omega)]
          rfl
        · omega
    | succ i =>
      rw [List.getD_cons_succ, ih (zs.drop n) (by rw [List.length_drop]; omega) i]
      constructor
      · rintro ⟨k, hk, ho, hi, e⟩
        refine ⟨n + k, by rw [List.sum_cons]; omega, ?_, by simpa using hi, by rw [hd]; exact e⟩
        rw [ownerOf, if_neg (by omega), Nat.add_sub_cancel_left, ho]
      · rintro ⟨k, hk, ho, hi, e⟩
        rw [ownerOf] at ho
        split at ho
        · omega
        · rw [List.sum_cons] at hk
          refine ⟨k - n, by omega, by omega, by simpa using hi, ?_⟩
          rw [← hd, show n + (k - n) = k by omega]
          exact e

theorem ext_getD {n : Nat} {a b : List Int} (ha : a.length = n) (hb : b.length = n)
    (h : ∀ i < n, a.getD i 0 = b.getD i 0) : a = b := by
  refine List.ext_getElem (by omega) fun i h1 h2 => ?_
  have e := h i (by omega)
  rw [List.getD_eq_getElem?_getD, List.getD_eq_getElem?_getD, List.getElem?_eq_getElem h1, List.getElem?_eq_getElem h2] at e
  exact e

theorem carries_spread {f b : List Int → Res (List Int)} {n m : Nat} {src dst : Nat → Option Nat} {c : Nat → Int}
    (h : Carries f b n m src dst c fun _ => 0) : Spreads f b n m src c := by
  refine ⟨h.range, h.fwd, fun ys hy => ⟨_, h.bwd ys hy, moved_length _ _ _ _, fun i hi v hv => ?_⟩⟩
  rw [moved_getD _ _ _ _ _ hi]
  cases e : dst i with
  | none => exact Or.inr ⟨rfl, fun j hj => by rw [(h.inverse i j).mp hj] at e; cases e⟩
  | some j =>
    rcases hv j ((h.inverse i j).mpr e) with e' | e'
    · exact Or.inl e'
    · refine Or.inr ⟨e', fun j' hj' => ?_⟩
      rw [(h.inverse i j').mp hj'] at e
      cases e
      exact e'

/-- Spreading labels twice is spreading labels. -/
theorem spreads_comp {f b f' b' : List Int → Res (List Int)} {n k m : Nat} {own own' : Nat → Option Nat} {c c' : Nat → Int}
    (h : Spreads f b n k own c) (h' : Spreads f' b' k m own' c') :
    Spreads (fun ls => f ls >>= f') (fun ys => b' ys >>= b) n m (fun j => own' j >>= own)
      (fun j => match own' j with | some x => c x | none => c' j) := by
  refine ⟨fun i j hij => ?_, fun ls hl => ?_, fun ys hy => ?_⟩
  · obtain ⟨x, e1, e2⟩ := Option.bind_eq_some_iff.mp hij
    exact ⟨(h.range _ _ e2).1, (h'.range _ _ e1).2⟩
  · rw [h.fwd ls hl]
    show f' _ = _
    rw [h'.fwd _ (moved_length _ _ _ _)]
    congr 1
    refine moved_congr fun j hj => ?_
    cases e : own' j with
    | none => rfl
    | some x =>
      show (moved k own c ls).getD x 0 = match own x with | some i => ls.getD i 0 | none => c x
      exact moved_getD _ _ _ _ _ (h'.range _ _ e).1
  · obtain ⟨zs, g1, g2, g3⟩ := h'.bwd ys hy
    obtain ⟨xs, g4, g5, g6⟩ := h.bwd zs g2
    refine ⟨xs, by rw [g1]; exact g4, g5, fun i hi v hv => ?_⟩
    have key : ∀ x, own x = some i → zs.getD x 0 = v ∨ zs.getD x 0 = 0 ∧ ∀ j, own' j = some x → ys.getD j 0 = 0 :=
      fun x hx => g3 x (h.range _ _ hx).2 v fun j hj => hv j (Option.bind_eq_some_iff.mpr ⟨x, hj, hx⟩)
    rcases g6 i hi v fun x hx => (key x hx).imp_right And.left with e | ⟨e, e'⟩
    · exact Or.inl e
    · refine Or.inr ⟨e, fun j hj => ?_⟩
      obtain ⟨x, hj1, hx⟩ := Option.bind_eq_some_iff.mp hj
      rcases key x hx with e1 | ⟨_, e1⟩
      · rcases hv j hj with e2 | e2
        · rw [e2, ← e1]
          exact e' x hx
        · exact e2
      · exact e1 j hj1

theorem spreads_settle {f b : List Int → Res (List Int)} {n m : Nat} {own : Nat → Option Nat} {c : Nat → Int}
    (h : Spreads f b n m own c) :
    (∀ ls ys xs, ls.length = n → f ls = .ok ys → b ys = .ok xs → f xs = .ok ys) ∧
    ∀ ys xs zs, ys.length = m → b ys = .ok xs → f xs = .ok zs → b zs = .ok xs := by
  have key : ∀ ls i j, own j = some i → (moved m own c ls).getD j 0 = ls.getD i 0 := fun ls i j e => by
    rw [moved_getD _ _ _ _ _ (h.range _ _ e).2, e]
  refine ⟨fun ls ys xs hl h1 h2 => ?_, fun ys xs zs hl h1 h2 => ?_⟩
  · rw [h.fwd ls hl] at h1
    cases h1
    obtain ⟨xs', g1, g2, g3⟩ := h.bwd _ (moved_length m own c ls)
    cases h2.symm.trans g1
    rw [h.fwd xs g2]
    refine congrArg Except.ok (moved_congr fun j hj => ?_)
    cases e : own j with
    | none => rfl
    | some i =>
      show xs.getD i 0 = ls.getD i 0
      rcases g3 i (h.range _ _ e).1 (ls.getD i 0) fun j' hj' => Or.inl (key ls i j' hj') with e' | ⟨e', e2⟩
      · exact e'
      · rw [e', ← key ls i j e]
        exact (e2 j e).symm
  · obtain ⟨xs', g1, g2, g3⟩ := h.bwd ys hl
    cases h1.symm.trans g1
    rw [h.fwd xs g2] at h2
    cases h2
    obtain ⟨xs', g4, g5, g6⟩ := h.bwd _ (moved_length m own c xs)
    rw [g4]
    refine congrArg Except.ok (ext_getD g5 g2 fun i hi => ?_)
    rcases g6 i hi (xs.getD i 0) fun j hj => Or.inl (key xs i j hj) with e | ⟨e, e'⟩
    · exact e
    · rw [e]
      by_cases hex : ∃ j, own j = some i
      · obtain ⟨j, hj⟩ := hex
        rw [← key xs i j hj]
        exact (e' j hj).symm
      · rcases g3 i hi 0 fun j hj => absurd ⟨j, hj⟩ hex with e | e
        · exact e.symm
        · exact e.1.symm

theorem spreads_lengths {a : Aligner} {n m : Nat} {own : Nat → Option Nat} {c : Nat → Int}
    (h : Spreads a.transform a.inverseTransform n m own c) : a.inputLength = n ∧ a.outputLength = m := by
  have g := C15_transform_length _ _ _ (h.fwd (List.replicate n 0) (by simp))
  rw [List.length_replicate, moved_length] at g
  exact ⟨g.1.symm, g.2.symm⟩

theorem runs_spread {ops : List Op} {s : Seq} {rs : List (Seq × Aligner)} (r : Runs ops s rs) (h : ∀ op ∈ ops, OpSpreads op) :
    (∃ m own c, Spreads (alignAll (rs.map Prod.snd)) (realignAll (rs.map Prod.snd)) s.length m own c ∧
      (rs ≠ [] → (∀ ls ys, alignAll (rs.map Prod.snd) ls = .ok ys → ls.length = s.length) ∧
        ∀ ys xs, realignAll (rs.map Prod.snd) ys = .ok xs → ys.length = m) ∧ (rs = [] → m = s.length)) ∨
    ∀ ys xs, realignAll (rs.map Prod.snd) ys = .ok xs → False := by
  induction r with
  | nil s => exact Or.inl ⟨_, _, _, carries_spread (carries_id _), fun h => absurd rfl h, fun _ => rfl⟩
  | cons ht r ih =>
    rename_i op ops s t a rs
    have e1 : realignAll (((t, a) :: rs).map Prod.snd) = fun ys => realignAll (rs.map Prod.snd) ys >>= a.inverseTransform :=
      funext fun ys => realignAll_cons a _ ys
    rcases h op (.head _) _ _ _ ht with ⟨own, c, h4⟩ | hno
    rotate_left
    · refine Or.inr fun ys xs hx => ?_
      rw [e1] at hx
      obtain ⟨ms, _, hx⟩ := bind_eq_ok hx
      exact hno _ _ hx
    rcases ih fun op ho => h op (.tail _ ho) with ⟨m, own', c', h1, h2, h3⟩ | hno
    rotate_left
    · refine Or.inr fun ys xs hx => ?_
      rw [e1] at hx
      obtain ⟨ms, hx, _⟩ := bind_eq_ok hx
      exact hno _ _ hx
    have len := spreads_lengths h4
    have hc := spreads_comp h4 h1
    rw [← e1] at hc
    refine Or.inl ⟨m, _, _, hc, fun _ => ⟨fun ls ys hl => ?_, fun ys xs hy => ?_⟩, fun e => by cases e⟩
    · obtain ⟨ms, h5, _⟩ := bind_eq_ok (show (a.transform ls >>= fun ms => alignAll (rs.map Prod.snd) ms) = .ok ys from hl)
      rw [← len.1]
      exact (C15_transform_length _ _ _ h5).1
    · rw [e1] at hy
      obtain ⟨ms, h5, h6⟩ := bind_eq_ok hy
      by_cases hr : rs = []
      · subst hr
        cases h5
        rw [h3 rfl, ← len.2]
        exact (C15_inverse_length _ _ _ h6).1
      · exact (h2 hr).2 _ _ h5

theorem runs_spread_settle {ops : List Op} {s : Seq} {rs : List (Seq × Aligner)} (r : Runs ops s rs)
    (h : ∀ op ∈ ops, OpSpreads op) : SettlesAll (rs.map Prod.snd) := by
  by_cases hr : rs = []
  · subst hr
    exact settlesAll_nil
  · rcases runs_spread r h with ⟨m, own, c, h1, h2, _⟩ | hno
    · obtain ⟨h3, h4⟩ := h2 hr
      obtain ⟨g1, g2⟩ := spreads_settle h1
      exact ⟨fun ls ys xs e1 e2 => g1 ls ys xs (h3 _ _ e1) e1 e2, fun ys xs zs e1 e2 => g2 ys xs zs (h4 _ _ e1) e1 e2⟩
    · exact ⟨fun _ _ _ _ h => (hno _ _ h).elim, fun _ _ _ h _ => (hno _ _ h).elim⟩

theorem subwords_spread (σ : SetOrder) (vocab : Str → Bool) (unk : Str) (maxChars : Int) (l : List Str) (out : List Tok)
    (a : Aligner) (h : SpanSubwords.transform σ vocab unk maxChars (l.map Tok.str) = .ok (out, a)) :
    (∃ own c, Spreads a.transform a.inverseTransform l.length out.length own c) ∨ ∀ ys xs, a.inverseTransform ys = .ok xs → False := by
  classical
  have hex : ∃ subs : Str → List Str, ∀ s, SpanSubwords.spanSubwords vocab unk maxChars s = .ok (subs s) :=
    ⟨fun s => (spanSubwords_ok vocab unk maxChars s).choose, fun s => (spanSubwords_ok vocab unk maxChars s).choose_spec.1⟩
  obtain ⟨subs, hsubs⟩ := hex
  obtain ⟨a', h1, h2, h3, h4, h5⟩ := C34_transform σ vocab unk maxChars l subs fun s _ => hsubs s
  obtain ⟨e1, e2⟩ := det (f := SpanSubwords.transform σ vocab unk maxChars) h h1
  subst e1; subst e2
  by_cases hok : maxChars < 0 ∨ NoTwoEmpty l
  · left
    have hout : (l.flatMap fun s => subs s).length = (l.map fun s => (subs s).length).sum := by
      rw [List.length_flatMap]
    have hout' : (l.flatMap fun s => (subs s).map Tok.str).length = (l.map fun s => (subs s).length).sum := by
      rw [List.length_flatMap]
      simp
    rw [hout']
    have hown : ∀ i j, (if j < (l.map fun s => (subs s).length).sum then some (ownerOf (l.map fun s => (subs s).length) j)
        else none) = some i ↔ j < (l.map fun s => (subs s).length).sum ∧ ownerOf (l.map fun s => (subs s).length) j = i := by
      intro i j
      split
      · rename_i hj
        exact ⟨fun e => ⟨hj, Option.some.inj e⟩, fun e => congrArg some e.2⟩
      · rename_i hj
        exact ⟨fun e => (by cases e), fun e => absurd e.1 hj⟩
    refine ⟨fun j => if j < (l.map fun s => (subs s).length).sum then some (ownerOf (l.map fun s => (subs s).length) j) else none,
      fun _ => 0, fun i j hij => ?_, fun ls hl => (h2 ls hl).trans (congrArg Except.ok (moved_eq ?_ fun j hj => ?_)),
      fun zs hz => ⟨_, h4 hok zs (by rw [hout]; exact hz), ?_, fun i hi v hv => ?_⟩⟩
    · obtain ⟨hj, rfl⟩ := (hown i j).mp hij
      exact ⟨by simpa using ownerOf_lt _ _ hj, hj⟩
    · have := (C15_transform_length a ls _ (h2 ls hl)).2
      rw [this, (h3 hok).output, hout]
    · rw [if_pos hj]
      exact shared_getD (fun s => (subs s).length) l ls hl j hj
    · rw [List.length_map, segments_len, List.length_map]
    · have hS : (segments (l.map fun s => (subs s).length) zs).length = l.length := by rw [segments_len, List.length_map]
      have hmem := segments_owned (l.map fun s => (subs s).length) zs hz i
      rw [List.getD_eq_getElem?_getD, List.getElem?_eq_getElem (by omega)] at hmem
      rw [List.getD_eq_getElem?_getD, List.getElem?_map, List.getElem?_eq_getElem (by omega)]
      simp only [Option.map_some, Option.getD_some] at hmem ⊢
      generalize (segments (l.map fun s => (subs s).length) zs)[i]'(by omega) = seg at hmem
      have hall : ∀ w ∈ seg, w = v ∨ w = 0 := by
        intro w hw
        obtain ⟨j, hj, ho, _, rfl⟩ := (hmem w).mp hw
        exact hv j ((hown i j).mpr ⟨hj, ho⟩)
      rcases firstNonzeroMode_good hall with ⟨e, _⟩ | ⟨e, e'⟩
      · exact Or.inl e
      · exact Or.inr ⟨e, fun j hj => e' _ ((hmem _).mpr ⟨j, ((hown i j).mp hj).1, ((hown i j).mp hj).2, by simpa using hi, rfl⟩)⟩
  · right
    rw [not_or] at hok
    obtain ⟨pre, post, rfl⟩ := exists_twoEmpty hok.2
    intro ys xs hx
    have hl := (C15_inverse_length a ys xs hx).1
    have hk := spanSubwords_kept σ vocab unk maxChars (fun _ => False) (fun _ h => h.elim)
      (.list ((pre ++ [] :: [] :: post).map Tok.str)) (.list _) a (by
        show (SpanSubwords.transform σ vocab unk maxChars _ >>= _) = _
        rw [h]; rfl)
    rw [hk.output] at hl
    rw [C34_adjacent_empty σ vocab unk maxChars (by omega) pre post _ a h ys hl] at hx
    cases hx

theorem subwords_op (env : Env) (op : Op) (h : Made env "SpanSubwords" op) : OpSpreads op := by
  obtain ⟨_, vals, h⟩ := made_any (name := "SpanSubwords") (c := Builtin.spanSubwords env) rfl h
  unfold Builtin.spanSubwords at h
  dsimp only at h
  unfold Builtin.spanSubwordsInit at h
  split at h
  · obtain ⟨unk, _, h⟩ := bind_eq_ok h
    injection h with h
    refine op_of_list' (P := fun n m a => (∃ own c, Spreads a.transform a.inverseTransform n m own c) ∨
      ∀ ys xs, a.inverseTransform ys = .ok xs → False) h.symm fun l out a h => ?_
    obtain ⟨has, n, h, _⟩ := spanSubwordsRun_ok h
    have hstr : ∃ ss : List Str, l = ss.map Tok.str := by
      have hv := tokenwise_values h
      refine ⟨l.map fun t => match t with | .str s => s | .int _ => [], ?_⟩
      rw [List.map_map]
      symm
      refine (List.map_congr_left fun t ht => ?_).trans (List.map_id _)
      obtain ⟨v, e⟩ := hv t ht
      cases t with
      | str s => rfl
      | int i => cases e
    obtain ⟨ss, rfl⟩ := hstr
    rw [List.length_map]
    exact subwords_spread _ _ _ _ ss out a h
  · cases h

/-- C119: steps that give the labels of their output back, then any number of steps that spread labels, then steps that
give the labels of their input back: the pipe settles. -/
theorem C119_spread_pipe (pre mid post : List Op) (cks : List (Str × Int)) (hpre : ∀ op ∈ pre, OpReturns op)
    (hmid : ∀ op ∈ mid, OpSpreads op) (hpost : ∀ op ∈ post, OpKeeps op) (s o : Seq) (as : List Aligner) (coll : List Seq)
    (h : (⟨pre ++ mid ++ post, cks⟩ : Pipe).transformSequence s = .ok (o, as, coll)) : SettlesAll as := by
  obtain ⟨rs, r, _, rfl, _⟩ := (C58_composition _ s o as coll).mp h
  exact runs_settle r hpre (fun s rs r => runs_spread_settle r hmid) hpost

/-- C119: the steps that spread labels are `SpanSubwords` and all that move labels. -/
theorem C119_spreads (env : Env) (op : Op) (h : Made env "SpanSubwords" op ∨ OpMoves op) : OpSpreads op := by
  rcases h with h | h
  · exact subwords_op env op h
  · intro s t a ht
    obtain ⟨src, dst, c, hc⟩ := h s t a ht
    exact Or.inl ⟨src, c, carries_spread hc⟩

/-- Words, subwords, a frame around them, and a length that cuts some subwords off: the pipe settles, with a run of it. -/
example : ∃ ops : List Op, (∀ s o as coll, (⟨ops, []⟩ : Pipe).transformSequence s = .ok (o, as, coll) → SettlesAll as) ∧
    ((⟨ops, []⟩ : Pipe).transformSequence (.str "ab c".toList)).map Prod.fst =
      .ok (.list [.str startToken, .str "a".toList, .str "##b".toList]) := by
  obtain ⟨o1, h1⟩ : ∃ op, create exEnv "WhiteSpaceTokenizer" [] [] = .ok op := ⟨_, rfl⟩
  obtain ⟨o2, h2⟩ : ∃ op, create exEnv "SpanSubwords" [.list [.str "a".toList, .str "##b".toList, .str "c".toList]] [] = .ok op :=
    ⟨_, rfl⟩
  obtain ⟨o3, h3⟩ : ∃ op, create exEnv "AddSosEos" [] [] = .ok op := ⟨_, rfl⟩
  obtain ⟨o4, h4⟩ : ∃ op, create exEnv "Pad" [.int 3] [] = .ok op := ⟨_, rfl⟩
  refine ⟨[o1] ++ [o2, o3, o4] ++ [], fun s o as coll h => C119_spread_pipe [o1] [o2, o3, o4] [] [] ?_ ?_ ?_ s o as coll h, ?_⟩
  · intro op ho
    rw [List.mem_singleton] at ho
    subst ho
    exact C119_returns exEnv "WhiteSpaceTokenizer" _ ⟨_, _, h1⟩ (by decide)
  · intro op ho
    simp only [List.mem_cons, List.not_mem_nil, or_false] at ho
    rcases ho with rfl | rfl | rfl
    · exact C119_spreads exEnv _ (Or.inl ⟨_, _, h2⟩)
    · exact C119_spreads exEnv _ (Or.inr (C119_moves exEnv "AddSosEos" _ ⟨_, _, h3⟩ (by decide)))
    · exact C119_spreads exEnv _ (Or.inr (C119_moves exEnv "Pad" _ ⟨_, _, h4⟩ (by decide)))
  · exact fun _ h => by cases h
  · cases h1; cases h2; cases h3; cases h4
    rfl

end Uttut
