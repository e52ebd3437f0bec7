import Verif.Spec.Settle
import Verif.Props.Survive
import Verif.Props.Twice
import Verif.Props.Bert

/-! C119: which pipes settle. -/

namespace Uttut

open Spec

theorem settlesAll_nil : SettlesAll [] :=
  ⟨fun _ _ _ h1 h2 => by cases h1; cases h2; rfl, fun _ _ _ h1 h2 => by cases h1; cases h2; rfl⟩

theorem settlesAll_one {a : Aligner} (h : Settles a) : SettlesAll [a] := by
  have f : ∀ ls, alignAll [a] ls = a.transform ls := fun ls => by
    show (a.transform ls >>= fun ms => .ok ms) = _
    cases a.transform ls <;> rfl
  have b : ∀ ls, realignAll [a] ls = a.inverseTransform ls := fun ls => by
    rw [realignAll_cons]
    rfl
  refine ⟨fun ls ys xs h1 h2 => ?_, fun ys xs zs h1 h2 => ?_⟩
  · rw [f] at h1 ⊢
    rw [b] at h2
    exact h.fromInput ls ys xs h1 h2
  · rw [f] at h2
    rw [b] at h1 ⊢
    exact h.fromOutput ys xs zs h1 h2

theorem settlesAll_after {a : Aligner} {as : List Aligner}
    (ha : ∀ ys xs, a.inverseTransform ys = .ok xs → a.transform xs = .ok ys) (h : SettlesAll as) : SettlesAll (a :: as) := by
  refine ⟨fun ls ys xs h1 h2 => ?_, fun ys xs zs h1 h2 => ?_⟩
  · obtain ⟨m, _, h1⟩ := bind_eq_ok (show (a.transform ls >>= fun ms => alignAll as ms) = .ok ys from h1)
    rw [realignAll_cons] at h2
    obtain ⟨m', h3, h4⟩ := bind_eq_ok h2
    show (a.transform xs >>= fun ms => alignAll as ms) = .ok ys
    rw [ha _ _ h4]
    exact h.fromInput m ys m' h1 h3
  · rw [realignAll_cons] at h1 ⊢
    obtain ⟨m, h3, h4⟩ := bind_eq_ok h1
    obtain ⟨m', h5, h6⟩ := bind_eq_ok (show (a.transform xs >>= fun ms => alignAll as ms) = .ok zs from h2)
    rw [ha _ _ h4] at h5
    cases h5
    rw [h.fromOutput ys m zs h3 h6]
    exact h4

theorem settlesAll_before {a : Aligner} {as : List Aligner}
    (ha : ∀ ls ys, a.transform ls = .ok ys → a.inverseTransform ys = .ok ls) (h : SettlesAll as) : SettlesAll (as ++ [a]) := by
  have f : ∀ ls, alignAll [a] ls = a.transform ls := fun ls => by
    show (a.transform ls >>= fun ms => .ok ms) = _
    cases a.transform ls <;> rfl
  have b : ∀ ls, realignAll [a] ls = a.inverseTransform ls := fun ls => by
    rw [realignAll_cons]
    rfl
  refine ⟨fun ls ys xs h1 h2 => ?_, fun ys xs zs h1 h2 => ?_⟩
  · rw [alignAll_append'] at h1 ⊢
    rw [realignAll_append'] at h2
    obtain ⟨m, h3, h4⟩ := bind_eq_ok h1
    obtain ⟨m', h5, h6⟩ := bind_eq_ok h2
    rw [f] at h4
    rw [b, ha _ _ h4] at h5
    cases h5
    rw [h.fromInput ls m xs h3 h6]
    show alignAll [a] m = _
    rw [f]
    exact h4
  · rw [realignAll_append'] at h1 ⊢
    rw [alignAll_append'] at h2
    obtain ⟨m, h3, h4⟩ := bind_eq_ok h1
    obtain ⟨m', h5, h6⟩ := bind_eq_ok h2
    rw [f] at h6
    rw [b, ha _ _ h6]
    exact h.fromOutput m xs m' h4 h5

theorem runs_settle {pre mid post : List Op} {s : Seq} {rs : List (Seq × Aligner)} (r : Runs (pre ++ mid ++ post) s rs)
    (hpre : ∀ op ∈ pre, OpReturns op) (hmid : ∀ s rs, Runs mid s rs → SettlesAll (rs.map Prod.snd))
    (hpost : ∀ op ∈ post, OpKeeps op) : SettlesAll (rs.map Prod.snd) := by
  obtain ⟨qs, qs3, rfl, r12, r3⟩ := r.split
  obtain ⟨qs1, qs2, rfl, r1, r2⟩ := r12.split
  rw [List.map_append, List.map_append]
  have h2 := hmid _ _ r2
  have h12 : SettlesAll (qs1.map Prod.snd ++ qs2.map Prod.snd) := by
    clear r3 r2 r r12
    induction r1 with
    | nil => exact h2
    | cons h _ ih => exact settlesAll_after (hpre _ (.head _) _ _ _ h) (ih (fun op ho => hpre op (.tail _ ho)))
  revert h12
  generalize qs1.map Prod.snd ++ qs2.map Prod.snd = as
  generalize hx : finalOf s (qs1 ++ qs2) = x at r3
  clear hx r
  intro h12
  induction r3 generalizing as with
  | nil => simpa using h12
  | cons h _ ih =>
    rw [List.map_cons, List.append_cons]
    exact ih (fun op ho => hpost op (.tail _ ho)) _ (settlesAll_before (hpost _ (.head _) _ _ _ h) h12)

theorem moved_length (m : Nat) (src : Nat → Option Nat) (rest : Nat → Int) (ls : List Int) :
    (moved m src rest ls).length = m := by simp [moved]

theorem moved_getD (m : Nat) (src : Nat → Option Nat) (rest : Nat → Int) (ls : List Int) (j : Nat) (hj : j < m) :
    (moved m src rest ls).getD j 0 = match src j with | some i => ls.getD i 0 | none => rest j := by
  unfold moved
  rw [List.getD_eq_getElem?_getD, List.getElem?_map, List.getElem?_range hj]
  rfl

theorem moved_congr {m : Nat} {src src' : Nat → Option Nat} {rest rest' : Nat → Int} {ls ls' : List Int}
    (h : ∀ j < m, (match src j with | some i => ls.getD i 0 | none => rest j) =
      match src' j with | some i => ls'.getD i 0 | none => rest' j) : moved m src rest ls = moved m src' rest' ls' := by
  unfold moved
  exact List.map_congr_left fun j hj => h j (List.mem_range.mp hj)

theorem moved_eq {m : Nat} {src : Nat → Option Nat} {rest : Nat → Int} {ls L : List Int} (hl : L.length = m)
    (h : ∀ j < m, L.getD j 0 = match src j with | some i => ls.getD i 0 | none => rest j) : L = moved m src rest ls := by
  refine List.ext_getElem (by rw [hl, moved_length]) fun j h1 h2 => ?_
  have e := h j (by omega)
  rw [← moved_getD m src rest ls j (by omega)] at e
  rw [List.getD_eq_getElem?_getD, List.getD_eq_getElem?_getD, List.getElem?_eq_getElem h1, List.getElem?_eq_getElem h2] at e
  exact e

/-- Moving labels twice is moving labels. -/
theorem carries_comp {f b f' b' : List Int → Res (List Int)} {n k m : Nat} {src dst src' dst' : Nat → Option Nat}
    {c d c' d' : Nat → Int} (h : Carries f b n k src dst c d) (h' : Carries f' b' k m src' dst' c' d') :
    Carries (fun ls => f ls >>= f') (fun ys => b' ys >>= b) n m (fun j => src' j >>= src) (fun i => dst i >>= dst')
      (fun j => match src' j with | some x => c x | none => c' j) (fun i => match dst i with | some x => d' x | none => d i) := by
  refine ⟨fun ls hl => ?_, fun ys hy => ?_, fun i j => ?_, fun i j hij => ?_⟩
  · rw [h.fwd ls hl]
    show f' _ = _
    rw [h'.fwd _ (moved_length _ _ _ _)]
    congr 1
    refine moved_congr fun j hj => ?_
    cases e : src' j with
    | none => rfl
    | some x =>
      show (moved k src c ls).getD x 0 = match src x with | some i => ls.getD i 0 | none => c x
      exact moved_getD _ _ _ _ _ (h'.range _ _ e).1
  · rw [h'.bwd ys hy]
    show b _ = _
    rw [h.bwd _ (moved_length _ _ _ _)]
    congr 1
    refine moved_congr fun i hi => ?_
    cases e : dst i with
    | none => rfl
    | some x =>
      show (moved k dst' d' ys).getD x 0 = match dst' x with | some j => ys.getD j 0 | none => d' x
      exact moved_getD _ _ _ _ _ (h.range _ _ ((h.inverse _ _).mpr e)).2
  · constructor
    · intro e
      obtain ⟨x, e1, e2⟩ := Option.bind_eq_some_iff.mp e
      exact Option.bind_eq_some_iff.mpr ⟨x, (h.inverse _ _).mp e2, (h'.inverse _ _).mp e1⟩
    · intro e
      obtain ⟨x, e1, e2⟩ := Option.bind_eq_some_iff.mp e
      exact Option.bind_eq_some_iff.mpr ⟨x, (h'.inverse _ _).mpr e2, (h.inverse _ _).mpr e1⟩
  · obtain ⟨x, e1, e2⟩ := Option.bind_eq_some_iff.mp hij
    exact ⟨(h.range _ _ e2).1, (h'.range _ _ e1).2⟩

theorem carries_there {f b : List Int → Res (List Int)} {n m : Nat} {src dst : Nat → Option Nat} {c d : Nat → Int}
    (h : Carries f b n m src dst c d) (ls : List Int) : moved m src c (moved n dst d (moved m src c ls)) = moved m src c ls := by
  refine moved_congr fun j hj => ?_
  cases e : src j with
  | none => rfl
  | some i =>
    obtain ⟨h1, h2⟩ := h.range i j e
    show (moved n dst d (moved m src c ls)).getD i 0 = _
    rw [moved_getD _ _ _ _ _ h1, (h.inverse i j).mp e]
    show (moved m src c ls).getD j 0 = _
    rw [moved_getD _ _ _ _ _ h2, e]

theorem carries_back {f b : List Int → Res (List Int)} {n m : Nat} {src dst : Nat → Option Nat} {c d : Nat → Int}
    (h : Carries f b n m src dst c d) (ys : List Int) : moved n dst d (moved m src c (moved n dst d ys)) = moved n dst d ys := by
  refine moved_congr fun i hi => ?_
  cases e : dst i with
  | none => rfl
  | some j =>
    obtain ⟨h1, h2⟩ := h.range i j ((h.inverse i j).mpr e)
    show (moved m src c (moved n dst d ys)).getD j 0 = _
    rw [moved_getD _ _ _ _ _ h2, (h.inverse i j).mpr e]
    show (moved n dst d ys).getD i 0 = _
    rw [moved_getD _ _ _ _ _ h1, e]

theorem carries_id (n : Nat) : Carries (fun ls => .ok ls) (fun ys => .ok ys) n n (fun j => if j < n then some j else none)
    (fun j => if j < n then some j else none) (fun _ => 0) (fun _ => 0) := by
  refine ⟨fun ls hl => congrArg Except.ok (moved_eq hl fun j hj => by rw [if_pos hj]),
    fun ls hl => congrArg Except.ok (moved_eq hl fun j hj => by rw [if_pos hj]), fun i j => ?_, fun i j h => ?_⟩
  · constructor <;> intro h <;> split at h <;> cases h <;> rw [if_pos (by assumption)]
  · split at h
    · cases h
      exact ⟨by assumption, by assumption⟩
    · cases h

theorem runs_carry {ops : List Op} {s : Seq} {rs : List (Seq × Aligner)} (r : Runs ops s rs) (h : ∀ op ∈ ops, OpMoves op) :
    ∃ m src dst c, Carries (alignAll (rs.map Prod.snd)) (realignAll (rs.map Prod.snd)) s.length m src dst c (fun _ => 0) ∧
      (rs ≠ [] → (∀ ls ys, alignAll (rs.map Prod.snd) ls = .ok ys → ls.length = s.length) ∧
        ∀ ys xs, realignAll (rs.map Prod.snd) ys = .ok xs → ys.length = m) ∧ (rs = [] → m = s.length) := by
  induction r with
  | nil s => exact ⟨_, _, _, _, carries_id _, fun h => absurd rfl h, fun _ => rfl⟩
  | cons ht r ih =>
    rename_i op ops s t a rs
    obtain ⟨m, src', dst', c', h1, h2, h3⟩ := ih fun op ho => h op (.tail _ ho)
    obtain ⟨src, dst, c, h4⟩ := h op (.head _) _ _ _ ht
    have e1 : realignAll (((t, a) :: rs).map Prod.snd) = fun ys => realignAll (rs.map Prod.snd) ys >>= a.inverseTransform :=
      funext fun ys => realignAll_cons a _ ys
    have len : a.inputLength = s.length ∧ a.outputLength = t.length := by
      have g1 := h4.fwd (List.replicate s.length 0) (by simp)
      have g2 := C15_transform_length _ _ _ g1
      rw [List.length_replicate, moved_length] at g2
      exact ⟨g2.1.symm, g2.2.symm⟩
    have hc := carries_comp h4 h1
    rw [← e1, show (fun i : Nat => match dst i with | some _ => (0 : Int) | none => (0 : Int)) = fun _ => (0 : Int) from
      funext fun i => by cases dst i <;> rfl] at hc
    refine ⟨m, _, _, _, hc, fun _ => ⟨fun ls ys hl => ?_, fun ys xs hy => ?_⟩, fun e => by cases e⟩
    · obtain ⟨ms, h5, _⟩ := bind_eq_ok (show (a.transform ls >>= fun ms => alignAll (rs.map Prod.snd) ms) = .ok ys from hl)
      rw [← len.1]
      exact (C15_transform_length _ _ _ h5).1
    · rw [e1] at hy
      obtain ⟨ms, h5, h6⟩ := bind_eq_ok hy
      by_cases hr : rs = []
      · subst hr
        cases h5
        rw [h3 rfl, ← len.2]
        exact (C15_inverse_length _ _ _ h6).1
      · exact (h2 hr).2 _ _ h5

theorem runs_moves_settle {ops : List Op} {s : Seq} {rs : List (Seq × Aligner)} (r : Runs ops s rs)
    (h : ∀ op ∈ ops, OpMoves op) : SettlesAll (rs.map Prod.snd) := by
  by_cases hr : rs = []
  · subst hr
    exact settlesAll_nil
  · obtain ⟨m, src, dst, c, h1, h2, _⟩ := runs_carry r h
    obtain ⟨h3, h4⟩ := h2 hr
    refine ⟨fun ls ys xs e1 e2 => ?_, fun ys xs zs e1 e2 => ?_⟩
    · rw [h1.fwd ls (h3 _ _ e1)] at e1
      cases e1
      rw [h1.bwd _ (moved_length _ _ _ _)] at e2
      cases e2
      rw [h1.fwd _ (moved_length _ _ _ _), carries_there h1]
    · rw [h1.bwd ys (h4 _ _ e1)] at e1
      cases e1
      rw [h1.fwd _ (moved_length _ _ _ _)] at e2
      cases e2
      rw [h1.bwd _ (moved_length _ _ _ _), carries_back h1]

/-- C119: steps that give the labels of their output back, then one built-in step or any number of steps that only move
labels, then steps that give the labels of their input back: the pipe settles. -/
theorem C119_pipe (env : Env) (he : env.Sane) (pre mid post : List Op) (cks : List (Str × Int))
    (hpre : ∀ op ∈ pre, OpReturns op)
    (hmid : (∃ op, mid = [op] ∧ IsBuiltin env op) ∨ ∀ op ∈ mid, OpMoves op) (hpost : ∀ op ∈ post, OpKeeps op)
    (s o : Seq) (as : List Aligner) (coll : List Seq)
    (h : (⟨pre ++ mid ++ post, cks⟩ : Pipe).transformSequence s = .ok (o, as, coll)) : SettlesAll as := by
  obtain ⟨rs, r, _, rfl, _⟩ := (C58_composition _ s o as coll).mp h
  refine runs_settle r hpre (fun s rs r => ?_) hpost
  rcases hmid with ⟨op, rfl, hb⟩ | hm
  · cases r with
    | cons h r =>
      cases r
      exact settlesAll_one (C73_settles env he op hb _ _ _ h)
  · exact runs_moves_settle r hm

theorem op_of_str {op : Op} {f : Str → Res (Str × Aligner)} {P : Aligner → Prop} (hr : op.run = strOp f)
    (h : ∀ s out a, f s = .ok (out, a) → P a) : ∀ s t a, op.transform s = .ok (t, a) → P a := by
  intro s t a hs
  have hs := transform_run hs
  rw [hr] at hs
  cases s with
  | list l => cases hs
  | str s =>
    obtain ⟨⟨out, a'⟩, h1, h2⟩ := bind_eq_ok hs
    cases h2
    exact h _ _ _ h1

theorem op_of_tok {op : Op} {f : Str → Res (List Str × Aligner)} {P : Aligner → Prop} (hr : op.run = tokOp f)
    (h : ∀ s out a, f s = .ok (out, a) → P a) : ∀ s t a, op.transform s = .ok (t, a) → P a := by
  intro s t a hs
  have hs := transform_run hs
  rw [hr] at hs
  cases s with
  | list l => cases hs
  | str s =>
    obtain ⟨⟨out, a'⟩, h1, h2⟩ := bind_eq_ok hs
    cases h2
    exact h _ _ _ h1

theorem op_of_list {op : Op} {f : List Tok → Res (List Tok × Aligner)} {P : Aligner → Prop} (hr : op.run = lstOp f)
    (h : ∀ s out a, f s = .ok (out, a) → P a) : ∀ s t a, op.transform s = .ok (t, a) → P a := by
  intro s t a hs
  have hs := transform_run hs
  rw [hr] at hs
  cases s with
  | str l => cases hs
  | list s =>
    obtain ⟨⟨out, a'⟩, h1, h2⟩ := bind_eq_ok hs
    cases h2
    exact h _ _ _ h1

theorem keeps_of_lossless {a : Aligner} {n : Nat} (hn : a.inputLength = n) (h : Lossless a n) (ls ys : List Int)
    (hy : a.transform ls = .ok ys) : a.inverseTransform ys = .ok ls := by
  obtain ⟨ys', h1, h2⟩ := h ls (by rw [← hn]; exact (C15_transform_length a ls ys hy).1)
  rw [Except.ok.inj (hy.symm.trans h1)]
  exact h2

theorem returns_of_pass {a : Aligner} {n : Nat} (hi : a.inputLength = n) (h : PassThrough a n) (ys xs : List Int)
    (hx : a.inverseTransform ys = .ok xs) : a.transform xs = .ok ys := by
  have h1 := (C15_inverse_length a ys xs hx).2
  obtain ⟨h2, h3⟩ := h xs (by omega)
  have h4 := (C15_transform_length a xs xs h2).2
  have h5 := (C15_inverse_length a ys xs hx).1
  obtain ⟨_, h6⟩ := h ys (by omega)
  rw [h6] at hx
  cases hx
  exact h2

theorem returns_of_tokens {a : Aligner} {ps : List (Str × Str)} {tail : Str} (h : TokenLabels a ps tail) (ys xs : List Int)
    (hx : a.inverseTransform ys = .ok xs) : a.transform xs = .ok ys := by
  have h5 := (C15_inverse_length a ys xs hx).1
  rw [h.aligned.output] at h5
  by_cases hu : uintLabels ys
  · obtain ⟨ls, h1, h2⟩ := h.roundTrip ys h5 hu
    rw [hx] at h1
    cases h1
    exact h2
  · rw [h.overflow ys h5 hu] at hx
    cases hx

theorem returns_strip (σ : SetOrder) (s out : Str) (a : Aligner) (h : StripWhiteSpaceCharacters.transform σ s = .ok (out, a))
    (ys xs : List Int) (hx : a.inverseTransform ys = .ok xs) : a.transform xs = .ok ys := by
  obtain ⟨a', h1, h2, lead, trail, h3, _, _, _, h4, h5⟩ := C22_strip σ s
  obtain ⟨_, rfl⟩ := det (f := StripWhiteSpaceCharacters.transform σ) h h1
  have hy := (C15_inverse_length a ys xs hx).1
  rw [h2.output] at hy
  rw [h5 ys hy] at hx
  cases hx
  rw [h4 _ (by simp only [List.length_append, List.length_replicate]; omega), List.append_assoc,
    List.drop_left' (by simp), List.take_left' hy]

theorem returns_merge (σ : SetOrder) (s out : Str) (a : Aligner) (h : MergeWhiteSpaceCharacters.transform σ s = .ok (out, a))
    (ys xs : List Int) (hx : a.inverseTransform ys = .ok xs) : a.transform xs = .ok ys := by
  obtain ⟨a', h1, h2, h3, h4, _⟩ := C21_merge σ s
  obtain ⟨e1, e2⟩ := det (f := MergeWhiteSpaceCharacters.transform σ) h h1
  subst e1; subst e2
  have hfl : (runs isSpace s).flatten = s := runs_flatten _ _
  have hout : mapRuns isSpace (fun _ => [' ']) s =
      ((runs isSpace s).map fun r => if isRunOf isSpace r then [' '] else r).flatten := by
    unfold mapRuns
    rw [← List.flatMap_def]
  have hp : PartByPart a (runs isSpace s) List.length (fun r => (if isRunOf isSpace r then [' '] else r).length)
      (fun w x => if isRunOf isSpace w then [firstMode x] else x)
      (fun w x => if isRunOf isSpace w then List.replicate w.length (firstMode x) else x) := by
    refine partByPart_text (by rw [hfl]; exact h2.input) (by rw [← hout]; exact h2.output) (fun ls hl => ?_)
      (fun ls hl => ?_) ?_ ?_
    · rw [hfl] at hl; exact h3 ls hl
    · rw [← hout] at hl; exact h4 ls hl
    · intro w _ x hx
      split <;> simp_all
    · intro w _ x hx
      split
      · simp
      · rename_i hc
        rw [hx, if_neg hc]
  have hy := (C15_inverse_length a ys xs hx).1
  rw [hp.output] at hy
  have hxl := (C15_inverse_length a ys xs hx).2
  rw [hp.input] at hxl
  have e := hp.bwd ys hy
  rw [hx] at e
  have e := Except.ok.inj e
  rw [hp.fwd xs hxl]
  congr 1
  rw [e, hp.recut_back ys hy, List.flatMap_map]
  refine Eq.trans (flatMap_congr_mem fun x hx => ?_) (segments_join _ _ ys hy)
  obtain ⟨g1, g2⟩ := segments_mem _ _ ys hy x hx
  by_cases hc : isRunOf isSpace x.1 = true
  · simp only [hc, if_true] at g1 ⊢
    obtain ⟨v, hv⟩ := List.length_eq_one_iff.mp (show x.2.length = 1 from g1)
    rw [firstMode_replicate' _ (List.length_pos_iff.mpr (mem_runs _ _ _ g2).1), hv, firstMode_single]
  · simp only [hc]
    rfl

theorem single_pass (σ : SetOrder) (nv : Tok → Res (Option (List Tok)))
    (hnv : ∀ x v, nv x = .ok (some v) → v.length = 1) (l out : List Tok) (a : Aligner)
    (h : tokenwiseTransform σ nv l (fun _ n => Aligner.null l.length n) = .ok (out, a)) :
    out.length = l.length ∧ PassThrough a l.length := by
  obtain ⟨_, h2⟩ := single_lossless σ nv hnv l out a h
  have hnull : a = Aligner.null l.length out.length := by
    unfold tokenwiseTransform at h
    obtain ⟨g, _, h⟩ := bind_eq_ok h
    obtain ⟨g', _, h⟩ := bind_eq_ok h
    obtain ⟨o, _, h⟩ := bind_eq_ok h
    injection h with h
    injection h with e1 e2
    rw [← e1, ← e2]
  have hp : PassThrough a l.length := by
    intro ls hl
    obtain ⟨ys, h3, h4⟩ := h2 ls hl
    have hf := Aligner.transform_fwd h3
    rw [hnull] at hf
    have e : ys = ls := (Except.ok.inj hf).symm
    subst e
    exact ⟨h3, h4⟩
  refine ⟨?_, hp⟩
  have := (C15_transform_length a _ _ (hp (List.replicate l.length 0) (by simp)).1).2
  rw [List.length_replicate] at this
  rw [this, hnull]
  rfl

theorem single_returns (σ : SetOrder) (nv : Tok → Res (Option (List Tok)))
    (hnv : ∀ x v, nv x = .ok (some v) → v.length = 1) (l out : List Tok) (a : Aligner)
    (h : tokenwiseTransform σ nv l (fun _ n => Aligner.null l.length n) = .ok (out, a)) (ys xs : List Int)
    (hx : a.inverseTransform ys = .ok xs) : a.transform xs = .ok ys :=
  returns_of_pass (single_lossless σ nv hnv l out a h).1 (single_pass σ nv hnv l out a h).2 ys xs hx

theorem token2index_one (d : List (Str × Int)) (unk : Str) (x : Tok) (v : List Tok)
    (h : Token2Index.newValue d unk x = .ok (some v)) : v.length = 1 := by
  unfold Token2Index.newValue at h
  dsimp only at h
  split at h
  · injection h with h; injection h with h; rw [← h]; rfl
  · split at h
    · injection h with h; injection h with h; rw [← h]; rfl
    · cases h

theorem token2indexHash_one (d : List (Str × Int)) (x : Tok) (v : List Tok)
    (h : Token2IndexwithHash.newValue d x = .ok (some v)) : v.length = 1 := by
  unfold Token2IndexwithHash.newValue at h
  split at h
  · cases h
  · split at h
    · injection h with h; injection h with h; rw [← h]; rfl
    · injection h with h; injection h with h; rw [← h]; rfl

theorem pureNum_one (u : Unicode) (token : Tok) (x : Tok) (v : List Tok)
    (h : PureNum2Token.newValue u token x = .ok (some v)) : v.length = 1 := by
  unfold PureNum2Token.newValue at h
  split at h
  · cases h
  · injection h with h
    split at h
    · injection h with h; rw [← h]; rfl
    · cases h

/-- C119: the steps that give the labels of their output back from the input. -/
theorem C119_returns (env : Env) (name : String) (op : Op) (h : Made env name op)
    (hn : name ∈ ["Lowercase", "StripAccentToken", "MergeWhiteSpaceCharacters", "StripWhiteSpaceCharacters", "CharTokenizer",
      "WhiteSpaceTokenizer", "EngTokenizer", "ZhCharTokenizer", "CustomWordTokenizer", "Token2Index", "Token2IndexwithHash",
      "PureNum2Token"]) : OpReturns op := by
  simp only [List.mem_cons, List.not_mem_nil, or_false] at hn
  rcases hn with rfl | rfl | rfl | rfl | rfl | rfl | rfl | rfl | rfl | rfl | rfl | rfl
  · rw [made_simple (env := env) (name := "Lowercase") rfl h]
    refine op_of_str rfl fun s out a h => ?_
    obtain ⟨a', h1, h2, h3⟩ := C16_lowercase env.σ s
    obtain ⟨_, rfl⟩ := det (f := Lowercase.transform env.σ) h h1
    exact returns_of_pass h2.input h3
  · rw [made_simple (env := env) (name := "StripAccentToken") rfl h]
    refine op_of_str rfl fun s out a h => ?_
    by_cases hl : ((env.u.nfd s).filter fun c => !env.u.isMn c).length = s.length
    · obtain ⟨a', h1, h2, h3⟩ := C27_transform env.σ env.u s hl
      obtain ⟨_, rfl⟩ := det (f := StripAccentToken.transform env.σ env.u) h h1
      exact returns_of_pass h2.input h3
    · rw [C27_length_change env.σ env.u s hl] at h
      cases h
  · rw [made_simple (env := env) (name := "MergeWhiteSpaceCharacters") rfl h]
    exact op_of_str rfl (returns_merge env.σ)
  · rw [made_simple (env := env) (name := "StripWhiteSpaceCharacters") rfl h]
    exact op_of_str rfl (returns_strip env.σ)
  · rw [made_simple (env := env) (name := "CharTokenizer") rfl h]
    refine op_of_tok rfl fun s out a h => ?_
    obtain ⟨a', h1, h2, h3, _, h4⟩ := C41_char env.σ s
    obtain ⟨_, rfl⟩ := det (f := CharTokenizer.transform env.σ) h h1
    intro ys xs hx
    have hy := (C15_inverse_length a ys xs hx).1
    rw [h2.output] at hy
    by_cases hu : uintLabels ys
    · obtain ⟨g1, g2⟩ := h3 ys hy hu
      rw [g2] at hx
      cases hx
      exact g1
    · rw [h4 ys hy hu] at hx
      cases hx
  · rw [made_simple (env := env) (name := "WhiteSpaceTokenizer") rfl h]
    refine op_of_tok rfl fun s out a h => ?_
    obtain ⟨a', ps, tail, h1, _, h2⟩ := C39_C42_whitespace env.σ s
    obtain ⟨_, rfl⟩ := det (f := WhiteSpaceTokenizer.transform env.σ) h h1
    exact returns_of_tokens h2
  · rw [made_simple (env := env) (name := "EngTokenizer") rfl h]
    refine op_of_tok rfl fun s out a h => ?_
    obtain ⟨a', ps, tail, h1, _, h2⟩ := C40_C42_eng env.σ env.u s
    obtain ⟨_, rfl⟩ := det (f := EngTokenizer.transform env.σ env.u) h h1
    exact returns_of_tokens h2
  · rw [made_simple (env := env) (name := "ZhCharTokenizer") rfl h]
    refine op_of_tok rfl fun s out a h => ?_
    obtain ⟨a', ps, tail, h1, _, h2⟩ := C40_C42_zh env.σ env.u s
    obtain ⟨_, rfl⟩ := det (f := ZhCharTokenizer.transform env.σ env.u) h h1
    exact returns_of_tokens h2
  · obtain ⟨_, vals, h⟩ := made_any (name := "CustomWordTokenizer") (c := Builtin.customTok env) rfl h
    unfold Builtin.customTok at h
    dsimp only at h
    unfold Builtin.customTokInit at h
    split at h
    · obtain ⟨t, ht, h⟩ := bind_eq_ok h
      obtain ⟨ws, hw⟩ := userWords_ok ht
      injection h with h
      refine op_of_tok h.symm fun s out a h => ?_
      obtain ⟨a', segs, h1, _, _, h2⟩ := C37_C42_custom env.σ ws t hw _ s
      obtain ⟨_, rfl⟩ := det (f := CustomWordTokenizer.transform env.σ t _) h h1
      exact returns_of_tokens h2
    · cases h
  · obtain ⟨_, vals, h⟩ := made_any (name := "Token2Index") (c := Builtin.token2index env) rfl h
    unfold Builtin.token2index at h
    dsimp only at h
    unfold Builtin.token2indexInit at h
    split at h
    · obtain ⟨d, _, h⟩ := bind_eq_ok h
      split at h
      · obtain ⟨_, _, h⟩ := bind_eq_ok h
        injection h with h
        exact op_of_list h.symm fun l out a h => single_returns _ _ (token2index_one d _) l out a h
      · obtain ⟨_, _, h⟩ := bind_eq_ok h
        split at h <;> cases h
    · cases h
  · obtain ⟨_, vals, h⟩ := made_any (name := "Token2IndexwithHash") (c := Builtin.token2indexHash env) rfl h
    unfold Builtin.token2indexHash at h
    dsimp only at h
    unfold Builtin.token2indexHashInit at h
    split at h
    · obtain ⟨d, _, h⟩ := bind_eq_ok h
      obtain ⟨_, _, h⟩ := bind_eq_ok h
      injection h with h
      exact op_of_list h.symm fun l out a h => single_returns _ _ (token2indexHash_one d) l out a h
    · cases h
  · obtain ⟨_, vals, h⟩ := made_any (name := "PureNum2Token") (c := Builtin.pureNum env) rfl h
    have hnum : ∀ token, op.run = lstOp (PureNum2Token.transform env.σ env.u token) → OpReturns op := fun token h =>
      op_of_list h fun l out a h => single_returns _ _ (pureNum_one env.u token) l out a h
    unfold Builtin.pureNum at h
    dsimp only at h
    unfold Builtin.pureNumInit at h
    split at h
    · injection h with h
      exact hnum _ h.symm
    · obtain ⟨t, _, h⟩ := bind_eq_ok h
      injection h with h
      exact hnum _ h.symm
    · cases h

/-- C119: the steps that give the labels of their input back from the output. -/
theorem C119_keeps (env : Env) (name : String) (op : Op) (h : Made env name op)
    (hn : name ∈ ["Lowercase", "StripAccentToken", "AddWhitespaceAroundCJK", "AddWhitespaceAroundPunctuation",
      "AddWhitespaceAroundWordnZhChar", "AddSosEos", "AddEndToken", "Token2Index", "Token2IndexwithHash", "PureNum2Token"]) :
    OpKeeps op := by
  have around : ∀ valid s out a, AddWhitespaceAroundChar.transform env.σ valid s = .ok (out, a) →
      ∀ ls ys, a.transform ls = .ok ys → a.inverseTransform ys = .ok ls := by
    intro valid s out a h
    obtain ⟨a', h1, _, _, _, h3⟩ := C17_around env.σ valid s
    obtain ⟨_, rfl⟩ := det (f := AddWhitespaceAroundChar.transform env.σ valid) h h1
    exact h3
  simp only [List.mem_cons, List.not_mem_nil, or_false] at hn
  rcases hn with rfl | rfl | rfl | rfl | rfl | rfl | rfl | rfl | rfl | rfl
  · rw [made_simple (env := env) (name := "Lowercase") rfl h]
    refine op_of_str rfl fun s out a h => ?_
    obtain ⟨a', h1, h2, h3⟩ := C16_lowercase env.σ s
    obtain ⟨_, rfl⟩ := det (f := Lowercase.transform env.σ) h h1
    exact keeps_of_lossless h2.input fun ls hl => ⟨ls, h3 ls hl⟩
  · rw [made_simple (env := env) (name := "StripAccentToken") rfl h]
    refine op_of_str rfl fun s out a h => ?_
    by_cases hl : ((env.u.nfd s).filter fun c => !env.u.isMn c).length = s.length
    · obtain ⟨a', h1, h2, h3⟩ := C27_transform env.σ env.u s hl
      obtain ⟨_, rfl⟩ := det (f := StripAccentToken.transform env.σ env.u) h h1
      exact keeps_of_lossless h2.input fun ls hl => ⟨ls, h3 ls hl⟩
    · rw [C27_length_change env.σ env.u s hl] at h
      cases h
  · rw [made_simple (env := env) (name := "AddWhitespaceAroundCJK") rfl h]
    exact op_of_str rfl (around _)
  · rw [made_simple (env := env) (name := "AddWhitespaceAroundPunctuation") rfl h]
    exact op_of_str rfl (around _)
  · obtain ⟨_, vals, h⟩ := made_any (name := "AddWhitespaceAroundWordnZhChar") (c := Builtin.aroundWord env) rfl h
    unfold Builtin.aroundWord at h
    dsimp only at h
    unfold Builtin.aroundWordInit at h
    split at h
    · obtain ⟨t, ht, h⟩ := bind_eq_ok h
      obtain ⟨ws, hw⟩ := userWords_ok ht
      injection h with h
      refine op_of_str h.symm fun s out a h => ?_
      obtain ⟨a', segs, _, _, h1, h2, _, _, h3⟩ := C38_spaces env.σ ws t hw _ s
      obtain ⟨_, rfl⟩ := det (f := AddWhitespaceAroundWordnZhChar.transform env.σ t _) h h1
      exact h3
    · cases h
  · obtain ⟨_, vals, h⟩ := made_any (name := "AddSosEos") (c := Builtin.sosEos env) rfl h
    unfold Builtin.sosEos at h
    dsimp only at h
    unfold Builtin.sosEosInit at h
    split at h
    · obtain ⟨s, _, h⟩ := bind_eq_ok h
      obtain ⟨e, _, h⟩ := bind_eq_ok h
      injection h with h
      refine op_of_list h.symm fun l out a h => ?_
      obtain ⟨h1, h2⟩ := C73_lossless_list _ l out a _ _ (.int 0) [] [] env.u (Or.inl h)
      exact keeps_of_lossless h1 h2
    · cases h
  · obtain ⟨_, vals, h⟩ := made_any (name := "AddEndToken") (c := Builtin.endTok env) rfl h
    unfold Builtin.endTok at h
    dsimp only at h
    unfold Builtin.endTokInit at h
    split at h
    · cases h
    · obtain ⟨e, _, h⟩ := bind_eq_ok h
      obtain ⟨e', _, h⟩ := bind_eq_ok h
      injection h with h
      refine op_of_list h.symm fun l out a h => ?_
      obtain ⟨h1, h2⟩ := C73_lossless_list _ l out a (.int 0) _ (.int 0) [] [] env.u (Or.inr (Or.inl h))
      exact keeps_of_lossless h1 h2
    · cases h
  · obtain ⟨_, vals, h⟩ := made_any (name := "Token2Index") (c := Builtin.token2index env) rfl h
    unfold Builtin.token2index at h
    dsimp only at h
    unfold Builtin.token2indexInit at h
    split at h
    · obtain ⟨d, _, h⟩ := bind_eq_ok h
      split at h
      · obtain ⟨_, _, h⟩ := bind_eq_ok h
        injection h with h
        refine op_of_list h.symm fun l out a h => ?_
        obtain ⟨h1, h2⟩ := C73_lossless_list _ l out a (.int 0) (.int 0) (.int 0) _ _ env.u (Or.inr (Or.inr (Or.inl h)))
        exact keeps_of_lossless h1 h2
      · obtain ⟨_, _, h⟩ := bind_eq_ok h
        split at h <;> cases h
    · cases h
  · obtain ⟨_, vals, h⟩ := made_any (name := "Token2IndexwithHash") (c := Builtin.token2indexHash env) rfl h
    unfold Builtin.token2indexHash at h
    dsimp only at h
    unfold Builtin.token2indexHashInit at h
    split at h
    · obtain ⟨d, _, h⟩ := bind_eq_ok h
      obtain ⟨_, _, h⟩ := bind_eq_ok h
      injection h with h
      refine op_of_list h.symm fun l out a h => ?_
      obtain ⟨h1, h2⟩ := C73_lossless_list _ l out a (.int 0) (.int 0) (.int 0) _ [] env.u
        (Or.inr (Or.inr (Or.inr (Or.inl h))))
      exact keeps_of_lossless h1 h2
    · cases h
  · obtain ⟨_, vals, h⟩ := made_any (name := "PureNum2Token") (c := Builtin.pureNum env) rfl h
    have hnum : ∀ token, op.run = lstOp (PureNum2Token.transform env.σ env.u token) → OpKeeps op := by
      intro token h
      refine op_of_list h fun l out a h => ?_
      obtain ⟨h1, h2⟩ := C73_lossless_list _ l out a (.int 0) (.int 0) token [] [] env.u
        (Or.inr (Or.inr (Or.inr (Or.inr h))))
      exact keeps_of_lossless h1 h2
    unfold Builtin.pureNum at h
    dsimp only at h
    unfold Builtin.pureNumInit at h
    split at h
    · injection h with h
      exact hnum _ h.symm
    · obtain ⟨t, _, h⟩ := bind_eq_ok h
      injection h with h
      exact hnum _ h.symm
    · cases h

theorem op_of_str' {op : Op} {f : Str → Res (Str × Aligner)} {P : Nat → Nat → Aligner → Prop} (hr : op.run = strOp f)
    (h : ∀ s out a, f s = .ok (out, a) → P s.length out.length a) :
    ∀ s t a, op.transform s = .ok (t, a) → P s.length t.length a := by
  intro s t a hs
  have hs := transform_run hs
  rw [hr] at hs
  cases s with
  | list l => cases hs
  | str s =>
    obtain ⟨⟨out, a'⟩, h1, h2⟩ := bind_eq_ok hs
    cases h2
    exact h _ _ _ h1

theorem op_of_list' {op : Op} {f : List Tok → Res (List Tok × Aligner)} {P : Nat → Nat → Aligner → Prop}
    (hr : op.run = lstOp f) (h : ∀ s out a, f s = .ok (out, a) → P s.length out.length a) :
    ∀ s t a, op.transform s = .ok (t, a) → P s.length t.length a := by
  intro s t a hs
  have hs := transform_run hs
  rw [hr] at hs
  cases s with
  | str l => cases hs
  | list s =>
    obtain ⟨⟨out, a'⟩, h1, h2⟩ := bind_eq_ok hs
    cases h2
    exact h _ _ _ h1

/-- The aligner moves labels between texts of these lengths. -/
def MovesTo (n m : Nat) (a : Aligner) : Prop := ∃ src dst c, Carries a.transform a.inverseTransform n m src dst c fun _ => 0

theorem block_moved (n m p q k : Nat) (c1 c2 ls : List Int) (hl : ls.length = n) (h1 : c1.length = p)
    (h2 : p + k + c2.length = m) (hk : q + k ≤ n) :
    c1 ++ (ls.drop q).take k ++ c2 = moved m (fun j => if p ≤ j ∧ j < p + k then some (j - p + q) else none)
      (fun j => if j < p then c1.getD j 0 else c2.getD (j - p - k) 0) ls := by
  have hb : ((ls.drop q).take k).length = k := by rw [List.length_take, List.length_drop]; omega
  refine moved_eq (by simp only [List.length_append, hb]; omega) fun j hj => ?_
  simp only [List.getD_eq_getElem?_getD]
  by_cases g1 : j < p
  · rw [if_neg (by omega), if_pos g1, List.append_assoc, List.getElem?_append_left (by omega)]
  · by_cases g2 : j < p + k
    · rw [if_pos (by omega), List.getElem?_append_left (by rw [List.length_append, hb]; omega),
        List.getElem?_append_right (by omega), List.getElem?_take, if_pos (by omega), List.getElem?_drop]
      congr 2
      omega
    · rw [if_neg (by omega), if_neg g1, List.getElem?_append_right (by rw [List.length_append, hb]; omega),
        List.length_append, hb]
      congr 2
      omega

/-- A stretch of labels is moved, and the rest filled. -/
theorem moves_block {a : Aligner} {n m : Nat} (p q k : Nat) (c1 c2 d1 d2 : List Int) (h1 : c1.length = p)
    (h2 : p + k + c2.length = m) (h3 : d1.length = q) (h4 : q + k + d2.length = n)
    (hf : ∀ ls : List Int, ls.length = n → a.transform ls = .ok (c1 ++ (ls.drop q).take k ++ c2))
    (hb : ∀ ys : List Int, ys.length = m → a.inverseTransform ys = .ok (d1 ++ (ys.drop p).take k ++ d2))
    (h0 : ∀ x ∈ d1 ++ d2, x = 0 := by simp) : MovesTo n m a := by
  have hz : ∀ (L : List Int) (j : Nat), (∀ x ∈ L, x = 0) → L.getD j 0 = 0 := fun L j h => by
    rw [List.getD_eq_getElem?_getD]
    cases e : L[j]? with
    | none => rfl
    | some x => exact h x (List.mem_of_getElem? e)
  have e0 : (fun j => if j < q then d1.getD j 0 else d2.getD (j - q - k) 0) = fun _ => (0 : Int) := funext fun j => by
    rw [hz d1 _ fun x hx => h0 x (List.mem_append_left _ hx), hz d2 _ fun x hx => h0 x (List.mem_append_right _ hx), ite_self]
  refine ⟨_, _, _, fun ls hl => (hf ls hl).trans (congrArg Except.ok (block_moved n m p q k c1 c2 ls hl h1 h2 (by omega))),
    fun ys hl => (hb ys hl).trans (congrArg Except.ok
      ((block_moved m n q p k d1 d2 ys hl h3 h4 (by omega)).trans (by rw [e0]))), fun i j => ?_,
    fun i j h => ?_⟩
  · constructor <;> intro h <;> split at h
    · cases h
      rw [if_pos (by omega)]
      congr 1
      omega
    · cases h
    · cases h
      rw [if_pos (by omega)]
      congr 1
      omega
    · cases h
  · split at h
    · cases h
      omega
    · cases h

theorem moves_pass {a : Aligner} {n m : Nat} (hm : m = n) (h : PassThrough a n) : MovesTo n m a := by
  subst hm
  refine moves_block 0 0 m [] [] [] [] rfl (by simp) rfl (by simp) (fun ls hl => ?_) fun ls hl => ?_
  · rw [(h ls hl).1]
    simp [← hl]
  · rw [(h ls hl).2]
    simp [← hl]

theorem single_moves (σ : SetOrder) (nv : Tok → Res (Option (List Tok)))
    (hnv : ∀ x v, nv x = .ok (some v) → v.length = 1) (l out : List Tok) (a : Aligner)
    (h : tokenwiseTransform σ nv l (fun _ n => Aligner.null l.length n) = .ok (out, a)) : MovesTo l.length out.length a :=
  have hp := single_pass σ nv hnv l out a h
  moves_pass hp.1 hp.2

theorem moves_sosEos (σ : SetOrder) (sos eos : Tok) (l out : List Tok) (a : Aligner)
    (h : AddSosEos.transform σ sos eos l = .ok (out, a)) : MovesTo l.length out.length a := by
  have hlen : l.length < 2 ^ 32 := by
    unfold AddSosEos.transform at h
    obtain ⟨g, hg, _⟩ := bind_eq_ok h
    have := addAll_bounds σ _ g hg ((l.length : Int), (l.length : Int), [eos]) (by simp)
    dsimp only at this
    omega
  by_cases hl : l = []
  · subst hl
    have he : Aligned a 0 out.length anyLabels := by
      by_cases hse : sos = eos
      · subst hse
        obtain ⟨a', h1, h2⟩ := C29_equal_tokens σ sos
        obtain ⟨rfl, rfl⟩ := det (f := AddSosEos.transform σ sos sos) h h1
        exact h2
      · obtain ⟨out', a', h1, h3, h2, _⟩ := C29_empty_list σ sos eos hse
        obtain ⟨rfl, rfl⟩ := det (f := AddSosEos.transform σ sos eos) h h1
        rcases h3 with rfl | rfl <;> exact h2
    obtain ⟨y, h1, h2⟩ := he.forward [] rfl
    refine moves_block 0 0 0 [] y [] [] rfl (by omega) rfl rfl (fun ls hls => ?_) fun ys hy => ?_
    · rw [List.length_eq_zero_iff.mp hls, h1]
      rfl
    · obtain ⟨x, h3, h4⟩ := he.backward ys hy trivial
      rw [h3, List.length_eq_zero_iff.mp h4]
      rfl
  · obtain ⟨a', h1, h2, h3, h4⟩ := C28_add_sos_eos σ sos eos l hl hlen
    obtain ⟨rfl, rfl⟩ := det (f := AddSosEos.transform σ sos eos) h h1
    refine moves_block 1 0 l.length [0] [0] [] [] rfl (by simp; omega) rfl (by simp) (fun ls hls => ?_) fun ys hy => ?_
    · rw [h3 ls hls]
      simp [← hls]
    · have hy : ys.length = l.length + 2 := by simpa using hy
      obtain ⟨x, ys, rfl⟩ := List.exists_cons_of_length_eq_add_one hy
      have hne : ys ≠ [] := fun e => by simp [e] at hy
      have e := List.dropLast_append_getLast hne
      have hd : ys.dropLast.length = l.length := by
        rw [List.length_dropLast]
        simp at hy
        omega
      rw [← e]
      refine (h4 _ _ _ hd).trans ?_
      simp [← hd]

theorem moves_end (σ : SetOrder) (eos : Tok) (l out : List Tok) (a : Aligner)
    (h : AddEndToken.transform σ eos l = .ok (out, a)) : MovesTo l.length out.length a := by
  have hlen : l.length < 2 ^ 32 := by
    unfold AddEndToken.transform at h
    obtain ⟨g, hg, _⟩ := bind_eq_ok h
    have := addAll_bounds σ _ g hg ((l.length : Int), (l.length : Int), [eos]) (by simp)
    dsimp only at this
    omega
  obtain ⟨a', h1, h2, h3, h4⟩ := C28_add_end_token σ eos l hlen
  obtain ⟨rfl, rfl⟩ := det (f := AddEndToken.transform σ eos) h h1
  refine moves_block 0 0 l.length [] [0] [] [] rfl (by simp) rfl (by simp) (fun ls hls => ?_) fun ys hy => ?_
  · rw [h3 ls hls]
    simp [← hls]
  · have hy : ys.length = l.length + 1 := by simpa using hy
    have hne : ys ≠ [] := fun e => by simp [e] at hy
    have e := List.dropLast_append_getLast hne
    have hd : ys.dropLast.length = l.length := by
      rw [List.length_dropLast]
      omega
    rw [← e]
    refine (h4 _ _ hd).trans ?_
    simp [← hd]

theorem moves_pad (σ : SetOrder) (maxlen : Int) (pad : Tok) (l out : List Tok) (a : Aligner)
    (h : Pad.transform σ maxlen pad l = .ok (out, a)) : MovesTo l.length out.length a := by
  by_cases hneg : maxlen < 0
  · rw [C30_negative σ maxlen pad l hneg] at h
    cases h
  obtain ⟨n, rfl⟩ := Int.eq_ofNat_of_zero_le (show 0 ≤ maxlen by omega)
  by_cases hl : l.length = n ∨ l.length < 2 ^ 32
  · obtain ⟨a', h1, h2, h3, h4⟩ := C30_pad σ n pad l hl
    obtain ⟨rfl, rfl⟩ := det (f := Pad.transform σ n pad) h h1
    have ho : (l.take n ++ List.replicate (n - l.length) pad).length = n := by
      simp only [List.length_append, List.length_take, List.length_replicate]
      omega
    rw [ho]
    refine moves_block 0 0 (min n l.length) [] (List.replicate (n - l.length) 0) [] (List.replicate (l.length - n) 0) rfl
      (by simp; omega) rfl (by simp; omega) (fun ls hls => ?_) fun ys hy => ?_
    · rw [h3 ls hls, List.drop_zero, List.nil_append, ← hls, ← List.take_take, List.take_length]
    · rw [h4 ys hy, List.drop_zero, List.nil_append, Nat.min_comm, ← List.take_take]
      congr 3
      rw [← hy, List.take_length]
  · exact absurd h (C30_too_long σ n pad l (by omega) (by omega) _)

theorem moves_strip (σ : SetOrder) (s out : Str) (a : Aligner) (h : StripWhiteSpaceCharacters.transform σ s = .ok (out, a)) :
    MovesTo s.length out.length a := by
  obtain ⟨a', h1, h2, lead, trail, h3, _, _, _, h4, h5⟩ := C22_strip σ s
  obtain ⟨rfl, rfl⟩ := det (f := StripWhiteSpaceCharacters.transform σ) h h1
  refine moves_block 0 lead (strip s).length [] [] (List.replicate lead 0) (List.replicate trail 0) rfl (by simp) (by simp)
    (by simp; omega) (fun ls hls => ?_) fun ys hy => ?_
  · rw [h4 ls hls]
    simp
  · rw [h5 ys hy]
    simp [← hy]

theorem blank_moved {s : Str} (b : Char → Prop) [DecidablePred b] {ls : List Int} (hl : ls.length = s.length) :
    ((s.zip ls).map fun p => if b p.1 then 0 else p.2) =
      moved s.length (fun j => if j < s.length ∧ ¬ b (s.getD j ' ') then some j else none) (fun _ => 0) ls := by
  refine moved_eq (by simp [hl]) fun j hj => ?_
  have e1 : s.getD j ' ' = s[j] := by simp [hj]
  have e2 : ls.getD j 0 = ls[j]'(by omega) := by simp [hl, hj]
  rw [List.getD_eq_getElem?_getD, List.getElem?_map, show (s.zip ls)[j]? = some (s[j], ls[j]'(by omega)) from
    List.getElem?_zip_eq_some.mpr ⟨by simp, by simp⟩]
  simp only [Option.map_some, Option.getD_some, e1]
  by_cases hb : b s[j]
  · rw [if_pos hb, if_neg (by simp [hb])]
  · rw [if_neg hb, if_pos ⟨hj, hb⟩]
    exact e2.symm

theorem moves_blank (σ : SetOrder) (u : Unicode) (s out : Str) (a : Aligner)
    (h : PunctuationExceptEndpointToWhitespace.transform σ u s = .ok (out, a)) : MovesTo s.length out.length a := by
  obtain ⟨a', h1, h2, h3⟩ := C26_transform σ u s
  obtain ⟨rfl, rfl⟩ := det (f := PunctuationExceptEndpointToWhitespace.transform σ u) h h1
  rw [List.length_map]
  let b : Char → Prop := fun c => (c ∈ asciiPunctuation ∨ u.isCatP c = true) ∧ c ≠ '.'
  refine ⟨_, _, _, fun ls hl => (h3 ls hl).1.trans (congrArg Except.ok (blank_moved b hl)),
    fun ls hl => (h3 ls hl).2.trans (congrArg Except.ok (blank_moved b hl)), fun i j => ?_, fun i j h => ?_⟩
  · constructor <;> intro h <;> split at h <;> cases h <;> rw [if_pos (by assumption)]
  · split at h
    · rename_i g
      cases h
      exact ⟨g.1, g.1⟩
    · cases h

/-- C119: the steps that only move labels. -/
theorem C119_moves (env : Env) (name : String) (op : Op) (h : Made env name op)
    (hn : name ∈ ["Lowercase", "StripAccentToken", "StripWhiteSpaceCharacters", "PunctuationExceptEndpointToWhitespace",
      "AddSosEos", "AddEndToken", "Pad", "Token2Index", "Token2IndexwithHash", "PureNum2Token"]) : OpMoves op := by
  simp only [List.mem_cons, List.not_mem_nil, or_false] at hn
  rcases hn with rfl | rfl | rfl | rfl | rfl | rfl | rfl | rfl | rfl | rfl
  · rw [made_simple (env := env) (name := "Lowercase") rfl h]
    refine op_of_str' (P := MovesTo) rfl fun s out a h => ?_
    obtain ⟨a', h1, h2, h3⟩ := C16_lowercase env.σ s
    obtain ⟨rfl, rfl⟩ := det (f := Lowercase.transform env.σ) h h1
    exact moves_pass (by simp) h3
  · rw [made_simple (env := env) (name := "StripAccentToken") rfl h]
    refine op_of_str' (P := MovesTo) rfl fun s out a h => ?_
    by_cases hl : ((env.u.nfd s).filter fun c => !env.u.isMn c).length = s.length
    · obtain ⟨a', h1, h2, h3⟩ := C27_transform env.σ env.u s hl
      obtain ⟨rfl, rfl⟩ := det (f := StripAccentToken.transform env.σ env.u) h h1
      exact moves_pass hl h3
    · rw [C27_length_change env.σ env.u s hl] at h
      cases h
  · rw [made_simple (env := env) (name := "StripWhiteSpaceCharacters") rfl h]
    exact op_of_str' (P := MovesTo) rfl (moves_strip env.σ)
  · rw [made_simple (env := env) (name := "PunctuationExceptEndpointToWhitespace") rfl h]
    exact op_of_str' (P := MovesTo) rfl (moves_blank env.σ env.u)
  · obtain ⟨_, vals, h⟩ := made_any (name := "AddSosEos") (c := Builtin.sosEos env) rfl h
    unfold Builtin.sosEos at h
    dsimp only at h
    unfold Builtin.sosEosInit at h
    split at h
    · obtain ⟨s, _, h⟩ := bind_eq_ok h
      obtain ⟨e, _, h⟩ := bind_eq_ok h
      injection h with h
      exact op_of_list' (P := MovesTo) h.symm (moves_sosEos _ _ _)
    · cases h
  · obtain ⟨_, vals, h⟩ := made_any (name := "AddEndToken") (c := Builtin.endTok env) rfl h
    unfold Builtin.endTok at h
    dsimp only at h
    unfold Builtin.endTokInit at h
    split at h
    · cases h
    · obtain ⟨e, _, h⟩ := bind_eq_ok h
      obtain ⟨e', _, h⟩ := bind_eq_ok h
      injection h with h
      exact op_of_list' (P := MovesTo) h.symm (moves_end _ _)
    · cases h
  · obtain ⟨_, vals, h⟩ := made_any (name := "Pad") (c := Builtin.pad env) rfl h
    unfold Builtin.pad at h
    dsimp only at h
    unfold Builtin.padInit at h
    split at h
    · obtain ⟨t, _, h⟩ := bind_eq_ok h
      injection h with h
      refine op_of_list' (P := MovesTo) h.symm fun l out a h => ?_
      obtain ⟨k, _, h⟩ := bind_eq_ok h
      exact moves_pad _ _ _ _ _ _ h
    · cases h
  · obtain ⟨_, vals, h⟩ := made_any (name := "Token2Index") (c := Builtin.token2index env) rfl h
    unfold Builtin.token2index at h
    dsimp only at h
    unfold Builtin.token2indexInit at h
    split at h
    · obtain ⟨d, _, h⟩ := bind_eq_ok h
      split at h
      · obtain ⟨_, _, h⟩ := bind_eq_ok h
        injection h with h
        exact op_of_list' (P := MovesTo) h.symm fun l out a h => single_moves _ _ (token2index_one d _) l out a h
      · obtain ⟨_, _, h⟩ := bind_eq_ok h
        split at h <;> cases h
    · cases h
  · obtain ⟨_, vals, h⟩ := made_any (name := "Token2IndexwithHash") (c := Builtin.token2indexHash env) rfl h
    unfold Builtin.token2indexHash at h
    dsimp only at h
    unfold Builtin.token2indexHashInit at h
    split at h
    · obtain ⟨d, _, h⟩ := bind_eq_ok h
      obtain ⟨_, _, h⟩ := bind_eq_ok h
      injection h with h
      exact op_of_list' (P := MovesTo) h.symm fun l out a h => single_moves _ _ (token2indexHash_one d) l out a h
    · cases h
  · obtain ⟨_, vals, h⟩ := made_any (name := "PureNum2Token") (c := Builtin.pureNum env) rfl h
    have hnum : ∀ token, op.run = lstOp (PureNum2Token.transform env.σ env.u token) → OpMoves op := fun token h =>
      op_of_list' (P := MovesTo) h fun l out a h => single_moves _ _ (pureNum_one env.u token) l out a h
    unfold Builtin.pureNum at h
    dsimp only at h
    unfold Builtin.pureNumInit at h
    split at h
    · injection h with h
      exact hnum _ h.symm
    · obtain ⟨t, _, h⟩ := bind_eq_ok h
      injection h with h
      exact hnum _ h.symm
    · cases h

theorem settlesAll_after' {as bs : List Aligner} (ha : ∀ ys xs, realignAll as ys = .ok xs → alignAll as xs = .ok ys)
    (h : SettlesAll bs) : SettlesAll (as ++ bs) := by
  refine ⟨fun ls ys xs h1 h2 => ?_, fun ys xs zs h1 h2 => ?_⟩
  · rw [alignAll_append'] at h1 ⊢
    rw [realignAll_append'] at h2
    obtain ⟨m, _, h1⟩ := bind_eq_ok h1
    obtain ⟨m', h3, h4⟩ := bind_eq_ok h2
    rw [ha _ _ h4]
    exact h.fromInput m ys m' h1 h3
  · rw [realignAll_append'] at h1 ⊢
    rw [alignAll_append'] at h2
    obtain ⟨m, h3, h4⟩ := bind_eq_ok h1
    obtain ⟨m', h5, h6⟩ := bind_eq_ok h2
    rw [ha _ _ h4] at h5
    cases h5
    rw [h.fromOutput ys m zs h3 h6]
    exact h4

/-- C119: the basic BERT pipe gives any labels of its tokens back, and settles. -/
theorem C119_bert_basic (env : Env) (he : env.Sane) (s : Str) (f : Char → Char) (hf : Charwise env.u f s) (p : Pipe)
    (hp : Bert.basicPipe (Builtin.registryDefault env) = .ok p) (o : Seq) (as : List Aligner) (coll : List Seq)
    (h : p.transformSequence (.str s) = .ok (o, as, coll)) :
    SettlesAll as ∧ ∀ ys xs, realignAll as ys = .ok xs → alignAll as xs = .ok ys := by
  have hr : ∀ ys xs, realignAll as ys = .ok xs → alignAll as xs = .ok ys := by
    obtain ⟨ps, tail, hps, _⟩ := C68_alone env.u s
    obtain ⟨p', as', coll', h1, h2, h3, h4, h5⟩ := C68_tokens env s f hf ps tail hps
    cases hp.symm.trans h1
    cases h.symm.trans h2
    obtain ⟨p', h6, h7, h8⟩ := C68_basic env he s
    cases hp.symm.trans h6
    by_cases hl : (unaccented env.u (bertText env.u s)).length = (bertText env.u s).length
    · obtain ⟨as', coll', h9, hF⟩ := h7 hl
      have e := Except.ok.inj (h.symm.trans h9)
      have e1 := congrArg List.length (Seq.list.inj (Prod.mk.inj e).1)
      obtain ⟨rfl, _⟩ := Prod.mk.inj (Prod.mk.inj e).2
      rw [List.length_map, List.length_map] at e1
      rw [← e1] at hF
      have hne : as ≠ [] := by
        cases hp.symm.trans (basicPipe_eq env)
        obtain ⟨rs, r, _, rfl, _⟩ := (C58_composition _ _ _ _ _).mp h
        cases r
        exact fun e => by cases e
      intro ys xs hx
      have hy : ys.length = ps.length := by
        by_contra hy
        rw [hF.refuseBack hne ys hy] at hx
        cases hx
      by_cases hu : uintLabels ys
      · rw [h4 ys hy hu] at hx
        cases hx
        have hcl : (charLabels ps tail ys).length = s.length := by
          obtain ⟨x, h10, h11, _⟩ := hF.backward ys hy hu
          rw [h4 ys hy hu] at h10
          cases h10
          exact h11
        rw [h3 _ hcl, map_tokenLabel_charLabels ps tail ys hy hps.nonempty hu]
      · rw [h5 ys hy hu] at hx
        cases hx
    · rw [h8 hl] at h
      cases h
  refine ⟨?_, hr⟩
  have := settlesAll_after' hr settlesAll_nil
  rwa [List.append_nil] at this

/-- C119: the BERT pipe for word pieces settles. -/
theorem C119_bert_pieces (env : Env) (he : env.Sane) (p : Pipe) (hp : Bert.wordPiecePipe (Builtin.registryDefault env) = .ok p)
    (s o : Seq) (as : List Aligner) (coll : List Seq) (h : p.transformSequence s = .ok (o, as, coll)) : SettlesAll as := by
  cases hp.symm.trans (wordPiecePipe_eq env)
  refine C119_pipe env he [_] [_] [] [] (fun op ho => ?_) (Or.inl ⟨_, rfl, wordPieceOp_builtin env⟩) (fun _ h => by cases h)
    s o as coll h
  rw [List.mem_singleton] at ho
  subst ho
  exact C119_returns env "WhiteSpaceTokenizer" _ ⟨[], [], rfl⟩ (by decide)

/-- C119: the full BERT pipe settles. -/
theorem C119_bert_full (env : Env) (he : env.Sane) (s : Str) (f : Char → Char) (hf : Charwise env.u f s) (p : Pipe)
    (hp : Bert.fullPipe (Builtin.registryDefault env) = .ok p) (o : Seq) (as : List Aligner) (coll : List Seq)
    (h : p.transformSequence (.str s) = .ok (o, as, coll)) : SettlesAll as := by
  cases hp.symm.trans (fullPipe_eq env)
  obtain ⟨rs, r, _, rfl, _⟩ := (C58_composition _ _ _ _ _).mp h
  obtain ⟨rs1, rs2, rfl, r1, r2⟩ := Runs.split r
  rw [List.map_append]
  refine settlesAll_after' (C119_bert_basic env he s f hf _ (basicPipe_eq env) _ _ _
    ((C58_composition _ _ _ _ _).mpr ⟨rs1, r1, rfl, rfl, rfl⟩)).2 ?_
  clear r h
  cases r2 with
  | cons h r =>
    cases r
    exact settlesAll_one (C73_settles env he _ (fullOp_builtin env) _ _ _ h)

/-- Words, a frame around them, and a fixed length: a pipe that settles, with a run of it. -/
example : ∃ ops : List Op, (∀ s o as coll, (⟨ops, []⟩ : Pipe).transformSequence s = .ok (o, as, coll) → SettlesAll as) ∧
    ((⟨ops, []⟩ : Pipe).transformSequence (.str " Ab c".toList)).map Prod.fst =
      .ok (.list [.str startToken, .str "ab".toList, .str "c".toList, .str endToken, .str padToken]) := by
  obtain ⟨o1, h1⟩ : ∃ op, create exEnv "Lowercase" [] [] = .ok op := ⟨_, rfl⟩
  obtain ⟨o2, h2⟩ : ∃ op, create exEnv "WhiteSpaceTokenizer" [] [] = .ok op := ⟨_, rfl⟩
  obtain ⟨o3, h3⟩ : ∃ op, create exEnv "AddSosEos" [] [] = .ok op := ⟨_, rfl⟩
  obtain ⟨o4, h4⟩ : ∃ op, create exEnv "Pad" [.int 5] [] = .ok op := ⟨_, rfl⟩
  refine ⟨[o1, o2] ++ [o3, o4] ++ [], fun s o as coll h => C119_pipe exEnv exEnv_sane [o1, o2] [o3, o4] [] [] ?_ (Or.inr ?_) ?_
    s o as coll h, ?_⟩
  · intro op ho
    simp only [List.mem_cons, List.not_mem_nil, or_false] at ho
    rcases ho with rfl | rfl
    · exact C119_returns exEnv "Lowercase" _ ⟨_, _, h1⟩ (by decide)
    · exact C119_returns exEnv "WhiteSpaceTokenizer" _ ⟨_, _, h2⟩ (by decide)
  · intro op ho
    simp only [List.mem_cons, List.not_mem_nil, or_false] at ho
    rcases ho with rfl | rfl
    · exact C119_moves exEnv "AddSosEos" _ ⟨_, _, h3⟩ (by decide)
    · exact C119_moves exEnv "Pad" _ ⟨_, _, h4⟩ (by decide)
  · exact fun _ h => by cases h
  · cases h1; cases h2; cases h3; cases h4
    rfl

/-- One step that merges labels, then steps that keep them. -/
example : ∃ ops : List Op, (∀ s o as coll, (⟨ops, []⟩ : Pipe).transformSequence s = .ok (o, as, coll) → SettlesAll as) ∧
    ((⟨ops, []⟩ : Pipe).transformSequence (.str "12 a".toList)).map Prod.fst = .ok (.str " _int_  a".toList) := by
  obtain ⟨o1, h1⟩ : ∃ op, create exEnv "IntTokenWithSpace" [] [] = .ok op := ⟨_, rfl⟩
  obtain ⟨o2, h2⟩ : ∃ op, create exEnv "AddWhitespaceAroundCJK" [] [] = .ok op := ⟨_, rfl⟩
  refine ⟨[] ++ [o1] ++ [o2], fun s o as coll h => C119_pipe exEnv exEnv_sane [] [o1] [o2] [] (fun _ h => by cases h)
    (Or.inl ⟨o1, rfl, ?_⟩) (fun op ho => ?_) s o as coll h, ?_⟩
  · exact create_builtin h1
  · rw [List.mem_singleton] at ho
    subst ho
    exact C119_keeps exEnv "AddWhitespaceAroundCJK" _ ⟨_, _, h2⟩ (by decide)
  · cases h1; cases h2
    rfl

example : ∃ p o as coll, Bert.fullPipe (Builtin.registryDefault exEnv) = .ok p ∧
    p.transformSequence (.str "Hi".toList) = .ok (o, as, coll) ∧ SettlesAll as := by
  obtain ⟨b, p, h1, h2, _, h3⟩ := C68_full exEnv exEnv_sane "Hi".toList
  obtain ⟨ps, tail, hps, _⟩ := C68_alone exEnv.u "Hi".toList
  obtain ⟨b', as, coll, h4, h5, _⟩ := C68_tokens exEnv "Hi".toList _ (exEnv_charwise _ (by decide)) ps tail hps
  cases h1.symm.trans h4
  obtain ⟨words, subs, a, _, _, ⟨coll', h6⟩, _⟩ := h3 _ _ _ h5
  exact ⟨p, _, _, _, h2, h6, C119_bert_full exEnv exEnv_sane _ _ (exEnv_charwise _ (by decide)) p h2 _ _ _ h6⟩
end Uttut
