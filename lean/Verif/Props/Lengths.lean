import Verif.Props.Framing

/-!
C116: pipes that differ in the length to which `Pad` brings the tokens.
-/

namespace Uttut

open Spec

/-! ### two lengths -/

theorem padded_length {α : Type} (p : α) (m : Nat) (l : List α) : (l.take m ++ List.replicate (m - l.length) p).length = m := by
  rw [List.length_append, List.length_take, List.length_replicate]
  omega

theorem take_padded {α : Type} (p : α) {n m : Nat} (h : n ≤ m) (l : List α) :
    (l.take m ++ List.replicate (m - l.length) p).take n = l.take n ++ List.replicate (n - l.length) p := by
  rw [List.take_append, List.take_take, Nat.min_eq_left h, List.take_replicate, List.length_take]
  congr 2
  omega

theorem pad_up {α : Type} (p : α) {n m : Nat} (h : m ≤ n) (l : List α) (hl : l.length ≤ m) :
    (l.take m ++ List.replicate (m - l.length) p).take n ++ List.replicate (n - m) p =
      l.take n ++ List.replicate (n - l.length) p := by
  rw [List.take_of_length_le (by rw [padded_length]; omega), List.take_of_length_le hl,
    List.take_of_length_le (by omega), List.append_assoc, List.replicate_append_replicate]
  congr 2
  omega

/-- Fill up `n` labels to `m` and cut them to `k`, or cut and fill up at once. -/
theorem unpad_twice {n m k : Nat} (h : n ≤ m) (ys : List Int) (hy : ys.length = n) :
    (ys.take m ++ List.replicate (m - n) 0).take k ++ List.replicate (k - m) 0 =
      ys.take k ++ List.replicate (k - n) 0 := by
  apply List.ext_getElem?
  intro i
  simp only [List.getElem?_append, List.getElem?_take, List.getElem?_replicate, List.length_append, List.length_take,
    List.length_replicate, hy]
  by_cases h1 : i < k
  · by_cases h2 : i < n
    · rw [if_pos (by omega), if_pos h1, if_pos (by omega), if_pos (by omega), if_pos (by omega), if_pos h1]
    · by_cases h3 : i < m
      · rw [if_pos (by omega), if_pos h1, if_neg (by omega), if_pos (by omega), if_neg (by omega), if_pos (by omega)]
      · rw [if_neg (by omega), if_pos (by omega), if_neg (by omega), if_pos (by omega)]
  · rw [if_neg (by omega), if_neg (by omega), if_neg (by omega), if_neg (by omega)]

theorem answers_two {a b c : Aligner} {n m k : Nat} {f g f' g' f'' g'' : List Int → List Int} (ha : Answers a n m f g)
    (hb : Answers b m k f' g') (hc : Answers c n k f'' g'') (h1 : ∀ ls, ls.length = n → f' (f ls) = f'' ls)
    (h2 : ∀ ys, ys.length = k → g (g' ys) = g'' ys) :
    (∀ ls, alignAll [a, b] ls = alignAll [c] ls) ∧ ∀ ys, realignAll [a, b] ys = realignAll [c] ys := by
  constructor
  · intro ls
    show (a.transform ls >>= fun x => b.transform x >>= fun y => .ok y) = (c.transform ls >>= fun y => .ok y)
    by_cases hl : ls.length = n
    · obtain ⟨e1, e2⟩ := ha.forward ls hl
      rw [e1, Except.bind_ok, (hb.forward _ e2).1, (hc.forward ls hl).1, h1 ls hl]
    · rw [C15_transform_wrong_length a ls (by rw [ha.input]; exact hl),
        C15_transform_wrong_length c ls (by rw [hc.input]; exact hl)]
      rfl
  · intro ys
    rw [realignAll_cons, realignAll_cons, realignAll_cons]
    show (b.inverseTransform ys >>= fun x => a.inverseTransform x) = c.inverseTransform ys
    by_cases hl : ys.length = k
    · obtain ⟨e1, e2⟩ := hb.backward ys hl
      rw [e1, Except.bind_ok, (ha.backward _ e2).1, (hc.backward ys hl).1, h2 ys hl]
    · rw [C15_inverse_wrong_length b ys (by rw [hb.output]; exact hl),
        C15_inverse_wrong_length c ys (by rw [hc.output]; exact hl)]
      rfl

theorem framed_one {F : Op} {s t : Seq} {a : Aligner} (h : F.transform s = .ok (t, a)) :
    Pipe.runSteps [F] s [] [] = .ok (t, [a], [t]) := by
  unfold Pipe.runSteps
  rw [h]
  rfl

/-- C116: of two `Pad`s in a row the second, if it is the shorter one, decides on the length and the first on the token. -/
theorem C116_down (env : Env) (n m : Nat) (p q : Tok) (hnm : n ≤ m) (hm : m < 2 ^ 32) (P Q R : Op)
    (hP : (Frame.pad m p).Is env P) (hQ : (Frame.pad n q).Is env Q) (hR : (Frame.pad n p).Is env R) (l : List Tok)
    (hl : l.length < 2 ^ 32) :
    SameOutcome (Pipe.transformSequence ⟨[P, Q], []⟩ (.list l)) (Pipe.transformSequence ⟨[R], []⟩ (.list l)) := by
  obtain ⟨a, h1, ha⟩ := frame_step hP l hl
  have e1 : ((Frame.pad m p).around l).length = m := padded_length p m l
  obtain ⟨b, h2, hb⟩ := frame_step hQ ((Frame.pad m p).around l) (show _ < _ by rw [e1]; exact hm)
  obtain ⟨c, h3, hc⟩ := frame_step hR l hl
  rw [e1] at hb
  have e2 : (Frame.pad n q).around ((Frame.pad m p).around l) = (Frame.pad n p).around l := by
    show List.take n _ ++ List.replicate (n - ((Frame.pad m p).around l).length) q = _
    rw [e1, Nat.sub_eq_zero_of_le hnm, List.replicate_zero, List.append_nil]
    exact take_padded p hnm l
  rw [e2] at h2
  refine run_same ?_
  rw [framed_two h1 h2, framed_one h3]
  obtain ⟨f, g⟩ := answers_two ha hb hc
    (by
      intro ls hls
      show List.take n _ ++ List.replicate (n - m) (0 : Int) = ls.take n ++ List.replicate (n - l.length) 0
      rw [Nat.sub_eq_zero_of_le hnm, List.replicate_zero, List.append_nil, ← hls]
      exact take_padded 0 hnm ls)
    (by
      intro ys hys
      show (ys.take m ++ List.replicate (m - n) 0).take l.length ++ List.replicate (l.length - m) 0 =
        ys.take l.length ++ List.replicate (l.length - n) 0
      exact unpad_twice hnm ys hys)
  exact .ok _ _ _ _ _ f g

/-- C116: `Pad` to a length and then to a larger one is the same as the second alone exactly if the first cuts nothing
off. -/
theorem C116_up (env : Env) (n m : Nat) (p : Tok) (hnm : m < n) (hm : m < 2 ^ 32) (P Q : Op)
    (hP : (Frame.pad m p).Is env P) (hQ : (Frame.pad n p).Is env Q) (l : List Tok) (hl : l.length < 2 ^ 32) :
    SameOutcome (Pipe.transformSequence ⟨[P, Q], []⟩ (.list l)) (Pipe.transformSequence ⟨[Q], []⟩ (.list l)) ↔
      l.length ≤ m := by
  obtain ⟨a, h1, ha⟩ := frame_step hP l hl
  have e1 : ((Frame.pad m p).around l).length = m := padded_length p m l
  obtain ⟨b, h2, hb⟩ := frame_step hQ ((Frame.pad m p).around l) (show _ < _ by rw [e1]; exact hm)
  obtain ⟨c, h3, hc⟩ := frame_step hQ l hl
  rw [e1] at hb
  constructor
  · intro h
    by_contra hlt
    have r1 : Pipe.transformSequence ⟨[P, Q], []⟩ (.list l) =
        .ok (.list ((Frame.pad n p).around ((Frame.pad m p).around l)), [a, b],
          [.list l, .list ((Frame.pad m p).around l), .list ((Frame.pad n p).around ((Frame.pad m p).around l))]) := by
      unfold Pipe.transformSequence
      rw [runSteps_acc, framed_two h1 h2]
      rfl
    have r2 : Pipe.transformSequence ⟨[Q], []⟩ (.list l) =
        .ok (.list ((Frame.pad n p).around l), [c], [.list l, .list ((Frame.pad n p).around l)]) := by
      unfold Pipe.transformSequence
      rw [runSteps_acc, framed_one h3]
      rfl
    rw [r1, r2] at h
    generalize he1 : (Frame.pad n p).around ((Frame.pad m p).around l) = o1 at h
    generalize he2 : (Frame.pad n p).around l = o2 at h
    cases h with
    | ok out as bs coll coll' f g =>
      have h4 := g (List.replicate n 1)
      rw [realignAll_cons, realignAll_cons, realignAll_cons] at h4
      have h5 : (b.inverseTransform (List.replicate n 1) >>= fun x => a.inverseTransform x) =
        c.inverseTransform (List.replicate n 1) := h4
      obtain ⟨k1, k2⟩ := hb.backward (List.replicate n 1) (by simp [Frame.size])
      rw [k1, Except.bind_ok, (ha.backward _ k2).1, (hc.backward (List.replicate n 1) (by simp [Frame.size])).1] at h5
      injection h5 with h5
      have h6 := congrArg (fun x : List Int => x[m]?) h5
      simp only [Frame.unlabels, List.getElem?_append, List.getElem?_take, List.getElem?_replicate, List.length_append,
        List.length_take, List.length_replicate] at h6
      rw [if_neg (by omega), if_pos (by omega), if_pos (by omega), if_pos (by omega), if_pos hnm] at h6
      cases h6
  · intro hlm
    have e2 : (Frame.pad n p).around ((Frame.pad m p).around l) = (Frame.pad n p).around l := by
      show List.take n _ ++ List.replicate (n - ((Frame.pad m p).around l).length) p = _
      rw [e1]
      exact pad_up p (by omega) l hlm
    rw [e2] at h2
    refine run_same ?_
    rw [framed_two h1 h2, framed_one h3]
    obtain ⟨f, g⟩ := answers_two ha hb hc
      (by
        intro ls hls
        show List.take n _ ++ List.replicate (n - m) (0 : Int) = ls.take n ++ List.replicate (n - l.length) 0
        rw [← hls]
        exact pad_up 0 (by omega) ls (by omega))
      (by
        intro ys hys
        show (ys.take m ++ List.replicate (m - n) 0).take l.length ++ List.replicate (l.length - m) 0 =
          ys.take l.length ++ List.replicate (l.length - n) 0
        rw [Nat.sub_eq_zero_of_le (Nat.le_of_lt hnm), Nat.sub_eq_zero_of_le hlm, Nat.sub_eq_zero_of_le (by omega),
          List.replicate_zero, List.append_nil, List.append_nil, List.append_nil, List.take_take, Nat.min_eq_left hlm])
    exact .ok _ _ _ _ _ f g

/-! ### the steps behind -/

theorem translators_run {env : Env} {tail : List Op} (h : ∀ op ∈ tail, ∃ name ∈ translatorNames, Made env name op) :
    ∃ (good : Tok → Prop) (tr : Tok → Tok),
      (∀ l, (∀ t ∈ l, good t) → ∃ coll, Pipe.runSteps tail (.list l) [] [] =
        .ok (.list (l.map tr), tail.map fun _ => Aligner.null l.length l.length, coll)) ∧
      ∀ l, (∃ t ∈ l, ¬ good t) → ∃ e, Pipe.runSteps tail (.list l) [] [] = .error e := by
  induction tail with
  | nil =>
    refine ⟨fun _ => True, id, fun l _ => ⟨[], ?_⟩, fun l ⟨_, _, h⟩ => absurd trivial h⟩
    rw [List.map_id]
    rfl
  | cons op tail ih =>
    obtain ⟨name, hn, hm⟩ := h op (List.mem_cons_self ..)
    obtain ⟨good1, tr1, e1, k1, k2⟩ := translator_step hm hn
    obtain ⟨good2, tr2, k3, k4⟩ := ih fun o ho => h o (List.mem_cons_of_mem _ ho)
    have step : ∀ l a t, op.transform (.list l) = .ok (t, a) → Pipe.runSteps (op :: tail) (.list l) [] [] =
        Pipe.runSteps tail t [] [] >>= fun r => .ok (r.1, a :: r.2.1, t :: r.2.2) := by
      intro l a t ht
      conv => lhs; unfold Pipe.runSteps
      rw [ht, Except.bind_ok]
      dsimp only
      rw [runSteps_acc]
      rfl
    refine ⟨fun t => good1 t ∧ good2 (tr1 t), tr2 ∘ tr1, fun l hl => ?_, fun l hl => ?_⟩
    · obtain ⟨coll, h5⟩ := k3 (l.map tr1) (by
        intro t ht
        obtain ⟨u, hu, rfl⟩ := List.mem_map.mp ht
        exact (hl u hu).2)
      rw [step l _ _ (k1 l fun t ht => (hl t ht).1), h5, Except.bind_ok]
      refine ⟨.list (l.map tr1) :: coll, ?_⟩
      rw [List.map_map, List.length_map]
      rfl
    · by_cases hg : ∀ t ∈ l, good1 t
      · obtain ⟨t, ht, hb⟩ := hl
        obtain ⟨e, h5⟩ := k4 (l.map tr1) ⟨tr1 t, List.mem_map_of_mem ht, fun h => hb ⟨hg t ht, h⟩⟩
        rw [step l _ _ (k1 l hg), h5]
        exact ⟨e, rfl⟩
      · have : ∃ t ∈ l, ¬ good1 t := by
          by_contra hc
          exact hg fun t ht => by
            by_contra hn
            exact hc ⟨t, ht, hn⟩
        refine ⟨e1, ?_⟩
        unfold Pipe.runSteps
        rw [k2 l this]
        rfl

theorem nulls_pass {α : Type} (tail : List α) (n : Nat) (ls : List Int) (h : ls.length = n) :
    alignAll (tail.map fun _ => Aligner.null n n) ls = .ok ls ∧
      realignAll (tail.map fun _ => Aligner.null n n) ls = .ok ls := by
  induction tail with
  | nil => exact ⟨rfl, rfl⟩
  | cons x tail ih =>
    constructor
    · rw [List.map_cons]
      unfold alignAll
      rw [((null_passThrough n) ls h).1, Except.bind_ok]
      exact ih.1
    · rw [List.map_cons, realignAll_cons, ih.2, Except.bind_ok]
      exact ((null_passThrough n) ls h).2

/-- A pipe with `Pad` and translating steps behind it. -/
theorem padded_run {env : Env} {n : Nat} {p : Tok} {P : Op} {front tail : List Op} (hP : (Frame.pad n p).Is env P)
    {good : Tok → Prop} {tr : Tok → Tok}
    (k1 : ∀ l, (∀ t ∈ l, good t) → ∃ coll, Pipe.runSteps tail (.list l) [] [] =
        .ok (.list (l.map tr), tail.map fun _ => Aligner.null l.length l.length, coll))
    (k2 : ∀ l, (∃ t ∈ l, ¬ good t) → ∃ e, Pipe.runSteps tail (.list l) [] [] = .error e)
    {cks cks' : List (Str × Int)} {s : Seq} {toks : List Tok} {as0 : List Aligner} {coll0 : List Seq}
    (hf : (⟨front, cks⟩ : Pipe).transformSequence s = .ok (.list toks, as0, coll0)) (hlen : toks.length < 2 ^ 32) :
    ∃ a, Answers a toks.length n ((Frame.pad n p).labels toks.length) ((Frame.pad n p).unlabels toks.length) ∧
      ((∀ t ∈ (Frame.pad n p).around toks, good t) →
        ∃ coll, (⟨front ++ P :: tail, cks'⟩ : Pipe).transformSequence s =
          .ok (.list (((Frame.pad n p).around toks).map tr), as0 ++ a :: tail.map fun _ => Aligner.null n n, coll)) ∧
      ((∃ t ∈ (Frame.pad n p).around toks, ¬ good t) →
        ∃ e, (⟨front ++ P :: tail, cks'⟩ : Pipe).transformSequence s = .error e) := by
  obtain ⟨a, h1, ha⟩ := frame_step hP toks hlen
  have hl : ((Frame.pad n p).around toks).length = n := padded_length p n toks
  have hf' : Pipe.runSteps front s [] [s] = .ok (.list toks, as0, coll0) := hf
  have run : (⟨front ++ P :: tail, cks'⟩ : Pipe).transformSequence s =
      Pipe.runSteps tail (.list ((Frame.pad n p).around toks)) [] [] >>= fun r =>
        .ok (r.1, (as0 ++ [a]) ++ r.2.1, (coll0 ++ [.list ((Frame.pad n p).around toks)]) ++ r.2.2) := by
    show Pipe.runSteps (front ++ P :: tail) s [] [s] = _
    rw [runSteps_append, hf', Except.bind_ok]
    conv => lhs; unfold Pipe.runSteps
    dsimp only
    rw [h1, Except.bind_ok]
    dsimp only
    rw [runSteps_acc]
  refine ⟨a, ha, fun hg => ?_, fun hb => ?_⟩
  · obtain ⟨coll, h2⟩ := k1 _ hg
    rw [hl] at h2
    rw [run, h2, Except.bind_ok]
    exact ⟨(coll0 ++ [.list ((Frame.pad n p).around toks)]) ++ coll, by rw [List.append_assoc]; rfl⟩
  · obtain ⟨e, h2⟩ := k2 _ hb
    rw [run, h2]
    exact ⟨e, rfl⟩

theorem padded_forward {α : Type} {as0 : List Aligner} {a : Aligner} {k n : Nat} {f g : List Int → List Int}
    (ha : Answers a k n f g) (tail : List α) (ls ys : List Int) :
    alignAll (as0 ++ a :: tail.map fun _ => Aligner.null n n) ls = .ok ys ↔
      ∃ ms, alignAll as0 ls = .ok ms ∧ ms.length = k ∧ ys = f ms := by
  rw [alignAll_snoc]
  constructor
  · intro h
    obtain ⟨ms, h1, h2⟩ := bind_eq_ok h
    obtain ⟨zs, h3, h4⟩ := bind_eq_ok h2
    have hk : ms.length = k := by rw [(C15_transform_length a ms zs h3).1, ha.input]
    obtain ⟨e1, e2⟩ := ha.forward ms hk
    rw [h3] at e1
    injection e1 with e1
    rw [← e1] at e2
    rw [(nulls_pass tail n zs e2).1] at h4
    injection h4 with h4
    exact ⟨ms, h1, hk, by rw [← h4, e1]⟩
  · rintro ⟨ms, h1, hk, rfl⟩
    obtain ⟨e1, e2⟩ := ha.forward ms hk
    rw [h1, Except.bind_ok]
    unfold alignAll
    rw [e1, Except.bind_ok]
    exact (nulls_pass tail n _ e2).1

theorem padded_backward {α : Type} {as0 : List Aligner} {a : Aligner} {k n : Nat} {f g : List Int → List Int}
    (ha : Answers a k n f g) (tail : List α) (ys : List Int) (hy : ys.length = n) :
    realignAll (as0 ++ a :: tail.map fun _ => Aligner.null n n) ys = realignAll as0 (g ys) := by
  rw [realignAll_snoc, realignAll_cons, (nulls_pass tail n ys hy).2, Except.bind_ok, (ha.backward ys hy).1,
    Except.bind_ok]

/-- C116: with a smaller length a pipe returns the first tokens or indices of what it returns with a larger one, and the
first of its labels. The labels predicted for them come back as with the larger length and 0 for the others: 0 for the
tokens that do not fit. If all tokens fit, predictions for the larger length come back as their first labels do with the
smaller one. -/
theorem C116_length (env : Env) (n m : Nat) (p : Tok) (hnm : n ≤ m) (P Q : Op) (hP : (Frame.pad n p).Is env P)
    (hQ : (Frame.pad m p).Is env Q) (front tail : List Op)
    (ht : ∀ op ∈ tail, ∃ name ∈ translatorNames, Made env name op) (cks cks' cks'' : List (Str × Int)) (s : Seq)
    (toks : List Tok) (as0 : List Aligner) (coll0 : List Seq)
    (hf : (⟨front, cks⟩ : Pipe).transformSequence s = .ok (.list toks, as0, coll0)) (hlen : toks.length < 2 ^ 32)
    (o : Seq) (bs : List Aligner) (coll : List Seq)
    (h : (⟨front ++ Q :: tail, cks'⟩ : Pipe).transformSequence s = .ok (o, bs, coll)) :
    ∃ (out : List Tok) (as : List Aligner) (coll' : List Seq), o = .list out ∧ out.length = m ∧
      (⟨front ++ P :: tail, cks''⟩ : Pipe).transformSequence s = .ok (.list (out.take n), as, coll') ∧
      (∀ ls ys, alignAll bs ls = .ok ys → alignAll as ls = .ok (ys.take n)) ∧
      (∀ ys, ys.length = n → realignAll as ys = realignAll bs (ys ++ List.replicate (m - n) 0) ∧
        realignAll as ys = realignAll as0 (ys.take toks.length ++ List.replicate (toks.length - n) 0)) ∧
      (toks.length ≤ n → ∀ ys, ys.length = m → realignAll bs ys = realignAll as (ys.take n)) := by
  obtain ⟨good, tr, k1, k2⟩ := translators_run ht
  obtain ⟨b, hb, b1, b2⟩ := padded_run (cks' := cks') hQ k1 k2 hf hlen
  obtain ⟨a, ha, a1, _⟩ := padded_run (cks' := cks'') hP k1 k2 hf hlen
  have hg : ∀ t ∈ (Frame.pad m p).around toks, good t := by
    by_contra hc
    have : ∃ t ∈ (Frame.pad m p).around toks, ¬ good t := by
      by_contra hd
      exact hc fun t ht => by
        by_contra hn
        exact hd ⟨t, ht, hn⟩
    obtain ⟨e, h2⟩ := b2 this
    rw [h] at h2
    cases h2
  obtain ⟨c1, h1⟩ := b1 hg
  rw [h] at h1
  injection h1 with h1
  injection h1 with e1 h1
  injection h1 with e2 _
  subst e1; subst e2
  have htake : ((Frame.pad m p).around toks).take n = (Frame.pad n p).around toks := take_padded p hnm toks
  obtain ⟨c2, h2⟩ := a1 fun t ht => hg t (List.mem_of_mem_take (htake ▸ ht))
  refine ⟨((Frame.pad m p).around toks).map tr, as0 ++ a :: tail.map fun _ => Aligner.null n n, c2, rfl, ?_, ?_, ?_, ?_, ?_⟩
  · rw [List.length_map]
    exact padded_length p m toks
  · rw [h2, ← List.map_take, htake]
  · intro ls ys hy
    obtain ⟨ms, m1, m2, rfl⟩ := (padded_forward hb tail ls ys).mp hy
    refine (padded_forward ha tail ls _).mpr ⟨ms, m1, m2, ?_⟩
    show List.take n (ms.take m ++ List.replicate (m - toks.length) 0) = ms.take n ++ List.replicate (n - toks.length) 0
    rw [← m2]
    exact take_padded 0 hnm ms
  · intro ys hy
    rw [padded_backward ha tail ys hy, padded_backward hb tail _ (by simp [hy]; omega)]
    refine ⟨?_, rfl⟩
    have := unpad_twice (k := toks.length) hnm ys hy
    rw [List.take_of_length_le (l := ys) (i := m) (by omega)] at this
    exact congrArg _ this.symm
  · intro hfit ys hy
    rw [padded_backward hb tail ys hy, padded_backward ha tail _ (by rw [List.length_take]; omega)]
    show realignAll as0 (ys.take toks.length ++ List.replicate (toks.length - m) 0) =
      realignAll as0 ((ys.take n).take toks.length ++ List.replicate (toks.length - n) 0)
    rw [Nat.sub_eq_zero_of_le hfit, Nat.sub_eq_zero_of_le (by omega), List.take_take, Nat.min_eq_left hfit]

/-! ### examples -/

/-- `Pad(4)` and then `Pad(2)` is `Pad(2)`; `Pad(2)` and then `Pad(4)` is not `Pad(4)` on three tokens. -/
example : ∃ P Q, (Frame.pad 4 (.str "<pad>".toList)).Is exEnv P ∧ (Frame.pad 2 (.str "<pad>".toList)).Is exEnv Q ∧
    SameOutcome (Pipe.transformSequence ⟨[P, Q], []⟩ (.list [.str "a".toList, .str "b".toList, .str "c".toList]))
      (Pipe.transformSequence ⟨[Q], []⟩ (.list [.str "a".toList, .str "b".toList, .str "c".toList])) ∧
    ¬ SameOutcome (Pipe.transformSequence ⟨[Q, P], []⟩ (.list [.str "a".toList, .str "b".toList, .str "c".toList]))
      (Pipe.transformSequence ⟨[P], []⟩ (.list [.str "a".toList, .str "b".toList, .str "c".toList])) := by
  refine ⟨_, _, ⟨[.int 4], [], _, _, rfl, .int 4, .str _, rfl⟩, ⟨[.int 2], [], _, _, rfl, .int 2, .str _, rfl⟩, ?_, ?_⟩
  · exact C116_down exEnv 2 4 (.str "<pad>".toList) (.str "<pad>".toList) (by decide) (by decide) _ _ _
      ⟨[.int 4], [], _, _, rfl, .int 4, .str _, rfl⟩ ⟨[.int 2], [], _, _, rfl, .int 2, .str _, rfl⟩
      ⟨[.int 2], [], _, _, rfl, .int 2, .str _, rfl⟩ _ (show 3 < 2 ^ 32 by decide)
  · intro h
    have := (C116_up exEnv 4 2 (.str "<pad>".toList) (by decide) (by decide) _ _
      ⟨[.int 2], [], _, _, rfl, .int 2, .str _, rfl⟩ ⟨[.int 4], [], _, _, rfl, .int 4, .str _, rfl⟩
      [.str "a".toList, .str "b".toList, .str "c".toList] (show 3 < 2 ^ 32 by decide)).mp h
    exact absurd this (by decide)

/-- `CharTokenizer()`, `Pad(5)`, `Token2Index(vocab)`, and the same with `Pad(2)`. -/
example : ∃ C P Q T as0 coll0 bs coll, create exEnv "CharTokenizer" [] [] = .ok C ∧
    (Frame.pad 2 (.str "<pad>".toList)).Is exEnv P ∧ (Frame.pad 5 (.str "<pad>".toList)).Is exEnv Q ∧
    Made exEnv "Token2Index" T ∧
    (⟨[C], []⟩ : Pipe).transformSequence (.str "aba".toList) =
      .ok (.list [.str "a".toList, .str "b".toList, .str "a".toList], as0, coll0) ∧
    (⟨[C] ++ Q :: [T], []⟩ : Pipe).transformSequence (.str "aba".toList) =
      .ok (.list [.int 4, .int 0, .int 4, .int 3, .int 3], bs, coll) ∧
    ((⟨[C] ++ P :: [T], []⟩ : Pipe).transformSequence (.str "aba".toList)).map Prod.fst = .ok (.list [.int 4, .int 0]) :=
  ⟨_, _, _, _, _, _, _, _, rfl, ⟨[.int 2], [], _, _, rfl, .int 2, .str _, rfl⟩, ⟨[.int 5], [], _, _, rfl, .int 5, .str _, rfl⟩,
    ⟨[.dict (exVocab.map fun kv => (kv.1, .int kv.2))], [], rfl⟩, rfl, rfl, rfl⟩

end Uttut
