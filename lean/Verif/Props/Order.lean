import Verif.Lemmas.Order
import Verif.Props.Recover
import Verif.Props.Survive

/-!
C89: labels keep their order on the way through operators and pipes and back.
-/

namespace Uttut

open Spec

/-! ### operators -/

/-- All results of a `_transform` keep the order of labels. -/
def RunOrderly (run : Seq → Res (Seq × Aligner)) : Prop := ∀ s t a, run s = .ok (t, a) → Orderly a

theorem strOp_orderly {f : Str → Res (Str × Aligner)} (h : ∀ s out a, f s = .ok (out, a) → Orderly a) :
    RunOrderly (strOp f) := by
  intro s t a hr
  cases s with
  | list l => cases hr
  | str s =>
    obtain ⟨⟨out, a'⟩, h1, h2⟩ := bind_eq_ok hr
    injection h2 with h2
    injection h2 with h2 h3
    subst h3
    exact h s out _ h1

theorem tokOp_orderly {f : Str → Res (List Str × Aligner)} (h : ∀ s out a, f s = .ok (out, a) → Orderly a) :
    RunOrderly (tokOp f) := by
  intro s t a hr
  cases s with
  | list l => cases hr
  | str s =>
    obtain ⟨⟨out, a'⟩, h1, h2⟩ := bind_eq_ok hr
    injection h2 with h2
    injection h2 with h2 h3
    subst h3
    exact h s out _ h1

theorem lstOp_orderly {f : List Tok → Res (List Tok × Aligner)} (h : ∀ l out a, f l = .ok (out, a) → Orderly a) :
    RunOrderly (lstOp f) := by
  intro s t a hr
  cases s with
  | str s => cases hr
  | list l =>
    obtain ⟨⟨out, a'⟩, h1, h2⟩ := bind_eq_ok hr
    injection h2 with h2
    injection h2 with h2 h3
    subst h3
    exact h l out _ h1

theorem transform_input {a : Aligner} {ls ys : List Int} (h : a.transform ls = .ok ys) : ls.length = a.inputLength := by
  unfold Aligner.transform Aligner.validateInput at h
  by_cases hl : ls.length = a.inputLength
  · exact hl
  · rw [if_pos hl] at h
    cases h

theorem inverse_input {a : Aligner} {ls ys : List Int} (h : a.inverseTransform ls = .ok ys) :
    ls.length = a.outputLength := by
  unfold Aligner.inverseTransform Aligner.validateOutput at h
  by_cases hl : ls.length = a.outputLength
  · exact hl
  · rw [if_pos hl] at h
    cases h

/-- From what both directions are known to return. -/
theorem orderly_exact {a : Aligner} {n m : Nat} (hn : a.inputLength = n) (hm : a.outputLength = m)
    {F G : List Int → List Int} (hf : ∀ ls : List Int, ls.length = n → a.transform ls = .ok (F ls))
    (hb : ∀ ls : List Int, ls.length = m → a.inverseTransform ls = .ok (G ls)) (hF : ∀ ls : List Int, ls.length = n → LabelsInOrder ls (F ls))
    (hG : ∀ ls : List Int, ls.length = m → LabelsInOrder ls (G ls)) : Orderly a := by
  refine ⟨fun ls ys h => ?_, fun ls ys h => ?_⟩
  · have hl := (transform_input h).trans hn
    have e := (hf ls hl).symm.trans h
    injection e with e
    rw [← e]
    exact hF ls hl
  · have hl := (inverse_input h).trans hm
    have e := (hb ls hl).symm.trans h
    injection e with e
    rw [← e]
    exact hG ls hl

theorem firstMode_from (l : List Int) : firstMode l = 0 ∨ firstMode l ∈ l := by
  by_cases h : l = []
  · subst h
    exact Or.inl rfl
  · exact Or.inr (isFirstMode_firstMode l h).1

theorem firstNonzeroMode_from (l : List Int) : firstNonzeroMode l = 0 ∨ firstNonzeroMode l ∈ l := by
  unfold firstNonzeroMode
  rcases firstMode_from (l.filter fun x => decide (x ≠ 0)) with h | h
  · exact Or.inl h
  · exact Or.inr (List.mem_filter.mp h).1

theorem orderly_number {u : Unicode} {q : Str → Bool} {token : Str} {F : List Int → List Int}
    {f : Str → Res (Str × Aligner)} (h : ∀ s, NumberOp u q token F f s) (hF : ∀ x, LabelsInOrder x (F x)) :
    RunOrderly (strOp f) := by
  refine strOp_orderly fun s out a hr => ?_
  obtain ⟨a', h1, h2, h3, h4, _⟩ := (h s).run
  obtain ⟨e1, e2⟩ := det (f := f) hr h1
  subst e2
  exact orderly_exact h2.input h2.output h3 h4 (fun ls _ => inOrder_mapLabels _ _ (fun _ x => hF x) _ _ ls)
    (fun ls _ => inOrder_mapLabels _ _ (fun _ x => .replicate _ (firstNonzeroMode_from x)) _ _ ls)

theorem inOrder_spaced (x : List Int) : LabelsInOrder x ([0] ++ x ++ [0]) := by
  have h1 : LabelsInOrder [] [(0 : Int)] := .zeros fun y hy => List.mem_singleton.mp hy
  have := (h1.append (LabelsInOrder.refl x)).append h1
  rwa [List.nil_append, List.append_nil] at this

theorem inOrder_around (valid : Char → Bool) : ∀ (s : Str) (ls : List Int), ls.length = s.length →
    LabelsInOrder ls ((s.zip ls).flatMap fun p => if valid p.1 then [0, p.2, 0] else [p.2]) := by
  intro s
  induction s with
  | nil => intro ls _; exact LabelsInOrder.nil _
  | cons c s ih =>
    intro ls hl
    cases ls with
    | nil => cases hl
    | cons l ls =>
      have h1 : LabelsInOrder [l] (if valid c then [0, l, 0] else [l]) := by
        split
        · exact inOrder_spaced [l]
        · exact LabelsInOrder.refl _
      exact h1.append (ih ls (by simpa using hl))

theorem inOrder_segments : ∀ (ns : List Nat) (ls : List Int), LabelsInOrder ls ((segments ns ls).map firstNonzeroMode) := by
  intro ns
  induction ns with
  | nil => intro ls; exact LabelsInOrder.nil _
  | cons n ns ih =>
    intro ls
    have h1 : LabelsInOrder (ls.take n) [firstNonzeroMode (ls.take n)] := LabelsInOrder.replicate 1 (firstNonzeroMode_from _)
    have := h1.append (ih (ls.drop n))
    rw [List.take_append_drop] at this
    exact this

theorem orderly_around (σ : SetOrder) (valid : Char → Bool) {s out : Str} {a : Aligner}
    (h : AddWhitespaceAroundChar.transform σ valid s = .ok (out, a)) : Orderly a := by
  obtain ⟨a', h1, h2, h3, h4, _⟩ := C17_around σ valid s
  obtain ⟨e1, e2⟩ := det (f := AddWhitespaceAroundChar.transform σ valid) h h1
  subst e2
  exact orderly_exact h2.input h2.output h3 h4 (fun ls hl => inOrder_around valid s ls hl)
    (fun ls _ => inOrder_segments _ ls)

theorem orderly_addAll (σ : SetOrder) (ts : List (Int × Int × List Tok)) (g : ReplacementGroup (List Tok))
    (hg : ReplacementGroup.addAll σ ts = .ok g) (l : List Tok) (n : Nat) :
    Orderly (Aligner.ofLstEdit σ l g n Transduce.getNotEntity Transduce.getNotEntity) :=
  orderly_ofLstEdit _ _ _ _ (getNotEntity_slim.on _) getNotEntity_slim (addAll_chain σ ts g hg).2

theorem orderly_tokenwise_null {σ : SetOrder} {nv : Tok → Res (Option (List Tok))} {l out : List Tok} {a : Aligner}
    {mk : ReplacementGroup (List Tok) → Nat → Aligner} (hm : ∀ g n, ∃ i o, mk g n = Aligner.null i o)
    (h : tokenwiseTransform σ nv l mk = .ok (out, a)) : Orderly a := by
  unfold tokenwiseTransform at h
  obtain ⟨g, _, h⟩ := bind_eq_ok h
  obtain ⟨g', _, h⟩ := bind_eq_ok h
  obtain ⟨o, _, h⟩ := bind_eq_ok h
  injection h with h
  injection h with _ h
  subst h
  obtain ⟨i, o, e⟩ := hm g' o.length
  rw [e]
  exact orderly_null _ _

theorem runOrderly (env : Env) (he : env.Sane) (c : OpClass) (hc : c ∈ Builtin.all env) (args : List PyVal)
    (kwargs : List (Str × PyVal)) (op : Op) (hop : c.call args kwargs = .ok op) : RunOrderly op.run := by
  simp only [Builtin.all, Builtin.concrete, List.cons_append, List.nil_append, List.mem_cons, List.not_mem_nil,
    or_false] at hc
  rcases hc with rfl | rfl | rfl | rfl | rfl | rfl | rfl | rfl | rfl | rfl | rfl | rfl | rfl | rfl | rfl | rfl |
    rfl | rfl | rfl | rfl | rfl | rfl | rfl | rfl | rfl | rfl | rfl | rfl | rfl | rfl | rfl
  · obtain ⟨_, vals, h⟩ := call_run hop
    cases h
  · rw [simple_run hop]
    refine strOp_orderly fun s out a h => ?_
    cases s with
    | nil => exact orderly_around env.σ (fun _ => false) (s := []) h
    | cons x s => cases h
  · rw [simple_run hop]
    refine strOp_orderly fun s out a h => ?_
    split at h <;> cases h
  · rw [simple_run hop]
    exact tokOp_orderly fun s out a h => by cases h
  · rw [simple_run hop]
    refine strOp_orderly fun s out a h => ?_
    unfold Lowercase.transform at h
    split at h
    · cases h
    · obtain ⟨g, _, h⟩ := bind_eq_ok h
      obtain ⟨o, _, h⟩ := bind_eq_ok h
      split at h
      · injection h with h
        injection h with _ h
        subst h
        exact orderly_null _ _
      · cases h
  · rw [simple_run hop]; exact strOp_orderly fun s out a h => orderly_around _ _ h
  · rw [simple_run hop]; exact strOp_orderly fun s out a h => orderly_around _ _ h
  · obtain ⟨_, vals, h⟩ := call_run hop
    unfold Builtin.aroundWord at h
    dsimp only at h
    unfold Builtin.aroundWordInit at h
    split at h
    · obtain ⟨t, ht, h⟩ := bind_eq_ok h
      obtain ⟨ws, hw⟩ := userWords_ok ht
      injection h with h
      rw [← h]
      refine strOp_orderly fun s out a h => ?_
      obtain ⟨a', segs, _, _, h1, h2, h3, h4, _⟩ := C38_spaces env.σ ws t hw _ s
      obtain ⟨e1, e2⟩ := det (f := AddWhitespaceAroundWordnZhChar.transform env.σ t _) h h1
      subst e2
      refine orderly_exact h2.input h2.output h3 h4
        (fun ls _ => inOrder_mapLabels _ _ (fun _ x => inOrder_spaced x) _ _ ls)
        (fun ls _ => inOrder_mapLabels _ _ (fun _ x => ?_) _ _ ls)
      rw [List.dropLast_eq_take]
      exact ((LabelsInOrder.refl x).drop 1).take _
    · cases h
  · rw [simple_run hop]
    refine strOp_orderly fun s out a h => ?_
    unfold StripAccentToken.transform at h
    dsimp only at h
    split at h
    · exact orderly_charwise getMostCommonExcept_slim getMostCommonExcept_slim h
    · cases h
  · rw [simple_run hop]
    exact strOp_orderly fun s out a h => orderly_charwise getNotEntity_slim getNotEntity_slim h
  · rw [simple_run hop]
    exact orderly_number (C18_C19_int_token env.σ env.u) fun x => .replicate _ (firstMode_from x)
  · rw [simple_run hop]
    exact orderly_number (C18_C19_float_token env.σ env.u he.dot) fun x => .replicate _ (firstMode_from x)
  · rw [simple_run hop]
    exact orderly_number (C18_C19_int_token_with_space env.σ env.u)
      fun x => (LabelsInOrder.replicate _ (firstMode_from x)).trans (inOrder_spaced _)
  · rw [simple_run hop]
    exact orderly_number (C18_C19_float_token_with_space env.σ env.u he.dot)
      fun x => (LabelsInOrder.replicate _ (firstMode_from x)).trans (inOrder_spaced _)
  · rw [simple_run hop]
    exact strOp_orderly fun s out a h => orderly_pattern getMostCommon_slim getMostCommon_slim h
  · rw [simple_run hop]
    exact strOp_orderly fun s out a h => orderly_pattern getNotEntity_slim getNotEntity_slim h
  · rw [simple_run hop]
    exact strOp_orderly fun s out a h => orderly_pattern getNotEntity_slim getNotEntity_slim h
  · rw [simple_run hop]
    exact orderly_number (C18_C19_num_token_with_space env.σ env.u)
      fun x => (LabelsInOrder.replicate _ (firstMode_from x)).trans (inOrder_spaced _)
  · obtain ⟨_, vals, h⟩ := call_run hop
    unfold Builtin.replace at h
    dsimp only at h
    unfold Builtin.replaceInit at h
    split at h
    · obtain ⟨p, hp, h⟩ := bind_eq_ok h
      split at h
      · split at h
        · injection h with h
          rw [← h]
          exact strOp_orderly fun s out a h => orderly_pattern getMostCommonExcept_slim getMostCommonExcept_slim h
        · injection h with h
          rw [← h]
          exact strOp_orderly fun s out a h =>
            orderly_pattern getMostCommonExcept_slim getMostCommonExcept_slim (replaceNoStr_ok h)
      · cases h
    · cases h
  · rw [simple_run hop]
    exact tokOp_orderly fun s out a h => orderly_tokenizer noneTransducer_slim noneTransducer_slim h
  · rw [simple_run hop]
    exact tokOp_orderly fun s out a h => orderly_tokenizer getMostCommonExcept_slim getMostCommonExcept_slim h
  · rw [simple_run hop]
    exact tokOp_orderly fun s out a h => orderly_tokenizer getMostCommonExcept_slim getMostCommonExcept_slim h
  · rw [simple_run hop]
    exact tokOp_orderly fun s out a h => orderly_tokenizer getMostCommonExcept_slim getMostCommonExcept_slim h
  · obtain ⟨_, vals, h⟩ := call_run hop
    unfold Builtin.customTok at h
    dsimp only at h
    unfold Builtin.customTokInit at h
    split at h
    · obtain ⟨t, ht, h⟩ := bind_eq_ok h
      injection h with h
      rw [← h]
      refine tokOp_orderly fun s out a h => ?_
      unfold CustomWordTokenizer.transform at h
      split at h
      · cases h
      · exact orderly_tokenizer getMostCommonExcept_slim getMostCommonExcept_slim h
    · cases h
  · obtain ⟨_, vals, h⟩ := call_run hop
    unfold Builtin.sosEos at h
    dsimp only at h
    unfold Builtin.sosEosInit at h
    split at h
    · obtain ⟨s, _, h⟩ := bind_eq_ok h
      obtain ⟨e, _, h⟩ := bind_eq_ok h
      injection h with h
      rw [← h]
      refine lstOp_orderly fun l out a h => ?_
      unfold AddSosEos.transform at h
      obtain ⟨g, hg, h⟩ := bind_eq_ok h
      obtain ⟨o, _, h⟩ := bind_eq_ok h
      injection h with h
      injection h with _ h
      subst h
      exact orderly_addAll _ _ g hg _ _
    · cases h
  · obtain ⟨_, vals, h⟩ := call_run hop
    unfold Builtin.pad at h
    dsimp only at h
    unfold Builtin.padInit at h
    split at h
    · obtain ⟨t, _, h⟩ := bind_eq_ok h
      injection h with h
      rw [← h]
      refine lstOp_orderly fun l out a h => ?_
      obtain ⟨n, _, h⟩ := bind_eq_ok h
      unfold Pad.transform at h
      obtain ⟨g, hg, h⟩ := bind_eq_ok h
      obtain ⟨o, _, h⟩ := bind_eq_ok h
      injection h with h
      injection h with _ h
      subst h
      have hg : ∃ ts, ReplacementGroup.addAll env.σ ts = .ok g := by
        unfold Pad.group at hg
        dsimp only at hg
        split at hg
        · exact ⟨_, hg⟩
        · split at hg <;> exact ⟨_, hg⟩
      obtain ⟨ts, hg⟩ := hg
      exact orderly_addAll _ ts g hg _ _
    · cases h
  · obtain ⟨_, vals, h⟩ := call_run hop
    unfold Builtin.token2index at h
    dsimp only at h
    unfold Builtin.token2indexInit at h
    split at h
    · obtain ⟨d, _, h⟩ := bind_eq_ok h
      split at h
      · obtain ⟨_, _, h⟩ := bind_eq_ok h
        injection h with h
        rw [← h]
        exact lstOp_orderly fun l out a h => orderly_tokenwise_null (fun g n => ⟨_, _, rfl⟩) h
      · obtain ⟨_, _, h⟩ := bind_eq_ok h
        split at h <;> cases h
    · cases h
  · obtain ⟨_, vals, h⟩ := call_run hop
    unfold Builtin.spanSubwords at h
    dsimp only at h
    unfold Builtin.spanSubwordsInit at h
    split at h
    · obtain ⟨unk, _, h⟩ := bind_eq_ok h
      injection h with h
      rw [← h]
      refine lstOp_orderly fun l out a h => ?_
      obtain ⟨has, n, h, _⟩ := spanSubwordsRun_ok h
      exact orderly_tokenwise getMostCommon_slim getMostCommonExcept_slim h
    · cases h
  · obtain ⟨_, vals, h⟩ := call_run hop
    unfold Builtin.token2indexHash at h
    dsimp only at h
    unfold Builtin.token2indexHashInit at h
    split at h
    · obtain ⟨d, _, h⟩ := bind_eq_ok h
      obtain ⟨_, _, h⟩ := bind_eq_ok h
      injection h with h
      rw [← h]
      exact lstOp_orderly fun l out a h => orderly_tokenwise_null (fun g n => ⟨_, _, rfl⟩) h
    · cases h
  · have hnum : ∀ token, RunOrderly (lstOp (PureNum2Token.transform env.σ env.u token)) := fun token =>
      lstOp_orderly fun l out a h => orderly_tokenwise_null (fun g n => ⟨_, _, rfl⟩) h
    obtain ⟨_, vals, h⟩ := call_run hop
    unfold Builtin.pureNum at h
    dsimp only at h
    unfold Builtin.pureNumInit at h
    split at h
    · injection h with h
      rw [← h]
      exact hnum _
    · obtain ⟨t, _, h⟩ := bind_eq_ok h
      injection h with h
      rw [← h]
      exact hnum _
    · cases h
  · obtain ⟨_, vals, h⟩ := call_run hop
    unfold Builtin.endTok at h
    dsimp only at h
    unfold Builtin.endTokInit at h
    split at h
    · cases h
    · obtain ⟨e, _, h⟩ := bind_eq_ok h
      obtain ⟨e', _, h⟩ := bind_eq_ok h
      injection h with h
      rw [← h]
      refine lstOp_orderly fun l out a h => ?_
      unfold AddEndToken.transform at h
      obtain ⟨g, hg, h⟩ := bind_eq_ok h
      obtain ⟨o, _, h⟩ := bind_eq_ok h
      injection h with h
      injection h with _ h
      subst h
      exact orderly_addAll _ _ g hg _ _
    · cases h

/-- C89: every built-in operator keeps labels in their order, in both directions: each label of the result is 0 or
comes from a place of the given labels, and no place lies before the place of an earlier label. The labels may be any,
in particular those a model predicts for the output. -/
theorem C89_operator (env : Env) (he : env.Sane) (op : Op) (hop : IsBuiltin env op) (s t : Seq) (a : Aligner)
    (h : op.transform s = .ok (t, a)) :
    (∀ ls ys, a.transform ls = .ok ys → LabelsInOrder ls ys) ∧
      ∀ ys ls, a.inverseTransform ys = .ok ls → LabelsInOrder ys ls := by
  obtain ⟨c, hc, args, kwargs, _, hop⟩ := hop
  have := runOrderly env he c hc args kwargs op hop s t a (transform_run h)
  exact ⟨this.fwd, this.bwd⟩

/-! ### pipes -/

theorem runs_orderly {env : Env} (he : env.Sane) {ops : List Op} {s : Seq} {rs : List (Seq × Aligner)}
    (h : Runs ops s rs) (hb : ∀ op ∈ ops, IsBuiltin env op) : ∀ a ∈ rs.map Prod.snd, Orderly a := by
  induction h with
  | nil s => intro a ha; cases ha
  | @cons op ops s t a rs h1 h2 ih =>
    intro b hb'
    rcases List.mem_cons.mp hb' with rfl | hm
    · obtain ⟨f, g⟩ := C89_operator env he op (hb op (by simp)) s t _ h1
      exact ⟨f, g⟩
    · exact ih (fun o ho => hb o (by simp [ho])) b hm

theorem alignAll_orderly : ∀ (as : List Aligner), (∀ a ∈ as, Orderly a) → ∀ ls ys : List Int,
    alignAll as ls = .ok ys → LabelsInOrder ls ys := by
  intro as
  induction as with
  | nil =>
    intro _ ls ys h
    injection h with h
    subst h
    exact .refl _
  | cons a as ih =>
    intro ha ls ys h
    obtain ⟨ms, m1, m2⟩ := bind_eq_ok (show (a.transform ls >>= fun ms => alignAll as ms) = .ok ys from h)
    exact ((ha a (by simp)).fwd _ _ m1).trans (ih (fun b hb => ha b (by simp [hb])) ms ys m2)

theorem realignAll_orderly : ∀ (as : List Aligner), (∀ a ∈ as, Orderly a) → ∀ ys ls : List Int,
    realignAll as ys = .ok ls → LabelsInOrder ys ls := by
  intro as
  induction as with
  | nil =>
    intro _ ys ls h
    injection h with h
    subst h
    exact .refl _
  | cons a as ih =>
    intro ha ys ls h
    rw [realignAll_cons] at h
    obtain ⟨ms, m1, m2⟩ := bind_eq_ok h
    exact (ih (fun b hb => ha b (by simp [hb])) ys ms m1).trans ((ha a (by simp)).bwd _ _ m2)

theorem pipe_orderly {env : Env} (he : env.Sane) {p : Pipe} (hp : ∀ op ∈ p.steps, IsBuiltin env op) {s o : Seq}
    {as : List Aligner} {coll : List Seq} (h : p.transformSequence s = .ok (o, as, coll)) : ∀ a ∈ as, Orderly a := by
  obtain ⟨rs, r1, r2, r3, r4⟩ := (C58_composition p _ o as coll).mp h
  rw [r3]
  exact runs_orderly he r1 hp

/-- C89: so does every pipe of built-in operators, there and back. -/
theorem C89_pipe (env : Env) (he : env.Sane) (p : Pipe) (hp : ∀ op ∈ p.steps, IsBuiltin env op) (s o : Seq)
    (as : List Aligner) (coll : List Seq) (h : p.transformSequence s = .ok (o, as, coll)) :
    (∀ ls ys, alignAll as ls = .ok ys → LabelsInOrder ls ys) ∧
      ∀ ys ls, realignAll as ys = .ok ls → LabelsInOrder ys ls :=
  ⟨alignAll_orderly as (pipe_orderly he hp h), realignAll_orderly as (pipe_orderly he hp h)⟩

theorem _root_.Uttut.Spec.LabelsInOrder.unsplit {ls ys : List Int} (h : LabelsInOrder ls ys) {l : Int} (hl : l ≠ 0)
    (hu : Unsplit l ls) : Unsplit l ys := by
  obtain ⟨place, hm, hp⟩ := h
  intro i j k hij hjk hi hk
  have hj : j < ys.length := by
    have := (List.getElem?_eq_some_iff.mp hk).1
    omega
  have hj := List.getElem?_eq_getElem hj
  rcases hp j _ hj with h0 | hs
  · exact Or.inr (by rw [hj, h0])
  · rcases hu (place i) (place j) (place k) (hm i j hij) (hm j k hjk) ((hp i l hi).resolve_left hl)
      ((hp k l hk).resolve_left hl) with h | h
    · exact Or.inl (by rw [hj, ← hs, h])
    · exact Or.inr (by rw [hj, ← hs, h])

/-- C89: no operator of the pipe puts another label in between: if all places of a label lie side by side before, they
do so after, there and back. -/
theorem C89_unsplit (env : Env) (he : env.Sane) (p : Pipe) (hp : ∀ op ∈ p.steps, IsBuiltin env op) (s o : Seq)
    (as : List Aligner) (coll : List Seq) (h : p.transformSequence s = .ok (o, as, coll)) (l : Int) (hl : l ≠ 0) :
    (∀ ls ys, alignAll as ls = .ok ys → Unsplit l ls → Unsplit l ys) ∧
      ∀ ys ls, realignAll as ys = .ok ls → Unsplit l ys → Unsplit l ls :=
  ⟨fun ls ys h1 h2 => ((C89_pipe env he p hp s o as coll h).1 ls ys h1).unsplit hl h2,
    fun ys ls h1 h2 => ((C89_pipe env he p hp s o as coll h).2 ys ls h1).unsplit hl h2⟩

/-- C89: the labels `Pipe.transform` returns for a datum walk through the utterance from left to right: each is 0 or
the label of the entity around the place the walk has reached. -/
theorem C89_datum (env : Env) (he : env.Sane) (p : Pipe) (hp : ∀ op ∈ p.steps, IsBuiltin env op) (u : Str)
    (is : List Intent) (es : List Entity) (d : Datum) (hd : Datum.new u (some is) (some es) = .ok d)
    (hw : ∀ e ∈ es, WithinUtterance u e) (t : Transformed) (ht : p.transform d = .ok t) :
    ∃ place : Nat → Nat, (∀ i j, i ≤ j → place i ≤ place j) ∧ ∀ (j : Nat) y, t.entityLabels[j]? = some y →
      y = 0 ∨ ∃ e ∈ es, e.label = y ∧ e.start ≤ place j ∧ (place j : Int) < e.stop := by
  obtain ⟨l0, u1, u2, u3⟩ := C45_labels u is es d hd hw
  unfold Pipe.transform at ht
  rw [u1] at ht
  simp only [Except.bind_ok] at ht
  obtain ⟨⟨o, as, coll⟩, q1, q2⟩ := bind_eq_ok ht
  obtain ⟨ys, y1, y2⟩ := bind_eq_ok q2
  injection y2 with y2
  subst y2
  obtain ⟨place, hm, hq⟩ := (C89_pipe env he p hp _ o as coll q1).1 l0 ys y1
  refine ⟨place, hm, fun j y hj => ?_⟩
  rcases hq j y hj with h | h
  · exact Or.inl h
  · have hlt : place j < u.length := by rw [← u2]; exact (List.getElem?_eq_some_iff.mp h).1
    by_cases hc : ∃ e ∈ es, e.start ≤ place j ∧ (place j : Int) < e.stop
    · obtain ⟨e, e1, e2, e3⟩ := hc
      have := (u3 _ hlt).1 e e1 e2 e3
      rw [h] at this
      exact Or.inr ⟨e, e1, (Option.some.inj this).symm, e2, e3⟩
    · have := (u3 _ hlt).2 fun e e1 e2 => hc ⟨e, e1, e2⟩
      rw [h] at this
      exact Or.inl (Option.some.inj this)

/-- C89: what stands for an entity in the output stands before what stands for a later entity, if no further entity
has one of the two labels. -/
theorem C89_entities (env : Env) (he : env.Sane) (p : Pipe) (hp : ∀ op ∈ p.steps, IsBuiltin env op) (u : Str)
    (is : List Intent) (es : List Entity) (d : Datum) (hd : Datum.new u (some is) (some es) = .ok d)
    (hw : ∀ e ∈ es, WithinUtterance u e) (t : Transformed) (ht : p.transform d = .ok t) (e f : Entity)
    (hef : e.stop ≤ f.start) (h0 : e.label ≠ 0) (h1 : f.label ≠ 0)
    (hue : ∀ x ∈ es, x.label = e.label → x = e) (huf : ∀ x ∈ es, x.label = f.label → x = f) (i j : Nat)
    (hi : t.entityLabels[i]? = some e.label) (hj : t.entityLabels[j]? = some f.label) : i < j := by
  obtain ⟨place, hm, hq⟩ := C89_datum env he p hp u is es d hd hw t ht
  obtain ⟨x, x1, x2, x3, x4⟩ := (hq i _ hi).resolve_left h0
  obtain ⟨y, y1, y2, y3, y4⟩ := (hq j _ hj).resolve_left h1
  rw [hue x x1 x2] at x3 x4
  rw [huf y y1 y2] at y3 y4
  by_contra hn
  have := hm j i (by omega)
  omega

/-- C89: and the entities made of labels predicted for the output stand in the order of the predictions: of two
entities of the datum packed from the labels brought back, the earlier one has its label from a place of the output
that does not lie behind the place the later one has its label from. -/
theorem C89_predicted (env : Env) (he : env.Sane) (p : Pipe) (hp : ∀ op ∈ p.steps, IsBuiltin env op) (u : Str)
    (hu : u.length < 2 ^ 31) (o : Seq) (as : List Aligner) (coll : List Seq)
    (h : p.transformSequence (.str u) = .ok (o, as, coll)) (ys ls intents : List Int)
    (hr : realignAll as ys = .ok ls) (d : Datum) (hd : packToDatum u intents ls = .ok d) :
    ∃ source : Entity → Nat, (∀ e ∈ d.entities, ys[source e]? = some e.label) ∧
      ∀ e ∈ d.entities, ∀ f ∈ d.entities, e.stop ≤ f.start →
        source e ≤ source f ∧ (e.label ≠ f.label → source e < source f) := by
  obtain ⟨place, hm, hq⟩ := (C89_pipe env he p hp _ o as coll h).2 ys ls hr
  obtain ⟨_, _, hE, _⟩ := pack_entities hd hu
  have hsrc : ∀ e ∈ d.entities, ys[place e.start.toNat]? = some e.label ∧ 0 ≤ e.start ∧ e.start < e.stop := by
    intro e he
    obtain ⟨a, b, hr, h0, h1⟩ := (hE e).mp he
    have hs : e.start = a := by rw [h1]
    have ht : e.stop = b := by rw [h1]
    have hab : a < b := hr.1
    have := (hq a _ (hr.2.2.1 a (Nat.le_refl _) hab)).resolve_left h0
    rw [hs, ht, Int.toNat_natCast]
    exact ⟨this, by omega, by omega⟩
  refine ⟨fun e => place e.start.toNat, fun e he => (hsrc e he).1, fun e he f hf hef => ?_⟩
  obtain ⟨e1, e2, e3⟩ := hsrc e he
  obtain ⟨f1, f2, f3⟩ := hsrc f hf
  have hle := hm e.start.toNat f.start.toNat (by omega)
  refine ⟨hle, fun hne => ?_⟩
  rcases Nat.lt_or_eq_of_le hle with h | h
  · exact h
  · rw [h] at e1
    exact absurd (Option.some.inj (e1.symm.trans f1)) hne

/-! Concrete cases. -/

/-- "a1b1" with the entities "a1" and "b1". -/
def exTwo : Datum := ⟨"a1b1".toList, [], [⟨3, "a1".toList, 0, 2, []⟩, ⟨4, "b1".toList, 2, 4, []⟩]⟩

theorem exTwo_run : ∃ t a, (⟨[exOne], []⟩ : Pipe).transform exTwo = .ok t ∧ t.aligners = [a] ∧
    t.entityLabels = [3, 3, 3, 3, 4, 4, 4, 4] ∧ exOne.transform (.str "a1b1".toList) = .ok (.str "axyzbxyz".toList, a) ∧
    (⟨[exOne], []⟩ : Pipe).transformSequence (.str "a1b1".toList) =
      .ok (.str "axyzbxyz".toList, [a], [.str "a1b1".toList, .str "axyzbxyz".toList]) ∧
    a.transform [3, 3, 4, 4] = .ok [3, 3, 3, 3, 4, 4, 4, 4] ∧
    a.inverseTransform [0, 7, 7, 5, 0, 5, 5, 9] = .ok [0, 7, 0, 5] := by
  have hscan : Scan (Re.lit "1".toList).search "a1b1".toList 0 [(1, 2), (3, 4)] :=
    .match_ 0 1 2 _ (by decide) (by decide) (.match_ 2 3 4 _ (by decide) (by decide) (.atEnd 4 (by decide)))
  obtain ⟨a, ha, _, _, hf, hb⟩ := C25_replace exEnv.σ (Re.lit "1".toList).search "xyz".toList "a1b1".toList
    (C24_regex_sound _ _) _ hscan
  have e : replaceMatches "a1b1".toList "xyz".toList 0 [(1, 2), (3, 4)] = "axyzbxyz".toList := by decide
  rw [e] at ha hf hb
  have hb := (hb (Or.inl (by decide))).2
  have t1 : exOne.transform (.str "a1b1".toList) = .ok (.str "axyzbxyz".toList, a) := by
    show ((strOp (ReplaceAwithB.transform exEnv.σ (Re.lit "1".toList).search "xyz".toList) (.str "a1b1".toList)) >>= _) = _
    show ((ReplaceAwithB.transform exEnv.σ (Re.lit "1".toList).search "xyz".toList "a1b1".toList >>= _) >>= _) = _
    rw [ha]
    rfl
  have f1 : a.transform [3, 3, 4, 4] = .ok [3, 3, 3, 3, 4, 4, 4, 4] := (hf [3, 3, 4, 4] rfl).1
  have f2 : a.inverseTransform [0, 7, 7, 5, 0, 5, 5, 9] = .ok [0, 7, 0, 5] :=
    hb [0, 7, 7, 5, 0, 5, 5, 9] (by decide)
  have hrun : (⟨[exOne], []⟩ : Pipe).transformSequence (.str "a1b1".toList) =
      .ok (.str "axyzbxyz".toList, [a], [.str "a1b1".toList, .str "axyzbxyz".toList]) :=
    (C58_composition _ _ _ _ _).mpr ⟨[(_, a)], .cons t1 (.nil _), rfl, rfl, rfl⟩
  refine ⟨⟨.str "axyzbxyz".toList, [], [3, 3, 3, 3, 4, 4, 4, 4], [a],
    [.str "a1b1".toList, .str "axyzbxyz".toList]⟩, a, ?_, rfl, rfl, t1, hrun, f1, f2⟩
  have hu : unpackDatum exTwo = .ok ("a1b1".toList, [], [3, 3, 4, 4]) := rfl
  have hal : alignAll [a] [3, 3, 4, 4] = .ok [3, 3, 3, 3, 4, 4, 4, 4] := by
    show (a.transform [3, 3, 4, 4] >>= fun m => .ok m) = _
    rw [f1]
    rfl
  unfold Pipe.transform
  rw [hu, Except.bind_ok]
  dsimp only
  rw [hrun, Except.bind_ok]
  dsimp only
  rw [hal]
  rfl

theorem exOne_steps : ∀ op ∈ (⟨[exOne], []⟩ : Pipe).steps, IsBuiltin exEnv op :=
  fun _ hop => List.mem_singleton.mp hop ▸ exOne_builtin

/-- A concrete case of `C89_operator`, `C89_pipe` and `C89_unsplit`: labels in the order 3, 4 and predictions in the
order 7, 5, 9; the place of the 9 is dropped. -/
example : ∃ a, exOne.transform (.str "a1b1".toList) = .ok (.str "axyzbxyz".toList, a) ∧
    LabelsInOrder [3, 3, 4, 4] [3, 3, 3, 3, 4, 4, 4, 4] ∧ LabelsInOrder [0, 7, 7, 5, 0, 5, 5, 9] [0, 7, 0, 5] := by
  obtain ⟨t, a, _, _, _, h1, _, h2, h3⟩ := exTwo_run
  obtain ⟨f, g⟩ := C89_operator exEnv exEnv_sane exOne exOne_builtin _ _ a h1
  exact ⟨a, h1, f _ _ h2, g _ _ h3⟩

example : Unsplit 3 [3, 3, 4, 4] ∧ ∃ as, alignAll as [3, 3, 4, 4] = .ok [3, 3, 3, 3, 4, 4, 4, 4] ∧
    Unsplit 3 [3, 3, 3, 3, 4, 4, 4, 4] := by
  obtain ⟨t, a, _, _, _, _, h1, h2, _⟩ := exTwo_run
  have h0 : Unsplit 3 [3, 3, 4, 4] := by
    intro i j k hij hjk hi hk
    have hk' : k < 2 := by
      by_contra hn
      obtain ⟨m, rfl⟩ : ∃ m, k = m + 2 := ⟨k - 2, by omega⟩
      match m, hk with
      | 0, hk => cases hk
      | 1, hk => cases hk
      | m + 2, hk => cases hk
    match j, (by omega : j < 2) with
    | 0, _ => exact Or.inl rfl
    | 1, _ => exact Or.inl rfl
  have hal : alignAll [a] [3, 3, 4, 4] = .ok [3, 3, 3, 3, 4, 4, 4, 4] := by
    show (a.transform [3, 3, 4, 4] >>= fun m => .ok m) = _
    rw [h2]
    rfl
  exact ⟨h0, [a], hal, (C89_unsplit exEnv exEnv_sane _ exOne_steps _ _ _ _ h1 3 (by decide)).1 _ _ hal h0⟩

-- labels in another order would be noticed
example : ¬ LabelsInOrder [3, 3, 4, 4] [4, 3] := by
  rintro ⟨place, hm, hq⟩
  have h0 := (hq 0 4 rfl).resolve_left (by decide)
  have h1 := (hq 1 3 rfl).resolve_left (by decide)
  have := hm 0 1 (by decide)
  revert h0 h1
  generalize place 0 = x at *
  generalize place 1 = y at *
  intro h0 h1
  have hx : 2 ≤ x := by
    by_contra hn
    match x, (by omega : x < 2), h0 with
    | 0, _, h0 => cases h0
    | 1, _, h0 => cases h0
  have hy : y < 2 := by
    by_contra hn
    obtain ⟨m, rfl⟩ : ∃ m, y = m + 2 := ⟨y - 2, by omega⟩
    match m, h1 with
    | 0, h1 => cases h1
    | 1, h1 => cases h1
    | m + 2, h1 => cases h1
  omega

/-- A concrete case of `C89_datum` and `C89_entities`. -/
example : ∃ t, (⟨[exOne], []⟩ : Pipe).transform exTwo = .ok t ∧ t.entityLabels = [3, 3, 3, 3, 4, 4, 4, 4] ∧
    ∀ i j : Nat, t.entityLabels[i]? = some 3 → t.entityLabels[j]? = some 4 → i < j := by
  obtain ⟨t, a, h1, _, h2, _⟩ := exTwo_run
  exact ⟨t, h1, h2, C89_entities exEnv exEnv_sane _ exOne_steps exTwo.utterance [] exTwo.entities exTwo rfl
    (by unfold WithinUtterance; decide) t h1 ⟨3, "a1".toList, 0, 2, []⟩ ⟨4, "b1".toList, 2, 4, []⟩ (by decide) (by decide)
    (by decide) (by decide) (by decide)⟩

/-- A concrete case of `C89_predicted`: the predictions 0 7 7 5 0 5 5 9 make the entities "1" (7) and "1" (5). -/
example : ∃ as o coll d, (⟨[exOne], []⟩ : Pipe).transformSequence (.str "a1b1".toList) = .ok (o, as, coll) ∧
    realignAll as [0, 7, 7, 5, 0, 5, 5, 9] = .ok [0, 7, 0, 5] ∧ packToDatum "a1b1".toList [] [0, 7, 0, 5] = .ok d ∧
    d.entities.map (fun e => (e.label, e.start)) = [(7, 1), (5, 3)] ∧
    ∃ source : Entity → Nat, ∀ e ∈ d.entities, ∀ f ∈ d.entities, e.stop ≤ f.start → source e ≤ source f := by
  obtain ⟨t, a, _, _, _, _, h1, _, h2⟩ := exTwo_run
  have hr : realignAll [a] [0, 7, 7, 5, 0, 5, 5, 9] = .ok [0, 7, 0, 5] := by
    rw [realignAll_cons]
    show a.inverseTransform [0, 7, 7, 5, 0, 5, 5, 9] = _
    exact h2
  have hp : packToDatum "a1b1".toList [] [0, 7, 0, 5] =
      .ok ⟨"a1b1".toList, [], [⟨7, "1".toList, 1, 2, []⟩, ⟨5, "1".toList, 3, 4, []⟩]⟩ := rfl
  obtain ⟨source, _, h⟩ := C89_predicted exEnv exEnv_sane _ exOne_steps "a1b1".toList (by decide) _ _ _ h1 _ _ [] hr _ hp
  exact ⟨_, _, _, _, h1, hr, hp, rfl, source, fun e he f hf hef => (h e he f hf hef).1⟩

end Uttut
