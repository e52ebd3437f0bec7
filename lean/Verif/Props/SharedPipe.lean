import Verif.Props.Shared

/-!
C86 for pipes and for the built-in classes.
-/

namespace Uttut

open Spec Shared

/-! ### One aligner -/

/-- Whatever the sequence `x` is in another state, the inverse direction gives the labels it gives in `s`, or there is
a ValueError. -/
def Steady (s : Shared) (x : SeqRef) (a : LiveAligner) : Prop :=
  ∀ (v : Shared) (ls out : List Int), (a.now (s.read x)).inverseTransform ls = .ok out →
    (a.now (v.read x)).inverseTransform ls = .ok out ∨ (a.now (v.read x)).inverseTransform ls = .error .valueError

theorem run_steady {σ : SetOrder} {u : Unicode} {s : Shared} {op : LiveOp} {x : SeqRef} {out : Seq} {a : LiveAligner}
    (h : op.run σ u (s.read x) = .ok (out, a)) : Steady s x a := by
  intro v ls y hy
  cases x with
  | str t => exact .inl hy
  | list r =>
    cases op with
    | onStr f same => cases h
    | onList k =>
      simp only [LiveOp.run, Shared.read] at h
      obtain ⟨q, hq, h⟩ := bind_eq_ok h
      cases h
      obtain ⟨h1, h2⟩ := C86_after_change σ u k _ q.1 q.2 hq ls y hy ((v.lists[r]?).getD [])
      by_cases hs : StillThere k ((s.lists[r]?).getD []) ((v.lists[r]?).getD []).length
      · exact .inl (h1 hs)
      · exact .inr (h2 hs)

namespace Shared

theorem Grown.known {s s' : Shared} (h : Grown s s') {x : SeqRef} (hx : s.known x = true) : s'.known x = true := by
  cases x with
  | str t => rfl
  | list r =>
    have hk : r < s.lists.length := by simpa [Shared.known] using hx
    have := h.lists r _ (List.getElem?_eq_getElem hk)
    simpa [Shared.known] using (List.getElem?_eq_some_iff.mp this).1

theorem Grown.read {s s' : Shared} (h : Grown s s') {x : SeqRef} (hx : s.known x = true) : s'.read x = s.read x := by
  cases x with
  | str t => rfl
  | list r =>
    have hk : r < s.lists.length := by simpa [Shared.known] using hx
    have := h.lists r _ (List.getElem?_eq_getElem hk)
    simp only [Shared.read]
    rw [this, List.getElem?_eq_getElem hk]

theorem read_known {s : Shared} {out : Seq} : (s.give out).1.known (s.give out).2 = true := by
  cases out with
  | str t => rfl
  | list l => simp [give, known]

theorem call_known {σ : SetOrder} {u : Unicode} {s s' : Shared} {op : LiveOp} {x y : SeqRef} {i : Nat}
    (h : s.call σ u op x = (s', .ok (y, i))) : s'.known y = true := by
  unfold call at h
  split at h
  · split at h
    · cases h
    · rename_i out a heq
      have := read_known (s := s) (out := out)
      dsimp only at h
      injection h with h1 h2
      injection h2 with h2
      injection h2 with h2 h3
      rw [← h1, ← h2]
      cases out with
      | str t => rfl
      | list l => simp [give, known]
  · cases h

/-- The aligner `i` of a pipe run in `s` keeps one of the sequences `coll` of the run. -/
structure Made (s : Shared) (coll : List SeqRef) (i : Nat) (x : SeqRef) (a : LiveAligner) : Prop where
  there : s.aligners[i]? = some (x, a)
  mem : x ∈ coll
  known : s.known x = true
  steady : Steady s x a

/-- A run of the loop of a pipe. -/
theorem pipeLoop_ok (σ : SetOrder) (u : Unicode) (ops : List LiveOp) (s s' : Shared) (x y : SeqRef) (is0 is : List Nat)
    (coll0 coll : List SeqRef) (hx : s.known x = true) (hm : x ∈ coll0)
    (h : pipeLoop σ u ops s x is0 coll0 = (s', .ok (y, is, coll))) :
    ∃ is1 coll1, is = is0 ++ is1 ∧ coll = coll0 ++ coll1 ∧ ∀ i ∈ is1, ∃ z a, Made s' coll i z a := by
  induction ops generalizing s x is0 coll0 with
  | nil =>
    cases h
    exact ⟨[], [], by simp, by simp, by simp⟩
  | cons op ops ih =>
    unfold pipeLoop at h
    split at h
    · cases h
    · rename_i t w i heq
      have hg := pipeLoop_grown σ u ops t w (is0 ++ [i]) (coll0 ++ [w])
      have hk : t.known x = true := by
        have := (call_grown σ u s op x).known hx
        rw [heq] at this
        exact this
      obtain ⟨is1, coll1, h1, h2, h3⟩ := ih t w (is0 ++ [i]) (coll0 ++ [w]) (call_known heq) (by simp) h
      rw [h] at hg
      refine ⟨i :: is1, w :: coll1, by simp [h1], by simp [h2], fun j hj => ?_⟩
      rcases List.mem_cons.mp hj with rfl | hj
      · obtain ⟨out, a, c1, c2, c3, _⟩ := call_ok heq
        refine ⟨x, a, hg.aligners _ _ c2, ?_, hg.known hk, ?_⟩
        · rw [h2]
          simp [hm]
        · have := run_steady c1
          intro v ls out' ho
          rw [hg.read hk, c3] at ho
          exact this v ls out' ho
      · exact h3 j hj

end Shared

/-! ### Pipes -/

theorem realignLoop_steady (as as' : List Aligner) (n : Nat) (hn : as.length = n) (hn' : as'.length = n)
    (h : ∀ (i : Nat) a a', as[i]? = some a → as'[i]? = some a' → ∀ ls out, a.inverseTransform ls = .ok out →
      a'.inverseTransform ls = .ok out ∨ a'.inverseTransform ls = .error .valueError)
    (ls out : List Int) (ho : realignLoop as ls = .ok out) :
    realignLoop as' ls = .ok out ∨ realignLoop as' ls = .error .valueError := by
  induction as generalizing as' n ls with
  | nil =>
    subst hn
    rw [List.eq_nil_of_length_eq_zero hn']
    exact .inl ho
  | cons a as ih =>
    cases as' with
    | nil => subst hn; cases hn'
    | cons a' as' =>
      simp only [realignLoop] at ho ⊢
      obtain ⟨m, hm, ho⟩ := bind_eq_ok ho
      rcases h 0 a a' rfl rfl ls m hm with e | e
      · rw [e, Except.bind_ok]
        exact ih as' as.length rfl (by simp only [List.length_cons] at hn hn'; omega)
          (fun i b b' hb hb' => h (i + 1) b b' hb hb') m ho
      · rw [e]
        exact .inr rfl

theorem alignAll_eq (as as' : List Aligner) (hn : as.length = as'.length)
    (h : ∀ (i : Nat) a a', as[i]? = some a → as'[i]? = some a' → ∀ ls, a'.transform ls = a.transform ls)
    (ls : List Int) : alignAll as' ls = alignAll as ls := by
  induction as generalizing as' ls with
  | nil => rw [List.eq_nil_of_length_eq_zero hn.symm]
  | cons a as ih =>
    cases as' with
    | nil => cases hn
    | cons a' as' =>
      simp only [alignAll]
      rw [h 0 a a' rfl rfl ls]
      cases a.transform ls with
      | error e => rfl
      | ok m =>
        rw [Except.bind_ok, Except.bind_ok]
        exact ih as' (Nat.succ.inj hn) (fun i b b' hb hb' => h (i + 1) b b' hb hb') m

theorem alignersAt_get (s : Shared) (is : List Nat) (h : ∀ i ∈ is, ∃ z a, s.aligners[i]? = some (z, a)) :
    (alignersAt s is).length = is.length ∧
      ∀ (j i : Nat), is[j]? = some i → (alignersAt s is)[j]? = s.aligner? i := by
  induction is with
  | nil => exact ⟨rfl, fun j i h => by simp at h⟩
  | cons i is ih =>
    obtain ⟨h1, h2⟩ := ih fun k hk => h k (List.mem_cons_of_mem _ hk)
    obtain ⟨z, a, hz⟩ := h i (by simp)
    have e : s.aligner? i = some (a.now (s.read z)) := by simp [aligner?, hz]
    unfold alignersAt at h1 h2 ⊢
    rw [List.filterMap_cons, e]
    refine ⟨by simp [h1], fun j k hj => ?_⟩
    cases j with
    | zero =>
      simp only [List.getElem?_cons_zero, Option.some.injEq] at hj ⊢
      subst hj
      exact e.symm
    | succ j => exact h2 j k hj

/-- C86: the aligners of a pipe after any program. Labels are carried forward as right after the run; back to the
input they are carried as right after the run, or there is a ValueError; and if none of the sequences of the run was
changed, the aligners are what they were. -/
theorem C86_pipe (σ : SetOrder) (u : Unicode) (s s' : Shared) (ops : List LiveOp) (x y : SeqRef) (is : List Nat)
    (coll : List SeqRef) (hx : s.known x = true)
    (h : s.pipeCall σ u ops x = (s', .ok (y, is, coll))) (cmds : List SharedCmd) :
    (alignersAt (s'.exec σ u cmds) is).length = is.length ∧
    (∀ ls, alignAll (alignersAt (s'.exec σ u cmds) is) ls = alignAll (alignersAt s' is) ls) ∧
    (∀ ls out, realignAll (alignersAt s' is) ls = .ok out →
      realignAll (alignersAt (s'.exec σ u cmds) is) ls = .ok out ∨
      realignAll (alignersAt (s'.exec σ u cmds) is) ls = .error .valueError) ∧
    ((∀ r v, SeqRef.list r ∈ coll → SharedCmd.changeList r v ∉ cmds) →
      alignersAt (s'.exec σ u cmds) is = alignersAt s' is) := by
  obtain ⟨is1, coll1, h1, _, h3⟩ := pipeLoop_ok σ u ops s s' x y [] is [x] coll hx (by simp) h
  rw [List.nil_append] at h1
  subst h1
  have g1 := alignersAt_get s' is fun i hi => by
    obtain ⟨z, a, m⟩ := h3 i hi
    exact ⟨z, a, m.there⟩
  have g2 := alignersAt_get (s'.exec σ u cmds) is fun i hi => by
    obtain ⟨z, a, m⟩ := h3 i hi
    exact ⟨z, a, exec_aligners σ u cmds s' i _ m.there⟩
  have get : ∀ (j : Nat) b b', (alignersAt s' is)[j]? = some b → (alignersAt (s'.exec σ u cmds) is)[j]? = some b' →
      ∃ i z a, Made s' coll i z a ∧ b = a.now (s'.read z) ∧ b' = a.now ((s'.exec σ u cmds).read z) ∧
        (s'.exec σ u cmds).aligner? i = some b' ∧ s'.aligner? i = some b := by
    intro j b b' hb hb'
    have hj : j < is.length := by
      rw [← g1.1]
      exact (List.getElem?_eq_some_iff.mp hb).1
    have hi : is[j]? = some is[j] := List.getElem?_eq_getElem hj
    obtain ⟨z, a, m⟩ := h3 is[j] (List.getElem_mem hj)
    rw [g1.2 j _ hi] at hb
    rw [g2.2 j _ hi] at hb'
    refine ⟨is[j], z, a, m, ?_, ?_, hb', hb⟩
    · simp only [aligner?, m.there, Option.map_some, Option.some.injEq] at hb
      exact hb.symm
    · simp only [aligner?, exec_aligners σ u cmds s' _ _ m.there, Option.map_some, Option.some.injEq] at hb'
      exact hb'.symm
  refine ⟨g2.1, fun ls => ?_, fun ls out ho => ?_, fun hn => ?_⟩
  · refine alignAll_eq _ _ (by rw [g1.1, g2.1]) (fun j b b' hb hb' ls => ?_) ls
    obtain ⟨i, z, a, m, rfl, rfl, _⟩ := get j b b' hb hb'
    rfl
  · unfold realignAll at ho ⊢
    refine realignLoop_steady _ _ is.length (by rw [List.length_reverse, g1.1]) (by rw [List.length_reverse, g2.1])
      (fun j b b' hb hb' => ?_) ls out ho
    have hj : j < is.length := by
      have := (List.getElem?_eq_some_iff.mp hb).1
      rw [List.length_reverse, g1.1] at this
      exact this
    rw [List.getElem?_reverse (by rw [g1.1]; exact hj)] at hb
    rw [List.getElem?_reverse (by rw [g2.1]; exact hj)] at hb'
    rw [g1.1] at hb
    rw [g2.1] at hb'
    obtain ⟨i, z, a, m, rfl, rfl, _⟩ := get _ b b' hb hb'
    exact m.steady _
  · refine List.ext_getElem? fun j => ?_
    by_cases hj : j < is.length
    · have hi : is[j]? = some is[j] := List.getElem?_eq_getElem hj
      obtain ⟨z, a, m⟩ := h3 is[j] (List.getElem_mem hj)
      rw [g1.2 j _ hi, g2.2 j _ hi]
      exact C86_program_untouched σ u s' _ z a m.there m.known cmds fun r v e => hn r v (e ▸ m.mem)
    · rw [List.getElem?_eq_none (by rw [g2.1]; omega), List.getElem?_eq_none (by rw [g1.1]; omega)]

theorem pipeLoop_stands (σ : SetOrder) (u : Unicode) (ops : List Op) (lops : List LiveOp) (hs : StandsAll σ u ops lops)
    (s : Shared) (x : SeqRef) (hx : s.known x = true) (as0 as : List Aligner) (c0 c : List Seq) (o : Seq)
    (is0 : List Nat) (coll0 : List SeqRef)
    (h : Pipe.runSteps ops (s.read x) as0 c0 = .ok (o, as, c)) :
    ∃ s' y is coll, pipeLoop σ u lops s x is0 coll0 = (s', .ok (y, is0 ++ is, coll0 ++ coll)) ∧ s'.read y = o ∧
      as = as0 ++ alignersAt s' is ∧ c = c0 ++ coll.map s'.read ∧ s'.known y = true ∧
      (∀ i ∈ is, s.aligners.length ≤ i) ∧ (∀ r, SeqRef.list r ∈ coll → s.lists.length ≤ r) := by
  induction hs generalizing s x as0 c0 is0 coll0 with
  | nil =>
    cases h
    exact ⟨s, x, [], [], by simp [pipeLoop], rfl, by simp [alignersAt], by simp, hx, by simp, by simp⟩
  | cons op lop ops lops hst _ ih =>
    simp only [Pipe.runSteps] at h
    obtain ⟨⟨t, a⟩, ht, h⟩ := bind_eq_ok h
    dsimp only at h
    obtain ⟨b, hb, rfl⟩ := hst _ _ _ ht
    cases hc : s.call σ u lop x with
    | mk s1 r =>
      cases r with
      | error e =>
        unfold call at hc
        rw [if_pos hx, hb] at hc
        cases hc
      | ok q =>
        obtain ⟨y, i⟩ := q
        obtain ⟨out, a, c1, c2, c3, c4, _, c5, c6⟩ := call_ok hc
        rw [hb] at c1
        cases c1
        have hk := call_known hc
        have hg1 := call_grown σ u s lop x
        rw [hc] at hg1
        rw [← c4] at h
        obtain ⟨s', y', is, coll, e1, e2, e3, e4, e5, e6, e7⟩ :=
          ih s1 y hk (as0 ++ [b.now (s.read x)]) (c0 ++ [s1.read y]) (is0 ++ [i]) (coll0 ++ [y]) h
        have hg := pipeLoop_grown σ u lops s1 y (is0 ++ [i]) (coll0 ++ [y])
        rw [e1] at hg
        refine ⟨s', y', i :: is, y :: coll, ?_, e2, ?_, ?_, e5, ?_, ?_⟩
        · simp only [pipeLoop, hc]
          rw [e1]
          simp
        · rw [e3]
          have : s'.aligner? i = some (b.now (s.read x)) := by
            simp only [aligner?, hg.aligners _ _ c2, Option.map_some]
            rw [hg.read (hg1.known hx), c3]
          simp [alignersAt, this]
        · rw [e4, List.map_cons, hg.read hk]
          simp
        · intro j hj
          rcases List.mem_cons.mp hj with rfl | hj
          · omega
          · have := e6 j hj
            have h2 : s.aligners.length ≤ s1.aligners.length := by
              have := (List.getElem?_eq_some_iff.mp c2).1
              omega
            omega
        · intro r hr
          rcases List.mem_cons.mp hr with e | hr
          · rw [c5 r e.symm]
            exact Nat.le_refl _
          · have := e7 r hr
            have h2 : s.lists.length ≤ s1.lists.length := by
              by_cases h0 : s.lists.length = 0
              · omega
              · have := hg1.lists (s.lists.length - 1) _ (List.getElem?_eq_getElem (by omega))
                have := (List.getElem?_eq_some_iff.mp this).1
                dsimp only at this
                omega
            omega

/-- C86: right after the run the output, the aligners and the intermediates are those of `transform_sequence`; the
lists among them are new ones. -/
theorem C86_pipe_unchanged (σ : SetOrder) (u : Unicode) (p : Pipe) (lops : List LiveOp)
    (hs : StandsAll σ u p.steps lops) (s : Shared) (x : SeqRef) (hx : s.known x = true) (o : Seq) (as : List Aligner)
    (c : List Seq) (h : p.transformSequence (s.read x) = .ok (o, as, c)) :
    ∃ s' y is coll, s.pipeCall σ u lops x = (s', .ok (y, is, x :: coll)) ∧ s'.read y = o ∧ as = alignersAt s' is ∧
      c = (x :: coll).map s'.read ∧ (∀ i ∈ is, s.aligners.length ≤ i) ∧
      ∀ r, SeqRef.list r ∈ coll → s.lists.length ≤ r := by
  obtain ⟨s', y, is, coll, h1, h2, h3, h4, _, h5, h6⟩ :=
    pipeLoop_stands σ u p.steps lops hs s x hx [] as [s.read x] c o [] [x] h
  refine ⟨s', y, is, coll, h1, h2, h3, ?_, h5, h6⟩
  have hg := pipeLoop_grown σ u lops s x [] [x]
  rw [h1] at hg
  rw [h4, List.map_cons, hg.read hx]
  rfl

/-! ### The built-in classes -/

theorem stands_str (σ : SetOrder) (u : Unicode) (op : Op) (h : op.cls.inputType = .str) (same : Bool) :
    Stands σ u op (.onStr (fun x => op.run (.str x)) same) := by
  intro s t a ht
  have hr := transform_run ht
  cases s with
  | str x =>
    refine ⟨.fixed a same, ?_, rfl⟩
    simp only [LiveOp.run, hr, Except.bind_ok]
    rfl
  | list l =>
    unfold Op.transform at ht
    rw [if_pos (by rw [h]; exact fun e => by cases e)] at ht
    cases ht

theorem stands_list (σ : SetOrder) (u : Unicode) (op : Op) (h : op.cls.inputType = .list) (k : ListOperator)
    (hk : ∀ l t a, op.run (.list l) = .ok (t, a) → ∃ out, t = .list out ∧ k.plain σ u l = .ok (out, a)) :
    Stands σ u op (.onList k) := by
  intro s t a ht
  have hr := transform_run ht
  cases s with
  | str x =>
    unfold Op.transform at ht
    rw [if_pos (by rw [h]; exact fun e => by cases e)] at ht
    cases ht
  | list l =>
    obtain ⟨out, rfl, ho⟩ := hk l t a hr
    rw [C86_unchanged] at ho
    cases hl : k.live σ u l with
    | error e => rw [hl] at ho; cases ho
    | ok q =>
      rw [hl] at ho
      injection ho with ho
      injection ho with h1 h2
      refine ⟨q.2, ?_, h2.symm⟩
      simp only [LiveOp.run, hl, Except.bind_ok]
      rw [h1]
      rfl

theorem lstOp_ok {f : List Tok → Res (List Tok × Aligner)} {l : List Tok} {t : Seq} {a : Aligner}
    (h : lstOp f (.list l) = .ok (t, a)) : ∃ out, t = .list out ∧ f l = .ok (out, a) := by
  obtain ⟨⟨out, b⟩, h1, h2⟩ := bind_eq_ok h
  cases h2
  exact ⟨out, rfl, h1⟩

/-- C86: an operator of the library takes strings, or is one of the seven on lists, of the class of that name. -/
theorem C86_builtin (env : Env) (op : Op) (h : IsBuiltin env op) :
    (op.cls.inputType = .str ∧
      ∀ same, Stands env.σ env.u op (.onStr (fun x => op.run (.str x)) same)) ∨
    (op.cls.inputType = .list ∧
      ∃ k, op.cls.name = (classOf k).toList ∧ Stands env.σ env.u op (.onList k)) := by
  obtain ⟨c, hc, args, kwargs, _, hop⟩ := h
  obtain ⟨hcls, vals, h⟩ := call_run hop
  simp only [Builtin.all, Builtin.concrete, List.cons_append, List.nil_append, List.mem_cons, List.not_mem_nil,
    or_false] at hc
  rcases hc with rfl | rfl | rfl | rfl | rfl | rfl | rfl | rfl | rfl | rfl | rfl | rfl | rfl | rfl | rfl | rfl |
    rfl | rfl | rfl | rfl | rfl | rfl | rfl | rfl | rfl | rfl | rfl | rfl | rfl | rfl | rfl
  all_goals first
    | (have hs : op.cls.inputType = .str := by rw [hcls]; rfl
       exact .inl ⟨hs, stands_str _ _ op hs⟩)
    | skip
  all_goals have hl : op.cls.inputType = .list := by rw [hcls]; rfl
  all_goals refine .inr ⟨hl, ?_⟩
  · -- AddSosEos
    unfold Builtin.sosEos at h
    dsimp only at h
    unfold Builtin.sosEosInit at h
    split at h
    · obtain ⟨s, _, h⟩ := bind_eq_ok h
      obtain ⟨e, _, h⟩ := bind_eq_ok h
      injection h with h
      refine ⟨.addSosEos s e, by rw [hcls]; rfl, stands_list _ _ op hl _ fun l t a hr => ?_⟩
      rw [← h] at hr
      exact lstOp_ok hr
    · cases h
  · -- Pad
    unfold Builtin.pad at h
    dsimp only at h
    unfold Builtin.padInit at h
    split at h
    · rename_i n _
      obtain ⟨tok, _, h⟩ := bind_eq_ok h
      injection h with h
      cases hn : n.asInt with
      | error e =>
        refine ⟨.pad 0 tok, by rw [hcls]; rfl, stands_list _ _ op hl _ fun l t a hr => ?_⟩
        rw [← h] at hr
        obtain ⟨out, _, ho⟩ := lstOp_ok hr
        rw [hn] at ho
        cases ho
      | ok m =>
        refine ⟨.pad m tok, by rw [hcls]; rfl, stands_list _ _ op hl _ fun l t a hr => ?_⟩
        rw [← h] at hr
        obtain ⟨out, e, ho⟩ := lstOp_ok hr
        rw [hn] at ho
        exact ⟨out, e, ho⟩
    · cases h
  · -- Token2Index
    unfold Builtin.token2index at h
    dsimp only at h
    unfold Builtin.token2indexInit at h
    split at h
    · obtain ⟨d, _, h⟩ := bind_eq_ok h
      split at h
      · rename_i unk _
        obtain ⟨_, _, h⟩ := bind_eq_ok h
        injection h with h
        refine ⟨.token2Index d unk, by rw [hcls]; rfl, stands_list _ _ op hl _ fun l t a hr => ?_⟩
        rw [← h] at hr
        exact lstOp_ok hr
      · obtain ⟨_, _, h⟩ := bind_eq_ok h
        split at h <;> cases h
    · cases h
  · -- SpanSubwords
    unfold Builtin.spanSubwords at h
    dsimp only at h
    unfold Builtin.spanSubwordsInit at h
    split at h
    · rename_i vocab _ n
      obtain ⟨unk, _, h⟩ := bind_eq_ok h
      injection h with h
      have key : ∃ has k, ∀ l r, Builtin.spanSubwordsRun env vocab unk n l = .ok r →
          SpanSubwords.transform env.σ has unk k l = .ok r := by
        cases hn : n.asInt with
        | error e =>
          refine ⟨fun _ => false, 0, fun l r hr => ?_⟩
          unfold Builtin.spanSubwordsRun at hr
          rw [hn] at hr
          dsimp only at hr
          split at hr
          · exact hr
          · cases hr
        | ok m =>
          cases hv : vocab.has with
          | ok has =>
            refine ⟨has, m, fun l r hr => ?_⟩
            unfold Builtin.spanSubwordsRun at hr
            rw [hn, hv] at hr
            exact hr
          | error e =>
            refine ⟨fun _ => false, m, fun l r hr => ?_⟩
            unfold Builtin.spanSubwordsRun at hr
            rw [hn, hv] at hr
            dsimp only at hr
            split at hr
            · cases hr
            · exact hr
      obtain ⟨has, k, key⟩ := key
      refine ⟨.spanSubwords has unk k, by rw [hcls]; rfl, stands_list _ _ op hl _ fun l t a hr => ?_⟩
      rw [← h] at hr
      obtain ⟨out, e, ho⟩ := lstOp_ok hr
      exact ⟨out, e, key _ _ ho⟩
    · cases h
  · -- Token2IndexwithHash
    unfold Builtin.token2indexHash at h
    dsimp only at h
    unfold Builtin.token2indexHashInit at h
    split at h
    · obtain ⟨d, _, h⟩ := bind_eq_ok h
      obtain ⟨_, _, h⟩ := bind_eq_ok h
      injection h with h
      refine ⟨.token2IndexWithHash d, by rw [hcls]; rfl, stands_list _ _ op hl _ fun l t a hr => ?_⟩
      rw [← h] at hr
      exact lstOp_ok hr
    · cases h
  · -- PureNum2Token
    unfold Builtin.pureNum at h
    dsimp only at h
    unfold Builtin.pureNumInit at h
    split at h
    · injection h with h
      refine ⟨.pureNum2Token (.str numToken), by rw [hcls]; rfl, stands_list _ _ op hl _ fun l t a hr => ?_⟩
      rw [← h] at hr
      exact lstOp_ok hr
    · obtain ⟨tok, _, h⟩ := bind_eq_ok h
      injection h with h
      refine ⟨.pureNum2Token tok, by rw [hcls]; rfl, stands_list _ _ op hl _ fun l t a hr => ?_⟩
      rw [← h] at hr
      exact lstOp_ok hr
    · cases h
  · -- AddEndToken
    unfold Builtin.endTok at h
    dsimp only at h
    unfold Builtin.endTokInit at h
    split at h
    · cases h
    · obtain ⟨e, _, h⟩ := bind_eq_ok h
      obtain ⟨e', _, h⟩ := bind_eq_ok h
      injection h with h
      refine ⟨.addEndToken (.str e'), by rw [hcls]; rfl, stands_list _ _ op hl _ fun l t a hr => ?_⟩
      rw [← h] at hr
      exact lstOp_ok hr
    · cases h

theorem standsAll_builtin (env : Env) (ops : List Op) (h : ∀ op ∈ ops, IsBuiltin env op) :
    ∃ lops, StandsAll env.σ env.u ops lops := by
  induction ops with
  | nil => exact ⟨[], .nil⟩
  | cons op ops ih =>
    obtain ⟨lops, hl⟩ := ih fun q hq => h q (List.mem_cons_of_mem _ hq)
    rcases C86_builtin env op (h op (by simp)) with ⟨_, hs⟩ | ⟨_, k, _, hs⟩
    · exact ⟨_, .cons _ _ _ _ (hs false) hl⟩
    · exact ⟨_, .cons _ _ _ _ hs hl⟩

/-- C86: a pipe of operators of the library is run on a sequence of a program, and the program goes on. The pipe's
aligners carry labels forward as right after the run; back to the input they carry them as right after the run, or
there is a ValueError. -/
theorem C86_builtin_pipe (env : Env) (p : Pipe) (hp : ∀ op ∈ p.steps, IsBuiltin env op) (s : Shared) (x : SeqRef)
    (hx : s.known x = true) (o : Seq) (as : List Aligner) (c : List Seq)
    (h : p.transformSequence (s.read x) = .ok (o, as, c)) :
    ∃ lops s' y is coll, StandsAll env.σ env.u p.steps lops ∧
      s.pipeCall env.σ env.u lops x = (s', .ok (y, is, coll)) ∧ s'.read y = o ∧ c = coll.map s'.read ∧
      ∀ cmds, (alignersAt (s'.exec env.σ env.u cmds) is).length = as.length ∧
        (∀ ls, alignAll (alignersAt (s'.exec env.σ env.u cmds) is) ls = alignAll as ls) ∧
        (∀ ls out, realignAll as ls = .ok out →
          realignAll (alignersAt (s'.exec env.σ env.u cmds) is) ls = .ok out ∨
          realignAll (alignersAt (s'.exec env.σ env.u cmds) is) ls = .error .valueError) ∧
        ((∀ r v, SeqRef.list r ∈ coll → SharedCmd.changeList r v ∉ cmds) →
          alignersAt (s'.exec env.σ env.u cmds) is = as) := by
  obtain ⟨lops, hl⟩ := standsAll_builtin env p.steps hp
  obtain ⟨s', y, is, coll, h1, h2, h3, h4, _⟩ := C86_pipe_unchanged env.σ env.u p lops hl s x hx o as c h
  refine ⟨lops, s', y, is, x :: coll, hl, h1, h2, h4, fun cmds => ?_⟩
  have h0 := C86_pipe env.σ env.u s s' lops x y is (x :: coll) hx h1 []
  have := C86_pipe env.σ env.u s s' lops x y is (x :: coll) hx h1 cmds
  rw [h3]
  exact ⟨by rw [this.1]; exact h0.1.symm, this.2⟩

/-! ### Label lists -/

theorem live_hands (σ : SetOrder) (u : Unicode) (k : ListOperator) (l out : List Tok) (a : LiveAligner)
    (h : k.live σ u l = .ok (out, a)) : (a.same = true ↔ HandsThrough k) ∧
      (HandsThrough k → ∀ cur, a.now cur = Aligner.null l.length out.length) := by
  rcases live_shape σ u k l out a h with ⟨hk, rfl⟩ | ⟨hk, ps, f, b, c, _, _, rfl, rfl, rfl, _⟩
  · exact ⟨iff_of_true rfl hk, fun _ _ => rfl⟩
  · exact ⟨iff_of_false (by intro e; cases e) hk, fun e => absurd e hk⟩

/-- C86: strings are refused by operators on lists and lists by operators on strings, with TypeError; the program's
objects stay as they are. -/
theorem C86_wrong_type (σ : SetOrder) (u : Unicode) (s : Shared) :
    (∀ k t, s.call σ u (.onList k) (.str t) = (s, .error .typeError)) ∧
    ∀ f same r, r < s.lists.length → s.call σ u (.onStr f same) (.list r) = (s, .error .typeError) := by
  refine ⟨fun k t => rfl, fun f same r hr => ?_⟩
  unfold call
  rw [if_pos (show s.known (.list r) = true from decide_eq_true hr)]
  rfl

/-- C86: the label list an aligner returns. The aligners of `Token2Index`, `Token2IndexwithHash` and `PureNum2Token`
return the list they are given, so whoever changes one of them changes the other; the other operators on lists return
a list that did not exist before. -/
theorem C86_labels (σ : SetOrder) (u : Unicode) (s s' : Shared) (k : ListOperator) (x y : SeqRef) (i : Nat)
    (hc : s.call σ u (.onList k) x = (s', .ok (y, i))) (cmds : List SharedCmd) (r r' : Nat) (v : Shared)
    (h : (s'.exec σ u cmds).align i r = (v, .ok r') ∨ (s'.exec σ u cmds).realign i r = (v, .ok r')) :
    (HandsThrough k → r' = r ∧ v = s'.exec σ u cmds) ∧
    (¬ HandsThrough k → r' = (s'.exec σ u cmds).labels.length ∧ v.lists = (s'.exec σ u cmds).lists ∧
      ∃ out, v.labels = (s'.exec σ u cmds).labels ++ [out]) := by
  obtain ⟨out, b, h1, h2, h3, _⟩ := call_ok hc
  have hl : (b.same = true ↔ HandsThrough k) := by
    cases x with
    | str t => cases h1
    | list q =>
      simp only [LiveOp.run, Shared.read] at h1
      obtain ⟨q, hq, h1⟩ := bind_eq_ok h1
      cases h1
      exact (live_hands σ u k _ q.1 q.2 hq).1
  have key : ∀ out, ∀ w : Shared, (let (t, j) := w.giveLabels b.same r out; (t, (.ok j : Res Nat))) = (v, .ok r') →
      (HandsThrough k → r' = r ∧ v = w) ∧
      (¬ HandsThrough k → r' = w.labels.length ∧ v.lists = w.lists ∧ ∃ o, v.labels = w.labels ++ [o]) := by
    intro out w hw
    unfold giveLabels at hw
    by_cases hsame : b.same = true
    · rw [if_pos hsame] at hw
      cases hw
      exact ⟨fun _ => ⟨rfl, rfl⟩, fun hn => absurd (hl.mp hsame) hn⟩
    · rw [if_neg hsame] at hw
      cases hw
      exact ⟨fun hn => absurd (hl.mpr hn) hsame, fun _ => ⟨rfl, rfl, _, rfl⟩⟩
  have hi := exec_aligners σ u cmds s' i _ h2
  rcases h with h | h
  · unfold align at h
    rw [hi] at h
    split at h
    · rename_i e1 e2
      cases e1
      split at h
      · cases h
      · exact key _ _ h
    · cases h
  · unfold realign at h
    rw [hi] at h
    split at h
    · rename_i e1 e2
      cases e1
      split at h
      · cases h
      · exact key _ _ h
    · cases h

/-- C86: what the label list holds. The labels of the returned list are those the aligner computes from the labels of
the given list, forward for `transform`, back for `inverse_transform`; what the aligner raises is raised, and then
nothing has changed. -/
theorem C86_label_values (σ : SetOrder) (u : Unicode) (s s' : Shared) (k : ListOperator) (x y : SeqRef) (i : Nat)
    (hc : s.call σ u (.onList k) x = (s', .ok (y, i))) (cmds : List SharedCmd) (r : Nat) (ls : List Int)
    (hr : (s'.exec σ u cmds).labels[r]? = some ls) :
    ∃ a, (s'.exec σ u cmds).aligner? i = some a ∧
      (∀ e, a.transform ls = .error e → (s'.exec σ u cmds).align i r = (s'.exec σ u cmds, .error e)) ∧
      (∀ out, a.transform ls = .ok out → ∃ v r', (s'.exec σ u cmds).align i r = (v, .ok r') ∧
        v.labels[r']? = some out) ∧
      (∀ e, a.inverseTransform ls = .error e → (s'.exec σ u cmds).realign i r = (s'.exec σ u cmds, .error e)) ∧
      (∀ out, a.inverseTransform ls = .ok out → ∃ v r', (s'.exec σ u cmds).realign i r = (v, .ok r') ∧
        v.labels[r']? = some out) := by
  obtain ⟨out, b, h1, h2, h3, _⟩ := call_ok hc
  have hb : b.same = true → ∀ cur, ∃ n m, b.now cur = Aligner.null n m := by
    cases x with
    | str t => cases h1
    | list q =>
      simp only [LiveOp.run, Shared.read] at h1
      obtain ⟨q, hq, h1⟩ := bind_eq_ok h1
      cases h1
      obtain ⟨g1, g2⟩ := live_hands σ u k _ q.1 q.2 hq
      exact fun hs cur => ⟨_, _, g2 (g1.mp hs) cur⟩
  have hi := exec_aligners σ u cmds s' i _ h2
  generalize s'.exec σ u cmds = w at *
  have key : ∀ o, (b.same = true → o = ls) →
      ∃ v r', (let (t, j) := w.giveLabels b.same r o; (t, (.ok j : Res Nat))) = (v, .ok r') ∧ v.labels[r']? = some o := by
    intro o ho
    unfold giveLabels
    by_cases hs : b.same = true
    · rw [if_pos hs]
      exact ⟨w, r, rfl, by rw [hr, ho hs]⟩
    · rw [if_neg hs]
      exact ⟨_, _, rfl, by simp⟩
  refine ⟨b.now (w.read x), by unfold aligner?; rw [hi]; rfl, fun e he => ?_, fun o ho => ?_, fun e he => ?_, fun o ho => ?_⟩
  · unfold align
    rw [hi, hr]
    dsimp only
    rw [he]
  · unfold align
    rw [hi, hr]
    dsimp only
    rw [ho]
    refine key o fun hs => ?_
    obtain ⟨n, m, e⟩ := hb hs (w.read x)
    rw [e] at ho
    unfold Aligner.transform at ho
    obtain ⟨_, _, ho⟩ := bind_eq_ok ho
    obtain ⟨q, hq, ho⟩ := bind_eq_ok ho
    obtain ⟨_, _, ho⟩ := bind_eq_ok ho
    cases hq
    cases ho
    rfl
  · unfold realign
    rw [hi, hr]
    dsimp only
    rw [he]
  · unfold realign
    rw [hi, hr]
    dsimp only
    rw [ho]
    refine key o fun hs => ?_
    obtain ⟨n, m, e⟩ := hb hs (w.read x)
    rw [e] at ho
    unfold Aligner.inverseTransform at ho
    obtain ⟨_, _, ho⟩ := bind_eq_ok ho
    obtain ⟨q, hq, ho⟩ := bind_eq_ok ho
    obtain ⟨_, _, ho⟩ := bind_eq_ok ho
    cases hq
    cases ho
    rfl

/-- C86: no method of an operator, a pipe or an aligner changes a list that exists; only the program does. -/
theorem C86_inputs_kept (σ : SetOrder) (u : Unicode) (s : Shared) (cmds : List SharedCmd)
    (hn : ∀ c ∈ cmds, (∀ r v, c ≠ .changeList r v) ∧ ∀ r v, c ≠ .changeLabels r v) :
    (∀ (r : Nat) l, s.lists[r]? = some l → (s.exec σ u cmds).lists[r]? = some l) ∧
    (∀ (r : Nat) l, s.labels[r]? = some l → (s.exec σ u cmds).labels[r]? = some l) := by
  induction cmds generalizing s with
  | nil => exact ⟨fun _ _ h => h, fun _ _ h => h⟩
  | cons c cs ih =>
    have hs : Grown s (s.step σ u c) := by
      cases c with
      | newList l => exact ⟨fun _ _ h => h, fun _ _ h => getElem?_snoc h _, fun _ _ h => h⟩
      | changeList r l => exact absurd rfl ((hn _ (by simp)).1 r l)
      | newLabels l => exact ⟨fun _ _ h => h, fun _ _ h => h, fun _ _ h => getElem?_snoc h _⟩
      | changeLabels r l => exact absurd rfl ((hn _ (by simp)).2 r l)
      | transform op x => exact call_grown σ u s op x
      | transformSequence ops x => exact pipeLoop_grown σ u ops s x _ _
      | align j r => exact align_grown s j r
      | realign j r => exact realign_grown s j r
    obtain ⟨h1, h2⟩ := ih (s.step σ u c) fun d hd => hn d (List.mem_cons_of_mem _ hd)
    exact ⟨fun r l h => h1 r l (hs.lists r l h), fun r l h => h2 r l (hs.labels r l h)⟩

/-! ### Examples -/

namespace SharedExample

/-- Two tokens, and labels for a sequence of one. -/
def start : Shared := ⟨[[.str ['a'], .str ['b']]], [[7]], []⟩

/-- `Pad(maxlen=1)`. -/
def cutting : LiveOp := .onList (.pad 1 (.str ['p']))

/-- The aligner of `Pad` gives the labels back. -/
example : ((start.exec exEnv.σ exEnv.u [.transform cutting (.list 0), .realign 0 0]).labels) = [[7], [7, 0]] := by
  decide

/-- The caller empties the list: ValueError. -/
example : ((start.exec exEnv.σ exEnv.u [.transform cutting (.list 0), .changeList 0 []]).realign 0 0).2 =
    .error .valueError := by rfl

/-- The caller writes other tokens: the same labels. -/
example : ((start.exec exEnv.σ exEnv.u [.transform cutting (.list 0), .changeList 0 [.int 3, .int 4, .int 5],
    .realign 0 0]).labels) = [[7], [7, 0]] := by decide

/-- The hypotheses of `C86_program` and `C86_labels` hold here. -/
example : ∃ s', start.call exEnv.σ exEnv.u cutting (.list 0) = (s', .ok (.list 1, 0)) := ⟨_, rfl⟩

/-- A pipe whose second step truncates: its aligner reads the list the first step returned (number 1), which is also
an intermediate of the result. Emptying it makes carrying labels back impossible. -/
def steps : List LiveOp := [.onList (.addEndToken (.str ['e'])), cutting]

example : ∃ s', start.pipeCall exEnv.σ exEnv.u steps (.list 0) =
    (s', .ok (.list 2, [0, 1], [.list 0, .list 1, .list 2])) := ⟨_, rfl⟩

example : realignAll (alignersAt (start.exec exEnv.σ exEnv.u [.transformSequence steps (.list 0)]) [0, 1]) [7] =
    .ok [7, 0] := by rfl

example : realignAll (alignersAt (start.exec exEnv.σ exEnv.u [.transformSequence steps (.list 0),
    .changeList 1 []]) [0, 1]) [7] = .error .valueError := by rfl

/-- The aligner of `PureNum2Token` returns the caller's own list: changing the result changes the labels given. -/
example : ((⟨[[.str ['a']]], [[7]], []⟩ : Shared).exec exEnv.σ exEnv.u
    [.transform (.onList (.pureNum2Token (.str ['n']))) (.list 0)]).align 0 0 =
      (((⟨[[.str ['a']]], [[7]], []⟩ : Shared).exec exEnv.σ exEnv.u
        [.transform (.onList (.pureNum2Token (.str ['n']))) (.list 0)]), .ok 0) := by rfl

/-- A program that changes no list. -/
example : ∀ c ∈ [SharedCmd.transform cutting (.list 0), .realign 0 0],
    (∀ r v, c ≠ .changeList r v) ∧ ∀ r v, c ≠ .changeLabels r v := by
  intro c hc
  simp only [List.mem_cons, List.not_mem_nil, or_false] at hc
  rcases hc with rfl | rfl <;> exact ⟨nofun, nofun⟩

end SharedExample

/-- C86: there is a program in which `inverse_transform` of a pipe gives labels right after the run and raises
ValueError after the caller changed a list it was given as an intermediate. -/
theorem C86_change_breaks : ∃ (s s' : Shared) (ops : List LiveOp) (x y : SeqRef) (is : List Nat) (coll : List SeqRef)
    (r : Nat) (v : List Tok) (ls out : List Int), SeqRef.list r ∈ coll ∧
    s.pipeCall exEnv.σ exEnv.u ops x = (s', .ok (y, is, coll)) ∧ realignAll (alignersAt s' is) ls = .ok out ∧
    realignAll (alignersAt (s'.exec exEnv.σ exEnv.u [.changeList r v]) is) ls = .error .valueError :=
  ⟨SharedExample.start, _, SharedExample.steps, .list 0, .list 2, [0, 1], [.list 0, .list 1, .list 2], 1, [], [7],
    [7, 0], by simp, rfl, rfl, rfl⟩

end Uttut
