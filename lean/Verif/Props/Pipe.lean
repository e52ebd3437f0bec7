import Verif.Lemmas.Heap
import Verif.Props.Data

/-!
C57-C64, C69: pipes, checkpoints and intermediates.
-/

namespace Uttut

/-! ### Example operators -/

/-- An operator for the examples: reverses a string. -/
def exRev : Op where
  cls := { name := "Rev".toList, inputType := .str, outputType := .str, params := [], defaults := [],
           ownInit := false, init := fun _ => .error .typeError }
  configs := []
  run := fun s => match s with
    | .str t => .ok (.str t.reverse, Aligner.null t.length t.length)
    | .list l => .ok (.list l, Aligner.null l.length l.length)

/-- An operator for the examples: splits a string into characters. -/
def exChars : Op where
  cls := { name := "Chars".toList, inputType := .str, outputType := .list, params := [], defaults := [],
           ownInit := false, init := fun _ => .error .typeError }
  configs := []
  run := fun s => match s with
    | .str t => .ok (.list (t.map fun c => .str [c]), Aligner.null t.length t.length)
    | .list l => .ok (.list l, Aligner.null l.length l.length)

/-! ### C57 -/

/-- A slice command with a step other than 1. -/
def Cmd.steppedSlice : Cmd → Prop
  | .slice _ _ _ step => step ≠ none ∧ step ≠ some 1
  | _ => False

theorem step_wellTyped (w : World) (c : Cmd) (hc : ¬c.steppedSlice) (h : ∀ p ∈ w.pipes, WellTyped p.steps) :
    ∀ p ∈ (w.step c).pipes, WellTyped p.steps := by
  have hset : ∀ (i : Nat) (q : Pipe), WellTyped q.steps → ∀ p ∈ (w.setPipe i q).pipes, WellTyped p.steps := by
    intro i q hq p hp
    rcases List.mem_or_eq_of_mem_set hp with hp | hp
    · exact h p hp
    · rw [hp]; exact hq
  have hadd : ∀ (q : Pipe), WellTyped q.steps → ∀ p ∈ (w.addPipe q).pipes, WellTyped p.steps := by
    intro q hq p hp
    rcases List.mem_append.mp hp with hp | hp
    · exact h p hp
    · rw [List.mem_singleton.mp hp]; exact hq
  have hm : ∀ (i : Nat) (p : Pipe), w.pipes[i]? = some p → WellTyped p.steps :=
    fun i p hp => h p (List.mem_of_getElem? hp)
  cases c with
  | newPipe => exact hadd _ wellTyped_nil
  | addOp i op ck =>
    simp only [World.step]
    cases hi : w.pipes[i]? with
    | none => exact h
    | some p => exact hset i _ (addOp_wellTyped p op ck (hm i p hi))
  | add i f name kw ck =>
    simp only [World.step]
    cases hi : w.pipes[i]? with
    | none => exact h
    | some p => exact hset i _ (add_wellTyped p f name kw ck (hm i p hi))
  | iadd i j =>
    simp only [World.step]
    cases hi : w.pipes[i]? with
    | none => exact h
    | some p =>
      cases hj : w.pipes[j]? with
      | none => exact h
      | some q => exact hset i _ (iadd_wellTyped p q (hm i p hi) (hm j q hj))
  | concat i j =>
    simp only [World.step]
    cases hi : w.pipes[i]? with
    | none => exact h
    | some p =>
      cases hj : w.pipes[j]? with
      | none => exact h
      | some q =>
        dsimp only
        cases hr : p.concat q with
        | error e => exact h
        | ok r =>
          have := iadd_wellTyped p q (hm i p hi) (hm j q hj)
          rw [(concat_ok hr).2.1] at this
          exact hadd r this
  | copy i =>
    simp only [World.step]
    cases hi : w.pipes[i]? with
    | none => exact h
    | some p => exact hadd p (hm i p hi)
  | slice i a b c =>
    simp only [World.step]
    cases hi : w.pipes[i]? with
    | none => exact h
    | some p =>
      dsimp only
      cases hr : p.getSlice a b c with
      | error e => exact h
      | ok r =>
        refine hadd r (getSlice_wellTyped p r a b c (hm i p hi) ?_ hr)
        unfold Cmd.steppedSlice at hc
        by_cases h1 : c = none
        · exact Or.inl h1
        · by_cases h2 : c = some 1
          · exact Or.inr h2
          · exact absurd ⟨h1, h2⟩ hc
  | deserialize f text =>
    simp only [World.step]
    cases hr : Pipe.deserialize f text with
    | error e => exact h
    | ok p => exact hadd p (deserialize_wellTyped f text p hr)
  | transformSequence i s =>
    simp only [World.step]
    cases hi : w.pipes[i]? with
    | none => exact h
    | some p =>
      dsimp only
      cases p.transformSequence s with
      | error e => exact h
      | ok r => exact h
  | transform i d =>
    simp only [World.step]
    cases hi : w.pipes[i]? with
    | none => exact h
    | some p =>
      dsimp only
      cases p.transform d with
      | error e => exact h
      | ok r => exact h

theorem world_wellTyped (cmds : List Cmd) (hc : ∀ c ∈ cmds, ¬c.steppedSlice) :
    ∀ p ∈ (World.run ⟨[], []⟩ cmds).pipes, WellTyped p.steps := by
  have gen : ∀ (cmds : List Cmd) (w : World), (∀ c ∈ cmds, ¬c.steppedSlice) →
      (∀ p ∈ w.pipes, WellTyped p.steps) → ∀ p ∈ (w.run cmds).pipes, WellTyped p.steps := by
    intro cmds
    induction cmds with
    | nil => intro w _ h; exact h
    | cons c cs ih =>
      intro w hc h
      exact ih (w.step c) (fun d hd => hc d (List.mem_cons_of_mem _ hd))
        (step_wellTyped w c (hc c (List.mem_cons_self ..)) h)
  exact gen cmds _ hc (fun p hp => by cases hp)

/-- C57: whatever a program does with pipes (building, growing, adding, copying, slicing, loading - failed
calls included), in every pipe consecutive steps have matching types; only slices with a step other than 1 are
excluded. -/
theorem C57_well_typed (cmds : List Cmd) (hc : ∀ c ∈ cmds, ¬c.steppedSlice) (i : Nat) (p : Pipe)
    (h : (Heap.empty.run cmds).read i = some p) : WellTyped p.steps := by
  rw [(heapRep_empty.run cmds).read] at h
  exact world_wellTyped cmds hc p (List.mem_of_getElem? h)

example : ∀ i p, (Heap.empty.run [.newPipe, .addOp 0 exChars none, .addOp 0 exRev none,
    .slice 0 (some 0) none none]).read i = some p → WellTyped p.steps :=
  C57_well_typed _ (by intro c hc; simp at hc; rcases hc with h | h | h | h <;> subst h <;> simp [Cmd.steppedSlice])

/-- C57: the exclusion is necessary: `p[::-1]` of a well-typed pipe need not be well typed. -/
theorem C57_stepped_slice :
    ∃ p r : Pipe, WellTyped p.steps ∧ p.getSlice none none (some (-1)) = .ok r ∧ ¬WellTyped r.steps := by
  refine ⟨⟨[exRev, exChars], []⟩, ⟨[exChars, exRev], []⟩, ?_, rfl, ?_⟩
  · intro i a b h1 h2
    cases i with
    | zero => injection h1 with h1; injection h2 with h2; subst h1; subst h2; rfl
    | succ i => simp at h2
  · intro h
    exact absurd (h 0 exChars exRev rfl rfl) (by decide)

/-- C57: in a well-typed pipe run on an input of the pipe's input type, every step that is reached gets a value of
its input type: no step ever raises the "Invalid input type" error. -/
theorem C57_inputs_fit (p : Pipe) (hp : WellTyped p.steps) (s : Seq) (first : Op)
    (hf : p.steps.head? = some first) (hs : s.type = first.cls.inputType)
    (pre : List Op) (op : Op) (post : List Op) (hsplit : p.steps = pre ++ op :: post)
    (rs : List (Seq × Aligner)) (hr : Runs pre s rs) : (finalOf s rs).type = op.cls.inputType := by
  cases hl : pre.getLast? with
  | none =>
    have hnil : pre = [] := by simpa using hl
    subst hnil
    cases hr
    rw [hsplit] at hf
    injection hf with hf
    subst hf
    exact hs
  | some last =>
    obtain ⟨pre', hpre⟩ : ∃ pre', pre = pre' ++ [last] := List.getLast?_eq_some_iff.mp hl
    subst hpre
    obtain ⟨qs, qs', he, ha, hb⟩ := hr.split
    cases hb with
    | cons h1 h2 =>
      cases h2
      have ht := (Op.transform_type h1).2
      rw [he, finalOf_append, finalOf_cons]
      show Seq.type _ = _
      have := hp pre'.length last op (by rw [hsplit]; simp) (by
        rw [hsplit, List.getElem?_append_right (by simp)]; simp)
      rw [← this, ← ht]
      rfl

example : ((finalOf (.str ['a', 'b']) [(.str ['b', 'a'], Aligner.null 2 2)]).type = SeqType.str) :=
  C57_inputs_fit ⟨[exRev, exChars], []⟩
    (by
      intro i a b h1 h2
      cases i with
      | zero => injection h1 with h1; injection h2 with h2; subst h1; subst h2; rfl
      | succ i => simp at h2)
    (.str ['a', 'b']) exRev rfl rfl [exRev] exChars [] rfl _ (Runs.cons rfl (Runs.nil _))

/-- C57: a non-empty pipe returns a value of its output type, and accepts only its input type. -/
theorem C57_output_type (p : Pipe) (s o : Seq) (as : List Aligner) (coll : List Seq) (first last : Op)
    (hf : p.steps.head? = some first) (hl : p.steps.getLast? = some last)
    (h : p.transformSequence s = .ok (o, as, coll)) :
    s.type = first.cls.inputType ∧ o.type = last.cls.outputType := by
  obtain ⟨rs, hr, ho, _, _⟩ := (transformSequence_ok p s o as coll).mp h
  constructor
  · cases hst : p.steps with
    | nil => rw [hst] at hf; cases hf
    | cons op ops =>
      rw [hst] at hf hr
      injection hf with hf
      subst hf
      cases hr with
      | cons h1 _ => exact (Op.transform_type h1).1
  · obtain ⟨init, he⟩ := List.getLast?_eq_some_iff.mp hl
    rw [he] at hr
    obtain ⟨qs, qs', he, ha, hb⟩ := hr.split
    cases hb with
    | cons h1 h2 =>
      cases h2
      have ht := (Op.transform_type h1).2
      rw [ho, he, finalOf_append, finalOf_cons]
      exact ht

example : ∀ o as coll, Pipe.transformSequence ⟨[exRev, exChars], []⟩ (.str ['a', 'b']) = .ok (o, as, coll) →
    o.type = .list := fun o as coll h => (C57_output_type _ _ o as coll exRev exChars rfl rfl h).2

/-- C57: an operator that takes texts refuses lists and one that takes lists refuses texts, with TypeError; what it
returns is a text or a list as its output type says. So does a pipe whose first step it is. -/
theorem C57_type_check (op : Op) :
    (op.cls.inputType = .str → ∀ l, op.transform (.list l) = .error .typeError ∧
      ∀ ops cks, Pipe.transformSequence ⟨op :: ops, cks⟩ (.list l) = .error .typeError) ∧
    (op.cls.inputType = .list → ∀ t, op.transform (.str t) = .error .typeError ∧
      ∀ ops cks, Pipe.transformSequence ⟨op :: ops, cks⟩ (.str t) = .error .typeError) ∧
    (op.cls.outputType = .str → ∀ s o a, op.transform s = .ok (o, a) → ∃ t, o = .str t) ∧
    (op.cls.outputType = .list → ∀ s o a, op.transform s = .ok (o, a) → ∃ l, o = .list l) := by
  have hp : ∀ s e, op.transform s = .error e → ∀ ops cks, Pipe.transformSequence ⟨op :: ops, cks⟩ s = .error e := by
    intro s e h ops cks
    unfold Pipe.transformSequence
    show (op.transform s >>= _) = _
    rw [h]
    rfl
  refine ⟨fun h l => ?_, fun h t => ?_, fun h s o a ht => ?_, fun h s o a ht => ?_⟩
  · have : op.transform (.list l) = .error .typeError := by
      unfold Op.transform
      rw [h]
      rfl
    exact ⟨this, hp _ _ this⟩
  · have : op.transform (.str t) = .error .typeError := by
      unfold Op.transform
      rw [h]
      rfl
    exact ⟨this, hp _ _ this⟩
  · have := (Op.transform_type ht).2
    rw [h] at this
    cases o with
    | str t => exact ⟨t, rfl⟩
    | list l => cases this
  · have := (Op.transform_type ht).2
    rw [h] at this
    cases o with
    | str t => cases this
    | list l => exact ⟨l, rfl⟩

example : exRev.transform (.list []) = .error .typeError := ((C57_type_check exRev).1 rfl []).1

/-! ### C58 -/

/-- C58: `transform_sequence` is the composition of the steps: it returns the last value, every aligner in step
order, and the input followed by every step's output. -/
theorem C58_composition (p : Pipe) (s o : Seq) (as : List Aligner) (coll : List Seq) :
    p.transformSequence s = .ok (o, as, coll) ↔
      ∃ rs, Runs p.steps s rs ∧ o = finalOf s rs ∧ as = rs.map Prod.snd ∧ coll = s :: rs.map Prod.fst :=
  transformSequence_ok p s o as coll

example : (Pipe.transformSequence ⟨[exRev, exRev], []⟩ (.str ['a', 'b'])).map (fun r => (r.1, r.2.2)) =
    .ok (.str ['a', 'b'], [.str ['a', 'b'], .str ['b', 'a'], .str ['a', 'b']]) := rfl

/-- C58: the collection has one entry more than the pipe has steps. -/
theorem C58_collection_length (p : Pipe) (s o : Seq) (as : List Aligner) (coll : List Seq)
    (h : p.transformSequence s = .ok (o, as, coll)) :
    coll.length = p.steps.length + 1 ∧ as.length = p.steps.length ∧ coll.head? = some s ∧
      coll.getLast? = some o := by
  obtain ⟨rs, hr, ho, ha, hc⟩ := (transformSequence_ok p s o as coll).mp h
  subst ho; subst ha; subst hc
  refine ⟨by simp [hr.length], by simp [hr.length], rfl, ?_⟩
  rw [List.getLast?_eq_getElem?]
  have := finalOf_take s rs rs.length (Nat.le_refl _)
  rw [List.take_length] at this
  simpa using this

example : ∀ o as coll, Pipe.transformSequence ⟨[exRev, exChars], []⟩ (.str ['a', 'b']) = .ok (o, as, coll) →
    coll.length = 3 := fun o as coll h => (C58_collection_length _ _ o as coll h).1

/-- C58: a run raises exactly the exception of the first step that raises. -/
theorem C58_error (p : Pipe) (s : Seq) (e : Exc) :
    p.transformSequence s = .error e ↔
      ∃ pre op post rs, p.steps = pre ++ op :: post ∧ Runs pre s rs ∧
        op.transform (finalOf s rs) = .error e := by
  unfold Pipe.transformSequence
  exact runSteps_error p.steps s [] [s] e

example : Pipe.transformSequence ⟨[exChars, exRev], []⟩ (.str ['a']) = .error .typeError :=
  (C58_error _ _ _).mpr ⟨[exChars], exRev, [], _, rfl, Runs.cons rfl (Runs.nil _), rfl⟩

/-- C58: running `p + q` is running `p` and then `q` on its output. -/
theorem C58_concat (p q r : Pipe) (h : p.concat q = .ok r) (s : Seq) :
    r.transformSequence s = (do
      let (m, as, c) ← p.transformSequence s
      let (o, bs, d) ← q.transformSequence m
      return (o, as ++ bs, c ++ d.tail)) := by
  have hsteps : r.steps = p.steps ++ q.steps := (concat_ok h).2.2.1
  cases hp : p.transformSequence s with
  | error e =>
    show _ = Except.error e
    obtain ⟨pre, op, post, rs, h1, h2, h3⟩ := (C58_error p s e).mp hp
    exact (C58_error r s e).mpr ⟨pre, op, post ++ q.steps, rs, by rw [hsteps, h1]; simp, h2, h3⟩
  | ok res =>
    obtain ⟨m, as, c⟩ := res
    obtain ⟨rs, h1, h2, h3, h4⟩ := (C58_composition p s m as c).mp hp
    simp only [Except.bind_ok]
    cases hq : q.transformSequence m with
    | error e =>
      show _ = Except.error e
      obtain ⟨pre, op, post, qs, g1, g2, g3⟩ := (C58_error q m e).mp hq
      refine (C58_error r s e).mpr ⟨p.steps ++ pre, op, post, rs ++ qs, by rw [hsteps, g1]; simp,
        h1.append (h2 ▸ g2), ?_⟩
      rw [finalOf_append, ← h2]
      exact g3
    | ok res2 =>
      obtain ⟨o, bs, d⟩ := res2
      obtain ⟨qs, g1, g2, g3, g4⟩ := (C58_composition q m o bs d).mp hq
      refine (C58_composition r s _ _ _).mpr ⟨rs ++ qs, by rw [hsteps]; exact h1.append (h2 ▸ g1), ?_, ?_, ?_⟩
      · rw [finalOf_append, ← h2, g2]
      · rw [h3, g3]; simp
      · rw [h4, g4]; simp

example : ((Pipe.concat ⟨[exRev], []⟩ ⟨[exChars], []⟩).bind fun r => r.transformSequence (.str ['a', 'b'])).map
    (fun r => r.1) = .ok (.list [.str ['b'], .str ['a']]) := rfl

/-! ### C59 -/

theorem LabelsFrom.trans {a b c : List Int} (h : LabelsFrom a b) (h' : LabelsFrom b c) : LabelsFrom a c := by
  intro y hy
  rcases h' y hy with h0 | hm
  · exact Or.inl h0
  · exact h y hm

theorem LabelsFrom.uint {a b : List Int} (h : LabelsFrom a b) (ha : ∀ l ∈ a, IsUInt l) : ∀ l ∈ b, IsUInt l := by
  intro y hy
  rcases h y hy with h0 | hm
  · rw [h0]; exact ⟨by decide, by decide⟩
  · exact ha y hm

theorem realignLoop_append (as bs : List Aligner) (ls : List Int) :
    realignLoop (as ++ bs) ls = (do let m ← realignLoop as ls; realignLoop bs m) := by
  induction as generalizing ls with
  | nil => rfl
  | cons a as ih =>
    show (do let m ← a.inverseTransform ls; realignLoop (as ++ bs) m) =
      ((do let m ← a.inverseTransform ls; realignLoop as m) >>= fun m => realignLoop bs m)
    cases h : a.inverseTransform ls with
    | error e => rfl
    | ok m => exact ih m

theorem realignAll_cons (a : Aligner) (as : List Aligner) (ls : List Int) :
    realignAll (a :: as) ls = (do let m ← realignAll as ls; a.inverseTransform m) := by
  unfold realignAll
  rw [List.reverse_cons, realignLoop_append]
  congr 1
  funext m
  unfold realignLoop
  cases a.inverseTransform m with
  | error e => rfl
  | ok x => rfl

theorem faithfulAll_of (ops : List Op) (s : Seq) (rs : List (Seq × Aligner)) (h : Runs ops s rs)
    (hf : ∀ (i : Nat) op t u a, ops[i]? = some op → (s :: rs.map Prod.fst)[i]? = some t →
      op.transform t = .ok (u, a) → Faithful a t.length u.length) :
    FaithfulAll (rs.map Prod.snd) s.length (finalOf s rs).length := by
  induction h with
  | nil s =>
    exact ⟨fun ls h => ⟨ls, rfl, h, fun y hy => Or.inr hy⟩, fun ls h _ => ⟨ls, rfl, h, fun y hy => Or.inr hy⟩,
      fun h => absurd rfl h, fun h => absurd rfl h⟩
  | @cons op ops s t a rs h1 h2 ih =>
    have h3 := hf 0 op s t a rfl rfl h1
    have h4 := ih (fun i op' t' u' a' ho ht h' => hf (i + 1) op' t' u' a' ho ht h')
    rw [finalOf_cons]
    refine ⟨?_, ?_, fun _ ls hl => ?_, fun _ ls hl => ?_⟩
    · intro ls hl
      obtain ⟨ms, m1, m2, m3⟩ := h3.forward ls hl
      obtain ⟨ys, y1, y2, y3⟩ := h4.forward ms m2
      refine ⟨ys, ?_, y2, m3.trans y3⟩
      show (do let labels ← a.transform ls; alignAll (rs.map Prod.snd) labels) = _
      rw [m1]
      exact y1
    · intro ls hl hu
      obtain ⟨ms, m1, m2, m3⟩ := h4.backward ls hl hu
      obtain ⟨ys, y1, y2, y3⟩ := h3.backward ms m2 (m3.uint hu)
      refine ⟨ys, ?_, y2, m3.trans y3⟩
      show realignAll (a :: rs.map Prod.snd) ls = _
      rw [realignAll_cons, m1]
      exact y1
    · show (do let labels ← a.transform ls; alignAll (rs.map Prod.snd) labels) = _
      rw [h3.refuse ls hl]
      rfl
    · show realignAll (a :: rs.map Prod.snd) ls = _
      rw [realignAll_cons]
      cases rs with
      | nil => exact h3.refuseBack ls hl
      | cons r rs =>
        rw [h4.refuseBack (by simp) ls hl]
        rfl

/-- C59: if every step aligns labels faithfully on the values it is given, so does the pipe: labels of the
input's length go to labels of the output's length, labels of the output's length go back to labels of the input's
length, labels of other lengths are refused, and no label is invented in either direction. -/
theorem C59_aligned (p : Pipe) (s o : Seq) (as : List Aligner) (coll : List Seq)
    (h : p.transformSequence s = .ok (o, as, coll))
    (hf : ∀ (i : Nat) op t u a, p.steps[i]? = some op → coll[i]? = some t → op.transform t = .ok (u, a) →
      Faithful a t.length u.length) :
    FaithfulAll as s.length o.length := by
  obtain ⟨rs, h1, rfl, rfl, rfl⟩ := (C58_composition p s o as coll).mp h
  exact faithfulAll_of p.steps s rs h1 hf

theorem null_faithful (n : Nat) : Faithful (Aligner.null n n) n n := by
  have e1 : ∀ ls : List Int, ls.length = n → (Aligner.null n n).transform ls = .ok ls := by
    intro ls h; simp [Aligner.transform, Aligner.validateInput, Aligner.validateOutput, Aligner.null, h, bind,
      Except.bind, pure, Except.pure]
  have e2 : ∀ ls : List Int, ls.length = n → (Aligner.null n n).inverseTransform ls = .ok ls := by
    intro ls h; simp [Aligner.inverseTransform, Aligner.validateInput, Aligner.validateOutput, Aligner.null, h,
      bind, Except.bind, pure, Except.pure]
  refine ⟨fun ls h => ⟨ls, e1 ls h, h, fun y hy => Or.inr hy⟩,
    fun ls h _ => ⟨ls, e2 ls h, h, fun y hy => Or.inr hy⟩, ?_, ?_⟩
  · intro ls h; simp [Aligner.transform, Aligner.validateInput, Aligner.null, h, bind, Except.bind]
  · intro ls h; simp [Aligner.inverseTransform, Aligner.validateOutput, Aligner.null, h, bind, Except.bind]

example : ∀ o as coll, Pipe.transformSequence ⟨[exRev, exChars], []⟩ (.str ['a', 'b']) = .ok (o, as, coll) →
    FaithfulAll as 2 o.length := by
  intro o as coll h
  refine C59_aligned _ _ o as coll h ?_
  intro i op t u a ho _ ht
  replace ho := List.mem_of_getElem? ho
  have hop : op = exRev ∨ op = exChars := by simpa using ho
  rcases hop with rfl | rfl <;> cases t with
  | str t =>
    injection ht with ht
    injection ht with h1 h2
    subst h1; subst h2
    simpa [Seq.length] using null_faithful t.length
  | list l => cases ht

/-- C59: if labels return unchanged from the round trip through every step, they do through the pipe. -/
theorem C59_round_trip (p : Pipe) (s o : Seq) (as : List Aligner) (coll : List Seq)
    (h : p.transformSequence s = .ok (o, as, coll))
    (hf : ∀ (i : Nat) op t u a, p.steps[i]? = some op → coll[i]? = some t → op.transform t = .ok (u, a) →
      Faithful a t.length u.length ∧ RoundTrips a t.length)
    (ls : List Int) (hl : ls.length = s.length) :
    ∃ ys, alignAll as ls = .ok ys ∧ realignAll as ys = .ok ls := by
  obtain ⟨rs, h1, rfl, rfl, rfl⟩ := (C58_composition p s o as coll).mp h
  have gen : ∀ (ops : List Op) (s : Seq) (rs : List (Seq × Aligner)), Runs ops s rs →
      (∀ (i : Nat) op t u a, ops[i]? = some op → (s :: rs.map Prod.fst)[i]? = some t →
        op.transform t = .ok (u, a) → Faithful a t.length u.length ∧ RoundTrips a t.length) →
      ∀ ls : List Int, ls.length = s.length →
        ∃ ys, alignAll (rs.map Prod.snd) ls = .ok ys ∧ realignAll (rs.map Prod.snd) ys = .ok ls := by
    intro ops s rs hr
    induction hr with
    | nil s => intro _ ls _; exact ⟨ls, rfl, rfl⟩
    | @cons op ops s t a rs h1 h2 ih =>
      intro hf ls hl
      obtain ⟨hfa, hrt⟩ := hf 0 op s t a rfl rfl h1
      obtain ⟨ms, m1, m2⟩ := hrt ls hl
      obtain ⟨ms', m1', m3, _⟩ := hfa.forward ls hl
      rw [m1] at m1'
      injection m1' with m1'
      subst m1'
      obtain ⟨ys, y1, y2⟩ := ih (fun i op' t' u' a' ho ht h' => hf (i + 1) op' t' u' a' ho ht h') ms m3
      refine ⟨ys, ?_, ?_⟩
      · show (do let labels ← a.transform ls; alignAll (rs.map Prod.snd) labels) = _
        rw [m1]
        exact y1
      · show realignAll (a :: rs.map Prod.snd) ys = _
        rw [realignAll_cons, y2]
        exact m2
  exact gen p.steps s rs h1 hf ls hl

/-- C59: `Pipe.transform` of a datum whose entities lie within the utterance returns the intents' labels, and entity
labels of the output's length, each of which is 0 or the label of an entity. -/
theorem C59_transform (p : Pipe) (d : Datum) (o : Seq) (as : List Aligner) (coll : List Seq)
    (hd : ∀ e ∈ d.entities, e.start < e.stop → -(d.utterance.length : Int) ≤ e.start ∧ e.stop ≤ d.utterance.length)
    (h : p.transformSequence (.str d.utterance) = .ok (o, as, coll))
    (hf : ∀ (i : Nat) op t u a, p.steps[i]? = some op → coll[i]? = some t → op.transform t = .ok (u, a) →
      Faithful a t.length u.length) :
    ∃ ys, p.transform d = .ok ⟨o, d.intents.map (fun i => i.label), ys, as, coll⟩ ∧ ys.length = o.length ∧
      ∀ y ∈ ys, y = 0 ∨ ∃ e ∈ d.entities, e.label = y := by
  obtain ⟨ls, l1, l2, l3⟩ := (C45_unpack d).1 hd
  obtain ⟨ys, y1, y2, y3⟩ := (C59_aligned p _ o as coll h hf).forward ls l2
  refine ⟨ys, ?_, y2, fun y hy => ?_⟩
  · unfold Pipe.transform
    rw [l1]
    simp only [Except.bind_ok]
    rw [h]
    simp only [Except.bind_ok]
    rw [y1]
    rfl
  · rcases y3 y hy with h0 | hm
    · exact Or.inl h0
    · obtain ⟨i, hi⟩ := List.getElem?_of_mem hm
      have hlt : i < d.utterance.length := by
        rw [← l2]
        exact (List.getElem?_eq_some_iff.mp hi).1
      have := l3 i hlt
      rw [hi] at this
      injection this with this
      cases hg : (d.entities.filter (fun e => decide (Spec.Covers d.utterance.length e i))).getLast? with
      | none => rw [hg] at this; exact Or.inl this
      | some e =>
        rw [hg] at this
        have he := (List.mem_filter.mp (List.mem_of_getLast? hg)).1
        exact Or.inr ⟨e, he, this.symm⟩

example : ∀ o as coll, Pipe.transformSequence ⟨[exRev, exChars], []⟩ (.str "abc".toList) = .ok (o, as, coll) →
    ∃ ys, Pipe.transform ⟨[exRev, exChars], []⟩ ⟨"abc".toList, [⟨4⟩], [⟨7, "bc".toList, 1, 3, []⟩]⟩ =
      .ok ⟨o, [4], ys, as, coll⟩ ∧ ys.length = o.length ∧
      ∀ y ∈ ys, y = 0 ∨ ∃ e ∈ [(⟨7, "bc".toList, 1, 3, []⟩ : Entity)], e.label = y := by
  intro o as coll h
  refine C59_transform _ ⟨"abc".toList, [⟨4⟩], [⟨7, "bc".toList, 1, 3, []⟩]⟩ o as coll (by decide) h ?_
  intro i op t u a ho _ ht
  replace ho := List.mem_of_getElem? ho
  have hop : op = exRev ∨ op = exChars := by simpa using ho
  rcases hop with rfl | rfl <;> cases t with
  | str t =>
    injection ht with ht
    injection ht with h1 h2
    subst h1; subst h2
    simpa [Seq.length] using null_faithful t.length
  | list l => cases ht

/-! ### C60 -/

/-- C60: take any pipe, add a step with a checkpoint name (the call returns normally), and change the pipe
further in any way. In every later run the name resolves to exactly what the pipe outputs right after that
step. -/
theorem C60_checkpoint (p p' : Pipe) (op : Op) (name : Str) (h : p.addOp op (some name) = (p', .ok ()))
    (calls : List PipeCall) (s o : Seq) (as : List Aligner) (coll : List Seq)
    (hr : (afterCalls p' calls).transformSequence s = .ok (o, as, coll)) :
    ∃ t bs c, p'.transformSequence s = .ok (t, bs, c) ∧
      getFromCheckpoint (afterCalls p' calls).checkpoints coll name = .ok t := by
  obtain ⟨h1, h2, h3⟩ := addOp_named h
  have hg := afterCalls_grows p' calls
  obtain ⟨more, hmore⟩ := hg.steps
  obtain ⟨rs, r1, r2, r3, r4⟩ := (C58_composition _ s o as coll).mp hr
  rw [← hmore] at r1
  obtain ⟨qs, qs', he, ha, hb⟩ := r1.split
  refine ⟨finalOf s qs, _, _, (C58_composition p' s _ _ _).mpr ⟨qs, ha, rfl, rfl, rfl⟩, ?_⟩
  have hck : dictGet (afterCalls p' calls).checkpoints name = some ((p'.steps.length : Nat) : Int) := by
    apply hg.checkpoints
    rw [h3, dictGet_dictSet, if_pos rfl, h1]
    simp
  rw [getFromCheckpoint_nat _ _ _ _ hck, r4]
  have hlen := ha.length
  rw [finalOf_take s rs p'.steps.length (by rw [he]; simp [hlen])]
  rw [he, List.take_append_of_le_length (by omega), ← hlen, List.take_length]

example : ∀ o as coll,
    (afterCalls ⟨[exRev], [("mid".toList, 1)]⟩ [.addOp exChars none]).transformSequence (.str ['a', 'b'])
      = .ok (o, as, coll) →
    ∃ t bs c, Pipe.transformSequence ⟨[exRev], [("mid".toList, 1)]⟩ (.str ['a', 'b']) = .ok (t, bs, c) ∧
      getFromCheckpoint (afterCalls ⟨[exRev], [("mid".toList, 1)]⟩ [.addOp exChars none]).checkpoints coll
        "mid".toList = .ok t :=
  fun o as coll h => C60_checkpoint Pipe.empty _ exRev "mid".toList rfl _ _ o as coll h

/-- C60: names that are no checkpoint of the pipe raise KeyError. -/
theorem C60_unknown (p : Pipe) (coll : List Seq) (name : Str) (h : name ∉ p.checkpoints.map Prod.fst) :
    getFromCheckpoint p.checkpoints coll name = .error .keyError := by
  unfold getFromCheckpoint
  rw [(dictGet_none _ _).mpr h]

example : getFromCheckpoint [("a".toList, 1)] [.str [], .str []] "b".toList = .error .keyError :=
  C60_unknown ⟨[], [("a".toList, 1)]⟩ _ _ (by decide)

/-! ### C61 -/

/-- C61: the possible outcomes of `add_op`. On TypeError the pipe is unchanged; on KeyError (duplicate
checkpoint name) the step has been appended nevertheless; otherwise step and checkpoint are there. -/
theorem C61_add_op (p : Pipe) (op : Op) (ck : Option Str) :
    (∃ last, p.steps.getLast? = some last ∧ op.cls.inputType ≠ last.cls.outputType ∧
      p.addOp op ck = (p, .error .typeError)) ∨
    ((∀ last, p.steps.getLast? = some last → op.cls.inputType = last.cls.outputType) ∧
      ((ck = none ∧ p.addOp op ck = (⟨p.steps ++ [op], p.checkpoints⟩, .ok ())) ∨
       (∃ name, ck = some name ∧ name ∈ p.checkpoints.map Prod.fst ∧
          p.addOp op ck = (⟨p.steps ++ [op], p.checkpoints⟩, .error .keyError)) ∨
       (∃ name, ck = some name ∧ name ∉ p.checkpoints.map Prod.fst ∧
          p.addOp op ck =
            (⟨p.steps ++ [op], p.checkpoints ++ [(name, (p.steps.length : Int) + 1)]⟩, .ok ())))) := by
  have push : (ck = none ∧ p.push op ck = (⟨p.steps ++ [op], p.checkpoints⟩, .ok ())) ∨
       (∃ name, ck = some name ∧ name ∈ p.checkpoints.map Prod.fst ∧
          p.push op ck = (⟨p.steps ++ [op], p.checkpoints⟩, .error .keyError)) ∨
       (∃ name, ck = some name ∧ name ∉ p.checkpoints.map Prod.fst ∧
          p.push op ck =
            (⟨p.steps ++ [op], p.checkpoints ++ [(name, (p.steps.length : Int) + 1)]⟩, .ok ())) := by
    unfold Pipe.push
    cases ck with
    | none => exact Or.inl ⟨rfl, rfl⟩
    | some name =>
      right
      dsimp only
      cases hg : dictGet p.checkpoints name with
      | some v =>
        exact Or.inl ⟨name, rfl, List.mem_map_of_mem (f := Prod.fst) (dictGet_mem _ _ _ hg), rfl⟩
      | none =>
        have hn := (dictGet_none _ _).mp hg
        refine Or.inr ⟨name, rfl, hn, ?_⟩
        dsimp only
        rw [dictSet_not_mem _ _ _ hn]
        simp
  unfold Pipe.addOp
  cases hl : p.steps.getLast? with
  | none => exact Or.inr ⟨fun _ h => (by cases h), push⟩
  | some last =>
    dsimp only
    by_cases ht : op.cls.inputType = last.cls.outputType
    · rw [if_neg (by simp [ht])]
      exact Or.inr ⟨fun l h => (by injection h with h; subst h; exact ht), push⟩
    · rw [if_pos ht]
      exact Or.inl ⟨last, rfl, ht, rfl⟩

example : (Pipe.addOp ⟨[exChars], []⟩ exRev none).2 = .error .typeError := rfl
example : (Pipe.addOp ⟨[exRev], [("x".toList, 1)]⟩ exRev (some "x".toList)).2 = .error .keyError ∧
    (Pipe.addOp ⟨[exRev], [("x".toList, 1)]⟩ exRev (some "x".toList)).1.steps.length = 2 := ⟨rfl, rfl⟩

/-! ### C62 -/

/-- C62: pipes built step by step have all checkpoints in bounds (and as dict keys, distinct). -/
theorem C62_built (calls : List (Op × Option Str)) :
    InBounds (afterCalls Pipe.empty (calls.map fun c => .addOp c.1 c.2)) ∧
      ((afterCalls Pipe.empty (calls.map fun c => .addOp c.1 c.2)).checkpoints.map Prod.fst).Nodup := by
  have gen : ∀ (calls : List (Op × Option Str)) (p : Pipe), InBounds p ∧ (p.checkpoints.map Prod.fst).Nodup →
      InBounds (afterCalls p (calls.map fun c => .addOp c.1 c.2)) ∧
        ((afterCalls p (calls.map fun c => .addOp c.1 c.2)).checkpoints.map Prod.fst).Nodup := by
    intro calls
    induction calls with
    | nil => intro p h; exact h
    | cons c cs ih =>
      intro p h
      refine ih _ ?_
      show InBounds (p.addOp c.1 c.2).1 ∧ ((p.addOp c.1 c.2).1.checkpoints.map Prod.fst).Nodup
      have hb : ∀ q : Pipe, q.steps = p.steps ++ [c.1] → q.checkpoints = p.checkpoints → InBounds q := by
        intro q h1 h2 kv hkv
        rw [h2] at hkv
        have := h.1 kv hkv
        rw [h1]
        simp only [List.length_append, List.length_cons, List.length_nil]
        omega
      rcases C61_add_op p c.1 c.2 with ⟨_, _, _, h1⟩ | ⟨_, ⟨_, h1⟩ | ⟨_, _, _, h1⟩ | ⟨name, _, hn, h1⟩⟩
      · rw [h1]; exact h
      · rw [h1]; exact ⟨hb _ rfl rfl, h.2⟩
      · rw [h1]; exact ⟨hb _ rfl rfl, h.2⟩
      · rw [h1]
        constructor
        · intro kv hkv
          simp only [List.length_append, List.length_cons, List.length_nil]
          rcases List.mem_append.mp hkv with hkv | hkv
          · have := h.1 kv hkv
            omega
          · rw [List.mem_singleton.mp hkv]
            dsimp only
            omega
        · simp only [List.map_append, List.map_cons, List.map_nil]
          rw [List.nodup_append]
          refine ⟨h.2, by simp, ?_⟩
          intro a ha b hb
          rw [List.mem_singleton.mp hb]
          rintro rfl
          exact hn ha
  exact gen calls _ ⟨fun kv h => (by cases h), List.nodup_nil⟩

example : InBounds (afterCalls Pipe.empty [.addOp exRev (some "a".toList), .addOp exChars (some "a".toList)]) :=
  (C62_built [(exRev, some "a".toList), (exChars, some "a".toList)]).1

/-- C62: after `p + q` (and after `p += q`, which leaves the same pipe) every checkpoint of `p` resolves to what it
resolves to in `p` itself. -/
theorem C62_left (p q r : Pipe) (h : p.concat q = .ok r) (hb : InBounds p) (name : Str)
    (hn : name ∈ p.checkpoints.map Prod.fst) (s o : Seq) (as : List Aligner) (coll : List Seq)
    (hr : r.transformSequence s = .ok (o, as, coll)) :
    ∃ t bs c v, p.transformSequence s = .ok (t, bs, c) ∧ getFromCheckpoint p.checkpoints c name = .ok v ∧
      getFromCheckpoint r.checkpoints coll name = .ok v := by
  obtain ⟨hs, hi, h1, h2⟩ := concat_ok h
  cases hg : dictGet p.checkpoints name with
  | none => exact absurd hn ((dictGet_none _ _).mp hg)
  | some i =>
    have hbi := hb _ (dictGet_mem _ _ _ hg)
    obtain ⟨n, hN⟩ := Int.eq_ofNat_of_zero_le (show 0 ≤ i by have := hbi.1; omega)
    subst hN
    have hgr : dictGet r.checkpoints name = some (n : Int) := by
      have := (iadd_grows p q).checkpoints name n hg
      rw [hi] at this
      exact this
    obtain ⟨rs, r1, r2, r3, r4⟩ := (C58_composition _ s o as coll).mp hr
    rw [h1] at r1
    obtain ⟨qs, qs', he, ha, hb'⟩ := r1.split
    have hlen := ha.length
    have hn' : n ≤ qs.length := by have := hbi.2; dsimp only at this; omega
    refine ⟨_, _, _, finalOf s (qs.take n),
      (C58_composition p s _ _ _).mpr ⟨qs, ha, rfl, rfl, rfl⟩, ?_, ?_⟩
    · rw [getFromCheckpoint_nat _ _ _ _ hg, finalOf_take s qs n hn']
    · rw [getFromCheckpoint_nat _ _ _ _ hgr, r4, finalOf_take s rs n (by rw [he]; simp; omega), he,
        List.take_append_of_le_length hn']

/-- C62: and every checkpoint of `q` raises IndexError, because it is shifted by the length of the concatenation
instead of the length of `p`. -/
theorem C62_right (p q r : Pipe) (h : p.concat q = .ok r) (hb : InBounds q)
    (hd : (q.checkpoints.map Prod.fst).Nodup) (name : Str) (hn : name ∈ q.checkpoints.map Prod.fst)
    (s o : Seq) (as : List Aligner) (coll : List Seq) (hr : r.transformSequence s = .ok (o, as, coll)) :
    getFromCheckpoint r.checkpoints coll name = .error .indexError := by
  obtain ⟨hs, hi, h1, h2⟩ := concat_ok h
  obtain ⟨kv, hkv, rfl⟩ := List.mem_map.mp hn
  have hbi := hb kv hkv
  have hlen := (C58_collection_length r s o as coll hr).1
  rw [h1] at hlen
  obtain ⟨n, hN⟩ := Int.eq_ofNat_of_zero_le
    (show 0 ≤ kv.2 + ((p.steps ++ q.steps).length : Int) by have := hbi.1; omega)
  have hg : dictGet r.checkpoints kv.1 = some ((n : Nat) : Int) := by
    rw [h2, ← hN]
    apply dictGet_dictUpdate_mem
    · rw [List.map_map]; exact hd
    · exact List.mem_map.mpr ⟨kv, hkv, rfl⟩
  rw [getFromCheckpoint_nat _ _ _ _ hg, List.getElem?_eq_none (by have := hbi.1; omega)]

example : ∀ r, Pipe.concat ⟨[exRev], [("a".toList, 1)]⟩ ⟨[exRev], [("b".toList, 1)]⟩ = .ok r →
    ∀ o as coll, r.transformSequence (.str ['x', 'y']) = .ok (o, as, coll) →
      getFromCheckpoint r.checkpoints coll "b".toList = .error .indexError :=
  fun r h o as coll hr => C62_right _ _ r h (by intro kv hkv; simp at hkv; subst hkv; decide) (by decide)
    "b".toList (by decide) _ o as coll hr
example : ∀ r, Pipe.concat ⟨[exRev], [("a".toList, 1)]⟩ ⟨[exRev], [("b".toList, 1)]⟩ = .ok r →
    ∀ o as coll, r.transformSequence (.str ['x', 'y']) = .ok (o, as, coll) →
      ∃ t bs c v, Pipe.transformSequence ⟨[exRev], [("a".toList, 1)]⟩ (.str ['x', 'y']) = .ok (t, bs, c) ∧
        getFromCheckpoint [("a".toList, 1)] c "a".toList = .ok v ∧
        getFromCheckpoint r.checkpoints coll "a".toList = .ok v :=
  fun r h o as coll hr => C62_left _ _ r h (by intro kv hkv; simp at hkv; subst hkv; decide)
    "a".toList (by decide) _ o as coll hr

/-- C62: the misplaced checkpoints stay misplaced. When the concatenation is extended further, a checkpoint of `q` that
names step `i` of `q` resolves to the value after step `len(p) + len(q) + i` of the whole pipe, or raises IndexError
while there are fewer steps. -/
theorem C62_right_later (p q r : Pipe) (h : p.concat q = .ok r)
    (hd : (q.checkpoints.map Prod.fst).Nodup) (name : Str) (i : Nat) (hn : (name, (i : Int)) ∈ q.checkpoints)
    (calls : List PipeCall) (s o : Seq) (as : List Aligner) (coll : List Seq)
    (hr : (afterCalls r calls).transformSequence s = .ok (o, as, coll)) :
    (∀ v, coll[p.steps.length + q.steps.length + i]? = some v →
      getFromCheckpoint (afterCalls r calls).checkpoints coll name = .ok v) ∧
    ((afterCalls r calls).steps.length < p.steps.length + q.steps.length + i →
      getFromCheckpoint (afterCalls r calls).checkpoints coll name = .error .indexError) := by
  obtain ⟨hs, hi, h1, h2⟩ := concat_ok h
  have hg : dictGet r.checkpoints name = some ((p.steps.length + q.steps.length + i : Nat) : Int) := by
    have e : ((p.steps.length + q.steps.length + i : Nat) : Int) =
        (i : Int) + ((p.steps ++ q.steps).length : Int) := by
      rw [List.length_append]; omega
    rw [h2, e]
    apply dictGet_dictUpdate_mem
    · rw [List.map_map]; exact hd
    · exact List.mem_map.mpr ⟨_, hn, rfl⟩
  have hg' := (afterCalls_grows r calls).checkpoints name _ hg
  have hlen := (C58_collection_length _ s o as coll hr).1
  rw [getFromCheckpoint_nat _ _ _ _ hg']
  constructor
  · intro v hv
    rw [hv]
  · intro hlt
    rw [List.getElem?_eq_none (by omega)]

-- a checkpoint of the second pipe names the value after a step that was added later
example : ∃ r, Pipe.concat ⟨[exRev], []⟩ ⟨[exRev], [("b".toList, 1)]⟩ = .ok r ∧
    ∃ as coll, (afterCalls r [.addOp exChars none]).transformSequence (.str ['x', 'y']) =
      .ok (.list [.str ['x'], .str ['y']], as, coll) ∧
    getFromCheckpoint (afterCalls r [.addOp exChars none]).checkpoints coll "b".toList =
      .ok (.list [.str ['x'], .str ['y']]) := ⟨_, rfl, _, _, rfl, rfl⟩

/-- C62: `p += q` leaves in `p` what `p + q` returns. -/
theorem C62_iadd (p q : Pipe) :
    (∃ r, p.concat q = .ok r ∧ p.iadd q = (r, .ok ())) ∨
      (∃ e, p.concat q = .error e ∧ p.iadd q = (p, .error e)) := by
  unfold Pipe.concat
  rcases iadd_cases p q with ⟨h1, e, he⟩ | ⟨a, b, ha, hb, ht, hs, h1⟩
  · have : p.iadd q = (p, .error e) := Prod.ext h1 he
    rw [this]
    exact Or.inr ⟨e, rfl, rfl⟩
  · rw [h1]
    exact Or.inl ⟨_, rfl, rfl⟩

example : (Pipe.iadd Pipe.empty ⟨[exRev], []⟩).2 = .error .indexError := rfl

theorem sharesName_iff (p q : Pipe) :
    p.sharesName q = true ↔ ∃ name, name ∈ p.checkpoints.map Prod.fst ∧ name ∈ q.checkpoints.map Prod.fst := by
  unfold Pipe.sharesName
  rw [List.any_eq_true]
  constructor
  · rintro ⟨kv, h1, h2⟩
    refine ⟨kv.1, List.mem_map_of_mem h1, ?_⟩
    cases hg : dictGet q.checkpoints kv.1 with
    | none => rw [hg] at h2; cases h2
    | some v => exact List.mem_map.mpr ⟨_, dictGet_mem _ _ _ hg, rfl⟩
  · rintro ⟨name, h1, h2⟩
    obtain ⟨kv, h3, rfl⟩ := List.mem_map.mp h1
    refine ⟨kv, h3, ?_⟩
    cases hg : dictGet q.checkpoints kv.1 with
    | none => exact absurd h2 ((dictGet_none _ _).mp hg)
    | some v => rfl

theorem dictUpdate_fresh {κ ν : Type} [DecidableEq κ] (d e : List (κ × ν)) (h1 : (e.map Prod.fst).Nodup)
    (h2 : ∀ kv ∈ e, kv.1 ∉ d.map Prod.fst) : dictUpdate d e = d ++ e := by
  unfold dictUpdate
  induction e generalizing d with
  | nil => simp
  | cons kv e ih =>
    rw [List.map_cons, List.nodup_cons] at h1
    rw [List.foldl_cons, dictSet_not_mem _ _ _ (h2 kv (by simp)), ih _ h1.2]
    · simp
    · intro x hx hm
      rw [List.map_append, List.mem_append] at hm
      rcases hm with hm | hm
      · exact h2 x (List.mem_cons_of_mem _ hx) hm
      · rw [List.map_singleton, List.mem_singleton] at hm
        exact h1.1 (hm ▸ List.mem_map_of_mem hx)

/-- C62: when pipes can be added. An empty pipe is an IndexError, types that do not fit a TypeError, a checkpoint of the
same name a KeyError, in this order; otherwise the sum has the steps of both and the checkpoints of both, those of the
second moved by the number of all steps. -/
theorem C62_sum (p q : Pipe) :
    (p.steps = [] ∨ q.steps = [] → p.concat q = .error .indexError) ∧
    ∀ last first, p.steps.getLast? = some last → q.steps.head? = some first →
      (last.cls.outputType ≠ first.cls.inputType → p.concat q = .error .typeError) ∧
      (last.cls.outputType = first.cls.inputType →
        ((∃ name, name ∈ p.checkpoints.map Prod.fst ∧ name ∈ q.checkpoints.map Prod.fst) →
          p.concat q = .error .keyError) ∧
        ((∀ name, name ∈ p.checkpoints.map Prod.fst → name ∉ q.checkpoints.map Prod.fst) →
          (q.checkpoints.map Prod.fst).Nodup →
          p.concat q = .ok ⟨p.steps ++ q.steps, p.checkpoints ++ q.checkpoints.map fun kv =>
            (kv.1, kv.2 + ((p.steps.length + q.steps.length : Nat) : Int))⟩)) := by
  constructor
  · rintro (h | h)
    · unfold Pipe.concat Pipe.iadd Pipe.outputType
      rw [h]
      rfl
    · unfold Pipe.concat Pipe.iadd Pipe.outputType Pipe.inputType
      rw [h]
      cases p.steps.getLast? <;> rfl
  · intro last first hl hf
    have hi : p.concat q = if last.cls.outputType ≠ first.cls.inputType then .error .typeError
        else if p.sharesName q then .error .keyError
        else .ok ⟨p.steps ++ q.steps, dictUpdate p.checkpoints
          (q.checkpoints.map fun kv => (kv.1, kv.2 + ((p.steps ++ q.steps).length : Int)))⟩ := by
      unfold Pipe.concat Pipe.iadd Pipe.outputType Pipe.inputType
      rw [hl, hf]
      dsimp only
      by_cases h1 : last.cls.outputType ≠ first.cls.inputType
      · rw [if_pos h1, if_pos h1]
      · rw [if_neg h1, if_neg h1]
        cases p.sharesName q <;> rfl
    refine ⟨fun h => by rw [hi, if_pos h], fun h => ⟨fun hn => ?_, fun hn hd => ?_⟩⟩
    · rw [hi, if_neg (fun h' => h' h), (sharesName_iff p q).mpr hn]
      rfl
    · have hs : p.sharesName q = false := by
        cases hs : p.sharesName q with
        | false => rfl
        | true =>
          obtain ⟨name, h1, h2⟩ := (sharesName_iff p q).mp hs
          exact absurd h2 (hn name h1)
      rw [hi, if_neg (fun h' => h' h), hs, if_neg (by decide)]
      congr 2
      rw [dictUpdate_fresh]
      · simp
      · rw [List.map_map]; exact hd
      · intro kv hkv
        obtain ⟨x, hx, rfl⟩ := List.mem_map.mp hkv
        exact fun h' => hn x.1 h' (List.mem_map.mpr ⟨x, hx, rfl⟩)

example : (∃ r, (⟨[exRev], [("a".toList, 1)]⟩ : Pipe).concat ⟨[exChars], [("b".toList, 1)]⟩ = .ok r ∧
      r.checkpoints = [("a".toList, 1), ("b".toList, 3)]) ∧
    (⟨[exRev], [("a".toList, 1)]⟩ : Pipe).concat ⟨[exChars], [("a".toList, 1)]⟩ = .error .keyError ∧
    (⟨[exChars], []⟩ : Pipe).concat ⟨[exRev], []⟩ = .error .typeError := ⟨⟨_, rfl, rfl⟩, rfl, rfl⟩

/-! ### C63 -/

theorem clampUp_nat (n i : Nat) : clampUp n (i : Int) = ((min i n : Nat) : Int) := by
  unfold clampUp
  rw [if_neg (by omega)]
  omega

/-- C63: `p[a:]` and `p[a:b]` with bounds that are not negative: the steps are those from `a` up to `b`, the
checkpoints are those beyond `a`, shifted by `a`. -/
theorem C63_slice (p : Pipe) (a : Nat) (b : Option Nat) :
    p.getSlice (some (a : Int)) (b.map fun n : Nat => (n : Int)) none =
      .ok ⟨(p.steps.take (b.getD p.steps.length)).drop a,
        (p.checkpoints.filter fun kv => kv.2 > (a : Int)).map fun kv => (kv.1, kv.2 - a)⟩ := by
  unfold Pipe.getSlice
  obtain ⟨x, y, h1, h2, h3⟩ := sliceStep_one p.steps (some (a : Int)) (b.map fun n : Nat => (n : Int)) none (Or.inl rfl)
  rw [h1, sliceCheckpoints_some]
  simp only [Except.bind_ok]
  show Except.ok _ = _
  congr 2
  unfold slice
  have hx : x = min a p.steps.length := by
    simp only [sliceBound, clampUp_nat] at h2
    omega
  cases b with
  | none =>
    have hy : y = p.steps.length := by simp only [Option.map_none, sliceBound] at h3; omega
    subst hx; subst hy
    simp only [Option.getD_none, List.take_length]
    by_cases h : a ≤ p.steps.length
    · rw [Nat.min_eq_left h]
    · rw [List.drop_eq_nil_of_le (by omega), List.drop_eq_nil_of_le (by omega)]
  | some b =>
    have hy : y = min b p.steps.length := by simp only [Option.map_some, sliceBound, clampUp_nat] at h3; omega
    subst hx; subst hy
    simp only [Option.getD_some]
    have ht : p.steps.take (min b p.steps.length) = p.steps.take b := by
      by_cases h : b ≤ p.steps.length
      · rw [Nat.min_eq_left h]
      · rw [Nat.min_eq_right (by omega), List.take_length, List.take_of_length_le (by omega)]
    rw [ht]
    by_cases h : a ≤ p.steps.length
    · rw [Nat.min_eq_left h]
    · rw [List.drop_eq_nil_of_le (by rw [List.length_take]; omega),
        List.drop_eq_nil_of_le (by rw [List.length_take]; omega)]

example : (Pipe.getSlice ⟨[exRev, exRev, exChars], [("x".toList, 1), ("y".toList, 2)]⟩ (some 1) (some 2) none).map
    (fun r => (r.steps.length, r.checkpoints)) = .ok (1, [("y".toList, 1)]) := rfl

/-- C63: `p[i]` counts from the front, or from the back if `i` is negative; every other index raises IndexError. -/
theorem C63_index (p : Pipe) :
    (∀ (k : Nat) (op : Op), p.steps[k]? = some op →
      p.getStep k = .ok op ∧ p.getStep ((k : Int) - p.steps.length) = .ok op) ∧
    ∀ i : Int, i < -(p.steps.length : Int) ∨ (p.steps.length : Int) ≤ i → p.getStep i = .error .indexError := by
  refine ⟨fun k op h => ?_, fun i h => ?_⟩
  · have hk := (List.getElem?_eq_some_iff.mp h).1
    unfold Pipe.getStep pyIndex?
    constructor
    · rw [if_pos (by omega), if_pos (by omega)]
      simp [h]
    · rw [if_neg (by omega), if_pos (by omega), show ((k : Int) - p.steps.length + p.steps.length) = k by omega]
      simp [h]
  · unfold Pipe.getStep pyIndex?
    rcases h with h | h
    · rw [if_neg (by omega), if_neg (by omega)]
      rfl
    · rw [if_pos (by omega), if_neg (by omega)]
      rfl

example : Pipe.getStep ⟨[exRev, exChars], []⟩ (-1) = .ok exChars :=
  ((C63_index ⟨[exRev, exChars], []⟩).1 1 exChars rfl).2

theorem dictGet_filter_map (cks : List (Str × Int)) (hd : (cks.map Prod.fst).Nodup) (a : Int) (name : Str) (i : Int)
    (h : dictGet cks name = some i) :
    dictGet ((cks.filter fun kv => kv.2 > a).map fun kv => (kv.1, kv.2 - a)) name =
      if i > a then some (i - a) else none := by
  have hnd : (((cks.filter fun kv => kv.2 > a).map fun kv => (kv.1, kv.2 - a)).map Prod.fst).Nodup := by
    rw [List.map_map]
    exact (List.filter_sublist.map _).nodup hd
  split
  · next hi =>
    refine dictGet_of_mem _ _ _ hnd (List.mem_map.mpr ⟨(name, i), ?_, rfl⟩)
    exact List.mem_filter.mpr ⟨dictGet_mem _ _ _ h, by simpa using hi⟩
  · next hi =>
    rw [dictGet_none]
    intro hm
    obtain ⟨kv, hkv, hn⟩ := List.mem_map.mp hm
    obtain ⟨kv', hkv', rfl⟩ := List.mem_map.mp hkv
    obtain ⟨hmem, hgt⟩ := List.mem_filter.mp hkv'
    have : dictGet cks kv'.1 = some kv'.2 := dictGet_of_mem _ _ _ hd hmem
    dsimp only at hn
    rw [hn, h] at this
    injection this with this
    rw [← this] at hgt
    exact hi (by simpa using hgt)

theorem Runs.drop {ops : List Op} {s : Seq} {rs : List (Seq × Aligner)} (h : Runs ops s rs) (a : Nat) :
    Runs (ops.drop a) (finalOf s (rs.take a)) (rs.drop a) := by
  induction h generalizing a with
  | nil s => simp [finalOf, Runs.nil]
  | @cons op ops s t al rs h1 h2 ih =>
    cases a with
    | zero => exact Runs.cons h1 h2
    | succ a => rw [List.take_succ_cons, finalOf_cons]; exact ih a

theorem Runs.take {ops : List Op} {s : Seq} {rs : List (Seq × Aligner)} (h : Runs ops s rs) (b : Nat) :
    Runs (ops.take b) s (rs.take b) := by
  induction h generalizing b with
  | nil s => simp [Runs.nil]
  | @cons op ops s t al rs h1 h2 ih =>
    cases b with
    | zero => exact Runs.nil _
    | succ b => exact Runs.cons h1 (ih b)

theorem finalOf_take_drop (s : Seq) (rs : List (Seq × Aligner)) (a n : Nat) (h : a ≤ rs.length) :
    finalOf (finalOf s (rs.take a)) ((rs.drop a).take n) = finalOf s (rs.take (a + n)) := by
  rw [← finalOf_append, List.take_add]

/-- C63: if `p` runs on `s`, then `p[a:b]` runs on the value that `p` had after `a` steps, and it retraces what `p`
did: its output is the value after `b` steps, its collection the part of `p`'s collection from `a` to `b`. -/
theorem C63_run (p r : Pipe) (a b : Nat) (hab : a ≤ b) (hb : b ≤ p.steps.length)
    (hr : p.getSlice (some (a : Int)) (some (b : Int)) none = .ok r)
    (s o : Seq) (as : List Aligner) (coll : List Seq) (h : p.transformSequence s = .ok (o, as, coll)) :
    ∃ x y, coll[a]? = some x ∧ coll[b]? = some y ∧
      r.transformSequence x = .ok (y, (as.take b).drop a, (coll.take (b + 1)).drop a) := by
  obtain ⟨rs, h1, rfl, rfl, rfl⟩ := (C58_composition p s o as coll).mp h
  have hl := h1.length
  refine ⟨_, _, finalOf_take s rs a (by omega), finalOf_take s rs b (by omega), ?_⟩
  have hs := C63_slice p a (some b)
  rw [show (some b).map (fun n : Nat => (n : Int)) = some (b : Int) from rfl, hr] at hs
  injection hs with hs
  subst hs
  have h2 := (h1.take b).drop a
  rw [List.take_take, Nat.min_eq_left hab] at h2
  refine (C58_composition _ _ _ _ _).mpr ⟨_, h2, ?_, ?_, ?_⟩
  · rw [List.drop_take, finalOf_take_drop s rs a (b - a) (by omega)]
    congr 2
    omega
  · rw [List.map_drop, List.map_take]
  · rw [List.take_succ_cons]
    have key : ∀ (rs : List (Seq × Aligner)) (s : Seq) (a : Nat), a ≤ rs.length →
        (s :: rs.map Prod.fst).drop a = finalOf s (rs.take a) :: (rs.drop a).map Prod.fst := by
      intro rs s a h
      rw [List.drop_eq_getElem_cons (by simp; omega)]
      have := finalOf_take s rs a h
      rw [List.getElem?_eq_getElem (by simp; omega)] at this
      injection this with this
      rw [this, List.drop_succ_cons, List.map_drop]
    rw [← List.map_take, key (rs.take b) s a (by rw [List.length_take]; omega), List.take_take,
      Nat.min_eq_left hab]

/-- C63: checkpoints inside the slice resolve in it as in `p`; those at or before the start are unknown (KeyError);
those beyond the stop are still known but raise IndexError. -/
theorem C63_checkpoints (p r : Pipe) (a b : Nat) (hab : a ≤ b) (hb : b ≤ p.steps.length)
    (hd : (p.checkpoints.map Prod.fst).Nodup)
    (hr : p.getSlice (some (a : Int)) (some (b : Int)) none = .ok r)
    (s o : Seq) (as : List Aligner) (coll : List Seq) (h : p.transformSequence s = .ok (o, as, coll))
    (x o' : Seq) (as' : List Aligner) (coll' : List Seq) (hx : coll[a]? = some x)
    (h' : r.transformSequence x = .ok (o', as', coll'))
    (name : Str) (i : Nat) (hn : dictGet p.checkpoints name = some (i : Int)) :
    (a < i → i ≤ b → ∃ v, getFromCheckpoint p.checkpoints coll name = .ok v ∧
        getFromCheckpoint r.checkpoints coll' name = .ok v) ∧
      (i ≤ a → getFromCheckpoint r.checkpoints coll' name = .error .keyError) ∧
      (b < i → getFromCheckpoint r.checkpoints coll' name = .error .indexError) := by
  obtain ⟨x', y, hx', hy, hrun⟩ := C63_run p r a b hab hb hr s o as coll h
  rw [hx] at hx'
  injection hx' with hx'
  subst hx'
  rw [h'] at hrun
  injection hrun with hrun
  injection hrun with _ hrun
  injection hrun with _ hcoll
  have hlen := (C58_collection_length p s o as coll h).1
  have hs := C63_slice p a (some b)
  rw [show (some b).map (fun n : Nat => (n : Int)) = some (b : Int) from rfl, hr] at hs
  injection hs with hs
  have hck := dictGet_filter_map p.checkpoints hd a name i hn
  have hrck : r.checkpoints = (p.checkpoints.filter fun kv => kv.2 > (a : Int)).map
      fun kv => (kv.1, kv.2 - (a : Int)) := by rw [hs]
  rw [← hrck] at hck
  refine ⟨fun h1 h2 => ?_, fun h1 => ?_, fun h1 => ?_⟩
  · rw [if_pos (by omega)] at hck
    have hck' : dictGet r.checkpoints name = some ((i - a : Nat) : Int) := by rw [hck]; congr 1; omega
    refine ⟨coll[i]'(by omega), ?_, ?_⟩
    · rw [getFromCheckpoint_nat _ _ _ _ hn, List.getElem?_eq_getElem (by omega)]
    · rw [getFromCheckpoint_nat _ _ _ _ hck', hcoll, List.getElem?_drop, List.getElem?_take,
        if_pos (by omega), show a + (i - a) = i by omega, List.getElem?_eq_getElem (by omega)]
  · rw [if_neg (by omega)] at hck
    unfold getFromCheckpoint
    rw [hck]
  · rw [if_pos (by omega)] at hck
    have hck' : dictGet r.checkpoints name = some ((i - a : Nat) : Int) := by rw [hck]; congr 1; omega
    rw [getFromCheckpoint_nat _ _ _ _ hck', hcoll, List.getElem?_eq_none]
    rw [List.length_drop, List.length_take]
    omega

example : ∃ r o as coll x o' as' coll',
    Pipe.getSlice ⟨[exRev, exRev, exChars], [("x".toList, 1), ("y".toList, 2), ("z".toList, 3)]⟩
      (some ((1 : Nat) : Int)) (some ((2 : Nat) : Int)) none = .ok r ∧
    Pipe.transformSequence ⟨[exRev, exRev, exChars], [("x".toList, 1), ("y".toList, 2), ("z".toList, 3)]⟩
      (.str "ab".toList) = .ok (o, as, coll) ∧ coll[1]? = some x ∧
    r.transformSequence x = .ok (o', as', coll') ∧
    getFromCheckpoint r.checkpoints coll' "y".toList = .ok (.str "ab".toList) :=
  ⟨_, _, _, _, _, _, _, _, rfl, rfl, rfl, rfl, rfl⟩

/-- C63: without a start the slice raises TypeError exactly when the pipe has checkpoints. -/
theorem C63_no_start (p : Pipe) (stop step : Option Int) (hs : step ≠ some 0) :
    (p.checkpoints ≠ [] → p.getSlice none stop step = .error .typeError) ∧
      (p.checkpoints = [] → ∃ steps, p.getSlice none stop step = .ok ⟨steps, []⟩) := by
  have hst : ∃ steps, sliceStep p.steps none stop step = .ok steps := by
    unfold sliceStep
    split
    · next h => exact absurd rfl hs
    · exact ⟨_, rfl⟩
  obtain ⟨steps, hst⟩ := hst
  unfold Pipe.getSlice
  rw [hst]
  simp only [Except.bind_ok]
  constructor
  · intro h
    cases hc : p.checkpoints with
    | nil => exact absurd hc h
    | cons kv rest => rfl
  · intro h
    rw [h]
    exact ⟨steps, rfl⟩

example : (Pipe.getSlice ⟨[exRev], [("x".toList, 1)]⟩ none (some 1) none).map (fun r => r.checkpoints) =
    .error .typeError := rfl

/-- C63: `p[-k:]` and `p[-k:b]` keep every checkpoint, but each of them raises IndexError. -/
theorem C63_negative_start (p r : Pipe) (k : Nat) (hk : 0 < k) (stop : Option Int)
    (hr : p.getSlice (some (-(k : Int))) stop none = .ok r) (hb : InBounds p)
    (hd : (p.checkpoints.map Prod.fst).Nodup) (x o : Seq) (as : List Aligner) (coll : List Seq)
    (h : r.transformSequence x = .ok (o, as, coll)) (name : Str) (hn : name ∈ p.checkpoints.map Prod.fst) :
    getFromCheckpoint r.checkpoints coll name = .error .indexError := by
  obtain ⟨h1, h2⟩ := getSlice_ok hr
  rw [sliceCheckpoints_some] at h2
  injection h2 with h2
  obtain ⟨u, v, g1, g2, g3⟩ := sliceStep_one p.steps (some (-(k : Int))) stop none (Or.inl rfl)
  rw [h1] at g1
  injection g1 with g1
  have hu : p.steps.length ≤ u + k := by
    simp only [sliceBound, clampUp, if_pos (show -(k : Int) < 0 by omega)] at g2
    omega
  have hv : v ≤ p.steps.length := by
    cases stop with
    | none => simp only [sliceBound] at g3; omega
    | some c => simp only [sliceBound, clampUp] at g3; split at g3 <;> omega
  have hlen := (C58_collection_length r x o as coll h).1
  have hsl : r.steps.length ≤ k := by
    rw [g1]
    unfold slice
    rw [List.length_drop, List.length_take]
    omega
  cases hg : dictGet p.checkpoints name with
  | none => exact absurd hn ((dictGet_none _ _).mp hg)
  | some i =>
    have hi := (hb _ (dictGet_mem _ _ _ hg)).1
    dsimp only at hi
    have hck := dictGet_filter_map p.checkpoints hd (-(k : Int)) name i hg
    rw [if_pos (by omega), h2] at hck
    obtain ⟨n, hN⟩ := Int.eq_ofNat_of_zero_le (show 0 ≤ i - -(k : Int) by omega)
    rw [hN] at hck
    rw [getFromCheckpoint_nat _ _ _ _ hck, List.getElem?_eq_none (by omega)]

example : ∃ r o as coll,
    Pipe.getSlice ⟨[exRev, exRev, exChars], [("x".toList, 1), ("z".toList, 3)]⟩ (some (-((2 : Nat) : Int))) none none
      = .ok r ∧ r.transformSequence (.str "ab".toList) = .ok (o, as, coll) ∧
    getFromCheckpoint r.checkpoints coll "z".toList = .error .indexError :=
  ⟨_, _, _, _, rfl, rfl, rfl⟩

/-! ### C64, C69 -/

/-- The pipe a command is allowed to change. -/
def Cmd.target : Cmd → Option Nat
  | .addOp i _ _ => some i
  | .add i _ _ _ _ => some i
  | .iadd i _ => some i
  | _ => none

/-- Loaded texts only: the checkpoints in the text are positive, as those that `serialize` writes for a pipe built
with `add_op` (C62). -/
def Cmd.goodText : Cmd → Prop
  | .deserialize f text => ∀ p, Pipe.deserialize f text = .ok p → ∀ kv ∈ p.checkpoints, 1 ≤ kv.2
  | _ => True

/-- `q` is a later state of `p`: names that `p` did not have come after its steps. -/
structure LaterNames (p q : Pipe) : Prop where
  grows : Grows p q
  fresh : ∀ (name : Str) (i : Int), dictGet p.checkpoints name = none → dictGet q.checkpoints name = some i →
    (p.steps.length : Int) < i
  positive : (∀ kv ∈ p.checkpoints, 1 ≤ kv.2) → ∀ kv ∈ q.checkpoints, 1 ≤ kv.2

theorem LaterNames.refl (p : Pipe) : LaterNames p p :=
  ⟨Grows.refl p, fun n i h h' => (by rw [h] at h'; cases h'), fun h => h⟩

theorem LaterNames.trans {p q r : Pipe} (h : LaterNames p q) (h' : LaterNames q r) : LaterNames p r := by
  refine ⟨h.grows.trans h'.grows, fun n i hp hr => ?_, fun hp => h'.positive (h.positive hp)⟩
  cases hq : dictGet q.checkpoints n with
  | none =>
    have := h'.fresh n i hq hr
    have := h.grows.steps.length_le
    omega
  | some j =>
    have := h'.grows.checkpoints n j hq
    rw [hr] at this
    injection this with this
    subst this
    exact h.fresh n i hp hq

theorem addOp_later (p : Pipe) (op : Op) (ck : Option Str) : LaterNames p (p.addOp op ck).1 := by
  refine ⟨addOp_grows p op ck, ?_, ?_⟩
  · intro n i hp hq
    rcases C61_add_op p op ck with ⟨_, _, _, h1⟩ | ⟨_, ⟨_, h1⟩ | ⟨_, _, _, h1⟩ | ⟨name, _, hn, h1⟩⟩
    · rw [h1, hp] at hq; cases hq
    · rw [h1, hp] at hq; cases hq
    · rw [h1, hp] at hq; cases hq
    · rw [h1] at hq
      rcases List.mem_append.mp (dictGet_mem _ _ _ hq) with hm | hm
      · exact absurd (List.mem_map_of_mem (f := Prod.fst) hm) ((dictGet_none _ _).mp hp)
      · simp at hm
        omega
  · intro hp
    rcases C61_add_op p op ck with ⟨_, _, _, h1⟩ | ⟨_, ⟨_, h1⟩ | ⟨_, _, _, h1⟩ | ⟨name, _, hn, h1⟩⟩
    · rw [h1]; exact hp
    · rw [h1]; exact hp
    · rw [h1]; exact hp
    · rw [h1]
      intro kv hkv
      rcases List.mem_append.mp hkv with hm | hm
      · exact hp kv hm
      · rw [List.mem_singleton.mp hm]
        dsimp only
        omega

theorem add_later (p : Pipe) (f : Factory) (name : Str) (kw : Option (List (Str × PyVal))) (ck : Option Str) :
    LaterNames p (p.add f name kw ck).1 := by
  unfold Pipe.add
  split
  · exact LaterNames.refl p
  · exact addOp_later p _ ck

theorem dictSet_mem {κ ν : Type} [DecidableEq κ] (d : List (κ × ν)) (k : κ) (v : ν) (x : κ × ν)
    (h : x ∈ dictSet d k v) : x ∈ d ∨ x = (k, v) := by
  induction d with
  | nil => right; simpa [dictSet] using h
  | cons p d ih =>
    obtain ⟨a, b⟩ := p
    simp only [dictSet] at h
    split at h
    · next hk =>
      rcases List.mem_cons.mp h with h | h
      · right; rw [h]
      · left; exact List.mem_cons_of_mem _ h
    · rcases List.mem_cons.mp h with h | h
      · left; rw [h]; exact List.mem_cons_self ..
      · rcases ih h with h | h
        · left; exact List.mem_cons_of_mem _ h
        · right; exact h

theorem dictUpdate_mem {κ ν : Type} [DecidableEq κ] (d e : List (κ × ν)) (x : κ × ν) (h : x ∈ dictUpdate d e) :
    x ∈ d ∨ x ∈ e := by
  unfold dictUpdate at h
  induction e generalizing d with
  | nil => exact Or.inl h
  | cons p e ih =>
    rcases ih _ h with h | h
    · rcases dictSet_mem _ _ _ _ h with h | h
      · exact Or.inl h
      · right; rw [h]; exact List.mem_cons_self ..
    · right; exact List.mem_cons_of_mem _ h

theorem iadd_later (p q : Pipe) (hq : ∀ kv ∈ q.checkpoints, 1 ≤ kv.2) : LaterNames p (p.iadd q).1 := by
  refine ⟨iadd_grows p q, ?_, ?_⟩
  · intro n i hp hr
    rcases iadd_cases p q with ⟨h1, _⟩ | ⟨a, b, ha, hb, ht, hs, h1⟩
    · rw [h1, hp] at hr; cases hr
    · rw [h1] at hr
      rcases dictUpdate_mem _ _ _ (dictGet_mem _ _ _ hr) with hm | hm
      · exact absurd (List.mem_map_of_mem (f := Prod.fst) hm) ((dictGet_none _ _).mp hp)
      · obtain ⟨kv, hkv, he⟩ := List.mem_map.mp hm
        have := hq kv hkv
        injection he with _ he
        rw [List.length_append] at he
        omega
  · intro hp
    rcases iadd_cases p q with ⟨h1, _⟩ | ⟨a, b, ha, hb, ht, hs, h1⟩
    · rw [h1]; exact hp
    · rw [h1]
      intro kv hkv
      rcases dictUpdate_mem _ _ _ hkv with hm | hm
      · exact hp kv hm
      · obtain ⟨kv', hkv', rfl⟩ := List.mem_map.mp hm
        have := hq kv' hkv'
        dsimp only
        omega

theorem set_get (w : World) (i j : Nat) (p q r : Pipe) (hi : w.pipes[i]? = some p) (hj : w.pipes[j]? = some q) :
    (j ≠ i → (w.setPipe i r).pipes[j]? = some q) ∧ (j = i → (w.setPipe i r).pipes[j]? = some r) := by
  constructor
  · intro h
    show (w.pipes.set i r)[j]? = _
    rw [List.getElem?_set_ne (Ne.symm h)]
    exact hj
  · rintro rfl
    show (w.pipes.set j r)[j]? = _
    rw [List.getElem?_set_self (List.getElem?_eq_some_iff.mp hi).1]

theorem addPipe_get (w : World) (j : Nat) (q r : Pipe) (hj : w.pipes[j]? = some q) :
    (w.addPipe r).pipes[j]? = some q := by
  show (w.pipes ++ [r])[j]? = _
  rw [List.getElem?_append_left (List.getElem?_eq_some_iff.mp hj).1]
  exact hj

/-- What one command does to a pipe. -/
theorem world_step (w : World) (c : Cmd) (j : Nat) (q : Pipe) (hj : w.pipes[j]? = some q) :
    ∃ q', (w.step c).pipes[j]? = some q' ∧ Grows q q' ∧ (c.target ≠ some j → q' = q) ∧
      ((∀ p ∈ w.pipes, ∀ kv ∈ p.checkpoints, 1 ≤ kv.2) → LaterNames q q') := by
  have same : ∀ w' : World, w'.pipes[j]? = some q → ∃ q', w'.pipes[j]? = some q' ∧ Grows q q' ∧
      (c.target ≠ some j → q' = q) ∧
      ((∀ p ∈ w.pipes, ∀ kv ∈ p.checkpoints, 1 ≤ kv.2) → LaterNames q q') :=
    fun w' h => ⟨q, h, Grows.refl q, fun _ => rfl, fun _ => LaterNames.refl q⟩
  have changed : ∀ (i : Nat) (p r : Pipe), c.target = some i → w.pipes[i]? = some p → Grows p r →
      ((∀ p ∈ w.pipes, ∀ kv ∈ p.checkpoints, 1 ≤ kv.2) → LaterNames p r) →
      ∃ q', (w.setPipe i r).pipes[j]? = some q' ∧ Grows q q' ∧
      (c.target ≠ some j → q' = q) ∧
      ((∀ p ∈ w.pipes, ∀ kv ∈ p.checkpoints, 1 ≤ kv.2) → LaterNames q q') := by
    intro i p r ht hi hg hl
    by_cases hij : j = i
    · subst hij
      rw [hi] at hj
      injection hj with hj
      subst hj
      exact ⟨r, (set_get w j j p p r hi hi).2 rfl, hg, fun h => absurd ht h, hl⟩
    · exact ⟨q, (set_get w i j p q r hi hj).1 hij, Grows.refl q, fun _ => rfl, fun _ => LaterNames.refl q⟩
  cases c with
  | newPipe => exact same _ (addPipe_get w j q _ hj)
  | addOp i op ck =>
    simp only [World.step]
    cases hi : w.pipes[i]? with
    | none => exact same _ hj
    | some p => exact changed i p _ rfl hi (addOp_grows p op ck) (fun _ => addOp_later p op ck)
  | add i f name kw ck =>
    simp only [World.step]
    cases hi : w.pipes[i]? with
    | none => exact same _ hj
    | some p => exact changed i p _ rfl hi (add_grows p f name kw ck) (fun _ => add_later p f name kw ck)
  | iadd i k =>
    simp only [World.step]
    cases hi : w.pipes[i]? with
    | none => exact same _ hj
    | some p =>
      cases hk : w.pipes[k]? with
      | none => exact same _ hj
      | some r => exact changed i p _ rfl hi (iadd_grows p r) (fun h => iadd_later p r (h r (List.mem_of_getElem? hk)))
  | concat i k =>
    simp only [World.step]
    cases hi : w.pipes[i]? with
    | none => exact same _ hj
    | some p =>
      cases hk : w.pipes[k]? with
      | none => exact same _ hj
      | some r =>
        dsimp only
        cases p.concat r with
        | error e => exact same _ hj
        | ok x => exact same _ (addPipe_get w j q x hj)
  | copy i =>
    simp only [World.step]
    cases hi : w.pipes[i]? with
    | none => exact same _ hj
    | some p => exact same _ (addPipe_get w j q p hj)
  | slice i a b c =>
    simp only [World.step]
    cases hi : w.pipes[i]? with
    | none => exact same _ hj
    | some p =>
      dsimp only
      cases p.getSlice a b c with
      | error e => exact same _ hj
      | ok x => exact same _ (addPipe_get w j q x hj)
  | deserialize f text =>
    simp only [World.step]
    cases Pipe.deserialize f text with
    | error e => exact same _ hj
    | ok x => exact same _ (addPipe_get w j q x hj)
  | transformSequence i s =>
    simp only [World.step]
    cases hi : w.pipes[i]? with
    | none => exact same _ hj
    | some p =>
      dsimp only
      cases p.transformSequence s with
      | error e => exact same _ hj
      | ok x => exact same _ hj
  | transform i d =>
    simp only [World.step]
    cases hi : w.pipes[i]? with
    | none => exact same _ hj
    | some p =>
      dsimp only
      cases p.transform d with
      | error e => exact same _ hj
      | ok x => exact same _ hj

/-- C69: pipes do not share state: a program part that never calls `add`, `add_op` or `+=` on a pipe does not change
it, whatever it does with copies, slices and sums made from it. -/
theorem C69_independent (before after : List Cmd) (j : Nat) (p : Pipe)
    (h : (Heap.empty.run before).read j = some p) (hc : ∀ c ∈ after, c.target ≠ some j) :
    ((Heap.empty.run before).run after).read j = some p := by
  have r := heapRep_empty.run before
  rw [r.read] at h
  rw [(r.run after).read]
  generalize World.run ⟨[], []⟩ before = w at h
  clear r
  induction after generalizing w with
  | nil => exact h
  | cons c cs ih =>
    obtain ⟨q', h1, _, h3, _⟩ := world_step w c j p h
    rw [h3 (hc c (List.mem_cons_self ..))] at h1
    exact ih (fun d hd => hc d (List.mem_cons_of_mem _ hd)) (w.step c) h1

example : ((Heap.empty.run [.newPipe, .addOp 0 exRev none]).run
      [.copy 0, .addOp 1 exRev (some "x".toList), .concat 0 1, .addOp 2 exChars none]).read 0 =
    some ⟨[exRev], []⟩ :=
  C69_independent _ _ 0 _ rfl (by
    intro c hc; simp at hc; rcases hc with h | h | h | h <;> subst h <;> simp [Cmd.target])

/-- C69: and a pipe never loses steps or checkpoints: whatever is called, later states extend earlier ones. -/
theorem C69_grows (before after : List Cmd) (j : Nat) (p : Pipe)
    (h : (Heap.empty.run before).read j = some p) :
    ∃ q, ((Heap.empty.run before).run after).read j = some q ∧ p.steps <+: q.steps ∧
      ∀ name i, dictGet p.checkpoints name = some i → dictGet q.checkpoints name = some i := by
  have r := heapRep_empty.run before
  rw [r.read] at h
  rw [(r.run after).read]
  have gen : ∀ (cs : List Cmd) (w : World) (p : Pipe), w.pipes[j]? = some p →
      ∃ q, (w.run cs).pipes[j]? = some q ∧ Grows p q := by
    intro cs
    induction cs with
    | nil => intro w p h; exact ⟨p, h, Grows.refl p⟩
    | cons c cs ih =>
      intro w p h
      obtain ⟨q, h1, h2, _⟩ := world_step w c j p h
      obtain ⟨q', h3, h4⟩ := ih (w.step c) q h1
      exact ⟨q', h3, h2.trans h4⟩
  obtain ⟨q, h1, h2⟩ := gen after _ p h
  exact ⟨q, h1, h2.steps, h2.checkpoints⟩

example : ∃ q, ((Heap.empty.run [.newPipe, .addOp 0 exRev none]).run [.iadd 0 0]).read 0 = some q ∧
    [exRev] <+: q.steps ∧ ∀ name i, dictGet ([] : List (Str × Int)) name = some i →
      dictGet q.checkpoints name = some i := C69_grows _ _ 0 ⟨[exRev], []⟩ rfl

theorem world_step_inters (w : World) (c : Cmd) : w.inters <+: (w.step c).inters := by
  have hr : w.inters <+: w.inters := List.prefix_refl _
  cases c with
  | newPipe => exact hr
  | addOp i op ck => simp only [World.step]; split <;> exact hr
  | add i f name kw ck => simp only [World.step]; split <;> exact hr
  | iadd i k => simp only [World.step]; split <;> exact hr
  | concat i k =>
    simp only [World.step]
    split
    · split <;> exact hr
    · exact hr
  | copy i => simp only [World.step]; split <;> exact hr
  | slice i a b c =>
    simp only [World.step]
    split
    · split <;> exact hr
    · exact hr
  | deserialize f text => simp only [World.step]; split <;> exact hr
  | transformSequence i s =>
    simp only [World.step]
    split
    · split
      · exact List.prefix_append _ _
      · exact hr
    · exact hr
  | transform i d =>
    simp only [World.step]
    split
    · split
      · exact List.prefix_append _ _
      · exact hr
    · exact hr

/-- An intermediate later in the program: the pipe it refers to has grown. -/
theorem world_run_inter (cs : List Cmd) (w : World) (k i : Nat) (coll : List Seq) (p : Pipe)
    (hk : w.inters[k]? = some (i, coll)) (hi : w.pipes[i]? = some p) :
    ∃ q, (w.run cs).inters[k]? = some (i, coll) ∧ (w.run cs).pipes[i]? = some q ∧ Grows p q := by
  induction cs generalizing w p with
  | nil => exact ⟨p, hk, hi, Grows.refl p⟩
  | cons c cs ih =>
    obtain ⟨q, h1, h2, _⟩ := world_step w c i p hi
    have hk' : (w.step c).inters[k]? = some (i, coll) := by
      obtain ⟨t, ht⟩ := world_step_inters w c
      rw [← ht, List.getElem?_append_left (List.getElem?_eq_some_iff.mp hk).1]
      exact hk
    obtain ⟨q', g1, g2, g3⟩ := ih (w.step c) q hk' h1
    exact ⟨q', g1, g2, h2.trans g3⟩

/-- C64: a checkpoint value read from an intermediate can be read again, unchanged, at any later point of the
program. -/
theorem C64_stable (before after : List Cmd) (k : Nat) (name : Str) (v : Seq)
    (h : (Heap.empty.run before).get k name = some (.ok v)) :
    ((Heap.empty.run before).run after).get k name = some (.ok v) := by
  have r := heapRep_empty.run before
  rw [r.get] at h
  rw [(r.run after).get]
  generalize World.run ⟨[], []⟩ before = w at h
  unfold World.get at h ⊢
  cases hk : w.inters[k]? with
  | none => rw [hk] at h; cases h
  | some x =>
    obtain ⟨i, coll⟩ := x
    rw [hk] at h
    dsimp only at h
    cases hi : w.pipes[i]? with
    | none => rw [hi] at h; cases h
    | some p =>
      rw [hi] at h
      dsimp only at h
      injection h with h
      obtain ⟨q, g1, g2, g3⟩ := world_run_inter after w k i coll p hk hi
      rw [g1]
      dsimp only
      rw [g2]
      dsimp only
      congr 1
      unfold getFromCheckpoint at h ⊢
      cases hg : dictGet p.checkpoints name with
      | none => rw [hg] at h; cases h
      | some n =>
        rw [hg] at h
        rw [g3.checkpoints name n hg]
        exact h

example : ((Heap.empty.run [.newPipe, .addOp 0 exRev (some "x".toList), .transformSequence 0 (.str "ab".toList)]).run
    [.addOp 0 exRev (some "y".toList), .iadd 0 0]).get 0 "x".toList = some (.ok (.str "ba".toList)) :=
  C64_stable _ _ 0 _ _ rfl

/-- What the intermediates of a program satisfy: all checkpoints are positive, and an intermediate has no more
values than the pipe has steps, plus one. -/
structure InterInv (w : World) : Prop where
  positive : ∀ p ∈ w.pipes, ∀ kv ∈ p.checkpoints, 1 ≤ kv.2
  bounded : ∀ (k i : Nat) (coll : List Seq), w.inters[k]? = some (i, coll) →
    ∃ p, w.pipes[i]? = some p ∧ coll.length ≤ p.steps.length + 1

theorem sliceCheckpoints_positive (start : Option Int) (cks r : List (Str × Int))
    (h : Pipe.sliceCheckpoints start cks = .ok r) : ∀ kv ∈ r, 1 ≤ kv.2 := by
  cases start with
  | none =>
    cases cks with
    | nil => injection h with h; subst h; intro kv hkv; cases hkv
    | cons x xs => cases h
  | some a =>
    rw [sliceCheckpoints_some] at h
    injection h with h
    subst h
    intro kv hkv
    obtain ⟨kv', hm, rfl⟩ := List.mem_map.mp hkv
    have := (List.mem_filter.mp hm).2
    simp only [gt_iff_lt, decide_eq_true_eq] at this
    dsimp only
    omega

theorem interInv_step (w : World) (c : Cmd) (hc : c.goodText) (h : InterInv w) : InterInv (w.step c) := by
  have keep : ∀ w' : World, w'.pipes = (w.step c).pipes → w'.inters = (w.step c).inters →
      (∀ p ∈ w'.pipes, ∀ kv ∈ p.checkpoints, 1 ≤ kv.2) →
      (∀ (k i : Nat) (coll : List Seq), w'.inters[k]? = some (i, coll) → w.inters[k]? = some (i, coll) ∨
        ∃ p, w.pipes[i]? = some p ∧ coll.length ≤ p.steps.length + 1) → InterInv (w.step c) := by
    intro w' e1 e2 h1 h2
    refine ⟨by rw [← e1]; exact h1, fun k i coll hk => ?_⟩
    have hp : ∃ p, w.pipes[i]? = some p ∧ coll.length ≤ p.steps.length + 1 := by
      rcases h2 k i coll (by rw [e2]; exact hk) with h3 | h3
      · exact h.bounded k i coll h3
      · exact h3
    obtain ⟨p, hp1, hp2⟩ := hp
    obtain ⟨q, g1, g2, _⟩ := world_step w c i p hp1
    refine ⟨q, g1, ?_⟩
    have := g2.steps.length_le
    omega
  have hadd : ∀ q : Pipe, (∀ kv ∈ q.checkpoints, 1 ≤ kv.2) →
      ∀ p ∈ (w.addPipe q).pipes, ∀ kv ∈ p.checkpoints, 1 ≤ kv.2 := by
    intro q hq p hp
    rcases List.mem_append.mp hp with hp | hp
    · exact h.positive p hp
    · rw [List.mem_singleton.mp hp]; exact hq
  have hset : ∀ (i : Nat) (q : Pipe), (∀ kv ∈ q.checkpoints, 1 ≤ kv.2) →
      ∀ p ∈ (w.setPipe i q).pipes, ∀ kv ∈ p.checkpoints, 1 ≤ kv.2 := by
    intro i q hq p hp
    rcases List.mem_or_eq_of_mem_set hp with hp | hp
    · exact h.positive p hp
    · rw [hp]; exact hq
  have hm : ∀ (i : Nat) (p : Pipe), w.pipes[i]? = some p → ∀ kv ∈ p.checkpoints, 1 ≤ kv.2 :=
    fun i p hp => h.positive p (List.mem_of_getElem? hp)
  have trivial : ∀ (k i : Nat) (coll : List Seq), w.inters[k]? = some (i, coll) →
      w.inters[k]? = some (i, coll) ∨ ∃ p, w.pipes[i]? = some p ∧ coll.length ≤ p.steps.length + 1 :=
    fun _ _ _ h => Or.inl h
  have recd : ∀ (j : Nat) (p : Pipe) (c : List Seq), w.pipes[j]? = some p → c.length ≤ p.steps.length + 1 →
      ∀ (k i : Nat) (coll : List Seq), (w.inters ++ [(j, c)])[k]? = some (i, coll) →
      w.inters[k]? = some (i, coll) ∨ ∃ p, w.pipes[i]? = some p ∧ coll.length ≤ p.steps.length + 1 := by
    intro j p c hj hc k i coll hk
    by_cases hlt : k < w.inters.length
    · rw [List.getElem?_append_left hlt] at hk; exact Or.inl hk
    · right
      have : (i, coll) ∈ [(j, c)] := by
        rw [List.getElem?_append_right (by omega)] at hk
        exact List.mem_of_getElem? hk
      have := List.mem_singleton.mp this
      injection this with e1 e2
      subst e1; subst e2
      exact ⟨p, hj, hc⟩
  have same : w.step c = w → InterInv (w.step c) := fun e => by rw [e]; exact h
  cases hcmd : c with
  | newPipe =>
    rw [← hcmd]
    exact keep (w.addPipe Pipe.empty) (by rw [hcmd]; rfl) (by rw [hcmd]; rfl)
      (hadd _ (fun kv hkv => by cases hkv)) trivial
  | addOp i op ck =>
    rw [← hcmd]
    cases hi : w.pipes[i]? with
    | none => exact same (by rw [hcmd]; simp [World.step, hi])
    | some p =>
      have e : w.step c = w.setPipe i (p.addOp op ck).1 := by rw [hcmd]; simp [World.step, hi]
      exact keep (w.setPipe i (p.addOp op ck).1) (by rw [e]) (by rw [e])
        (hset i _ ((addOp_later p op ck).positive (hm i p hi))) trivial
  | add i f name kw ck =>
    rw [← hcmd]
    cases hi : w.pipes[i]? with
    | none => exact same (by rw [hcmd]; simp [World.step, hi])
    | some p =>
      have e : w.step c = w.setPipe i (p.add f name kw ck).1 := by rw [hcmd]; simp [World.step, hi]
      exact keep (w.setPipe i (p.add f name kw ck).1) (by rw [e]) (by rw [e])
        (hset i _ ((add_later p f name kw ck).positive (hm i p hi))) trivial
  | iadd i k =>
    rw [← hcmd]
    cases hi : w.pipes[i]? with
    | none => exact same (by rw [hcmd]; simp [World.step, hi])
    | some p =>
      cases hk : w.pipes[k]? with
      | none => exact same (by rw [hcmd]; simp [World.step, hk])
      | some q =>
        have e : w.step c = w.setPipe i (p.iadd q).1 := by rw [hcmd]; simp [World.step, hi, hk]
        exact keep (w.setPipe i (p.iadd q).1) (by rw [e]) (by rw [e])
          (hset i _ ((iadd_later p q (hm k q hk)).positive (hm i p hi))) trivial
  | concat i k =>
    rw [← hcmd]
    cases hi : w.pipes[i]? with
    | none => exact same (by rw [hcmd]; simp [World.step, hi])
    | some p =>
      cases hk : w.pipes[k]? with
      | none => exact same (by rw [hcmd]; simp [World.step, hk])
      | some q =>
        cases hr : p.concat q with
        | error e => exact same (by rw [hcmd]; simp [World.step, hi, hk, hr])
        | ok r =>
          have e : w.step c = w.addPipe r := by rw [hcmd]; simp [World.step, hi, hk, hr]
          have hpos := (iadd_later p q (hm k q hk)).positive (hm i p hi)
          rw [(concat_ok hr).2.1] at hpos
          exact keep (w.addPipe r) (by rw [e]) (by rw [e]) (hadd r hpos) trivial
  | copy i =>
    rw [← hcmd]
    cases hi : w.pipes[i]? with
    | none => exact same (by rw [hcmd]; simp [World.step, hi])
    | some p =>
      have e : w.step c = w.addPipe p := by rw [hcmd]; simp [World.step, hi]
      exact keep (w.addPipe p) (by rw [e]) (by rw [e]) (hadd p (hm i p hi)) trivial
  | slice i a b st =>
    rw [← hcmd]
    cases hi : w.pipes[i]? with
    | none => exact same (by rw [hcmd]; simp [World.step, hi])
    | some p =>
      cases hr : p.getSlice a b st with
      | error e => exact same (by rw [hcmd]; simp [World.step, hi, hr])
      | ok r =>
        have e : w.step c = w.addPipe r := by rw [hcmd]; simp [World.step, hi, hr]
        exact keep (w.addPipe r) (by rw [e]) (by rw [e])
          (hadd r (sliceCheckpoints_positive a _ _ (getSlice_ok hr).2)) trivial
  | deserialize f text =>
    rw [← hcmd]
    cases hr : Pipe.deserialize f text with
    | error e => exact same (by rw [hcmd]; simp [World.step, hr])
    | ok r =>
      have e : w.step c = w.addPipe r := by rw [hcmd]; simp [World.step, hr]
      have hpos : ∀ kv ∈ r.checkpoints, 1 ≤ kv.2 := by
        rw [hcmd] at hc
        exact hc r hr
      exact keep (w.addPipe r) (by rw [e]) (by rw [e]) (hadd r hpos) trivial
  | transformSequence i s =>
    rw [← hcmd]
    cases hi : w.pipes[i]? with
    | none => exact same (by rw [hcmd]; simp [World.step, hi])
    | some p =>
      cases hr : p.transformSequence s with
      | error e => exact same (by rw [hcmd]; simp [World.step, hi, hr])
      | ok x =>
        obtain ⟨o, as, coll⟩ := x
        have e : w.step c = { w with inters := w.inters ++ [(i, coll)] } := by
          rw [hcmd]; simp [World.step, hi, hr]
        exact keep { w with inters := w.inters ++ [(i, coll)] } (by rw [e]) (by rw [e]) h.positive
          (recd i p coll hi (by rw [(C58_collection_length p s o as coll hr).1]; omega))
  | transform i d =>
    rw [← hcmd]
    cases hi : w.pipes[i]? with
    | none => exact same (by rw [hcmd]; simp [World.step, hi])
    | some p =>
      cases hr : p.transform d with
      | error e => exact same (by rw [hcmd]; simp [World.step, hi, hr])
      | ok x =>
        have e : w.step c = { w with inters := w.inters ++ [(i, x.collection)] } := by
          rw [hcmd]; simp [World.step, hi, hr]
        have hlen : x.collection.length = p.steps.length + 1 := by
          unfold Pipe.transform at hr
          cases h1 : unpackDatum d with
          | error e => rw [h1] at hr; cases hr
          | ok y =>
            obtain ⟨u, is, ls⟩ := y
            rw [h1] at hr
            simp only [Except.bind_ok] at hr
            cases h2 : p.transformSequence (.str u) with
            | error e => rw [h2] at hr; cases hr
            | ok z =>
              obtain ⟨o, as, coll⟩ := z
              rw [h2] at hr
              simp only [Except.bind_ok] at hr
              cases h3 : alignAll as ls with
              | error e => rw [h3] at hr; cases hr
              | ok ys =>
                rw [h3] at hr
                injection hr with hr
                subst hr
                exact (C58_collection_length p _ o as coll h2).1
        exact keep { w with inters := w.inters ++ [(i, x.collection)] } (by rw [e]) (by rw [e]) h.positive
          (recd i p _ hi (by omega))

theorem interInv_run (cs : List Cmd) (w : World) (hc : ∀ c ∈ cs, c.goodText) (h : InterInv w) :
    InterInv (w.run cs) := by
  induction cs generalizing w with
  | nil => exact h
  | cons c cs ih =>
    exact ih (w.step c) (fun d hd => hc d (List.mem_cons_of_mem _ hd))
      (interInv_step w c (hc c (List.mem_cons_self ..)) h)

theorem world_run_later (cs : List Cmd) (w : World) (hc : ∀ c ∈ cs, c.goodText) (h : InterInv w) (j : Nat)
    (p : Pipe) (hj : w.pipes[j]? = some p) :
    ∃ q, (w.run cs).pipes[j]? = some q ∧ LaterNames p q := by
  induction cs generalizing w p with
  | nil => exact ⟨p, hj, LaterNames.refl p⟩
  | cons c cs ih =>
    obtain ⟨q, h1, _, _, h2⟩ := world_step w c j p hj
    obtain ⟨q', h3, h4⟩ := ih (w.step c) (fun d hd => hc d (List.mem_cons_of_mem _ hd))
      (interInv_step w c (hc c (List.mem_cons_self ..)) h) q h1
    exact ⟨q', h3, (h2 h.positive).trans h4⟩

/-- C64: a name that was unknown to an intermediate never becomes readable in it: it stays unknown (KeyError), or,
once the pipe got a checkpoint of that name, raises IndexError. -/
theorem C64_later_names (before after : List Cmd) (hb : ∀ c ∈ before ++ after, c.goodText) (k : Nat) (name : Str)
    (h : (Heap.empty.run before).get k name = some (.error .keyError)) :
    ((Heap.empty.run before).run after).get k name = some (.error .keyError) ∨
      ((Heap.empty.run before).run after).get k name = some (.error .indexError) := by
  have r := heapRep_empty.run before
  have hinv : InterInv (World.run ⟨[], []⟩ before) :=
    interInv_run before _ (fun c hc => hb c (List.mem_append_left _ hc))
      ⟨fun p hp => (by cases hp), fun k i coll hk => (by simp at hk)⟩
  rw [r.get] at h
  rw [(r.run after).get]
  generalize World.run ⟨[], []⟩ before = w at h hinv
  unfold World.get at h ⊢
  cases hk : w.inters[k]? with
  | none => rw [hk] at h; cases h
  | some x =>
    obtain ⟨i, coll⟩ := x
    rw [hk] at h
    dsimp only at h
    obtain ⟨p, hi, hlen⟩ := hinv.bounded k i coll hk
    rw [hi] at h
    dsimp only at h
    injection h with h
    obtain ⟨q, g1, g2, g3⟩ := world_run_inter after w k i coll p hk hi
    obtain ⟨q', g2', g4⟩ := world_run_later after w (fun c hc => hb c (List.mem_append_right _ hc)) hinv i p hi
    rw [g2] at g2'
    injection g2' with g2'
    subst g2'
    rw [g1]
    dsimp only
    rw [g2]
    dsimp only
    have hnone : dictGet p.checkpoints name = none := by
      unfold getFromCheckpoint at h
      cases hg : dictGet p.checkpoints name with
      | none => rfl
      | some n =>
        rw [hg] at h
        dsimp only at h
        split at h <;> cases h
    cases hg : dictGet q.checkpoints name with
    | none =>
      left
      congr 1
      unfold getFromCheckpoint
      rw [hg]
    | some n =>
      right
      congr 1
      have := g4.fresh name n hnone hg
      obtain ⟨m, hM⟩ := Int.eq_ofNat_of_zero_le (show 0 ≤ n by omega)
      subst hM
      rw [getFromCheckpoint_nat _ _ _ _ hg, List.getElem?_eq_none (by omega)]

example : ((Heap.empty.run [.newPipe, .addOp 0 exRev none, .transformSequence 0 (.str "ab".toList)]).run
      [.addOp 0 exRev (some "y".toList)]).get 0 "y".toList = some (.error .keyError) ∨
    ((Heap.empty.run [.newPipe, .addOp 0 exRev none, .transformSequence 0 (.str "ab".toList)]).run
      [.addOp 0 exRev (some "y".toList)]).get 0 "y".toList = some (.error .indexError) :=
  C64_later_names _ _ (by
    intro c hc; simp at hc; rcases hc with h | h | h | h <;> subst h <;> trivial) 0 _ rfl

end Uttut
