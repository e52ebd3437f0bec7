import Verif.Spec.Handles
import Verif.Props.Pipe
import Verif.Props.Slice

/-!
C87: what pipes and intermediates hand out, and what changing it does.
-/

namespace Uttut

open Spec

/-! ### Iteration -/

theorem iterItems_list {α : Type} (get : Int → Res α) (l : List α) (hin : ∀ (i : Nat) x, l[i]? = some x → get i = .ok x)
    (hout : get l.length = .error .indexError) (fuel i : Nat) (hi : i ≤ l.length) (hf : l.length < fuel + i) :
    iterItems get fuel i = .ok (l.drop i) := by
  induction fuel generalizing i with
  | zero => omega
  | succ fuel ih =>
    unfold iterItems
    by_cases he : i = l.length
    · subst he
      rw [hout]
      simp
    · have hlt : i < l.length := by omega
      rw [hin i l[i] (List.getElem?_eq_getElem hlt)]
      dsimp only
      rw [ih (i + 1) (by omega) (by omega), Except.bind_ok, List.drop_eq_getElem_cons hlt]
      rfl

theorem inter_item (t : Inter) :
    (∀ (k : Nat) (x : Seq), t.collection[k]? = some x →
      t.getItem k = .ok x ∧ t.getItem ((k : Int) - t.collection.length) = .ok x) ∧
    ∀ i : Int, i < -(t.collection.length : Int) ∨ (t.collection.length : Int) ≤ i → t.getItem i = .error .indexError := by
  refine ⟨fun k op h => ?_, fun i h => ?_⟩
  · have hk := (List.getElem?_eq_some_iff.mp h).1
    unfold Inter.getItem pyIndex?
    constructor
    · rw [if_pos (by omega), if_pos (by omega)]
      simp [h]
    · rw [if_neg (by omega), if_pos (by omega),
        show ((k : Int) - t.collection.length + t.collection.length) = k by omega]
      simp [h]
  · unfold Inter.getItem pyIndex?
    rcases h with h | h
    · rw [if_neg (by omega), if_neg (by omega)]
      rfl
    · rw [if_pos (by omega), if_neg (by omega)]
      rfl

/-- C87: iterating over a pipe gives its steps in order, over an intermediate its values in order; `op in pipe` asks
for an equal step; a pipe without steps counts as false. -/
theorem C87_iterate (p : Pipe) (t : Inter) (op : Op) :
    (∀ fuel, p.steps.length < fuel → p.iter fuel = .ok p.steps ∧
      (∃ b, p.contains fuel op = .ok b ∧ (b = true ↔ ∃ o ∈ p.steps, op.eq o = true))) ∧
    (∀ fuel, t.collection.length < fuel → t.iter fuel = .ok t.collection) ∧
    (p.truth = false ↔ p.steps = []) := by
  have hp : ∀ fuel, p.steps.length < fuel → p.iter fuel = .ok p.steps := fun fuel hf => by
    have := iterItems_list p.getStep p.steps (fun i x hx => ((C63_index p).1 i x hx).1)
      ((C63_index p).2 _ (.inr (Int.le_refl _))) fuel 0 (Nat.zero_le _) hf
    exact this
  refine ⟨fun fuel hf => ⟨hp fuel hf, p.steps.any fun o => op.eq o, ?_, ?_⟩, fun fuel hf => ?_, ?_⟩
  · unfold Pipe.contains
    rw [hp fuel hf]
    rfl
  · rw [List.any_eq_true]
  · exact iterItems_list t.getItem t.collection (fun i x hx => ((inter_item t).1 i x hx).1)
      ((inter_item t).2 _ (.inr (Int.le_refl _))) fuel 0 (Nat.zero_le _) hf
  · unfold Pipe.truth Pipe.len
    cases p.steps <;> simp

example : Pipe.iter ⟨[exRev, exChars], []⟩ 3 = .ok [exRev, exChars] := rfl

/-! ### What a run leaves -/

theorem fillLoop_eq (ops : List Op) (s : Seq) (as : List Aligner) (t : Inter) :
    fillLoop ops s as t = (Pipe.runSteps ops s as t.collection).map fun r => (r.1, r.2.1, ⟨r.2.2, t.checkpoints⟩) := by
  induction ops generalizing s as t with
  | nil => rfl
  | cons op ops ih =>
    simp only [fillLoop, Pipe.runSteps]
    cases op.transform s with
    | error e => rfl
    | ok r =>
      simp only [Except.bind_ok]
      rw [ih]
      rfl

/-- C87: the objects `transform_sequence` fills are those of C58, with the checkpoints of the pipe. -/
theorem C87_fill (p : Pipe) (s : Seq) :
    p.fill s = (p.transformSequence s).map fun r => (r.1, r.2.1, ⟨r.2.2, p.checkpoints⟩) := fillLoop_eq _ _ _ _

/-- C87: item `k` of an intermediate is what the first `k` steps give; the rest of the steps, run on it, give the
output, and together their aligners are the aligners of the run. Negative numbers count from the output; all others
raise IndexError. -/
theorem C87_items (p : Pipe) (s o : Seq) (as : List Aligner) (t : Inter) (h : p.fill s = .ok (o, as, t)) :
    t.getItem 0 = .ok s ∧ t.getItem (-1) = .ok o ∧
    (∀ k : Nat, k ≤ p.steps.length → ∃ x, t.getItem k = .ok x ∧ t.getItem ((k : Int) - (p.steps.length + 1)) = .ok x ∧
      Pipe.transformSequence ⟨p.steps.take k, []⟩ s = .ok (x, as.take k, t.collection.take (k + 1)) ∧
      Pipe.transformSequence ⟨p.steps.drop k, []⟩ x = .ok (o, as.drop k, t.collection.drop k)) ∧
    ∀ i : Int, i < -((p.steps.length : Int) + 1) ∨ (p.steps.length : Int) < i → t.getItem i = .error .indexError := by
  rw [C87_fill] at h
  cases hr : p.transformSequence s with
  | error e => rw [hr] at h; cases h
  | ok q =>
    obtain ⟨o', as', coll⟩ := q
    rw [hr] at h
    injection h with h
    injection h with h1 h
    injection h with h2 h3
    subst h1 h2 h3
    obtain ⟨c1, c2, c3, c4⟩ := C58_collection_length p s o' as' coll hr
    have hit := inter_item ⟨coll, p.checkpoints⟩
    dsimp only at hit
    rw [c1] at hit
    have hr' : Pipe.transformSequence ⟨p.steps, []⟩ s = .ok (o', as', coll) := hr
    refine ⟨?_, ?_, fun k hk => ?_, fun i hi => hit.2 i (by omega)⟩
    · have := (hit.1 0 s (by rw [← List.head?_eq_getElem?]; exact c3)).1
      exact this
    · rw [List.getLast?_eq_getElem?, c1] at c4
      have := (hit.1 p.steps.length o' (by simpa using c4)).2
      have e : ((p.steps.length : Int) - ((p.steps.length + 1 : Nat) : Int)) = -1 := by omega
      rw [e] at this
      exact this
    · obtain ⟨x, hx⟩ : ∃ x, coll[k]? = some x := ⟨_, List.getElem?_eq_getElem (by omega)⟩
      refine ⟨x, (hit.1 k x hx).1, ?_, ?_, ?_⟩
      · have := (hit.1 k x hx).2
        rw [show ((p.steps.length + 1 : Nat) : Int) = (p.steps.length : Int) + 1 from rfl] at this
        exact this
      · obtain ⟨x', y, e1, e2, e3⟩ := C63_run ⟨p.steps, []⟩ _ 0 k (Nat.zero_le _) hk
          (C63_slice ⟨p.steps, []⟩ 0 (some k)) s o' as' coll hr'
        rw [hx] at e2
        injection e2 with e2
        rw [← List.head?_eq_getElem?, c3] at e1
        injection e1 with e1
        subst e1 e2
        simpa using e3
      · obtain ⟨x', y, e1, e2, e3⟩ := C63_run ⟨p.steps, []⟩ _ k p.steps.length hk (Nat.le_refl _)
          (C63_slice ⟨p.steps, []⟩ k (some p.steps.length)) s o' as' coll hr'
        rw [hx] at e1
        injection e1 with e1
        rw [List.getLast?_eq_getElem?, c1] at c4
        simp only [Nat.add_one_sub_one] at c4
        rw [c4] at e2
        injection e2 with e2
        subst e1 e2
        simp only [Option.getD_some, List.take_length, List.filter_nil, List.map_nil] at e3
        rw [e3, ← c1, List.take_length, ← c2, List.take_length]

example : ∃ o as t, Pipe.fill ⟨[exRev, exChars], []⟩ (.str "ab".toList) = .ok (o, as, t) ∧
    t.getItem 1 = .ok (.str "ba".toList) := ⟨_, _, _, rfl, rfl⟩

/-- C87: a slice of an intermediate holds exactly the values at the selected positions, in order; a step of 0 raises
ValueError. -/
theorem C87_slice (t : Inter) (start stop step : Option Int) :
    (step = some 0 → t.getSlice start stop step = .error .valueError) ∧
    (step ≠ some 0 → ∃ vs, ∃ positions : List Nat, t.getSlice start stop step = .ok vs ∧
      vs.map some = (positions.map fun j => t.collection[j]?) ∧
      (0 < step.getD 1 → positions.Pairwise (· < ·) ∧
        ∀ j, j ∈ positions ↔ SelectedUp t.collection.length start stop (step.getD 1) j) ∧
      (step.getD 1 < 0 → positions.Pairwise (· > ·) ∧
        ∀ j, j ∈ positions ↔ SelectedDown t.collection.length start stop (step.getD 1) j)) := by
  refine ⟨fun h => by subst h; rfl, fun hne => ?_⟩
  have hnz : step.getD 1 ≠ 0 := by
    cases step with
    | none => simp
    | some s => intro h; exact hne (by rw [show s = 0 from h])
  have up := mem_sliceIndices_up t.collection.length start stop (step.getD 1)
  have down := mem_sliceIndices_down t.collection.length start stop (step.getD 1)
  have so := sliceIndices_sorted t.collection.length start stop (step.getD 1)
  refine ⟨(sliceIndices t.collection.length start stop (step.getD 1)).filterMap fun i => t.collection[i]?,
    sliceIndices t.collection.length start stop (step.getD 1), ?_, ?_, fun h => ⟨so.1 h, up h⟩,
    fun h => ⟨so.2 h, down h⟩⟩
  · unfold Inter.getSlice sliceStep
    split
    · exact absurd rfl hne
    · rfl
  · refine filterMap_getElem? _ _ fun i hi => ?_
    rcases Int.lt_trichotomy (step.getD 1) 0 with h | h | h
    · exact ((down h i).mp hi).1
    · exact absurd h hnz
    · exact ((up h i).mp hi).1

example : (⟨[.str ['a'], .str ['b'], .str ['c']], []⟩ : Inter).getSlice none none (some (-1)) =
    .ok [.str ['c'], .str ['b'], .str ['a']] := rfl

/-! ### Changing the list of steps and the dict of checkpoints -/

/-- The same commands on pipe values. -/
def World.handleStep (w : World) : HandleCmd → World
  | .call c => w.step c
  | .editSteps i ops =>
    match w.pipes[i]? with
    | some p => w.setPipe i ⟨ops, p.checkpoints⟩
    | none => w
  | .editCheckpoints i d =>
    match w.pipes[i]? with
    | some p => w.setPipe i ⟨p.steps, d⟩
    | none => w

theorem set_self' {α : Type} (l : List α) (i : Nat) (x : α) (h : l[i]? = some x) : l.set i x = l := by
  obtain ⟨hi, rfl⟩ := List.getElem?_eq_some_iff.mp h
  exact List.set_getElem_self hi

theorem HeapRep.handleStep {h : Heap} {w : World} (r : HeapRep h w) (c : HandleCmd) :
    HeapRep (h.handleStep c) (w.handleStep c) := by
  cases c with
  | call c => exact r.step c
  | editSteps i ops =>
    simp only [Heap.handleStep, World.handleStep, Heap.editSteps]
    cases hi : h.pipes[i]? with
    | none =>
      have : w.pipes.length ≤ i := by rw [← r.len]; exact List.getElem?_eq_none_iff.mp hi
      rw [List.getElem?_eq_none this]
      exact r
    | some ld =>
      obtain ⟨l, d⟩ := ld
      obtain ⟨p, h1, h2, h3⟩ := r.pipes i l d hi
      have := r.write i ⟨ops, p.checkpoints⟩
      rw [h1]
      unfold Heap.write at this
      rw [hi] at this
      dsimp only at this ⊢
      rw [set_self' h.dicts d _ h3] at this
      exact this
  | editCheckpoints i ck =>
    simp only [Heap.handleStep, World.handleStep, Heap.editCheckpoints]
    cases hi : h.pipes[i]? with
    | none =>
      have : w.pipes.length ≤ i := by rw [← r.len]; exact List.getElem?_eq_none_iff.mp hi
      rw [List.getElem?_eq_none this]
      exact r
    | some ld =>
      obtain ⟨l, d⟩ := ld
      obtain ⟨p, h1, h2, h3⟩ := r.pipes i l d hi
      have := r.write i ⟨p.steps, ck⟩
      rw [h1]
      unfold Heap.write at this
      rw [hi] at this
      dsimp only at this ⊢
      rw [set_self' h.lists l _ h2] at this
      exact this

theorem HeapRep.handleRun {h : Heap} {w : World} (r : HeapRep h w) (cmds : List HandleCmd) :
    HeapRep (h.handleRun cmds) (cmds.foldl World.handleStep w) := by
  induction cmds generalizing h w with
  | nil => exact r
  | cons c cs ih => exact ih (r.handleStep c)

theorem HeapRep.inter {h : Heap} {w : World} (r : HeapRep h w) (k : Nat) :
    h.inter? k = (w.inters[k]?).bind fun q => (w.pipes[q.1]?).map fun p => ⟨q.2, p.checkpoints⟩ := by
  unfold Heap.inter?
  cases hk : h.inters[k]? with
  | none =>
    have : w.inters.length ≤ k := by rw [← r.ilen]; exact List.getElem?_eq_none_iff.mp hk
    rw [List.getElem?_eq_none this]
    rfl
  | some q =>
    obtain ⟨d, coll⟩ := q
    obtain ⟨i, l, h1, h2⟩ := r.inters k d coll hk
    obtain ⟨p, h3, h4, h5⟩ := r.pipes i l d h2
    rw [h1]
    simp [h3, h5]

theorem handleStep_pipe (w : World) (c : HandleCmd) (j : Nat) (q : Pipe) (hj : w.pipes[j]? = some q) :
    ∃ q', (w.handleStep c).pipes[j]? = some q' ∧ (c.target ≠ some j → q' = q) := by
  cases c with
  | call c =>
    obtain ⟨q', h1, _, h3, _⟩ := world_step w c j q hj
    refine ⟨q', h1, fun ht => h3 ?_⟩
    cases c <;> exact ht
  | editSteps i ops =>
    simp only [World.handleStep]
    cases hi : w.pipes[i]? with
    | none => exact ⟨q, hj, fun _ => rfl⟩
    | some p =>
      by_cases e : j = i
      · exact ⟨_, (set_get w i j p q _ hi hj).2 e, fun ht => absurd (by rw [e]; rfl) ht⟩
      · exact ⟨q, (set_get w i j p q _ hi hj).1 e, fun _ => rfl⟩
  | editCheckpoints i d =>
    simp only [World.handleStep]
    cases hi : w.pipes[i]? with
    | none => exact ⟨q, hj, fun _ => rfl⟩
    | some p =>
      by_cases e : j = i
      · exact ⟨_, (set_get w i j p q _ hi hj).2 e, fun ht => absurd (by rw [e]; rfl) ht⟩
      · exact ⟨q, (set_get w i j p q _ hi hj).1 e, fun _ => rfl⟩

theorem handleStep_inters (w : World) (c : HandleCmd) : w.inters <+: (w.handleStep c).inters := by
  cases c with
  | call c => exact world_step_inters w c
  | editSteps i ops => simp only [World.handleStep]; split <;> exact List.prefix_refl _
  | editCheckpoints i d => simp only [World.handleStep]; split <;> exact List.prefix_refl _

theorem handleRun_pipe (cs : List HandleCmd) (w : World) (j : Nat) (q : Pipe) (hj : w.pipes[j]? = some q) :
    ∃ q', (cs.foldl World.handleStep w).pipes[j]? = some q' ∧ ((∀ c ∈ cs, c.target ≠ some j) → q' = q) := by
  induction cs generalizing w q with
  | nil => exact ⟨q, hj, fun _ => rfl⟩
  | cons c cs ih =>
    obtain ⟨q1, h1, h2⟩ := handleStep_pipe w c j q hj
    obtain ⟨q2, h3, h4⟩ := ih (w.handleStep c) q1 h1
    refine ⟨q2, h3, fun ht => ?_⟩
    rw [h4 fun d hd => ht d (List.mem_cons_of_mem _ hd), h2 (ht c (List.mem_cons_self ..))]

theorem handleRun_inter (cs : List HandleCmd) (w : World) (k : Nat) (x : Nat × List Seq) (hk : w.inters[k]? = some x) :
    (cs.foldl World.handleStep w).inters[k]? = some x := by
  induction cs generalizing w with
  | nil => exact hk
  | cons c cs ih =>
    refine ih _ ?_
    obtain ⟨t, ht⟩ := handleStep_inters w c
    rw [← ht, List.getElem?_append_left (List.getElem?_eq_some_iff.mp hk).1]
    exact hk

/-- C87: even when programs change the lists and dicts that pipes hand out, a pipe changes only by calls on it and by
changes of its own list and dict. -/
theorem C87_independent (before after : List HandleCmd) (j : Nat) (p : Pipe)
    (h : (Heap.empty.handleRun before).read j = some p) (hc : ∀ c ∈ after, c.target ≠ some j) :
    ((Heap.empty.handleRun before).handleRun after).read j = some p := by
  have r := heapRep_empty.handleRun before
  rw [r.read] at h
  rw [(r.handleRun after).read]
  obtain ⟨q, h1, h2⟩ := handleRun_pipe after _ j p h
  rw [h1, h2 hc]

/-- C87: an intermediate has, for ever, the values of its run, and looks names up in the checkpoints its pipe has at
that time. -/
theorem C87_intermediate (before : List HandleCmd) (k : Nat) (t : Inter)
    (h : (Heap.empty.handleRun before).inter? k = some t) :
    ∃ j, ∀ after, ∃ p, ((Heap.empty.handleRun before).handleRun after).read j = some p ∧
      ((Heap.empty.handleRun before).handleRun after).inter? k = some ⟨t.collection, p.checkpoints⟩ ∧
      ∀ name, ((Heap.empty.handleRun before).handleRun after).get k name =
        some (getFromCheckpoint p.checkpoints t.collection name) := by
  have r := heapRep_empty.handleRun before
  rw [r.inter] at h
  generalize before.foldl World.handleStep ⟨[], []⟩ = w at h r
  cases hk : w.inters[k]? with
  | none => rw [hk] at h; cases h
  | some x =>
    obtain ⟨j, coll⟩ := x
    rw [hk] at h
    dsimp only [Option.bind_some] at h
    cases hj : w.pipes[j]? with
    | none => rw [hj] at h; cases h
    | some p =>
      rw [hj] at h
      injection h with h
      subst h
      refine ⟨j, fun after => ?_⟩
      obtain ⟨q, h1, _⟩ := handleRun_pipe after w j p hj
      have h2 := handleRun_inter after w k _ hk
      have r' := r.handleRun after
      refine ⟨q, by rw [r'.read, h1], ?_, fun name => ?_⟩
      · rw [r'.inter, h2]
        simp [h1]
      · rw [r'.get]
        simp [World.get, h2, h1]

/-- C87: changing the list of steps changes the steps of this pipe and nothing else; changing the dict of checkpoints
changes the checkpoints of this pipe, and (by `C87_intermediate`) of its intermediates, and nothing else. -/
theorem C87_edits (before : List HandleCmd) (i : Nat) (p : Pipe) (h : (Heap.empty.handleRun before).read i = some p)
    (ops : List Op) (d : List (Str × Int)) :
    ((Heap.empty.handleRun before).handleStep (.editSteps i ops)).read i = some ⟨ops, p.checkpoints⟩ ∧
    (∀ k, ((Heap.empty.handleRun before).handleStep (.editSteps i ops)).inter? k =
      (Heap.empty.handleRun before).inter? k) ∧
    ((Heap.empty.handleRun before).handleStep (.editCheckpoints i d)).read i = some ⟨p.steps, d⟩ ∧
    (∀ j, j ≠ i → ((Heap.empty.handleRun before).handleStep (.editSteps i ops)).read j =
        (Heap.empty.handleRun before).read j ∧
      ((Heap.empty.handleRun before).handleStep (.editCheckpoints i d)).read j =
        (Heap.empty.handleRun before).read j) := by
  have r := heapRep_empty.handleRun before
  rw [r.read] at h
  generalize before.foldl World.handleStep ⟨[], []⟩ = w at h r
  have r1 := r.handleStep (.editSteps i ops)
  have r2 := r.handleStep (.editCheckpoints i d)
  have e1 : w.handleStep (.editSteps i ops) = w.setPipe i ⟨ops, p.checkpoints⟩ := by simp only [World.handleStep, h]
  have e2 : w.handleStep (.editCheckpoints i d) = w.setPipe i ⟨p.steps, d⟩ := by simp only [World.handleStep, h]
  rw [e1] at r1
  rw [e2] at r2
  refine ⟨?_, fun k => ?_, ?_, fun j hj => ⟨?_, ?_⟩⟩
  · rw [r1.read]
    exact (set_get w i i p p _ h h).2 rfl
  · rw [r1.inter, r.inter]
    show (w.inters[k]?).bind _ = _
    cases w.inters[k]? with
    | none => rfl
    | some x =>
      simp only [Option.bind_some]
      by_cases e : x.1 = i
      · rw [e, (set_get w i i p p _ h h).2 rfl, h]
        rfl
      · show ((w.pipes.set i _)[x.1]?).map _ = _
        rw [List.getElem?_set_ne (Ne.symm e)]
  · rw [r2.read]
    exact (set_get w i i p p _ h h).2 rfl
  · rw [r1.read, r.read]
    show (w.pipes.set i _)[j]? = _
    rw [List.getElem?_set_ne (Ne.symm hj)]
  · rw [r2.read, r.read]
    show (w.pipes.set i _)[j]? = _
    rw [List.getElem?_set_ne (Ne.symm hj)]

/-- C87: so what C64 promises needs that the dict is left alone: after a change by hand an intermediate gives the value
of another step under the same name. -/
theorem C87_edited_name : ∃ (before : List HandleCmd) (d : List (Str × Int)) (name : Str) (v v' : Seq), v ≠ v' ∧
    (Heap.empty.handleRun before).get 0 name = some (.ok v) ∧
    ((Heap.empty.handleRun before).handleRun [.editCheckpoints 0 d]).get 0 name = some (.ok v') :=
  ⟨[.call .newPipe, .call (.addOp 0 exRev (some "x".toList)), .call (.transformSequence 0 (.str "ab".toList))],
    [("x".toList, 0)], "x".toList, .str "ba".toList, .str "ab".toList, by decide, rfl, rfl⟩

example : ∃ t, (Heap.empty.handleRun [.call .newPipe, .call (.addOp 0 exRev (some "x".toList)),
    .call (.transformSequence 0 (.str "ab".toList))]).inter? 0 = some t := ⟨_, rfl⟩

/-! ### Steps that do not fit -/

/-- C87: a list of steps that do not fit together, made by hand, is never run without an exception: if the first steps
run, the first one whose type does not fit raises TypeError. -/
theorem C87_unfit (p : Pipe) (s : Seq) :
    (∀ o as coll, p.transformSequence s = .ok (o, as, coll) → WellTyped p.steps ∧
      ∀ first, p.steps.head? = some first → s.type = first.cls.inputType) ∧
    ∀ pre a b post rs, p.steps = pre ++ a :: b :: post → a.cls.outputType ≠ b.cls.inputType → Runs (pre ++ [a]) s rs →
      p.transformSequence s = .error .typeError := by
  constructor
  · intro o as coll h
    obtain ⟨rs, hr, _⟩ := (C58_composition p s o as coll).mp h
    have gen : ∀ (ops : List Op) (s : Seq) (rs : List (Seq × Aligner)), Runs ops s rs → WellTyped ops ∧
        ∀ first, ops.head? = some first → s.type = first.cls.inputType := by
      intro ops s rs hr
      induction hr with
      | nil s => exact ⟨fun i a b h1 h2 => by simp at h1, fun f hf => by cases hf⟩
      | @cons op ops s t a rs h hs ih =>
        obtain ⟨t1, t2⟩ := Op.transform_type h
        refine ⟨fun i x y h1 h2 => ?_, fun f hf => ?_⟩
        · cases i with
          | zero =>
            injection h1 with h1
            subst h1
            rw [← t2]
            exact ih.2 y (by rw [List.head?_eq_getElem?]; exact h2)
          | succ i => exact ih.1 i x y h1 h2
        · injection hf with hf
          subst hf
          exact t1
    exact gen _ _ _ hr
  · intro pre a b post rs hp hne hr
    refine (C58_error p s .typeError).mpr ⟨pre ++ [a], b, post, rs, by rw [hp]; simp, hr, ?_⟩
    obtain ⟨qs, qs', he, ha, hb⟩ := hr.split
    cases hb with
    | @cons _ _ _ t al _ h1 h2 =>
      cases h2
      have ht := (Op.transform_type h1).2
      rw [he, finalOf_append, finalOf_cons]
      have : (finalOf t []).type ≠ b.cls.inputType := by
        show t.type ≠ _
        rw [ht]
        exact hne
      unfold Op.transform
      rw [if_pos this]

example : Pipe.transformSequence ⟨[exChars, exRev], []⟩ (.str "ab".toList) = .error .typeError :=
  (C87_unfit ⟨[exChars, exRev], []⟩ (.str "ab".toList)).2 [] exChars exRev [] _ rfl (by decide) (.cons rfl (.nil _))

/-! ### A pipe added to itself -/

/-- C87: `p += p` doubles a pipe without checkpoints whose output fits its input; with a checkpoint it raises KeyError
and changes nothing. -/
theorem C87_self (before : List HandleCmd) (i : Nat) (p : Pipe) (h : (Heap.empty.handleRun before).read i = some p)
    (first last : Op) (hf : p.steps.head? = some first) (hl : p.steps.getLast? = some last)
    (ht : last.cls.outputType = first.cls.inputType) :
    (p.checkpoints = [] → ((Heap.empty.handleRun before).iadd i i).2 = .ok () ∧
      ((Heap.empty.handleRun before).iadd i i).1.read i = some ⟨p.steps ++ p.steps, []⟩) ∧
    (p.checkpoints ≠ [] → ((Heap.empty.handleRun before).iadd i i).2 = .error .keyError ∧
      ((Heap.empty.handleRun before).iadd i i).1.read i = some p) := by
  have r := heapRep_empty.handleRun before
  have hi : (Heap.empty.handleRun before).iadd i i =
      ((Heap.empty.handleRun before).write i (p.iadd p).1, (p.iadd p).2) := by simp [Heap.iadd, h]
  rw [hi]
  have h' := h
  rw [r.read] at h'
  have hw : ∀ q, ((Heap.empty.handleRun before).write i q).read i = some q := fun q => by
    rw [(r.write i q).read]
    exact (set_get _ i i p p q h' h').2 rfl
  dsimp only
  rw [hw]
  have hs := (C62_sum p p).2 last first hl hf
  constructor
  · intro hc
    rcases C62_iadd p p with ⟨x, e1, e2⟩ | ⟨x, e1, e2⟩
    · rw [e2]
      refine ⟨rfl, ?_⟩
      have := (hs.2 ht).2 (fun n hn => by rw [hc] at hn; cases hn) (by rw [hc]; exact List.nodup_nil)
      rw [this] at e1
      injection e1 with e1
      rw [← e1, hc]
      rfl
    · have := (hs.2 ht).2 (fun n hn => by rw [hc] at hn; cases hn) (by rw [hc]; exact List.nodup_nil)
      rw [this] at e1
      cases e1
  · intro hc
    have : p.concat p = .error .keyError := by
      refine (hs.2 ht).1 ?_
      cases hd : p.checkpoints with
      | nil => exact absurd hd hc
      | cons x xs => exact ⟨x.1, by simp, by simp⟩
    rcases C62_iadd p p with ⟨x, e1, e2⟩ | ⟨x, e1, e2⟩
    · rw [this] at e1; cases e1
    · rw [this] at e1
      injection e1 with e1
      rw [e2, ← e1]
      exact ⟨rfl, rfl⟩

example : (Heap.empty.handleRun [.call .newPipe, .call (.addOp 0 exRev none)]).read 0 = some ⟨[exRev], []⟩ := rfl

end Uttut
