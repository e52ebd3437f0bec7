import Mathlib.Data.List.Induction
import Verif.Spec.History
import Verif.Props.Edit
import Verif.Props.Spans
import Verif.Lemmas.Honest

/-! C77: group objects over any sequence of calls. -/

namespace Uttut
open Spec

variable {V : Type}

theorem addedBy_good {s e : Int} (v : V) (h : GoodBounds s e) : addedBy (.add s e v) = [⟨s.toNat, e.toNat, v⟩] := if_pos h

theorem addedBy_bad {s e : Int} (v : V) (h : ¬ GoodBounds s e) : addedBy (.add s e v) = [] := if_neg h

section replacements

variable [DecidableEq V] [NewValue V]

theorem addPy_cases (g : ReplacementGroup V) (s e : Int) (v : V) :
    ((BadBound s ∨ BadBound e) ∧ g.addPy s e v = .error .overflowError) ∨
    (¬ BadBound s ∧ ¬ BadBound e ∧ g.addPy s e v = .ok ⟨g.reps ++ addedBy (.add s e v), g.isDone⟩) := by
  unfold ReplacementGroup.addPy toUInt BadBound uintBound
  by_cases hs : 0 ≤ s ∧ s < ((2 ^ 32 : Nat) : Int)
  · rw [if_pos hs]
    by_cases he : 0 ≤ e ∧ e < ((2 ^ 32 : Nat) : Int)
    · rw [if_pos he]
      refine Or.inr ⟨by omega, by omega, ?_⟩
      show Except.ok (g.add s.toNat e.toNat v) = _
      unfold ReplacementGroup.add Rep.new validateStartEnd
      by_cases hle : s.toNat > e.toNat
      · have : ¬ GoodBounds s e := by unfold GoodBounds; omega
        rw [if_pos hle, addedBy_bad v this, List.append_nil]
        rfl
      · have : GoodBounds s e := by unfold GoodBounds; omega
        rw [if_neg hle, addedBy_good v this]
        rfl
    · rw [if_neg he]
      exact Or.inl ⟨by omega, rfl⟩
  · rw [if_neg hs]
    exact Or.inl ⟨by omega, rfl⟩

theorem badBound_added {s e : Int} {v : V} (h : BadBound s ∨ BadBound e) : addedBy (.add s e v) = [] := by
  have : ¬ GoodBounds s e := by
    unfold GoodBounds BadBound at *
    omega
  exact if_neg this

theorem call_add (g : ReplacementGroup V) (s e : Int) (v : V) :
    (g.call (.add s e v)).1 = ⟨g.reps ++ addedBy (.add s e v), g.isDone⟩ := by
  unfold ReplacementGroup.call
  rcases addPy_cases g s e v with ⟨hb, h⟩ | ⟨_, _, h⟩
  · simp only [h, badBound_added hb, List.append_nil]
  · simp only [h]

/-- `done` as a statement and as a function. -/
theorem call_done (g : ReplacementGroup V) (σ : SetOrder) (skip : Bool) :
    (∃ g', g.done σ skip = .ok g' ∧ g.call (.done σ skip) = (g', none)) ∨
    (∃ e reps, g.done σ skip = .error e ∧ g.call (.done σ skip) = (⟨reps, g.isDone⟩, some e)) := by
  unfold ReplacementGroup.call ReplacementGroup.done
  dsimp only
  by_cases h : (σ.listSet g.reps).length ≠ 0 ∧ skip = false
  · rw [if_pos h, if_pos h]
    cases h1 : ReplacementGroup.validateNewValues (σ.listSet g.reps) with
    | error e => exact Or.inr ⟨e, _, rfl, rfl⟩
    | ok u =>
      cases h2 : ReplacementGroup.validateDisjoint
          ((ReplacementGroup.sortReps (σ.listSet g.reps)).map fun r => (r.start, r.stop)) with
      | error e => exact Or.inr ⟨e, _, rfl, rfl⟩
      | ok u => exact Or.inl ⟨_, rfl, rfl⟩
  · rw [if_neg h, if_neg h]
    exact Or.inl ⟨_, rfl, rfl⟩

theorem call_done_mem (g : ReplacementGroup V) (σ : SetOrder) (skip : Bool) (r : Rep V) :
    r ∈ (g.call (.done σ skip)).1.reps ↔ r ∈ g.reps := by
  unfold ReplacementGroup.call
  dsimp only
  split
  · split
    · exact mem_listSet
    · split
      · exact (ReplacementGroup.sortReps_perm _).mem_iff.trans mem_listSet
      · exact (ReplacementGroup.sortReps_perm _).mem_iff.trans mem_listSet
  · exact mem_listSet

theorem call_mem (g : ReplacementGroup V) (c : GroupCall V) (r : Rep V) :
    r ∈ (g.call c).1.reps ↔ r ∈ g.reps ∨ r ∈ addedBy c := by
  cases c with
  | add s e v => rw [call_add]; exact List.mem_append
  | done σ skip => rw [call_done_mem]; simp [addedBy]

theorem after_append (g : ReplacementGroup V) (xs ys : List (GroupCall V)) : g.after (xs ++ ys) = (g.after xs).after ys := by
  unfold ReplacementGroup.after
  exact List.foldl_append

theorem after_mem (g : ReplacementGroup V) (calls : List (GroupCall V)) (r : Rep V) :
    r ∈ (g.after calls).reps ↔ r ∈ g.reps ∨ r ∈ added calls := by
  induction calls generalizing g with
  | nil => simp [ReplacementGroup.after, added]
  | cons c cs ih =>
    show r ∈ ((g.call c).1.after cs).reps ↔ _
    rw [ih, call_mem]
    simp only [added, List.flatMap_cons, List.mem_append, or_assoc]

/-- C77: no call ever loses a replacement, not even a `done` that raises, and none is made up. -/
theorem C77_contents (calls : List (GroupCall V)) (r : Rep V) :
    r ∈ (ReplacementGroup.empty.after calls).reps ↔ r ∈ added calls := by
  rw [after_mem]
  simp [ReplacementGroup.empty]

theorem added_wf (calls : List (GroupCall V)) (r : Rep V) (h : r ∈ added calls) : r.start ≤ r.stop ∧ r.stop < 2 ^ 32 := by
  obtain ⟨c, _, hc⟩ := List.mem_flatMap.mp h
  cases c with
  | add s e v =>
    by_cases hb : GoodBounds s e
    · rw [addedBy_good v hb, List.mem_singleton] at hc
      subst hc
      unfold GoodBounds at hb
      dsimp only
      omega
    · rw [addedBy_bad v hb] at hc
      cases hc
  | done σ skip => cases hc

theorem after_wf (calls : List (GroupCall V)) (r : Rep V) (h : r ∈ (ReplacementGroup.empty.after calls).reps) :
    r.start ≤ r.stop := (added_wf calls r ((C77_contents calls r).mp h)).1

theorem after_kind (calls : List (GroupCall V)) :
    SameKind (ReplacementGroup.empty.after calls).reps ↔ SameKind (added calls) := by
  unfold SameKind
  simp only [C77_contents]

theorem after_disjoint (calls : List (GroupCall V)) :
    PairwiseDisjoint (ReplacementGroup.empty.after calls).reps ↔ PairwiseDisjoint (added calls) := by
  unfold PairwiseDisjoint
  simp only [C77_contents]

/-- C77: whether a call raises, and what, is determined by the replacements added before it: nothing else in the history
of the group matters. -/
theorem C77_raises (calls : List (GroupCall V)) (c : GroupCall V) :
    Raises (added calls) c ((ReplacementGroup.empty.after calls).call c).2 := by
  cases c with
  | add s e v =>
    unfold ReplacementGroup.call
    rcases addPy_cases (ReplacementGroup.empty.after calls) s e v with ⟨hb, h⟩ | ⟨h1, h2, h⟩
    · simp only [h]; exact .overflow _ _ _ hb
    · simp only [h]; exact .add _ _ _ h1 h2
  | done σ skip =>
    cases skip with
    | true =>
      unfold ReplacementGroup.call
      dsimp only
      rw [if_neg (fun h => nomatch h.2)]
      exact .skip σ
    | false =>
      obtain ⟨d1, d2, d3⟩ := ReplacementGroup.done_spec σ (ReplacementGroup.empty.after calls) (after_wf calls)
      have hk := after_kind calls
      have hd := after_disjoint calls
      by_cases k : SameKind (added calls)
      · by_cases d : PairwiseDisjoint (added calls)
        · rcases call_done (ReplacementGroup.empty.after calls) σ false with ⟨g', h1, h2⟩ | ⟨e, reps, h1, h2⟩
          · rw [h2]; exact .done σ ⟨k, d⟩
          · rw [d1 (hk.mpr k) (hd.mpr d)] at h1; cases h1
        · rcases call_done (ReplacementGroup.empty.after calls) σ false with ⟨g', h1, h2⟩ | ⟨e, reps, h1, h2⟩
          · rw [d3 (hk.mpr k) (fun h => d (hd.mp h))] at h1; cases h1
          · rw [d3 (hk.mpr k) (fun h => d (hd.mp h))] at h1
            injection h1 with h1
            rw [h2, ← h1]; exact .overlap σ k d
      · rcases call_done (ReplacementGroup.empty.after calls) σ false with ⟨g', h1, h2⟩ | ⟨e, reps, h1, h2⟩
        · rw [d2 (fun h => k (hk.mp h))] at h1; cases h1
        · rw [d2 (fun h => k (hk.mp h))] at h1
          injection h1 with h1
          rw [h2, ← h1]; exact .kinds σ k

theorem raises_none {rs : List (Rep V)} {σ : SetOrder} {skip : Bool} (h : Raises rs (.done σ skip) none) :
    skip = true ∨ Valid rs := by
  cases h with
  | skip => exact Or.inl rfl
  | done _ h => exact Or.inr h

theorem raises_some {rs : List (Rep V)} {σ : SetOrder} {skip : Bool} {e : Exc} (h : Raises rs (.done σ skip) (some e)) :
    ¬ (skip = true ∨ Valid rs) := by
  cases h with
  | kinds _ h => exact fun h' => h (h'.resolve_left (fun h => nomatch h)).1
  | overlap _ h h' => exact fun h'' => h' (h''.resolve_left (fun h => nomatch h)).2

theorem isDone_call (calls : List (GroupCall V)) (c : GroupCall V) :
    ((ReplacementGroup.empty.after calls).call c).1.isDone = true ↔ (ReplacementGroup.empty.after calls).isDone = true ∨
      ∃ σ skip, c = .done σ skip ∧ (skip = true ∨ Valid (added calls)) := by
  cases c with
  | add s e v =>
    rw [call_add]
    exact ⟨Or.inl, fun h => h.resolve_right fun ⟨_, _, h, _⟩ => nomatch h⟩
  | done σ skip =>
    have hr := C77_raises calls (.done σ skip)
    rcases call_done (ReplacementGroup.empty.after calls) σ skip with ⟨g', h1, h2⟩ | ⟨e, reps, h1, h2⟩
    · rw [h2] at hr ⊢
      have hd : g'.isDone = true := by
        unfold ReplacementGroup.done at h1
        dsimp only at h1
        split at h1
        · obtain ⟨_, _, h1⟩ := bind_eq_ok h1
          obtain ⟨_, _, h1⟩ := bind_eq_ok h1
          injection h1 with h1
          rw [← h1]
        · injection h1 with h1
          rw [← h1]
      exact ⟨fun _ => Or.inr ⟨σ, skip, rfl, raises_none hr⟩, fun _ => hd⟩
    · rw [h2] at hr ⊢
      refine ⟨Or.inl, fun h => h.resolve_right ?_⟩
      rintro ⟨σ', skip', h, h'⟩
      injection h with e1 e2
      subst e2
      exact raises_some hr h'

theorem after_concat (g : ReplacementGroup V) (cs : List (GroupCall V)) (c : GroupCall V) :
    g.after (cs ++ [c]) = ((g.after cs).call c).1 := by
  rw [after_append]; rfl

theorem isDone_iff (calls : List (GroupCall V)) : (ReplacementGroup.empty.after calls).isDone = true ↔ Finalised calls := by
  induction calls using List.reverseRecOn with
  | nil =>
    constructor
    · intro h; cases h
    · rintro ⟨pre, σ, skip, post, h, _⟩
      simp at h
  | append_singleton cs c ih =>
    rw [after_concat, isDone_call, ih]
    constructor
    · rintro (⟨pre, σ, skip, post, rfl, h⟩ | ⟨σ, skip, rfl, h⟩)
      · exact ⟨pre, σ, skip, post ++ [c], by simp, h⟩
      · exact ⟨cs, σ, skip, [], rfl, h⟩
    · rintro ⟨pre, σ, skip, post, h, hv⟩
      rcases List.eq_nil_or_concat post with rfl | ⟨post', d, rfl⟩
      · obtain ⟨h1, h2⟩ := List.append_inj' h rfl
        injection h2 with h2
        exact Or.inr ⟨σ, skip, h2, h1 ▸ hv⟩
      · left
        refine ⟨pre, σ, skip, post', ?_, hv⟩
        rw [List.concat_eq_append, ← List.cons_append, ← List.append_assoc] at h
        exact (List.append_inj' h rfl).1

/-- C77: a group can be read (iterated, indexed) exactly when some `done` returned normally, whatever happened since;
what is read are the replacements added so far. Until then reading raises RuntimeError; `is_empty` and `len` can be asked
at any time. -/
theorem C77_readable (calls : List (GroupCall V)) :
    (Finalised calls → (ReplacementGroup.empty.after calls).items = .ok (ReplacementGroup.empty.after calls).reps ∧
      ∀ i : Nat, ∀ h : i < (ReplacementGroup.empty.after calls).reps.length,
        (ReplacementGroup.empty.after calls).getItem i = .ok (ReplacementGroup.empty.after calls).reps[i]) ∧
    (¬ Finalised calls → (ReplacementGroup.empty.after calls).items = .error .runtimeError ∧
      ∀ i, (ReplacementGroup.empty.after calls).getItem i = .error .runtimeError) ∧
    ((ReplacementGroup.empty.after calls).isEmpty = true ↔ added calls = []) := by
  refine ⟨fun h => ?_, fun h => ?_, ?_⟩
  · have hd := (isDone_iff calls).mpr h
    refine ⟨by unfold ReplacementGroup.items; rw [if_pos hd], fun i hi => ?_⟩
    unfold ReplacementGroup.getItem
    rw [if_pos hd]
    have : pyIndex? (ReplacementGroup.empty.after calls).reps.length (i : Int) = some i := by
      unfold pyIndex?
      grind
    rw [this]
    simp only [List.getElem?_eq_getElem hi]
  · have hd : ¬ (ReplacementGroup.empty.after calls).isDone = true := fun h' => h ((isDone_iff calls).mp h')
    refine ⟨by unfold ReplacementGroup.items; rw [if_neg hd], fun i => ?_⟩
    unfold ReplacementGroup.getItem
    rw [if_neg hd]
  · unfold ReplacementGroup.isEmpty
    rw [beq_iff_eq, List.length_eq_zero_iff, List.eq_nil_iff_forall_not_mem, List.eq_nil_iff_forall_not_mem]
    simp only [C77_contents]

/-- C77: once `done()` has raised, it raises again however the group is continued: replacements cannot be taken back. -/
theorem C77_stuck (pre post : List (GroupCall V)) (σ σ' : SetOrder) (e : Exc)
    (h : ((ReplacementGroup.empty.after pre).call (.done σ false)).2 = some e) :
    ∃ e', ((ReplacementGroup.empty.after (pre ++ post)).call (.done σ' false)).2 = some e' := by
  have h1 := C77_raises pre (.done σ false)
  have h2 := C77_raises (pre ++ post) (.done σ' false)
  rw [h] at h1
  have hn := raises_some h1
  cases h3 : ((ReplacementGroup.empty.after (pre ++ post)).call (.done σ' false)).2 with
  | some e' => exact ⟨e', rfl⟩
  | none =>
    rw [h3] at h2
    refine absurd (Or.inr ?_) hn
    have hv := (raises_none h2).resolve_left (fun h => nomatch h)
    have hsub : ∀ r ∈ added pre, r ∈ added (pre ++ post) := fun r hr => by
      unfold added
      rw [List.flatMap_append]
      exact List.mem_append_left _ hr
    exact ⟨fun a ha b hb => hv.1 a (hsub a ha) b (hsub b hb), fun a ha b hb => hv.2 a (hsub a ha) b (hsub b hb)⟩

theorem after_ignored (g : ReplacementGroup V) (post : List (GroupCall V))
    (h : ∀ c ∈ post, ∃ s e v, c = .add s e v ∧ ¬ GoodBounds s e) : g.after post = g := by
  induction post generalizing g with
  | nil => rfl
  | cons c post ih =>
    obtain ⟨s, e, v, rfl, hb⟩ := h c List.mem_cons_self
    show (g.call (.add s e v)).1.after post = g
    rw [call_add]
    rw [addedBy_bad v hb, List.append_nil]
    exact ih g fun c hc => h c (List.mem_cons_of_mem _ hc)

/-- C77: after a `done()` that returned normally, and until a further replacement is added, the group is sorted and
disjoint and the same as if its replacements had been given to `add_all` at once, whatever the history before. -/
theorem C77_validated (pre post : List (GroupCall V)) (σ : SetOrder) (hv : Valid (added pre))
    (hpost : ∀ c ∈ post, ∃ s e v, c = .add s e v ∧ ¬ GoodBounds s e) :
    (ReplacementGroup.empty.after (pre ++ .done σ false :: post)).items =
      .ok (ReplacementGroup.empty.after (pre ++ .done σ false :: post)).reps ∧
    (ReplacementGroup.empty.after (pre ++ .done σ false :: post)).reps.Nodup ∧
    (ReplacementGroup.empty.after (pre ++ .done σ false :: post)).reps.Pairwise (fun a b => a.stop ≤ b.start) ∧
    ((∀ a ∈ added pre, ∀ b ∈ added pre, a.start = b.start → a.stop = b.stop → a = b) → ∀ σ',
      ReplacementGroup.addAll σ' ((added pre).map Rep.triple) =
        .ok (ReplacementGroup.empty.after (pre ++ .done σ false :: post))) := by
  have hd : ReplacementGroup.empty.after (pre ++ .done σ false :: post) =
      ((ReplacementGroup.empty.after pre).call (.done σ false)).1 := by
    rw [after_append]
    show ((ReplacementGroup.empty.after pre).call (.done σ false)).1.after post = _
    exact after_ignored _ post hpost
  rw [hd]
  obtain ⟨d1, _, _⟩ := ReplacementGroup.done_spec σ (ReplacementGroup.empty.after pre) (after_wf pre)
  have hdone := d1 ((after_kind pre).mpr hv.1) ((after_disjoint pre).mpr hv.2)
  have hg : (ReplacementGroup.empty.after pre).call (.done σ false) =
      (⟨ReplacementGroup.sortReps (σ.listSet (ReplacementGroup.empty.after pre).reps), true⟩, none) := by
    rcases call_done (ReplacementGroup.empty.after pre) σ false with ⟨g', h1, h2⟩ | ⟨e, reps, h1, h2⟩
    · rw [hdone] at h1; injection h1 with h1; rw [h2, h1]
    · rw [hdone] at h1; cases h1
  rw [hg]
  refine ⟨rfl, (ReplacementGroup.sortReps_perm _).nodup_iff.mpr (nodup_listSet _ _), ?_, fun hspan σ' => ?_⟩
  · exact (ReplacementGroup.done_chain σ _ _ (after_wf pre) hdone).2.2.imp fun h => h
  · have e1 := C05_group_canonical σ' σ (added pre) (ReplacementGroup.empty.after pre).reps (added_wf pre)
      (fun r => (C77_contents pre r).symm) hspan
    rw [e1, addAll_eq_done σ _ fun r hr => added_wf pre r ((C77_contents pre r).mp hr)]
    exact ((ReplacementGroup.done_spec σ ⟨(ReplacementGroup.empty.after pre).reps, false⟩ (after_wf pre)).1
      ((after_kind pre).mpr hv.1) ((after_disjoint pre).mpr hv.2))

/-- C77: a replacement added to a group that can be read is appended to it, unsorted and unchecked, and the group can
still be read. -/
theorem C77_late_add (calls : List (GroupCall V)) (h : Finalised calls) (s e : Int) (v : V) (hb : GoodBounds s e) :
    (ReplacementGroup.empty.after (calls ++ [.add s e v])).items =
      .ok ((ReplacementGroup.empty.after calls).reps ++ [⟨s.toNat, e.toNat, v⟩]) := by
  rw [after_concat, call_add]
  unfold ReplacementGroup.items
  rw [if_pos ((isDone_iff calls).mpr h), addedBy_good v hb]

/-- C77: a `done()` that raises leaves the group as readable as it was before, with the same replacements. -/
theorem C77_failed_done (calls : List (GroupCall V)) (σ : SetOrder) (e : Exc)
    (h : ((ReplacementGroup.empty.after calls).call (.done σ false)).2 = some e) :
    (Finalised (calls ++ [.done σ false]) ↔ Finalised calls) ∧
    ∀ r, r ∈ (ReplacementGroup.empty.after (calls ++ [.done σ false])).reps ↔ r ∈ (ReplacementGroup.empty.after calls).reps := by
  refine ⟨?_, fun r => by rw [after_concat, call_done_mem]⟩
  rw [← isDone_iff, ← isDone_iff, after_concat, isDone_call]
  refine ⟨fun h' => h'.resolve_right ?_, Or.inl⟩
  rintro ⟨σ', skip, hc, hv⟩
  injection hc with e1 e2
  have := C77_raises calls (.done σ false)
  rw [h] at this
  exact raises_some this (by rw [e2]; exact hv)

end replacements

/-- C77: using a group before `done`: applying it raises RuntimeError, and so does inverting it unless nothing has been
added. -/
theorem C77_not_done {β : Type} [DecidableEq β] (g : ReplacementGroup Str) (g' : ReplacementGroup (List β))
    (h : g.isDone = false) (h' : g'.isDone = false) (σ : SetOrder) (s : Str) (l : List β) :
    Str2Str.apply s g = .error .runtimeError ∧ Lst2Lst.apply l g' = .error .runtimeError ∧
    Str2Str.inverse σ s g = (if g.reps = [] then .ok ⟨[], true⟩ else .error .runtimeError) ∧
    Lst2Lst.inverse σ l g' = (if g'.reps = [] then .ok ⟨[], true⟩ else .error .runtimeError) := by
  have key : ∀ {γ : Type} [DecidableEq γ] [NewValue (List γ)] (l : List γ) (g : ReplacementGroup (List γ)), g.isDone = false →
      editInverse σ l g = (if g.reps = [] then .ok ⟨[], true⟩ else .error .runtimeError) := by
    intro γ _ _ l g h
    unfold editInverse genInverse ReplacementGroup.isEmpty ReplacementGroup.items
    by_cases hr : g.reps = []
    · rw [if_pos hr, hr]
      simp [ReplacementGroup.done, ReplacementGroup.empty, listSet_nil, bind, Except.bind, pure, Except.pure]
    · rw [if_neg hr, if_neg (by simpa using hr), h]
      rfl
  refine ⟨?_, ?_, key s g h, key l g' h'⟩
  · unfold Str2Str.apply transformSequence ReplacementGroup.items
    rw [h]; rfl
  · unfold Lst2Lst.apply transformSequence ReplacementGroup.items
    rw [h']; rfl

/-- C77 (what goes wrong): replacements of "abc" that `add_all` accepts and applies correctly give a different text if
one of them is added after `done`; so does `done(skip_sort=True)`, depending on the iteration order of the set; and after a
`done` that raised because of an overlap the group can still be applied. -/
theorem C77_unchecked :
    (∃ g, ReplacementGroup.addAll SetOrder.id [(2, 3, "x".toList), (0, 1, "y".toList)] = .ok g ∧
      Str2Str.apply "abc".toList g = .ok "ybx".toList) ∧
    Str2Str.apply "abc".toList (ReplacementGroup.empty.after
      [.add 2 3 "x".toList, .done SetOrder.id false, .add 0 1 "y".toList]) = .ok "abxybc".toList ∧
    Str2Str.apply "abc".toList (ReplacementGroup.empty.after
      [.add 0 1 "y".toList, .add 2 3 "x".toList, .done SetOrder.rev true]) = .ok "abxybc".toList ∧
    ((ReplacementGroup.empty.after [.add 0 2 "x".toList, .done SetOrder.id false, .add 1 3 "y".toList]).call
      (.done SetOrder.id false)).2 = some .valueError ∧
    Str2Str.apply "abc".toList (ReplacementGroup.empty.after [.add 0 2 "x".toList, .done SetOrder.id false,
      .add 1 3 "y".toList, .done SetOrder.id false]) = .ok "xy".toList :=
  ⟨⟨⟨[⟨0, 1, "y".toList⟩, ⟨2, 3, "x".toList⟩], true⟩, by decide⟩, by decide, by decide, by decide⟩

/-! ### Span groups -/

theorem spanAddedBy_good {s e : Int} (h : GoodBounds s e) : spanAddedBy (.add s e) = [⟨s.toNat, e.toNat⟩] := if_pos h

theorem spanAddedBy_bad {s e : Int} (h : ¬ GoodBounds s e) : spanAddedBy (.add s e) = [] := if_neg h

theorem spanAddPy_cases (g : SpanGroup) (s e : Int) :
    ((BadBound s ∨ BadBound e) ∧ g.addPy s e = .error .overflowError) ∨
    (¬ BadBound s ∧ ¬ BadBound e ∧ g.addPy s e = .ok ⟨g.spans ++ spanAddedBy (.add s e), g.isDone⟩) := by
  unfold SpanGroup.addPy toUInt BadBound uintBound
  by_cases hs : 0 ≤ s ∧ s < ((2 ^ 32 : Nat) : Int)
  · rw [if_pos hs]
    by_cases he : 0 ≤ e ∧ e < ((2 ^ 32 : Nat) : Int)
    · rw [if_pos he]
      refine Or.inr ⟨by omega, by omega, ?_⟩
      show Except.ok (g.add s.toNat e.toNat) = _
      unfold SpanGroup.add Span.new validateStartEnd
      by_cases hle : s.toNat > e.toNat
      · have : ¬ GoodBounds s e := by unfold GoodBounds; omega
        rw [if_pos hle, spanAddedBy_bad this, List.append_nil]
        rfl
      · have : GoodBounds s e := by unfold GoodBounds; omega
        rw [if_neg hle, spanAddedBy_good this]
        rfl
    · rw [if_neg he]
      exact Or.inl ⟨by omega, rfl⟩
  · rw [if_neg hs]
    exact Or.inl ⟨by omega, rfl⟩

theorem spanCall_add (g : SpanGroup) (s e : Int) :
    (g.call (.add s e)).1 = ⟨g.spans ++ spanAddedBy (.add s e), g.isDone⟩ := by
  unfold SpanGroup.call
  rcases spanAddPy_cases g s e with ⟨hb, h⟩ | ⟨_, _, h⟩
  · have : ¬ GoodBounds s e := by unfold GoodBounds BadBound at *; omega
    simp only [h, spanAddedBy_bad this, List.append_nil]
  · simp only [h]

theorem spanCall_done (g : SpanGroup) :
    (∃ g', g.done = .ok g' ∧ g.call .done = (g', none)) ∨
    (∃ e spans, g.done = .error e ∧ g.call .done = (⟨spans, g.isDone⟩, some e)) := by
  unfold SpanGroup.call SpanGroup.done
  dsimp only
  by_cases h : g.spans.length ≠ 0
  · rw [if_pos h, if_pos h]
    cases h1 : ReplacementGroup.validateDisjoint ((SpanGroup.sortSpans g.spans).map fun s => (s.start, s.stop)) with
    | error e => exact Or.inr ⟨e, _, rfl, rfl⟩
    | ok u =>
      cases h2 : SpanGroup.validateContiguousness (SpanGroup.sortSpans g.spans) with
      | error e => exact Or.inr ⟨e, _, by simp [bind, Except.bind], rfl⟩
      | ok u => exact Or.inl ⟨_, by simp [bind, Except.bind, pure, Except.pure], rfl⟩
  · rw [if_neg h, if_neg h]
    exact Or.inl ⟨_, rfl, rfl⟩

theorem spanCall_done_spans (g : SpanGroup) : (g.call .done).1.spans = SpanGroup.sortSpans g.spans := by
  unfold SpanGroup.call
  dsimp only
  split
  · split
    · rfl
    · split <;> rfl
  next h =>
    have : g.spans = [] := by simpa using h
    rw [this]
    rfl

theorem sortSpans_stable (ss : List Span) : IsStableSort Span.stop ss (SpanGroup.sortSpans ss) := pySorted_stable Span.stop ss

/-- Spans with the same end are in the order in which they were added. -/
theorem spans_after (calls : List SpanCall) (k : Nat) :
    (SpanGroup.empty.after calls).spans.filter (fun a => a.stop = k) = (spansAdded calls).filter fun a => a.stop = k := by
  induction calls using List.reverseRecOn with
  | nil => rfl
  | append_singleton cs c ih =>
    have h1 : SpanGroup.empty.after (cs ++ [c]) = ((SpanGroup.empty.after cs).call c).1 := by
      unfold SpanGroup.after
      rw [List.foldl_append]
      rfl
    have h2 : spansAdded (cs ++ [c]) = spansAdded cs ++ spanAddedBy c := by
      unfold spansAdded
      rw [List.flatMap_append]
      simp
    rw [h1, h2, List.filter_append]
    cases c with
    | add s e => rw [spanCall_add, List.filter_append, ih]
    | done =>
      rw [spanCall_done_spans, (sortSpans_stable _).2 k, ih]
      simp [spanAddedBy]

theorem filter_mem {xs ys : List Span} (h : ∀ k, xs.filter (fun a => a.stop = k) = ys.filter fun a => a.stop = k) (s : Span) :
    s ∈ xs ↔ s ∈ ys := by
  have := congrArg (s ∈ ·) (h s.stop)
  simpa using this

/-- C77: no call ever loses or makes up a span, or changes the number of times it was added. -/
theorem C77_span_contents (calls : List SpanCall) : (SpanGroup.empty.after calls).spans.Perm (spansAdded calls) := by
  rw [List.perm_iff_count]
  intro s
  have h := spans_after calls s.stop
  have := congrArg (List.count s) h
  rwa [List.count_filter (by simp), List.count_filter (by simp)] at this

theorem sort_after (calls : List SpanCall) (sorted : List Span) :
    IsStableSort Span.stop (spansAdded calls) sorted ↔ sorted = SpanGroup.sortSpans (SpanGroup.empty.after calls).spans := by
  refine Iff.trans ?_ (isStableSort_iff Span.stop (SpanGroup.empty.after calls).spans sorted)
  unfold IsStableSort
  simp only [spans_after]

theorem spansAdded_wf (calls : List SpanCall) (s : Span) (h : s ∈ spansAdded calls) : s.start ≤ s.stop ∧ s.stop < 2 ^ 32 := by
  obtain ⟨c, _, hc⟩ := List.mem_flatMap.mp h
  cases c with
  | add a b =>
    by_cases hb : GoodBounds a b
    · rw [spanAddedBy_good hb, List.mem_singleton] at hc
      subst hc
      unfold GoodBounds at hb
      dsimp only
      omega
    · rw [spanAddedBy_bad hb] at hc
      cases hc
  | done => cases hc

theorem span_after_wf (calls : List SpanCall) (s : Span) (h : s ∈ (SpanGroup.empty.after calls).spans) : s.start ≤ s.stop :=
  (spansAdded_wf calls s ((filter_mem (spans_after calls) s).mp h)).1

theorem validSpans_iff (calls : List SpanCall) :
    ValidSpans (spansAdded calls) ↔ Tiles 0 (SpanGroup.sortSpans (SpanGroup.empty.after calls).spans) := by
  constructor
  · rintro ⟨sorted, h, ht⟩
    rwa [(sort_after calls sorted).mp h] at ht
  · exact fun h => ⟨_, (sort_after calls _).mpr rfl, h⟩

theorem span_done_after (calls : List SpanCall) :
    (ValidSpans (spansAdded calls) → (SpanGroup.empty.after calls).call .done =
      (⟨SpanGroup.sortSpans (SpanGroup.empty.after calls).spans, true⟩, none)) ∧
    (¬ ValidSpans (spansAdded calls) → (SpanGroup.empty.after calls).call .done =
      (⟨SpanGroup.sortSpans (SpanGroup.empty.after calls).spans, (SpanGroup.empty.after calls).isDone⟩, some .valueError)) := by
  obtain ⟨d1, d2⟩ := spanDone_spec (SpanGroup.empty.after calls).spans (SpanGroup.empty.after calls).isDone (span_after_wf calls)
  rw [validSpans_iff]
  have hs := spanCall_done_spans (SpanGroup.empty.after calls)
  refine ⟨fun h => ?_, fun h => ?_⟩
  · rcases spanCall_done (SpanGroup.empty.after calls) with ⟨g', h1, h2⟩ | ⟨e, spans, h1, h2⟩
    · have := h1.symm.trans (d1 h)
      injection this with this
      rw [h2, this]
    · have := h1.symm.trans (d1 h)
      cases this
  · rcases spanCall_done (SpanGroup.empty.after calls) with ⟨g', h1, h2⟩ | ⟨e, spans, h1, h2⟩
    · have := h1.symm.trans (d2 h)
      cases this
    · have := h1.symm.trans (d2 h)
      injection this with this
      rw [h2] at hs
      rw [h2, this, ← hs]

/-- C77: whether a call on a span group raises is determined by the spans added before it. -/
theorem C77_span_raises (calls : List SpanCall) (c : SpanCall) :
    SpanRaises (spansAdded calls) c ((SpanGroup.empty.after calls).call c).2 := by
  cases c with
  | add s e =>
    unfold SpanGroup.call
    rcases spanAddPy_cases (SpanGroup.empty.after calls) s e with ⟨hb, h⟩ | ⟨h1, h2, h⟩
    · simp only [h]; exact .overflow _ _ hb
    · simp only [h]; exact .add _ _ h1 h2
  | done =>
    by_cases h : ValidSpans (spansAdded calls)
    · rw [(span_done_after calls).1 h]; exact .done h
    · rw [(span_done_after calls).2 h]; exact .invalid h

theorem span_isDone_iff (calls : List SpanCall) : (SpanGroup.empty.after calls).isDone = true ↔ SpansFinalised calls := by
  induction calls using List.reverseRecOn with
  | nil =>
    constructor
    · intro h; cases h
    · rintro ⟨pre, post, h, _⟩
      simp at h
  | append_singleton cs c ih =>
    have h1 : SpanGroup.empty.after (cs ++ [c]) = ((SpanGroup.empty.after cs).call c).1 := by
      unfold SpanGroup.after
      rw [List.foldl_append]
      rfl
    have step : ((SpanGroup.empty.after cs).call c).1.isDone = true ↔ (SpanGroup.empty.after cs).isDone = true ∨
        c = .done ∧ ValidSpans (spansAdded cs) := by
      cases c with
      | add s e =>
        rw [spanCall_add]
        exact ⟨Or.inl, fun h => h.resolve_right fun h => nomatch h.1⟩
      | done =>
        by_cases hv : ValidSpans (spansAdded cs)
        · rw [(span_done_after cs).1 hv]
          exact ⟨fun _ => Or.inr ⟨rfl, hv⟩, fun _ => rfl⟩
        · rw [(span_done_after cs).2 hv]
          exact ⟨Or.inl, fun h => h.resolve_right fun h => hv h.2⟩
    rw [h1, step, ih]
    constructor
    · rintro (⟨pre, post, rfl, h⟩ | ⟨rfl, h⟩)
      · exact ⟨pre, post ++ [c], by simp, h⟩
      · exact ⟨cs, [], rfl, h⟩
    · rintro ⟨pre, post, h, hv⟩
      rcases List.eq_nil_or_concat post with rfl | ⟨post', d, rfl⟩
      · obtain ⟨h1, h2⟩ := List.append_inj' h rfl
        injection h2 with h2
        exact Or.inr ⟨h2, h1 ▸ hv⟩
      · left
        refine ⟨pre, post', ?_, hv⟩
        rw [List.concat_eq_append, ← List.cons_append, ← List.append_assoc] at h
        exact (List.append_inj' h rfl).1

/-- C77: a span group can be read exactly when some `done` returned normally, whatever happened since. -/
theorem C77_span_readable (calls : List SpanCall) :
    (SpansFinalised calls → (SpanGroup.empty.after calls).items = .ok (SpanGroup.empty.after calls).spans) ∧
    (¬ SpansFinalised calls → (SpanGroup.empty.after calls).items = .error .runtimeError) ∧
    ((SpanGroup.empty.after calls).isEmpty = true ↔ spansAdded calls = []) := by
  refine ⟨fun h => ?_, fun h => ?_, ?_⟩
  · unfold SpanGroup.items
    rw [if_pos ((span_isDone_iff calls).mpr h)]
  · unfold SpanGroup.items
    rw [if_neg fun h' => h ((span_isDone_iff calls).mp h')]
  · unfold SpanGroup.isEmpty
    rw [beq_iff_eq, (C77_span_contents calls).length_eq, List.length_eq_zero_iff]

/-- C77: right after a `done()` that returned normally, the span group is the one `add_all` makes of its spans, whatever
the history before. -/
theorem C77_span_validated (calls : List SpanCall) (hv : ValidSpans (spansAdded calls)) :
    SpanGroup.addAll ((spansAdded calls).map fun s => ((s.start : Int), (s.stop : Int))) =
      .ok (SpanGroup.empty.after (calls ++ [.done])) ∧
    Tiles 0 (SpanGroup.empty.after (calls ++ [.done])).spans := by
  have h1 : SpanGroup.empty.after (calls ++ [.done]) = ((SpanGroup.empty.after calls).call .done).1 := by
    unfold SpanGroup.after
    rw [List.foldl_append]
    rfl
  rw [h1, (span_done_after calls).1 hv]
  have ht := (validSpans_iff calls).mp hv
  exact ⟨(C10_span_group_acceptance _ (spansAdded_wf calls) _ ((sort_after calls _).mpr rfl)).1 ht, ht⟩

/-- C77: a span added to a group that can be read is appended, unsorted and unchecked. -/
theorem C77_span_late_add (calls : List SpanCall) (h : SpansFinalised calls) (s e : Int) (hb : GoodBounds s e) :
    (SpanGroup.empty.after (calls ++ [.add s e])).items =
      .ok ((SpanGroup.empty.after calls).spans ++ [⟨s.toNat, e.toNat⟩]) := by
  have h1 : SpanGroup.empty.after (calls ++ [.add s e]) = ((SpanGroup.empty.after calls).call (.add s e)).1 := by
    unfold SpanGroup.after
    rw [List.foldl_append]
    rfl
  rw [h1, spanCall_add]
  unfold SpanGroup.items
  rw [if_pos ((span_isDone_iff calls).mpr h), spanAddedBy_good hb]

/-- C77 (what goes wrong): a span added after `done` makes a string be split into overlapping pieces; and unlike with
replacements a `done()` that raised can be followed by one that does not. -/
theorem C77_span_unchecked :
    Str2Lst.apply "abc".toList (SpanGroup.empty.after [.add 0 3, .done, .add 1 3]) = .ok ["abc".toList, "bc".toList] ∧
    ((SpanGroup.empty.after [.add 1 3]).call .done).2 = some .valueError ∧
    ((SpanGroup.empty.after [.add 1 3, .done, .add 0 1]).call .done).2 = none := by decide

/-! ### Concrete cases -/

-- a history with a swallowed `add`, an `add` that raises and a repeated one
example : ∃ calls : List (GroupCall Str),
    added calls = [⟨2, 3, "x".toList⟩, ⟨0, 1, "y".toList⟩, ⟨2, 3, "x".toList⟩] ∧ Valid (added calls) ∧
    Finalised (calls ++ [.done SetOrder.id false]) ∧ ¬ Finalised calls ∧
    (ReplacementGroup.empty.after (calls ++ [.done SetOrder.rev false])).items =
      .ok [⟨0, 1, "y".toList⟩, ⟨2, 3, "x".toList⟩] := by
  refine ⟨[.add 2 3 "x".toList, .add 3 2 "z".toList, .add (-1) 2 "z".toList, .add 0 1 "y".toList, .add 2 3 "x".toList],
    by decide, ⟨by unfold SameKind; decide, by unfold PairwiseDisjoint; decide⟩, ⟨_, _, _, [], rfl, Or.inr ⟨by unfold SameKind; decide, by unfold PairwiseDisjoint; decide⟩⟩, ?_, by decide⟩
  rw [← isDone_iff]
  decide

-- the four ways a call ends
example : Raises (V := Str) [⟨0, 2, "x".toList⟩, ⟨1, 3, "y".toList⟩] (.done SetOrder.id false) (some .valueError) ∧
    Raises (V := Str) [⟨0, 2, "x".toList⟩] (.done SetOrder.id false) none ∧
    Raises (V := Str) [] (.add (-1) 2 "x".toList) (some .overflowError) ∧ Raises (V := Str) [] (.add 5 2 "x".toList) none :=
  ⟨.overlap _ (by unfold SameKind; decide) (by unfold PairwiseDisjoint; decide), .done _ ⟨by unfold SameKind; decide, by unfold PairwiseDisjoint; decide⟩, .overflow _ _ _ (Or.inl (Or.inl (by decide))),
    .add _ _ _ (by unfold BadBound; decide) (by unfold BadBound; decide)⟩

-- C77_stuck: an overlap cannot be repaired
example : ∃ e, ((ReplacementGroup.empty.after ([.add 0 2 "x".toList, .add 1 3 "y".toList] ++
    [.done SetOrder.id true, .add 5 6 "z".toList])).call (.done SetOrder.rev false)).2 = some e :=
  C77_stuck _ _ SetOrder.id _ .valueError (by decide)

-- span groups
example : ∃ calls, spansAdded calls = [⟨1, 3⟩, ⟨0, 1⟩] ∧ ValidSpans (spansAdded calls) ∧
    SpansFinalised (calls ++ [.done]) ∧ ¬ SpansFinalised [.add 1 3, .done] := by
  have hv : ValidSpans [⟨1, 3⟩, ⟨0, 1⟩] := ⟨SpanGroup.sortSpans _, sortSpans_stable _, by decide⟩
  refine ⟨[.add 1 3, .done, .add 0 1], by decide, hv, ⟨_, [], rfl, hv⟩, ?_⟩
  rw [← span_isDone_iff]
  decide

end Uttut
