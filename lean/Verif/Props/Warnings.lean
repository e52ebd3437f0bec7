import Verif.Spec.Warnings
import Verif.Props.Bert

/-!
C95: which calls warn, how often, and what happens when warnings are turned into exceptions.
-/

namespace Uttut
open Spec Warned

namespace Warnings

theorem bind_eq {α β : Type} (m : Warned α) (f : α → Warned β) (p : Category → Bool) :
    (m >>= f).run p = match m.run p with
      | (w, .error e) => (w, .error e)
      | (w, .ok a) => (w ++ ((f a).run p).1, ((f a).run p).2) := rfl

theorem pure_eq {α : Type} (a : α) (p : Category → Bool) : (pure a : Warned α).run p = ([], .ok a) := rfl

theorem lift_eq {α : Type} (r : Res α) (p : Category → Bool) : (lift r).run p = ([], ofRes r) := rfl

/-- Sequencing: the second call runs if the first ends normally. -/
theorem issues_bind {α β : Type} {m : Warned α} {f : α → Warned β} {c : Category} {n k : Nat} {a : α} {r : Res β}
    (hm : Issues m c n (.ok a)) (hf : Issues (f a) c k r) : Issues (m >>= f) c (n + k) r := by
  refine ⟨fun p hp => ?_, fun p hp h => ?_, fun p hp h => ?_⟩
  · rw [bind_eq, hm.1 p hp]
    simp only
    rw [hf.1 p hp, List.replicate_append_replicate]
  · rw [bind_eq]
    rcases Nat.eq_zero_or_pos n with hn | hn
    · rw [hm.2.2 p hp hn]
      simp only
      rw [hf.2.1 p hp (by omega)]; rfl
    · rw [hm.2.1 p hp hn]
  · rw [bind_eq, hm.2.2 p hp (by omega)]
    simp only
    rw [hf.2.2 p hp (by omega)]; rfl

theorem issues_bind_error {α β : Type} {m : Warned α} {f : α → Warned β} {c : Category} {n : Nat} {e : Exc}
    (hm : Issues m c n (.error e)) : Issues (m >>= f) c n (.error e) := by
  refine ⟨fun p hp => ?_, fun p hp h => ?_, fun p hp h => ?_⟩
  · rw [bind_eq, hm.1 p hp]
  · rw [bind_eq, hm.2.1 p hp h]
  · rw [bind_eq, hm.2.2 p hp h]

theorem issues_lift {α : Type} (r : Res α) (c : Category) : Issues (lift r) c 0 r := by
  refine ⟨fun p _ => ?_, fun p _ h => absurd h (by omega), fun p _ _ => ?_⟩ <;> cases r <;> rfl

theorem issues_pure {α : Type} (a : α) (c : Category) : Issues (pure a : Warned α) c 0 (.ok a) :=
  ⟨fun _ _ => rfl, fun _ _ h => absurd h (by omega), fun _ _ _ => rfl⟩

theorem issues_warn (c : Category) : Issues (warn c) c 1 (.ok ()) := by
  refine ⟨fun p h => ?_, fun p h _ => ?_, fun p _ h => absurd h (by omega)⟩ <;> simp [warn, h]

/-- A lifted step followed by the rest. -/
theorem issues_lift_bind {α β : Type} {r : Res α} {f : α → Warned β} {g : α → Res β} {c : Category} {k : Nat}
    (hf : ∀ a, r = .ok a → Issues (f a) c k (g a)) (hk : k = 0 ∨ ∃ a, r = .ok a) :
    Issues (lift r >>= f) c k (r >>= g) := by
  cases r with
  | ok a =>
    have h := issues_bind (issues_lift (.ok a) c) (hf a rfl)
    rw [Nat.zero_add] at h
    exact h
  | error e =>
    rcases hk with rfl | ⟨a, h⟩
    · exact issues_bind_error (issues_lift (.error e) c)
    · cases h

theorem rg_warn {V : Type} (g : ReplacementGroup V) :
    Issues g.warnNotDone .user (unfinished g.isDone) (.ok ()) := by
  unfold ReplacementGroup.warnNotDone
  cases g.isDone
  · simpa [unfinished] using issues_warn .user
  · simpa [unfinished] using issues_pure () .user

theorem rg_len {V : Type} (g : ReplacementGroup V) :
    Issues g.lenW .user (unfinished g.isDone) (.ok g.reps.length) := by
  exact issues_bind (f := fun _ => pure g.reps.length) (rg_warn g) (issues_pure g.reps.length .user)

theorem sg_warn (g : SpanGroup) : Issues g.warnNotDone .user (unfinished g.isDone) (.ok ()) := by
  unfold SpanGroup.warnNotDone
  cases g.isDone
  · simpa [unfinished] using issues_warn .user
  · simpa [unfinished] using issues_pure () .user

theorem sg_len (g : SpanGroup) : Issues g.lenW .user (unfinished g.isDone) (.ok g.spans.length) := by
  exact issues_bind (f := fun _ => pure g.spans.length) (sg_warn g) (issues_pure g.spans.length .user)

end Warnings

open Warnings

/-- **C95** `len(group)` warns once exactly if `done` has not succeeded. -/
theorem C95_len {V : Type} (g : ReplacementGroup V) (s : SpanGroup) :
    Issues g.lenW .user (unfinished g.isDone) (.ok g.reps.length) ∧
    Issues s.lenW .user (unfinished s.isDone) (.ok s.spans.length) := ⟨rg_len g, sg_len s⟩

/-- **C95** `group == other` warns once per unfinished group and then does what `==` does without warnings; comparing
with another object warns for the group only. -/
theorem C95_eq {V : Type} [DecidableEq V] (g : ReplacementGroup V) :
    (∀ o, Issues (g.eqW (some o)) .user (unfinished g.isDone + unfinished o.isDone) (g.eq o)) ∧
    Issues (g.eqW none) .user (unfinished g.isDone) (.ok false) := by
  refine ⟨fun o => issues_bind (rg_warn g) ?_, issues_bind (f := fun _ => pure false) (rg_warn g) (issues_pure false .user)⟩
  have h2 : Issues (lift o.items >>= fun l => (pure (o.reps.length == g.reps.length &&
      (l.all (· ∈ g.reps) && g.reps.all (· ∈ l))) : Warned Bool)) .user 0 (g.eq o) := by
    have := issues_lift_bind (r := o.items) (c := .user) (k := 0)
      (f := fun l => (pure (o.reps.length == g.reps.length &&
        (l.all (· ∈ g.reps) && g.reps.all (· ∈ l))) : Warned Bool))
      (g := fun l => .ok (o.reps.length == g.reps.length && (l.all (· ∈ g.reps) && g.reps.all (· ∈ l))))
      (fun l _ => issues_pure _ _) (Or.inl rfl)
    have e : g.eq o = (o.items >>= fun l =>
        .ok (o.reps.length == g.reps.length && (l.all (· ∈ g.reps) && g.reps.all (· ∈ l)))) := by
      unfold ReplacementGroup.eq ReplacementGroup.items
      cases o.isDone
      · rfl
      · simp only [if_true, Bool.and_assoc]; rfl
    rw [e]; exact this
  exact issues_bind (f := fun n => lift o.items >>= fun l => pure (n == g.reps.length &&
    (l.all (· ∈ g.reps) && g.reps.all (· ∈ l)))) (rg_len o) h2

/-- **C95** the same for groups of spans. -/
theorem C95_spans_eq (g : SpanGroup) :
    (∀ o, Issues (g.eqW (some o)) .user (unfinished g.isDone + unfinished o.isDone) (g.eq o)) ∧
    Issues (g.eqW none) .user (unfinished g.isDone) (.ok false) := by
  refine ⟨fun o => issues_bind (sg_warn g) ?_, issues_bind (f := fun _ => pure false) (sg_warn g) (issues_pure false .user)⟩
  have h2 : Issues (lift o.items >>= fun l => (pure (o.spans.length == g.spans.length &&
      (l.all (· ∈ g.spans) && g.spans.all (· ∈ l))) : Warned Bool)) .user 0 (g.eq o) := by
    have := issues_lift_bind (r := o.items) (c := .user) (k := 0)
      (f := fun l => (pure (o.spans.length == g.spans.length &&
        (l.all (· ∈ g.spans) && g.spans.all (· ∈ l))) : Warned Bool))
      (g := fun l => .ok (o.spans.length == g.spans.length && (l.all (· ∈ g.spans) && g.spans.all (· ∈ l))))
      (fun l _ => issues_pure _ _) (Or.inl rfl)
    have e : g.eq o = (o.items >>= fun l =>
        .ok (o.spans.length == g.spans.length && (l.all (· ∈ g.spans) && g.spans.all (· ∈ l)))) := by
      unfold SpanGroup.eq SpanGroup.items
      cases o.isDone
      · rfl
      · rfl
    rw [e]; exact this
  exact issues_bind (f := fun n => lift o.items >>= fun l => pure (n == g.spans.length &&
    (l.all (· ∈ g.spans) && g.spans.all (· ∈ l)))) (sg_len o) h2

/-- **C95** `apply` warns once exactly if the group is unfinished (and then raises RuntimeError). -/
theorem C95_apply {β : Type} (s : List β) (g : ReplacementGroup (List β)) :
    Issues (editApplyW s g) .user (unfinished g.isDone) (Lst2Lst.apply s g) ∧
    (g.isDone = false → Lst2Lst.apply s g = .error .runtimeError) := by
  constructor
  · exact issues_bind (f := fun n => lift (transformSequence s g (List.replicate (2 * n + 1) [])) >>=
        fun out => pure out.flatten) (rg_len g) (issues_lift_bind
      (g := fun out => .ok out.flatten) (k := 0) (fun _ _ => issues_pure _ _) (Or.inl rfl))
  · intro h
    simp [Lst2Lst.apply, transformSequence, ReplacementGroup.items, h]

theorem distancesW_done {V : Type} (g : ReplacementGroup V) (h : g.isDone = true) :
    distancesW g = pure (distances g.reps) := by
  unfold distancesW ReplacementGroup.lenW ReplacementGroup.warnNotDone ReplacementGroup.items
  rw [if_pos h, if_pos h]
  show (if g.reps.length ≤ 1 then (pure [] : Warned (List Nat)) else pure (distances g.reps)) = _
  split
  · rename_i hl
    match hr : g.reps, hl with
    | [], _ => rfl
    | [_], _ => rfl
  · rfl

theorem rg_lenW_done {V : Type} (g : ReplacementGroup V) (h : g.isDone = true) : g.lenW = pure g.reps.length := by
  unfold ReplacementGroup.lenW ReplacementGroup.warnNotDone
  rw [if_pos h]; rfl

theorem sg_lenW_done (g : SpanGroup) (h : g.isDone = true) : g.lenW = pure g.spans.length := by
  unfold SpanGroup.lenW SpanGroup.warnNotDone
  rw [if_pos h]; rfl

theorem done_isDone {V : Type} [DecidableEq V] [NewValue V] (σ : SetOrder) (g h : ReplacementGroup V)
    (e : g.done σ = .ok h) : h.isDone = true := by
  unfold ReplacementGroup.done at e
  simp only at e
  split at e
  · cases h1 : ReplacementGroup.validateNewValues (σ.listSet g.reps) with
    | error _ => rw [h1] at e; cases e
    | ok _ =>
      rw [h1] at e
      cases h2 : ReplacementGroup.validateDisjoint
          ((ReplacementGroup.sortReps (σ.listSet g.reps)).map fun r => (r.start, r.stop)) with
      | error _ => simp only [h2] at e; cases e
      | ok _ => simp only [h2] at e; cases e; rfl
  · cases e; rfl

theorem lift_bind_ok {α β : Type} (a : α) (f : α → Warned β) : (lift (.ok a) >>= f) = f a := rfl

theorem lift_bind_error {α β : Type} (e : Exc) (f : α → Warned β) :
    (lift (.error e : Res α) >>= f) = lift (.error e) := rfl

theorem pure_bind_eq {α β : Type} (a : α) (f : α → Warned β) : ((pure a : Warned α) >>= f) = f a := rfl

theorem genInverseW_done {β : Type} [DecidableEq β] [NewValue (List β)] (σ : SetOrder) (s : List β)
    (g : ReplacementGroup (List β)) (h : g.isDone = true ∨ g.reps = []) :
    genInverseW σ s g = lift (genInverse σ s g) := by
  unfold genInverseW genInverse
  by_cases he : g.isEmpty = true
  · rw [if_pos he, if_pos he]
  · rw [if_neg he, if_neg he]
    have h : g.isDone = true := h.resolve_right fun e => he (by simp [ReplacementGroup.isEmpty, e])
    rw [rg_lenW_done g h, distancesW_done g h]
    have hi : g.items = .ok g.reps := by simp [ReplacementGroup.items, h]
    rw [hi]
    simp only [pure_bind_eq, lift_bind_ok]
    cases g.getItem 0 <;> rfl

theorem genInverse_isDone {β : Type} [DecidableEq β] [NewValue (List β)] (σ : SetOrder) (s : List β)
    (g inv : ReplacementGroup (List β)) (h : genInverse σ s g = .ok inv) : inv.isDone = true := by
  unfold genInverse at h
  split at h
  · exact done_isDone _ _ _ h
  · cases hi : g.items with
    | error _ => rw [hi] at h; cases h
    | ok rs =>
      rw [hi] at h
      cases hg : g.getItem 0 with
      | error _ => simp only [hg] at h; cases h
      | ok r => simp only [hg] at h; exact done_isDone _ _ _ h

theorem empty_done {β : Type} [DecidableEq β] [NewValue (List β)] (σ : SetOrder) :
    (ReplacementGroup.empty : ReplacementGroup (List β)).done σ = .ok ⟨[], true⟩ := by
  have h : σ.listSet ([] : List (Rep (List β))) = [] := List.Perm.eq_nil (σ.perm _ _)
  simp [ReplacementGroup.done, ReplacementGroup.empty, h]; rfl

theorem editInverse_empty {β : Type} [DecidableEq β] [NewValue (List β)] (σ : SetOrder) (s : List β)
    (g : ReplacementGroup (List β)) (h : g.reps = []) : editInverse σ s g = .ok ⟨[], true⟩ := by
  simp [editInverse, genInverse, ReplacementGroup.isEmpty, h, empty_done]; rfl

/-- **C95** `inverse` of an unfinished group warns twice and raises RuntimeError; if the group is empty it warns once and
returns the finished empty group. -/
theorem C95_inverse {β : Type} [DecidableEq β] [NewValue (List β)] (σ : SetOrder) (s : List β)
    (g : ReplacementGroup (List β)) :
    Issues (editInverseW σ s g) .user
      (if g.isDone then 0 else if g.reps = [] then 1 else 2) (editInverse σ s g) ∧
    (g.isDone = false → g.reps ≠ [] → editInverse σ s g = .error .runtimeError) ∧
    (g.reps = [] → editInverse σ s g = .ok ⟨[], true⟩) := by
  have hu : g.isDone = false → g.reps ≠ [] → editInverse σ s g = .error .runtimeError := by
    intro h hn
    have he : ¬ g.isEmpty = true := by simpa [ReplacementGroup.isEmpty] using hn
    simp [editInverse, genInverse, he, ReplacementGroup.items, h]; rfl
  refine ⟨?_, hu, editInverse_empty σ s g⟩
  by_cases hd : g.isDone = true
  · rw [if_pos hd]
    have e : editInverseW σ s g = lift (editInverse σ s g) := by
      unfold editInverseW editInverse
      rw [genInverseW_done σ s g (.inl hd), rg_lenW_done g hd]
      cases h : genInverse σ s g with
      | error _ => rfl
      | ok inv =>
        rw [lift_bind_ok, rg_lenW_done inv (genInverse_isDone σ s g inv h)]
        simp only [pure_bind_eq]
        show _ = lift (if inv.reps.length = g.reps.length then .ok inv else .error .assertionError)
        split <;> rfl
    rw [e]
    exact issues_lift _ _
  · rw [if_neg hd]
    have hd' : g.isDone = false := by simpa using hd
    by_cases hn : g.reps = []
    · rw [if_pos hn, editInverse_empty σ s g hn]
      have e : editInverseW σ s g = g.lenW >>= fun m =>
          if 0 = m then pure ⟨[], true⟩ else lift (.error .assertionError) := by
        unfold editInverseW
        rw [genInverseW_done σ s g (.inr hn)]
        simp only [genInverse, ReplacementGroup.isEmpty, hn, empty_done]
        rfl
      rw [e]
      have h1 := rg_len g
      rw [hd', hn] at h1
      exact issues_bind h1 (k := 0) (issues_pure _ _)
    · rw [if_neg hn, hu hd' hn]
      have he : ¬ g.isEmpty = true := by simpa [ReplacementGroup.isEmpty] using hn
      have h1 := rg_len g
      rw [hd'] at h1
      refine issues_bind_error (m := genInverseW σ s g) ?_
      unfold genInverseW
      rw [if_neg he]
      refine issues_bind (n := 1) (k := 1) h1 ?_
      unfold distancesW
      by_cases hl : g.reps.length ≤ 1
      · refine issues_bind (n := 1) (k := 0) (a := []) (issues_bind (n := 1) (k := 0) h1 ?_) ?_
        · rw [if_pos hl]; exact issues_pure _ _
        · have hg : g.getItem 0 = .error .runtimeError := by simp [ReplacementGroup.getItem, hd']
          rw [hg]
          exact issues_bind_error (issues_lift _ _)
      · refine issues_bind_error (issues_bind (n := 1) (k := 0) h1 ?_)
        rw [if_neg hl]
        have hi : g.items = .error .runtimeError := by simp [ReplacementGroup.items, hd']
        rw [hi]
        exact issues_bind_error (issues_lift _ _)

/-- **C95** reducing labels warns once exactly if the group is unfinished; then it raises RuntimeError unless group and
labels are empty. -/
theorem C95_reduce (labels : List Int) (g : SpanGroup) (f : Transducer) :
    Issues (reduceW labels g f) .user (unfinished g.isDone) (reduceBySpanGroup labels g f) ∧
    (g.isDone = false → ¬ (g.spans = [] ∧ labels = []) →
      reduceBySpanGroup labels g f = .error .runtimeError) := by
  constructor
  · by_cases hd : g.isDone = true
    · have e : reduceW labels g f = lift (reduceBySpanGroup labels g f) := by
        unfold reduceW reduceBySpanGroup
        rw [sg_lenW_done g hd]
        simp only [pure_bind_eq]
        split
        · rfl
        · cases g.last with
          | error _ => rfl
          | ok l =>
            rw [lift_bind_ok]
            show _ = lift (if labels.length ≠ l.stop then .error .valueError else _)
            split
            · rfl
            · cases g.items <;> rfl
      rw [e, hd]
      exact issues_lift _ _
    · have hd' : g.isDone = false := by simpa using hd
      have h1 := sg_len g
      rw [hd'] at h1 ⊢
      refine issues_bind (n := 1) (k := 0) h1 ?_
      unfold reduceBySpanGroup
      split
      · exact issues_pure _ _
      · have hl : g.last = .error .runtimeError := by simp [SpanGroup.last, hd']
        rw [hl]
        exact issues_bind_error (issues_lift _ _)
  · intro hd h
    have hl : g.last = .error .runtimeError := by simp [SpanGroup.last, hd]
    unfold reduceBySpanGroup
    rw [if_neg (by simpa [List.length_eq_zero_iff] using h), hl]
    rfl

/-- **C95** spreading labels over an unfinished group warns twice, once if the lengths differ; then it raises ValueError if the
lengths differ and RuntimeError if they are equal and not 0. -/
theorem C95_expand (labels : List Int) (g : SpanGroup) :
    Issues (expandW labels g) .user
      (if g.isDone then 0 else if g.spans.length = labels.length then 2 else 1) (expandBySpanGroup labels g) ∧
    (g.isDone = false → g.spans.length = labels.length → labels ≠ [] →
      expandBySpanGroup labels g = .error .runtimeError) := by
  constructor
  · by_cases hd : g.isDone = true
    · rw [if_pos hd]
      have e : expandW labels g = lift (expandBySpanGroup labels g) := by
        unfold expandW expandBySpanGroup
        rw [sg_lenW_done g hd]
        simp only [pure_bind_eq]
        split
        · rfl
        · split
          · rfl
          · cases g.last with
            | error _ => rfl
            | ok l => cases g.items <;> rfl
      rw [e]
      exact issues_lift _ _
    · rw [if_neg hd]
      have hd' : g.isDone = false := by simpa using hd
      have h1 := sg_len g
      rw [hd'] at h1
      by_cases hn : g.spans.length = labels.length
      · rw [if_pos hn]
        refine issues_bind (n := 1) (k := 1) h1 ?_
        rw [if_neg (by simpa using hn)]
        refine issues_bind (n := 1) (k := 0) h1 ?_
        unfold expandBySpanGroup
        rw [if_neg (show ¬ g.spans.length ≠ labels.length from fun h => h hn)]
        by_cases h0 : g.spans.length = 0
        · rw [if_pos h0, if_pos h0]
          exact issues_pure _ _
        · rw [if_neg h0, if_neg h0]
          have hl : g.last = .error .runtimeError := by simp [SpanGroup.last, hd']
          rw [hl]
          exact issues_bind_error (issues_lift _ _)
      · rw [if_neg hn]
        refine issues_bind (n := 1) (k := 0) h1 ?_
        unfold expandBySpanGroup
        rw [if_pos hn, if_pos hn]
        exact issues_lift _ _
  · intro hd h hn
    have hl : g.last = .error .runtimeError := by simp [SpanGroup.last, hd]
    unfold expandBySpanGroup
    rw [if_neg (by simpa using h), if_neg (by rw [h]; simpa using hn), hl]
    rfl

/-- **C95** splitting a string by a group never warns; an unfinished group raises RuntimeError. -/
theorem C95_split (s : Str) (g : SpanGroup) :
    Issues (splitW s g) .user 0 (Str2Lst.apply s g) ∧
    (g.isDone = false → Str2Lst.apply s g = .error .runtimeError) := by
  have hu : g.isDone = false → Str2Lst.validateCompatibility s g = .error .runtimeError := by
    intro h
    simp [Str2Lst.validateCompatibility, SpanGroup.last, h]; rfl
  constructor
  · have e : splitW s g = lift (Str2Lst.apply s g) := by
      unfold splitW Str2Lst.apply
      by_cases hd : g.isDone = true
      · rw [sg_lenW_done g hd]
        cases Str2Lst.validateCompatibility s g with
        | error _ => rfl
        | ok _ =>
          rw [lift_bind_ok]
          simp only [pure_bind_eq]
          cases g.items <;> rfl
      · rw [hu (by simpa using hd)]; rfl
    rw [e]
    exact issues_lift _ _
  · intro h
    simp [Str2Lst.apply, hu h]; rfl

/-- **C95** joining tokens by an unfinished group warns once; then it raises ValueError if the lengths differ and RuntimeError if they
are equal and not 0. -/
theorem C95_join (l : List Str) (g : SpanGroup) :
    Issues (joinW l g) .user (unfinished g.isDone) (Lst2Str.apply l g) ∧
    (g.isDone = false → l.length = g.spans.length → l ≠ [] → Lst2Str.apply l g = .error .runtimeError) := by
  constructor
  · have h1 := sg_len g
    refine issues_bind (k := 0) h1 ?_
    unfold Lst2Str.apply Lst2Str.validateCompatibility
    split
    · exact issues_lift _ _
    · cases hx : (if l.isEmpty then .ok [] else g.items : Res (List Span)) with
      | error e => exact issues_bind_error (issues_lift _ _)
      | ok spans =>
        rw [lift_bind_ok]
        show Issues _ _ _ (Lst2Str.compatLoop l spans >>= fun _ => .ok l.flatten)
        cases Lst2Str.compatLoop l spans with
        | error e => exact issues_bind_error (issues_lift _ _)
        | ok _ => exact issues_pure _ _
  · intro hd h hn
    have he : l.isEmpty = false := by simpa using hn
    simp [Lst2Str.apply, Lst2Str.validateCompatibility, h, he, SpanGroup.items, hd]; rfl

theorem sg_done_isDone (g h : SpanGroup) (e : g.done = .ok h) : h.isDone = true := by
  unfold SpanGroup.done at e
  split at e
  · cases h1 : ReplacementGroup.validateDisjoint ((SpanGroup.sortSpans g.spans).map fun s => (s.start, s.stop)) with
    | error _ => simp only [h1] at e; cases e
    | ok _ =>
      simp only [h1] at e
      cases h2 : SpanGroup.validateContiguousness (SpanGroup.sortSpans g.spans) with
      | error _ => simp only [h2] at e; cases e
      | ok _ => simp only [h2] at e; cases e; rfl
  · cases e; rfl

/-- **C95** computing the spans of tokens never warns. -/
theorem C95_genSpanGroup (s : Str) (tokens : List Str) :
    Issues (genSpanGroupW s tokens) .user 0 (Str2Lst.genSpanGroup s tokens) := by
  have e : genSpanGroupW s tokens = lift (Str2Lst.genSpanGroup s tokens) := by
    unfold genSpanGroupW Str2Lst.genSpanGroup
    split
    · rfl
    · cases Str2Lst.genSpanLoop s tokens 0 SpanGroup.empty with
      | error _ => rfl
      | ok g =>
        rw [lift_bind_ok]
        show _ = lift (g.done >>= fun g => if g.spans.length = tokens.length then .ok g else .error .assertionError)
        cases hg : g.done with
        | error _ => rfl
        | ok g' =>
          rw [lift_bind_ok, sg_lenW_done g' (sg_done_isDone g g' hg)]
          simp only [pure_bind_eq]
          show _ = lift (if g'.spans.length = tokens.length then .ok g' else .error .assertionError)
          split <;> rfl
  rw [e]
  exact issues_lift _ _

/-- **C95** `pipe.add` issues one DeprecationWarning, whatever its arguments, and then does what it does; with deprecation warnings
turned into exceptions it raises the warning, whatever its arguments, and leaves the pipe as it is. -/
theorem C95_add (p : Pipe) (f : Factory) (name : Str) (kwargs : Option (List (Str × PyVal))) (checkpoint : Option Str)
    (policy : Category → Bool) :
    (policy .deprecation = true →
      p.addW f name kwargs checkpoint policy = (p, [], .error (.warning .deprecation))) ∧
    (policy .deprecation = false →
      (p.addW f name kwargs checkpoint policy).1 = (p.add f name kwargs checkpoint).1 ∧
      (p.addW f name kwargs checkpoint policy).2.1 = [.deprecation] ∧
      (p.addW f name kwargs checkpoint policy).2.2 =
        match (p.add f name kwargs checkpoint).2 with
        | .ok _ => .ok ()
        | .error e => .error (.exc e)) := by
  refine ⟨fun h => ?_, fun h => ?_⟩
  · simp [Pipe.addW, warn, h]
  · simp only [Pipe.addW, warn, h]
    refine ⟨rfl, rfl, ?_⟩
    cases (p.add f name kwargs checkpoint).2 <;> rfl

/-- Building a pipe by `add` warns once per step done. -/
theorem Warnings.build_issues (f : Factory) (q : Pipe) : ∀ (steps : List (String × List (Str × PyVal))) (p : Pipe),
    Bert.build f steps p = .ok q → Issues (Bert.buildW f steps p) .deprecation steps.length (.ok q)
  | [], p, h => by cases h; exact issues_pure _ _
  | (name, kw) :: rest, p, h => by
    have hp : ∃ p', p.add f name.toList (some kw) none = (p', .ok ()) ∧ Bert.build f rest p' = .ok q := by
      unfold Bert.build at h
      rcases ha : p.add f name.toList (some kw) none with ⟨p', _ | _⟩
      · rw [ha] at h; cases h
      · rw [ha] at h; exact ⟨p', rfl, h⟩
    obtain ⟨p', ha, hb⟩ := hp
    have ih := Warnings.build_issues f q rest p' hb
    have h1 : Issues (⟨fun policy => ((p.addW f name.toList (some kw) none policy).2.1,
        (p.addW f name.toList (some kw) none policy).2.2.map
          fun _ => (p.addW f name.toList (some kw) none policy).1)⟩ : Warned Pipe) .deprecation 1 (.ok p') := by
      refine ⟨fun pol hpol => ?_, fun pol hpol _ => ?_, fun _ _ h => absurd h (by omega)⟩
      · obtain ⟨e1, e2, e3⟩ := (C95_add p f name.toList (some kw) none pol).2 hpol
        rw [ha] at e1 e3
        simp only
        rw [e1, e2, e3]; rfl
      · simp only
        rw [(C95_add p f name.toList (some kw) none pol).1 hpol]; rfl
    have := issues_bind h1 ih
    rw [Nat.add_comm] at this
    exact this

/-- **C95** importing the three BERT pipes issues 7, 8 and 2 DeprecationWarnings; with these turned into exceptions the import raises
the first one. -/
theorem C95_bert (env : Env) :
    (∃ p, Bert.basicPipe (Builtin.registryDefault env) = .ok p ∧
      Issues (Bert.buildW (Builtin.registryDefault env) Bert.basicSteps Pipe.empty) .deprecation 7 (.ok p)) ∧
    (∃ p, Bert.fullPipe (Builtin.registryDefault env) = .ok p ∧
      Issues (Bert.buildW (Builtin.registryDefault env) (Bert.basicSteps ++ [Bert.subwordStep Bert.fullVocab]) Pipe.empty)
        .deprecation 8 (.ok p)) ∧
    (∃ p, Bert.wordPiecePipe (Builtin.registryDefault env) = .ok p ∧
      Issues (Bert.buildW (Builtin.registryDefault env)
        [("WhiteSpaceTokenizer", []), Bert.subwordStep Bert.wordPieceVocab] Pipe.empty) .deprecation 2 (.ok p)) :=
  ⟨⟨_, basicPipe_eq env, Warnings.build_issues _ _ _ _ (basicPipe_eq env)⟩,
   ⟨_, fullPipe_eq env, Warnings.build_issues _ _ _ _ (fullPipe_eq env)⟩,
   ⟨_, wordPiecePipe_eq env, Warnings.build_issues _ _ _ _ (wordPiecePipe_eq env)⟩⟩

/-- **C95** on groups on which `done` has succeeded nothing warns, even with every warning turned into an exception. -/
theorem C95_finished {β : Type} [DecidableEq β] [NewValue (List β)] (σ : SetOrder) (g h : ReplacementGroup (List β))
    (sg sh : SpanGroup) (hg : g.done σ = .ok h) (hs : sg.done = .ok sh) (s : List β) (ls : List Int) (f : Transducer)
    (ts : List Str) (p : Category → Bool) :
    (h.lenW.run p).1 = [] ∧ (h.lenW.run p).2 = .ok h.reps.length ∧
    (editApplyW s h).run p = ([], ofRes (Lst2Lst.apply s h)) ∧
    (editInverseW σ s h).run p = ([], ofRes (editInverse σ s h)) ∧
    (reduceW ls sh f).run p = ([], ofRes (reduceBySpanGroup ls sh f)) ∧
    (expandW ls sh).run p = ([], ofRes (expandBySpanGroup ls sh)) ∧
    (joinW ts sh).run p = ([], ofRes (Lst2Str.apply ts sh)) := by
  have hd := done_isDone σ g h hg
  have hsd := sg_done_isDone sg sh hs
  have key : ∀ {α : Type} (m : Warned α) (r : Res α), Issues m .user 0 r → m.run p = ([], ofRes r) := by
    intro α m r hi
    cases hp : p .user with
    | true => rw [hi.2.2 p hp rfl]; cases r <;> rfl
    | false => rw [hi.1 p hp]; cases r <;> rfl
  have h1 := rg_len h
  have h2 := (C95_apply s h).1
  have h3 := (C95_inverse σ s h).1
  have h4 := (C95_reduce ls sh f).1
  have h5 := (C95_expand ls sh).1
  have h6 := (C95_join ts sh).1
  rw [hd] at h1 h2 h3
  rw [hsd] at h4 h5 h6
  refine ⟨?_, ?_, key _ _ h2, key _ _ h3, key _ _ h4, key _ _ h5, key _ _ h6⟩ <;> rw [key _ _ h1] <;> rfl

/-- An unfinished group of one replacement: `len` gives 1 with a warning, `apply` warns and raises. -/
example : let g : ReplacementGroup Str := ReplacementGroup.empty.add 0 1 ['x']
    g.lenW.run (fun _ => false) = ([.user], .ok 1) ∧ g.lenW.run (fun _ => true) = ([], .error (.warning .user)) ∧
    (editApplyW ['a'] g).run (fun _ => false) = ([.user], .error (.exc .runtimeError)) := ⟨rfl, rfl, rfl⟩

/-- Two unfinished groups compared: two warnings and RuntimeError; an unfinished one with a finished one: one warning and an
answer. -/
example : let g : ReplacementGroup Str := ReplacementGroup.empty.add 0 1 ['x']
    (g.eqW (some g)).run (fun _ => false) = ([.user, .user], .error (.exc .runtimeError)) ∧
    (g.eqW (some ⟨g.reps, true⟩)).run (fun _ => false) = ([.user], .ok true) := ⟨rfl, rfl⟩

/-- `inverse` of an unfinished group warns twice. -/
example (σ : SetOrder) : let g : ReplacementGroup Str := ReplacementGroup.empty.add 0 1 ['x']
    (editInverseW σ ['a'] g).run (fun _ => false) = ([.user, .user], .error (.exc .runtimeError)) := rfl

/-- `done` succeeds on a group of spans that tile the text. -/
example : (SpanGroup.empty.add 0 2).done = .ok ⟨[⟨0, 2⟩], true⟩ ∧
    (expandW [7] ⟨[⟨0, 2⟩], true⟩).run (fun _ => true) = ([], .ok [7, 7]) := ⟨rfl, rfl⟩

end Uttut
