import Verif.Spec.Annotated
import Verif.Props.History

/-!
C96: annotations of replacements.
-/

namespace Uttut
open Spec

namespace NotedGroup
variable {V A : Type}

/-- The group without annotations. -/
def erase (g : NotedGroup V A) : ReplacementGroup V := ⟨g.items.map Noted.rep, g.isDone⟩

theorem insertByKey_map {α β : Type} (f : α → β) (key : β → Int) (x : α) (l : List α) :
    (insertByKey (fun y => key (f y)) x l).map f = insertByKey key (f x) (l.map f) := by
  induction l with
  | nil => rfl
  | cons y ys ih =>
    simp only [insertByKey, List.map_cons]
    split
    · rfl
    · rw [List.map_cons, ih]

theorem pySorted_map {α β : Type} (f : α → β) (key : β → Int) (l : List α) :
    (pySorted (fun y => key (f y)) l).map f = pySorted key (l.map f) := by
  induction l with
  | nil => rfl
  | cons x xs ih => rw [pySorted, insertByKey_map, ih]; rfl

theorem sort_erase (l : List (Noted V A)) : (sort l).map Noted.rep = ReplacementGroup.sortReps (l.map Noted.rep) := by
  unfold sort ReplacementGroup.sortReps
  rw [pySorted_map Noted.rep (fun r : Rep V => (r.start : Int)), pySorted_map Noted.rep (fun r : Rep V => (r.stop : Int))]

theorem find_rep [DecidableEq V] (l : List (Noted V A)) (r : Rep V) (h : r ∈ l.map Noted.rep) :
    ∃ x, l.find? (fun x => x.rep = r) = some x ∧ x.rep = r := by
  obtain ⟨y, hy, rfl⟩ := List.mem_map.mp h
  cases hf : l.find? (fun x => x.rep = y.rep) with
  | none => exact absurd (List.find?_eq_none.mp hf y hy) (by simp)
  | some x => exact ⟨x, rfl, by simpa using List.find?_some hf⟩

theorem pick_erase [DecidableEq V] (l : List (Noted V A)) (rs : List (Rep V)) (h : ∀ r ∈ rs, r ∈ l.map Noted.rep) :
    (rs.filterMap fun r => l.find? fun x => x.rep = r).map Noted.rep = rs := by
  induction rs with
  | nil => rfl
  | cons r rs ih =>
    obtain ⟨x, hx, hr⟩ := find_rep l r (h r (by simp))
    rw [List.filterMap_cons, hx]
    simp only [List.map_cons, hr]
    rw [ih fun q hq => h q (by simp [hq])]

theorem setOf_erase [DecidableEq V] (σ : SetOrder) (l : List (Noted V A)) :
    (setOf σ l).map Noted.rep = σ.listSet (l.map Noted.rep) :=
  pick_erase l _ fun _ hr => mem_listSet.mp hr

theorem add_erase (g : NotedGroup V A) (start stop : Int) (v : V) (a : A) :
    (g.add start stop v a).map erase = g.erase.addPy start stop v := by
  unfold add ReplacementGroup.addPy ReplacementGroup.add erase
  cases h1 : toUInt start with
  | error _ => rfl
  | ok s =>
    cases h2 : toUInt stop with
    | error _ => rfl
    | ok e =>
      show Except.map _ (match Rep.new s e v with | .ok r => _ | .error _ => _) =
        Except.ok (match Rep.new s e v with | .ok r => _ | .error _ => _)
      cases Rep.new s e v with
      | error _ => rfl
      | ok r => simp [Except.map, pure, Except.pure]

theorem call_erase [DecidableEq V] [NewValue V] (g : NotedGroup V A) (c : NotedCall V A) :
    ((g.call c).1.erase, (g.call c).2) = g.erase.call (bare c) := by
  cases c with
  | add start stop v a =>
    have h := add_erase g start stop v a
    show (((match g.add start stop v a with | .ok g' => (g', none) | .error e => (g, some e)) :
        NotedGroup V A × Option Exc).1.erase, _) = (match g.erase.addPy start stop v with
        | .ok g' => (g', none) | .error e => (g.erase, some e))
    rw [← h]
    show (_, ((match g.add start stop v a with | .ok g' => (g', none) | .error e => (g, some e)) :
        NotedGroup V A × Option Exc).2) = _
    cases g.add start stop v a <;> rfl
  | done σ skip =>
    have h1 := setOf_erase σ g.items
    have h2 := sort_erase (setOf σ g.items)
    have hl : (setOf σ g.items).length = (σ.listSet (g.items.map Noted.rep)).length := by rw [← h1, List.length_map]
    have h3 : (sort (setOf σ g.items)).map (fun x => (x.rep.start, x.rep.stop)) =
        (ReplacementGroup.sortReps (σ.listSet (g.items.map Noted.rep))).map fun r => (r.start, r.stop) := by
      rw [← h1, ← h2, List.map_map]; rfl
    unfold call bare ReplacementGroup.call erase
    dsimp only
    rw [hl, h1, h3]
    by_cases hc : (σ.listSet (g.items.map Noted.rep)).length ≠ 0 ∧ skip = false
    · rw [if_pos hc, if_pos hc]
      cases ReplacementGroup.validateNewValues (σ.listSet (g.items.map Noted.rep)) with
      | error e => simp only [h1]
      | ok _ =>
        simp only
        cases ReplacementGroup.validateDisjoint
            ((ReplacementGroup.sortReps (σ.listSet (g.items.map Noted.rep))).map fun r => (r.start, r.stop)) with
        | error e => simp only [h2, h1]
        | ok _ => simp only [h2, h1]
    · rw [if_neg hc, if_neg hc]
      simp only [h1]

theorem after_erase [DecidableEq V] [NewValue V] (calls : List (NotedCall V A)) (g : NotedGroup V A) :
    (g.after calls).erase = g.erase.after (calls.map bare) := by
  induction calls generalizing g with
  | nil => rfl
  | cons c cs ih =>
    show ((g.call c).1.after cs).erase = (g.erase.call (bare c)).1.after (cs.map bare)
    rw [ih, ← call_erase]

/-- The first item with the replacement. -/
def first [DecidableEq V] (l : List (Noted V A)) (r : Rep V) : Option (Noted V A) := l.find? fun x => x.rep = r

theorem first_of_nodup [DecidableEq V] (l : List (Noted V A)) (hn : (l.map Noted.rep).Nodup) (x : Noted V A) (hx : x ∈ l) :
    first l x.rep = some x := by
  induction l with
  | nil => cases hx
  | cons y ys ih =>
    rw [List.map_cons, List.nodup_cons] at hn
    unfold first
    rw [List.find?_cons]
    rcases List.mem_cons.mp hx with rfl | hx
    · simp
    · have : y.rep ≠ x.rep := fun e => hn.1 (e ▸ List.mem_map_of_mem hx)
      simp only [this, decide_false]
      exact ih hn.2 hx

theorem first_none [DecidableEq V] (l : List (Noted V A)) (r : Rep V) (h : r ∉ l.map Noted.rep) : first l r = none := by
  unfold first
  rw [List.find?_eq_none]
  intro x hx e
  exact h (List.mem_map.mpr ⟨x, hx, by simpa using e⟩)

theorem setOf_mem [DecidableEq V] (σ : SetOrder) (l : List (Noted V A)) (x : Noted V A) (h : x ∈ setOf σ l) :
    first l x.rep = some x := by
  obtain ⟨r, _, hr⟩ := List.mem_filterMap.mp h
  have : x.rep = r := by simpa using List.find?_some hr
  rw [this]; exact hr

/-- A list with each replacement once, each as the first one of `l`. -/
theorem first_eq [DecidableEq V] (l l' : List (Noted V A)) (hn : (l'.map Noted.rep).Nodup)
    (hm : ∀ r, r ∈ l'.map Noted.rep ↔ r ∈ l.map Noted.rep) (hf : ∀ x ∈ l', first l x.rep = some x) (r : Rep V) :
    first l' r = first l r := by
  by_cases h : r ∈ l'.map Noted.rep
  · obtain ⟨x, hx, rfl⟩ := List.mem_map.mp h
    rw [first_of_nodup l' hn x hx, hf x hx]
  · rw [first_none l' r h, first_none l r fun h' => h ((hm r).mpr h')]

theorem sort_mem (l : List (Noted V A)) (x : Noted V A) : x ∈ sort l ↔ x ∈ l :=
  mem_pySorted.trans mem_pySorted

theorem done_items [DecidableEq V] [NewValue V] (g : NotedGroup V A) (σ : SetOrder) (skip : Bool) :
    (g.call (.done σ skip)).1.items = setOf σ g.items ∨ (g.call (.done σ skip)).1.items = sort (setOf σ g.items) := by
  unfold call
  dsimp only
  split
  · split
    · exact .inl rfl
    · split
      · exact .inr rfl
      · exact .inr rfl
  · exact .inl rfl

theorem setOf_nodup [DecidableEq V] (σ : SetOrder) (l : List (Noted V A)) : ((setOf σ l).map Noted.rep).Nodup := by
  rw [setOf_erase]; exact nodup_listSet σ _

theorem done_nodup [DecidableEq V] [NewValue V] (g : NotedGroup V A) (σ : SetOrder) (skip : Bool) :
    ((g.call (.done σ skip)).1.items.map Noted.rep).Nodup := by
  rcases done_items g σ skip with h | h <;> rw [h]
  · exact setOf_nodup σ _
  · rw [sort_erase]
    exact (ReplacementGroup.sortReps_perm _).nodup_iff.mpr (setOf_nodup σ _)

theorem done_first [DecidableEq V] [NewValue V] (g : NotedGroup V A) (σ : SetOrder) (skip : Bool) (r : Rep V) :
    first (g.call (.done σ skip)).1.items r = first g.items r := by
  refine first_eq _ _ (done_nodup g σ skip) (fun q => ?_) (fun x hx => ?_) r
  · have := call_done_mem g.erase σ skip q
    rw [show GroupCall.done σ skip = bare (.done σ skip : NotedCall V A) from rfl, ← call_erase] at this
    exact this
  · rcases done_items g σ skip with h | h <;> rw [h] at hx
    · exact setOf_mem σ _ x hx
    · exact setOf_mem σ _ x ((sort_mem _ x).mp hx)

/-- What a call adds. -/
def addedNote : NotedCall V A → List (Noted V A)
  | .add start stop v a => if GoodBounds start stop then [⟨⟨start.toNat, stop.toNat, v⟩, a⟩] else []
  | .done _ _ => []

theorem addedNote_rep (c : NotedCall V A) : (addedNote c).map Noted.rep = addedBy (bare c) := by
  cases c with
  | add start stop v a => by_cases h : GoodBounds start stop <;> simp [addedNote, bare, addedBy, h]
  | done _ _ => rfl

theorem add_cases (g : NotedGroup V A) (s e : Int) (v : V) (a : A) :
    ((BadBound s ∨ BadBound e) ∧ g.add s e v a = .error .overflowError) ∨
    (¬ BadBound s ∧ ¬ BadBound e ∧ g.add s e v a = .ok ⟨g.items ++ addedNote (.add s e v a), g.isDone⟩) := by
  unfold add toUInt BadBound uintBound
  by_cases hs : 0 ≤ s ∧ s < ((2 ^ 32 : Nat) : Int)
  · rw [if_pos hs]
    by_cases he : 0 ≤ e ∧ e < ((2 ^ 32 : Nat) : Int)
    · rw [if_pos he]
      refine Or.inr ⟨by omega, by omega, ?_⟩
      show (match Rep.new s.toNat e.toNat v with
        | .ok r => (Except.ok (NotedGroup.mk (g.items ++ [Noted.mk r a]) g.isDone) : Res (NotedGroup V A)) | .error _ => Except.ok g) = _
      unfold Rep.new validateStartEnd
      by_cases hle : s.toNat > e.toNat
      · have : ¬ GoodBounds s e := by unfold GoodBounds; omega
        rw [if_pos hle, addedNote, if_neg this, List.append_nil]
        rfl
      · have : GoodBounds s e := by unfold GoodBounds; omega
        rw [if_neg hle, addedNote, if_pos this]
        rfl
    · rw [if_neg he]
      exact Or.inl ⟨by omega, rfl⟩
  · rw [if_neg hs]
    exact Or.inl ⟨by omega, rfl⟩

theorem add_items [DecidableEq V] [NewValue V] (g : NotedGroup V A) (start stop : Int) (v : V) (a : A) :
    (g.call (.add start stop v a)).1.items = g.items ++ addedNote (.add start stop v a) := by
  unfold call
  rcases add_cases g start stop v a with ⟨hb, h⟩ | ⟨_, _, h⟩
  · have : ¬ GoodBounds start stop := by
      unfold GoodBounds BadBound at *
      omega
    simp only [h, addedNote, if_neg this, List.append_nil]
  · simp only [h]

theorem first_append [DecidableEq V] (l m : List (Noted V A)) (r : Rep V) :
    first (l ++ m) r = (first l r).or (first m r) := List.find?_append

theorem after_first [DecidableEq V] [NewValue V] (calls : List (NotedCall V A)) (g : NotedGroup V A) (r : Rep V) :
    first (g.after calls).items r = first (g.items ++ calls.flatMap addedNote) r := by
  induction calls generalizing g with
  | nil => simp [after]
  | cons c cs ih =>
    show first ((g.call c).1.after cs).items r = _
    rw [ih, first_append, List.flatMap_cons, ← List.append_assoc, first_append]
    congr 1
    cases c with
    | add start stop v a => rw [add_items]
    | done σ skip => rw [done_first]; simp [addedNote]

/-- The first item added for `r` is the one of the first call that adds it. -/
theorem firstNote_of_first [DecidableEq V] (calls : List (NotedCall V A)) (r : Rep V) (x : Noted V A)
    (h : first (calls.flatMap addedNote) r = some x) : FirstNote calls r x.note := by
  induction calls with
  | nil => cases h
  | cons c cs ih =>
    rw [List.flatMap_cons, first_append] at h
    cases hc : first (addedNote c) r with
    | some y =>
      rw [hc, Option.some_or, Option.some.injEq] at h
      subst h
      have hr : y.rep = r := by simpa using List.find?_some hc
      have hy := List.mem_of_find?_eq_some hc
      cases c with
      | done _ _ => cases hy
      | add start stop v a =>
        by_cases hg : GoodBounds start stop
        · rw [addedNote, if_pos hg] at hy
          rw [List.mem_singleton] at hy
          subst hy
          subst hr
          unfold GoodBounds at hg
          exact ⟨[], start, stop, cs, rfl, hg, by simp only; omega, by simp only; omega, by simp [added]⟩
        · rw [addedNote, if_neg hg] at hy
          cases hy
    | none =>
      rw [hc, Option.none_or] at h
      obtain ⟨pre, start, stop, post, rfl, hg, hs, he, hn⟩ := ih h
      refine ⟨c :: pre, start, stop, post, rfl, hg, hs, he, ?_⟩
      simp only [List.map_cons, added, List.flatMap_cons, List.mem_append, not_or]
      refine ⟨fun hm => ?_, hn⟩
      rw [← addedNote_rep] at hm
      obtain ⟨y, hy, e⟩ := List.mem_map.mp hm
      exact absurd (List.find?_eq_none.mp hc y hy) (by simp [e])

theorem first_of_firstNote [DecidableEq V] (calls : List (NotedCall V A)) (r : Rep V) (a : A) (h : FirstNote calls r a) :
    first (calls.flatMap addedNote) r = some ⟨r, a⟩ := by
  obtain ⟨pre, start, stop, post, rfl, hg, hs, he, hn⟩ := h
  rw [List.flatMap_append, first_append, List.flatMap_cons, first_append]
  have h1 : first (pre.flatMap addedNote) r = none := by
    refine first_none _ _ fun hm => hn ?_
    have : (pre.flatMap addedNote).map Noted.rep = added (pre.map bare) := by
      unfold added
      rw [List.map_flatMap, List.flatMap_map]
      congr 1
      funext c
      exact addedNote_rep c
    rw [← this]; exact hm
  have h2 : first (addedNote (.add start stop r.val a)) r = some ⟨r, a⟩ := by
    have e : (⟨start.toNat, stop.toNat, r.val⟩ : Rep V) = r := by
      subst hs; subst he; rfl
    rw [addedNote, if_pos hg, e]
    simp [first]
  rw [h1, h2]
  rfl

theorem firstNote_iff [DecidableEq V] (calls : List (NotedCall V A)) (r : Rep V) (a : A) :
    FirstNote calls r a ↔ (first (calls.flatMap addedNote) r).map Noted.note = some a := by
  constructor
  · intro h; rw [first_of_firstNote calls r a h]; rfl
  · intro h
    cases hf : first (calls.flatMap addedNote) r with
    | none => rw [hf] at h; cases h
    | some x =>
      rw [hf] at h
      have := firstNote_of_first calls r x hf
      rwa [Option.some.inj h] at this

end NotedGroup

open NotedGroup
variable {V A : Type} [DecidableEq V] [NewValue V]

/-- **C96** annotations change nothing else: after any calls the group holds the same replacements in the same order, is finished or
not, and raises the same exceptions, as one to which they were added without annotations. -/
theorem C96_same (calls : List (NotedCall V A)) :
    ((NotedGroup.empty.after calls).items.map Noted.rep = (ReplacementGroup.empty.after (calls.map bare)).reps) ∧
    ((NotedGroup.empty.after calls).isDone = (ReplacementGroup.empty.after (calls.map bare)).isDone) ∧
    ∀ c, ((NotedGroup.empty.after calls).call c).2 = ((ReplacementGroup.empty.after (calls.map bare)).call (bare c)).2 := by
  have h := after_erase calls (NotedGroup.empty : NotedGroup V A)
  have h0 : (NotedGroup.empty : NotedGroup V A).erase = ReplacementGroup.empty := rfl
  rw [h0] at h
  refine ⟨congrArg ReplacementGroup.reps h, congrArg ReplacementGroup.isDone h, fun c => ?_⟩
  rw [← h, ← call_erase]

/-- **C96** after `done`, successful or not, every replacement is there once, and its annotation is the one it was given when it was
first added. -/
theorem C96_first (calls : List (NotedCall V A)) (σ : SetOrder) (skip : Bool) :
    ((NotedGroup.empty.after (calls ++ [.done σ skip])).items.map Noted.rep).Nodup ∧
    ∀ x ∈ (NotedGroup.empty.after (calls ++ [.done σ skip])).items, ∀ a, FirstNote calls x.rep a ↔ x.note = a := by
  have e : (NotedGroup.empty : NotedGroup V A).after (calls ++ [.done σ skip]) =
      ((NotedGroup.empty.after calls).call (.done σ skip)).1 := by
    unfold after; rw [List.foldl_append]; rfl
  rw [e]
  have hn := done_nodup ((NotedGroup.empty : NotedGroup V A).after calls) σ skip
  refine ⟨hn, fun x hx a => ?_⟩
  have h1 := first_of_nodup _ hn x hx
  rw [done_first, after_first] at h1
  have h2 : first (calls.flatMap addedNote) x.rep = some x := h1
  rw [firstNote_iff, h2]
  simp

/-- **C96** reading an annotation from a finished group to which nothing was added since `done`. -/
theorem C96_read (calls : List (NotedCall V A)) (σ : SetOrder) (skip : Bool) (i : Nat)
    (hd : (NotedGroup.empty.after (calls ++ [.done σ skip])).isDone = true) (a : A) :
    (NotedGroup.empty.after (calls ++ [.done σ skip])).noteAt i = .ok a ↔
      ∃ r, (ReplacementGroup.empty.after (calls.map bare ++ [.done σ skip])).reps[i]? = some r ∧ FirstNote calls r a := by
  have h1 := (C96_same (calls ++ [NotedCall.done σ skip])).1
  have h2 := (C96_first calls σ skip).2
  have h3 : calls.map bare ++ [.done σ skip] = (calls ++ [NotedCall.done σ skip]).map bare := by simp [bare]
  rw [h3, ← h1, List.getElem?_map]
  unfold noteAt
  rw [if_pos hd]
  cases hx : (NotedGroup.empty.after (calls ++ [.done σ skip])).items[i]? with
  | none => simp
  | some x =>
    have := h2 x (List.mem_of_getElem? hx) a
    simp only [Option.map_some, Option.some.injEq, exists_eq_left']
    rw [this]
    simp

namespace NotedGroup

omit [DecidableEq V] [NewValue V] in
theorem addTuples_other (default : A) (n : Nat) (pre post : List (RepTuple V A)) (g : NotedGroup V A)
    (hp : ∀ t ∈ pre, (bareTuple t).isSome) :
    ((∃ t ∈ pre, badTuple t) → addTuples default (pre ++ .other n :: post) g = .error .overflowError) ∧
    ((¬ ∃ t ∈ pre, badTuple t) → addTuples default (pre ++ .other n :: post) g = .error .typeError) := by
  induction pre generalizing g with
  | nil => exact ⟨(by rintro ⟨_, h, _⟩; cases h), fun _ => rfl⟩
  | cons t ts ih =>
    have hp' : ∀ t ∈ ts, (bareTuple t).isSome := fun q hq => hp q (by simp [hq])
    have key : ∀ (s e : Int) (v : V) (a : A), (badTuple t ↔ BadBound s ∨ BadBound e) →
        addTuples default (t :: ts ++ .other n :: post) g =
          (g.add s e v a >>= fun g => addTuples default (ts ++ .other n :: post) g) →
        ((∃ q ∈ t :: ts, badTuple q) → addTuples default (t :: ts ++ .other n :: post) g = .error .overflowError) ∧
        ((¬ ∃ q ∈ t :: ts, badTuple q) → addTuples default (t :: ts ++ .other n :: post) g = .error .typeError) := by
      intro s e v a hb he
      rw [he]
      rcases add_cases g s e v a with ⟨h, h'⟩ | ⟨h, h'', h'⟩ <;> rw [h']
      · exact ⟨fun _ => rfl, fun hn => absurd ⟨t, by simp, hb.mpr h⟩ hn⟩
      · have hb' : ¬ badTuple t := fun q => (hb.mp q).elim h h''
        refine ⟨fun ⟨q, hq, hqb⟩ => (ih _ hp').1 ?_, fun hn => (ih _ hp').2 ?_⟩
        · rcases List.mem_cons.mp hq with rfl | hq
          · exact absurd hqb hb'
          · exact ⟨q, hq, hqb⟩
        · rintro ⟨q, hq, hqb⟩
          exact hn ⟨q, by simp [hq], hqb⟩
    cases t with
    | three s e v => exact key s e v default Iff.rfl rfl
    | four s e v a => exact key s e v a Iff.rfl rfl
    | other m => exact absurd (hp (.other m) (by simp)) (by simp [bareTuple])

theorem addTuples_calls (default : A) (ts : List (RepTuple V A)) (bs : List (Int × Int × V))
    (h : ts.mapM bareTuple = some bs) (g : NotedGroup V A) :
    (addTuples default ts g).map erase =
      bs.foldlM (fun g (r : Int × Int × V) => g.addPy r.1 r.2.1 r.2.2) g.erase ∧
    ∀ g', addTuples default ts g = .ok g' → g' = g.after (ts.filterMap (tupleCall default)) := by
  induction ts generalizing g bs with
  | nil =>
    cases h
    exact ⟨rfl, fun g' h' => by cases h'; rfl⟩
  | cons t ts ih =>
    rw [List.mapM_cons] at h
    have key : ∀ (s e : Int) (v : V) (a : A), bareTuple t = some (s, e, v) →
        tupleCall default t = some (.add s e v a) →
        addTuples default (t :: ts) g = (g.add s e v a >>= fun g => addTuples default ts g) →
        (addTuples default (t :: ts) g).map erase =
          bs.foldlM (fun g (r : Int × Int × V) => g.addPy r.1 r.2.1 r.2.2) g.erase ∧
        ∀ g', addTuples default (t :: ts) g = .ok g' → g' = g.after ((t :: ts).filterMap (tupleCall default)) := by
      intro s e v a hb hc he
      rw [hb] at h
      cases hts : ts.mapM bareTuple with
      | none => rw [hts] at h; cases h
      | some bs' =>
        rw [hts] at h
        have hbs : bs = (s, e, v) :: bs' := (Option.some.inj h).symm
        subst hbs
        have hadd := add_erase g s e v a
        rw [List.foldlM_cons, he, ← hadd, List.filterMap_cons, hc]
        cases hg : g.add s e v a with
        | error x => exact ⟨rfl, fun g' h' => by cases h'⟩
        | ok g1 =>
          have hcall : (g.call (.add s e v a)).1 = g1 := by simp only [call, hg]
          obtain ⟨i1, i2⟩ := ih bs' hts g1
          refine ⟨i1, fun g' h' => ?_⟩
          show g' = (g.call (.add s e v a)).1.after _
          rw [hcall]
          exact i2 g' h'
    cases t with
    | three s e v => exact key s e v default rfl rfl rfl
    | four s e v a => exact key s e v a rfl rfl rfl
    | other m => exact absurd h (by simp [bareTuple])

theorem call_done_erase (g : NotedGroup V A) (σ : SetOrder) :
    ((match g.call (.done σ false) with | (g', none) => .ok g' | (_, some e) => .error e) : Res (NotedGroup V A)).map erase =
      g.erase.done σ := by
  have h := call_erase g (.done σ false)
  rcases call_done g.erase σ false with ⟨g', h1, h2⟩ | ⟨e, reps, h1, h2⟩
  · rw [h1]
    rw [show bare (.done σ false : NotedCall V A) = .done σ false from rfl, h2] at h
    rcases hc : g.call (.done σ false) with ⟨q, o⟩
    rw [hc] at h
    obtain ⟨ha, hb⟩ := Prod.mk.inj h
    simp only at ha hb
    subst hb
    rw [← ha]; rfl
  · rw [h1]
    rw [show bare (.done σ false : NotedCall V A) = .done σ false from rfl, h2] at h
    rcases hc : g.call (.done σ false) with ⟨q, o⟩
    rw [hc] at h
    obtain ⟨ha, hb⟩ := Prod.mk.inj h
    simp only at ha hb
    subst hb
    rfl

end NotedGroup

/-- **C96** a group that is not finished raises RuntimeError when it is read, and a finished one raises IndexError
beyond its last replacement. -/
theorem C96_read_fail (calls : List (NotedCall V A)) (i : Nat) :
    ((ReplacementGroup.empty.after (calls.map bare)).isDone = false →
      (NotedGroup.empty.after calls).noteAt i = .error .runtimeError) ∧
    ((ReplacementGroup.empty.after (calls.map bare)).isDone = true →
      (ReplacementGroup.empty.after (calls.map bare)).reps.length ≤ i →
      (NotedGroup.empty.after calls).noteAt i = .error .indexError) := by
  obtain ⟨h1, h2, _⟩ := C96_same calls
  unfold noteAt
  constructor
  · intro h
    rw [if_neg (by rw [h2, h]; decide)]
  · intro h hi
    rw [if_pos (by rw [h2, h])]
    rw [← h1, List.length_map] at hi
    rw [List.getElem?_eq_none hi]

/-- **C96** `add_all` of tuples with and without annotations accepts and refuses what it does without them, and the annotation is that
of the first of equal tuples (the default if it has none); a tuple of another length raises TypeError, unless a tuple before it has a
bound that is refused. -/
theorem C96_addAll (default : A) (σ : SetOrder) (ts : List (RepTuple V A)) :
    (∀ bs, ts.mapM bareTuple = some bs →
      ((∀ e, NotedGroup.addAll default σ ts = .error e ↔ ReplacementGroup.addAll σ bs = .error e) ∧
      ∀ g, NotedGroup.addAll default σ ts = .ok g →
        ReplacementGroup.addAll σ bs = .ok ⟨g.items.map Noted.rep, g.isDone⟩ ∧
        ∀ x ∈ g.items, FirstNote (ts.filterMap (tupleCall default)) x.rep x.note)) ∧
    (∀ pre n post, ts = pre ++ .other n :: post → (∀ t ∈ pre, (bareTuple t).isSome) →
      ((∃ t ∈ pre, badTuple t) → NotedGroup.addAll default σ ts = .error .overflowError) ∧
      ((¬ ∃ t ∈ pre, badTuple t) → NotedGroup.addAll default σ ts = .error .typeError)) := by
  refine ⟨fun bs hbs => ?_, fun pre n post e hp => ?_⟩
  · obtain ⟨h1, h2⟩ := addTuples_calls default ts bs hbs NotedGroup.empty
    have he : (NotedGroup.addAll default σ ts).map erase = ReplacementGroup.addAll σ bs := by
      unfold NotedGroup.addAll ReplacementGroup.addAll
      rw [show (ReplacementGroup.empty : ReplacementGroup V) = (NotedGroup.empty : NotedGroup V A).erase from rfl, ← h1]
      cases addTuples default ts NotedGroup.empty with
      | error e => rfl
      | ok g => exact call_done_erase g σ
    rw [← he]
    constructor
    · intro e
      cases NotedGroup.addAll default σ ts <;> simp [Except.map]
    · intro g hg
      refine ⟨by rw [hg]; rfl, fun x hx => ?_⟩
      unfold NotedGroup.addAll at hg
      cases ha : addTuples default ts NotedGroup.empty with
      | error e => rw [ha] at hg; cases hg
      | ok g1 =>
        rw [ha] at hg
        have hg1 := h2 g1 ha
        have hg' : (match g1.call (.done σ false) with
          | (g', none) => .ok g' | (_, some e) => .error e : Res (NotedGroup V A)) = .ok g := hg
        rcases hc : g1.call (.done σ false) with ⟨q, _ | e⟩
        · rw [hc] at hg'
          have hq : q = g := Except.ok.inj hg'
          subst hq
          have h3 := (C96_first (ts.filterMap (tupleCall default)) σ false).2 x
          have e2 : (NotedGroup.empty : NotedGroup V A).after (ts.filterMap (tupleCall default) ++ [.done σ false]) = q := by
            unfold after
            rw [List.foldl_append]
            show ((NotedGroup.empty.after (ts.filterMap (tupleCall default))).call (.done σ false)).1 = q
            rw [← hg1, hc]
          rw [e2] at h3
          exact (h3 hx x.note).mpr rfl
        · rw [hc] at hg'; cases hg'
  · subst e
    obtain ⟨h1, h2⟩ := addTuples_other default n pre post (NotedGroup.empty : NotedGroup V A) hp
    unfold NotedGroup.addAll
    exact ⟨fun h => by rw [h1 h]; rfl, fun h => by rw [h2 h]; rfl⟩

/-- Two equal replacements with different annotations: the first annotation is kept. -/
example : ((NotedGroup.empty : NotedGroup Str Nat).after
    [.add 2 3 "x".toList 7, .add 0 1 "y".toList 8, .add 2 3 "x".toList 9, .done SetOrder.rev false]).items =
    [⟨⟨0, 1, "y".toList⟩, 8⟩, ⟨⟨2, 3, "x".toList⟩, 7⟩] := by decide

example : FirstNote [.add 2 3 "x".toList 7, .add 0 1 "y".toList 8, .add 2 3 "x".toList (9 : Nat)] ⟨2, 3, "x".toList⟩ 7 :=
  ⟨[], 2, 3, _, rfl, by decide, rfl, rfl, (by rintro ⟨⟩)⟩

example : (NotedGroup.addAll (0 : Nat) SetOrder.id [.three 2 3 "x".toList, .four 0 1 "y".toList 8] =
    .ok ⟨[⟨⟨0, 1, "y".toList⟩, 8⟩, ⟨⟨2, 3, "x".toList⟩, 0⟩], true⟩) ∧
    (NotedGroup.addAll (0 : Nat) SetOrder.id [.three 2 3 "x".toList, .other 2] = .error .typeError) := by
  constructor <;> rfl

end Uttut
