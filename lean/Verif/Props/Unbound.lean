import Verif.Spec.Unbound
import Verif.Props.Objects

/-! C80: which commands raise NameError. -/

namespace Uttut.Objects

open Store

/-- The call does not raise NameError. -/
def Named {α : Type} (r : Res α) : Prop := r ≠ .error .nameError

theorem named_ok {α : Type} (a : α) : Named (.ok a : Res α) := fun h => by cases h

theorem named_bind {α β : Type} {r : Res α} {f : α → Res β} (h : Named r) (h' : ∀ a, Named (f a)) : Named (r >>= f) := by
  cases r with
  | ok a => exact h' a
  | error e => intro h2; injection h2 with h2; subst h2; exact h rfl

theorem named_error {α : Type} {e : Exc} (h : e ≠ .nameError) : Named (.error e : Res α) :=
  fun h' => by injection h' with h'; exact h h'

theorem named_mapM {α β : Type} (f : α → Res β) (h : ∀ a, Named (f a)) (l : List α) : Named (l.mapM f) := by
  induction l with
  | nil => exact named_ok _
  | cons x l ih =>
    rw [List.mapM_cons]
    exact named_bind (h x) fun _ => named_bind ih fun _ => named_ok _

theorem toInt32_named (i : Int) : Named (toInt32 i) := by
  unfold toInt32
  split
  · exact named_ok _
  · exact named_error (by decide)

theorem intent_named (i : Int) : Named (Intent.new i) := named_bind (toInt32_named i) fun _ => named_ok _

theorem entity_named (l : Int) (v : Str) (a b : Int) (r : Option (List Str)) : Named (Entity.new l v a b r) :=
  named_bind (toInt32_named _) fun _ => named_bind (toInt32_named _) fun _ => named_bind (toInt32_named _) fun _ => named_ok _

theorem checkPositions_named (u : Str) (es : List Entity) : Named (checkPositions u es) := by
  induction es with
  | nil => exact named_ok _
  | cons e es ih =>
    unfold checkPositions
    split
    · exact named_error (by decide)
    · exact ih

theorem checkOverlaps_named : ∀ es : List Entity, Named (checkOverlaps es)
  | [] => named_ok _
  | [_] => named_ok _
  | e :: f :: es => by
    unfold checkOverlaps
    split
    · exact named_error (by decide)
    · exact checkOverlaps_named (f :: es)

theorem datum_named (u : Str) (is : Option (List Intent)) (es : Option (List Entity)) : Named (Datum.new u is es) :=
  named_bind (checkPositions_named _ _) fun _ => named_bind (checkOverlaps_named _) fun _ => named_ok _

theorem build_named (s : Store) (u : Str) (is : List Intent) (es : List Entity) : Named (s.build u is es) := by
  rw [build_eq]
  have := datum_named u (some is) (some es)
  cases h : Datum.new u (some is) (some es) with
  | ok _ => exact named_ok _
  | error e => exact named_error fun he => this (by rw [h, he])

theorem kthLoop_named {α : Type} (ls : List (List α)) (k : Int) : Named (kthLoop ls k) := by
  induction ls generalizing k with
  | nil => exact named_ok _
  | cons l ls ih =>
    unfold kthLoop
    split
    · exact named_error (by decide)
    · split
      · exact named_error (by decide)
      · exact named_bind (ih _) fun _ => named_ok _

theorem aggregate_named (segs : List Str) (labels : List (Option Int)) (p : Int) :
    Named (aggregateEntities segs labels p) := by
  induction segs generalizing labels p with
  | nil => unfold aggregateEntities; exact named_ok _
  | cons seg segs ih =>
    cases labels with
    | nil => unfold aggregateEntities; exact named_ok _
    | cons l labels =>
      cases l with
      | none =>
        unfold aggregateEntities
        exact named_bind (toInt32_named _) fun _ => ih _ _
      | some l =>
        unfold aggregateEntities
        exact named_bind (entity_named _ _ _ _ _) fun _ => named_bind (toInt32_named _) fun _ => named_bind (ih _ _) fun _ => named_ok _

theorem expandLoop_named (d : Datum) (parts : List (List Str)) (labels : List (Option Int)) (s : Store) (idxs : List Int) :
    Named (Store.expandLoop d parts labels s idxs) := by
  induction idxs generalizing s with
  | nil => exact named_ok _
  | cons i idxs ih =>
    unfold Store.expandLoop
    refine named_bind (named_bind (toInt32_named _) fun _ => kthLoop_named _ _) fun _ => named_bind (aggregate_named _ _ _) fun _ =>
      named_bind ?_ fun _ => named_bind (build_named _ _ _ _) fun _ => named_bind (ih _) fun _ => named_ok _
    exact named_mapM _ (fun i => intent_named _) _

theorem compactLoop_named (labels : List Int) (n pos j : Nat) (l : List Nat) : Named (compactLoop labels n pos j l) := by
  induction n generalizing pos j l with
  | zero => exact named_ok _
  | succ n ih =>
    unfold compactLoop
    split
    · exact named_ok _
    · split
      · exact named_error (by decide)
      · split
        · exact ih _ _ _
        · exact ih _ _ _

theorem starts_named (labels : List Int) : Named (getMeaningfulStartIndices labels) := by
  refine named_bind ?_ fun _ => named_bind (compactLoop_named _ _ _ _ _) fun _ => named_ok _
  unfold getStartIndices
  split
  · exact named_error (by decide)
  · exact named_ok _

theorem packEntities_named (u : Str) (labels : List Int) (ps : List (Nat × Nat)) : Named (packEntities u labels ps) := by
  induction ps with
  | nil => exact named_ok _
  | cons p ps ih =>
    unfold packEntities
    dsimp only
    split
    · exact named_error (by decide)
    · exact named_bind (entity_named _ _ _ _ _) fun _ => named_bind ih fun _ => named_ok _

theorem pack_named (s : Store) (u : Str) (is es : List Int) : Named (s.pack u is es) := by
  unfold Store.pack
  split
  · exact named_error (by decide)
  · exact named_bind (named_mapM _ intent_named _) fun _ => named_bind (starts_named _) fun _ =>
      named_bind (starts_named _) fun _ => named_bind (packEntities_named _ _ _) fun _ => build_named _ _ _ _

theorem assign_named (e : Entity) (a : Attr) : Named (a.assign e) := by
  cases a with
  | label i => exact named_bind (toInt32_named _) fun _ => named_ok _
  | value v => exact named_ok _
  | start i => exact named_bind (toInt32_named _) fun _ => named_ok _
  | stop i => exact named_bind (toInt32_named _) fun _ => named_ok _
  | replacements l => exact named_ok _

/-! ### Looking names up -/

theorem bound_at {α : Type} (l : List α) (i : Nat) :
    (¬ i < l.length ∧ bound l[i]? = .error .nameError) ∨ (i < l.length ∧ ∃ a, l[i]? = some a ∧ bound l[i]? = .ok a) := by
  by_cases h : i < l.length
  · refine .inr ⟨h, l[i], List.getElem?_eq_getElem h, ?_⟩
    rw [List.getElem?_eq_getElem h]
    rfl
  · refine .inl ⟨h, ?_⟩
    rw [List.getElem?_eq_none (by omega)]
    rfl

theorem bound_deref {α : Type} (objs : List α) (refs : List Ref) :
    ((∃ r ∈ refs, ¬ r < objs.length) ∧ bound (deref objs refs) = .error .nameError) ∨
    ((∀ r ∈ refs, r < objs.length) ∧ ∃ ps, bound (deref objs refs) = .ok ps) := by
  by_cases h : ∀ r ∈ refs, r < objs.length
  · obtain ⟨ps, hp⟩ := deref_exists objs refs h
    refine .inr ⟨h, ps, ?_⟩
    rw [hp]
    rfl
  · obtain ⟨r, hr, hlt⟩ : ∃ r ∈ refs, ¬ r < objs.length := by simpa using h
    refine .inl ⟨⟨r, hr, hlt⟩, ?_⟩
    cases hd : deref objs refs with
    | none => rfl
    | some ps =>
      obtain ⟨h1, h2⟩ := deref_some hd
      rw [← h1] at hr
      obtain ⟨x, hx, rfl⟩ := List.mem_map.mp hr
      exact absurd (List.getElem?_eq_some_iff.mp (h2 x hx)).1 hlt

theorem bound_datum {s : Store} (hs : Closed s) (d : Ref) :
    (¬ d < s.data.length ∧ bound (s.datum d) = .error .nameError) ∨
    (d < s.data.length ∧ ∃ D, bound (s.datum d) = .ok D) := by
  by_cases h : d < s.data.length
  · obtain ⟨D, hD⟩ := closed_datum hs h
    exact .inr ⟨h, D, by rw [hD]; rfl⟩
  · refine .inl ⟨h, ?_⟩
    unfold Store.datum
    rw [List.getElem?_eq_none (Nat.not_lt.mp h)]
    rfl

theorem elems_cases {α : Type} (objs : List α) (lists : List (List Ref)) (hc : ∀ l ∈ lists, ∀ r ∈ l, r < objs.length)
    (a : Option Ref) :
    ((∃ l, a = some l ∧ ¬ l < lists.length) ∧ elems objs lists a = .error .nameError) ∨
    ((∀ l, a = some l → l < lists.length) ∧ ∃ ps, elems objs lists a = .ok ps) := by
  cases a with
  | none => exact .inr ⟨fun l h => (by cases h), [], rfl⟩
  | some l =>
    unfold elems
    rcases bound_at lists l with ⟨h, e⟩ | ⟨h, refs, h2, e⟩
    · refine .inl ⟨⟨l, rfl, h⟩, ?_⟩
      dsimp only
      rw [e]
      rfl
    · refine .inr ⟨fun l' hl => (by injection hl with hl; rw [← hl]; exact h), ?_⟩
      dsimp only
      rw [e, Except.bind_ok]
      rcases bound_deref objs refs with ⟨⟨r, hr, hn⟩, _⟩ | ⟨_, h⟩
      · exact absurd (hc refs (List.mem_of_getElem? h2) r hr) hn
      · exact h

theorem call_unbound {s : Store} (hs : Closed s) (c : Cmd) :
    s.call c = .error .nameError ↔ ∃ o ∈ named c, ¬ Present s o := by
  cases c with
  | intent label =>
    exact iff_of_false (named_bind (intent_named _) fun _ => named_ok _) (by simp [named])
  | entity l v a b r =>
    exact iff_of_false (named_bind (entity_named _ _ _ _ _) fun _ => named_ok _) (by simp [named])
  | intentList refs =>
    unfold Store.call
    rcases bound_deref s.intents refs with ⟨h, e⟩ | ⟨h, ps, e⟩
    · refine iff_of_true (by dsimp only; rw [e]; rfl) ?_
      simpa [named, Present] using h
    · refine iff_of_false (by dsimp only; rw [e]; exact named_ok _) ?_
      simpa [named, Present] using h
  | entityList refs =>
    unfold Store.call
    rcases bound_deref s.entities refs with ⟨h, e⟩ | ⟨h, ps, e⟩
    · refine iff_of_true (by dsimp only; rw [e]; rfl) ?_
      simpa [named, Present] using h
    · refine iff_of_false (by dsimp only; rw [e]; exact named_ok _) ?_
      simpa [named, Present] using h
  | datum u is es =>
    unfold Store.call
    dsimp only
    unfold Store.newDatum
    rcases elems_cases s.intents s.intentLists hs.intents is with ⟨⟨l, hl, hn⟩, e⟩ | ⟨h, ps, e⟩
    · refine iff_of_true (by rw [e]; rfl) ⟨.intentList l, ?_, hn⟩
      simp [named, hl]
    · rcases elems_cases s.entities s.entityLists hs.entities es with ⟨⟨l, hl, hn⟩, e'⟩ | ⟨h', qs, e'⟩
      · refine iff_of_true (by rw [e, Except.bind_ok, e']; rfl) ⟨.entityList l, ?_, hn⟩
        simp [named, hl]
      · refine iff_of_false ?_ ?_
        · rw [e, Except.bind_ok, e', Except.bind_ok]
          exact named_bind (named_bind (checkPositions_named _ _) fun _ => named_bind (checkOverlaps_named _) fun _ => named_ok _)
            fun _ => named_ok _
        · rintro ⟨o, ho, hn⟩
          rcases List.mem_append.mp ho with ho | ho
          · cases is with
            | none => cases ho
            | some l =>
              have ho : o = .intentList l := by simpa using ho
              subst ho
              exact hn (h l rfl)
          · cases es with
            | none => cases ho
            | some l =>
              have ho : o = .entityList l := by simpa using ho
              subst ho
              exact hn (h' l rfl)
  | copyIntents d =>
    unfold Store.call
    dsimp only
    unfold Store.copyIntents
    rcases bound_datum hs d with ⟨h, e⟩ | ⟨h, D, e⟩
    · exact iff_of_true (by rw [e]; rfl) (by simpa [named, Present] using h)
    · refine iff_of_false ?_ (by simpa [named, Present] using h)
      rw [e, Except.bind_ok]
      exact named_bind (named_bind (named_mapM _ (fun i => intent_named _) _) fun _ => named_ok _) fun _ => named_ok _
  | expand σ d sampling includeOrig =>
    unfold Store.call
    dsimp only
    unfold Store.expand
    rcases bound_datum hs d with ⟨h, e⟩ | ⟨h, D, e⟩
    · exact iff_of_true (by rw [e]; rfl) (by simpa [named, Present] using h)
    · refine iff_of_false ?_ (by simpa [named, Present] using h)
      rw [e, Except.bind_ok]
      split
      · exact named_ok _
      · exact expandLoop_named _ _ _ _ _
  | pack u is es =>
    exact iff_of_false (named_bind (pack_named _ _ _ _) fun _ => named_ok _) (by simp [named])
  | setLabel i label =>
    unfold Store.call
    rcases bound_at s.intents i with ⟨h, e⟩ | ⟨h, x, _, e⟩
    · exact iff_of_true (by dsimp only; rw [e]; rfl) (by simpa [named, Present] using h)
    · refine iff_of_false ?_ (by simpa [named, Present] using h)
      dsimp only
      rw [e, Except.bind_ok]
      exact named_bind (toInt32_named _) fun _ => named_ok _
  | setEntity i a =>
    unfold Store.call
    rcases bound_at s.entities i with ⟨h, e⟩ | ⟨h, x, _, e⟩
    · exact iff_of_true (by dsimp only; rw [e]; rfl) (by simpa [named, Present] using h)
    · refine iff_of_false ?_ (by simpa [named, Present] using h)
      dsimp only
      rw [e, Except.bind_ok]
      exact named_bind (assign_named _ _) fun _ => named_ok _
  | setIntentList l refs =>
    unfold Store.call
    rcases bound_at s.intentLists l with ⟨h, e⟩ | ⟨h, x, _, e⟩
    · exact iff_of_true (by dsimp only; rw [e]; rfl) ⟨.intentList l, by simp [named], h⟩
    · rcases bound_deref s.intents refs with ⟨h', e'⟩ | ⟨h', ps, e'⟩
      · refine iff_of_true (by dsimp only; rw [e, Except.bind_ok, e']; rfl) ?_
        obtain ⟨r, hr, hn⟩ := h'
        exact ⟨.intent r, by simp [named, hr], hn⟩
      · refine iff_of_false (by dsimp only; rw [e, Except.bind_ok, e']; exact named_ok _) ?_
        simpa [named, Present, h] using h'
  | setEntityList l refs =>
    unfold Store.call
    rcases bound_at s.entityLists l with ⟨h, e⟩ | ⟨h, x, _, e⟩
    · exact iff_of_true (by dsimp only; rw [e]; rfl) ⟨.entityList l, by simp [named], h⟩
    · rcases bound_deref s.entities refs with ⟨h', e'⟩ | ⟨h', ps, e'⟩
      · refine iff_of_true (by dsimp only; rw [e, Except.bind_ok, e']; rfl) ?_
        obtain ⟨r, hr, hn⟩ := h'
        exact ⟨.entity r, by simp [named, hr], hn⟩
      · refine iff_of_false (by dsimp only; rw [e, Except.bind_ok, e']; exact named_ok _) ?_
        simpa [named, Present, h] using h'
  | setUtterance d u =>
    unfold Store.call
    rcases bound_at s.data d with ⟨h, e⟩ | ⟨h, x, _, e⟩
    · exact iff_of_true (by dsimp only; rw [e]; rfl) (by simpa [named, Present] using h)
    · refine iff_of_false ?_ (by simpa [named, Present] using h)
      dsimp only
      rw [e]
      exact named_ok _
  | setIntents d l =>
    unfold Store.call
    rcases bound_at s.data d with ⟨h, e⟩ | ⟨h, x, _, e⟩
    · exact iff_of_true (by dsimp only; rw [e]; rfl) ⟨.datum d, by simp [named], h⟩
    · rcases bound_at s.intentLists l with ⟨h', e'⟩ | ⟨h', ps, _, e'⟩
      · exact iff_of_true (by dsimp only; rw [e, Except.bind_ok, e']; rfl) ⟨.intentList l, by simp [named], h'⟩
      · refine iff_of_false (by dsimp only; rw [e, Except.bind_ok, e']; exact named_ok _) ?_
        simp [named, Present, h, h']
  | setEntities d l =>
    unfold Store.call
    rcases bound_at s.data d with ⟨h, e⟩ | ⟨h, x, _, e⟩
    · exact iff_of_true (by dsimp only; rw [e]; rfl) ⟨.datum d, by simp [named], h⟩
    · rcases bound_at s.entityLists l with ⟨h', e'⟩ | ⟨h', ps, _, e'⟩
      · exact iff_of_true (by dsimp only; rw [e, Except.bind_ok, e']; rfl) ⟨.entityList l, by simp [named], h'⟩
      · refine iff_of_false (by dsimp only; rw [e, Except.bind_ok, e']; exact named_ok _) ?_
        simp [named, Present, h, h']

/-- C80: in every program, a command raises NameError exactly if it names an object that does not exist (because the
command that should have made it raised, say). The library itself never raises it. -/
theorem C80_unbound (cmds : List Cmd) (c : Cmd) :
    (Store.empty.run cmds).call c = .error .nameError ↔ ∃ o ∈ named c, ¬ Present (Store.empty.run cmds) o :=
  call_unbound (closed_run closed_empty cmds) c

/-- A concrete case: the datum was not made, because its entity is at the wrong place; using it is a NameError. -/
example : (Store.empty.run [.entity 1 "a".toList 5 6 none, .entityList [0], .datum "abc".toList none (some 0)]).call
    (.setUtterance 0 []) = .error .nameError ∧
    (Store.empty.run [.entity 1 "a".toList 0 1 none, .entityList [0], .datum "abc".toList none (some 0)]).call
      (.setUtterance 0 []) ≠ .error .nameError := by
  constructor
  · refine (C80_unbound _ _).mpr ⟨.datum 0, List.mem_cons_self, ?_⟩
    exact Nat.lt_irrefl 0
  · intro h
    obtain ⟨o, ho, hn⟩ := (C80_unbound _ _).mp h
    rw [List.mem_singleton.mp ho] at hn
    exact hn Nat.zero_lt_one

end Uttut.Objects
