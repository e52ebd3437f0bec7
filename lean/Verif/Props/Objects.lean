import Verif.Lemmas.Objects

/-!
C80: sharing of objects between data.
-/

namespace Uttut.Objects

open Store

/-! ### auxiliary -/

theorem holds_deref {α : Type} {objs : List α} {refs : List Ref} {vals : List α} (h : Holds objs refs vals) :
    deref objs refs = some (refs.zip vals) ∧ (refs.zip vals).map Prod.snd = vals ∧
      (refs.zip vals).map Prod.fst = refs := by
  have hl : refs.length = vals.length := by simpa using congrArg List.length h
  refine ⟨?_, List.map_snd_zip (by omega), List.map_fst_zip (by omega)⟩
  induction refs generalizing vals with
  | nil => cases vals with
    | nil => rfl
    | cons v vals => cases hl
  | cons r refs ih =>
    cases vals with
    | nil => cases hl
    | cons v vals =>
      unfold Holds at h
      rw [List.map_cons, List.map_cons] at h
      injection h with h1 h2
      rw [deref_cons, h1, ih h2 (by simpa using hl)]
      rfl

theorem deref_holds {α : Type} {objs : List α} {refs : List Ref} {ps : List (Ref × α)}
    (h : deref objs refs = some ps) : Holds objs refs (ps.map Prod.snd) := by
  obtain ⟨h1, h2⟩ := deref_some h
  unfold Holds
  rw [← h1, List.map_map, List.map_map]
  exact List.map_congr_left fun p hp => h2 p hp

theorem entityRefs_of {s : Store} {d : Ref} {o : DatumObj} {el : List Ref} (h1 : s.data[d]? = some o)
    (h3 : s.entityLists[o.entities]? = some el) : entityRefs s d = el := by
  unfold entityRefs
  rw [h1]
  dsimp only
  rw [h3]
  rfl

theorem intentRefs_of {s : Store} {d : Ref} {o : DatumObj} {il : List Ref} (h1 : s.data[d]? = some o)
    (h2 : s.intentLists[o.intents]? = some il) : intentRefs s d = il := by
  unfold intentRefs
  rw [h1]
  dsimp only
  rw [h2]
  rfl

/-- Reading a datum after one of its elements was changed. -/
theorem deref_set {α : Type} {objs : List α} {refs : List Ref} {ps : List (Ref × α)} (i : Ref) (y : α)
    (h : deref objs refs = some ps) (hi : i < objs.length) :
    ∃ qs, deref (objs.set i y) refs = some qs ∧
      qs.map Prod.snd = replaced refs (ps.map Prod.snd) i y := by
  induction refs generalizing ps with
  | nil => cases h; exact ⟨[], rfl, rfl⟩
  | cons r refs ih =>
    rw [deref_cons] at h ⊢
    cases ho : objs[r]? with
    | none => rw [ho] at h; cases h
    | some a =>
      cases hd : deref objs refs with
      | none => rw [ho, hd] at h; cases h
      | some qs =>
        rw [ho, hd] at h
        cases h
        obtain ⟨qs', k1, k2⟩ := ih hd
        rw [k1]
        by_cases hr : r = i
        · subst hr
          rw [List.getElem?_set_self hi]
          refine ⟨_, rfl, ?_⟩
          show y :: qs'.map Prod.snd = _
          rw [k2]
          unfold replaced
          simp
        · rw [getElem?_set_other _ _ (fun e => hr e.symm), ho]
          refine ⟨_, rfl, ?_⟩
          show a :: qs'.map Prod.snd = _
          rw [k2]
          unfold replaced
          simp [hr]

/-! ### reading, and what commands leave alone -/

/-- C80: in every program every datum can be read: its lists and their elements exist. -/
theorem C80_reads (cmds : List Cmd) (d : Ref) (h : d < (Store.empty.run cmds).data.length) :
    ∃ D, (Store.empty.run cmds).datum d = some D :=
  closed_datum (closed_run closed_empty cmds) h

/-- C80: a datum changes only if one of its own objects is assigned to or changed in place: the datum, one of its
two lists, one of the entities and intents in them. No constructor and no function of the library changes an
existing datum. -/
theorem C80_frame {s : Store} {d : Ref} {D : Datum} (h : s.datum d = some D) (cmds : List Cmd)
    (hc : ∀ c ∈ cmds, ∀ o, target c = some o → ¬ PartOf s d o) :
    (s.run cmds).datum d = some D ∧ ∀ o, PartOf (s.run cmds) d o ↔ PartOf s d o := by
  induction cmds generalizing s with
  | nil => exact ⟨h, fun o => Iff.rfl⟩
  | cons c cmds ih =>
    have h1 : ∀ o, PartOf s d o → content (s.step c) o = content s o := fun o ho =>
      (step_content (fun ht => hc c (List.mem_cons_self ..) o ht ho) (partOf_exists h ho)).1
    obtain ⟨k1, k2⟩ := datum_congr h h1
    obtain ⟨k3, k4⟩ := ih k1 fun c' hc' o ho hp => hc c' (List.mem_cons_of_mem _ hc') o ho ((k2 o).mp hp)
    exact ⟨k3, fun o => (k4 o).trans (k2 o)⟩

/-- C80: a command leaves every existing object as it was, except the one it assigns to. -/
theorem C80_others (s : Store) (c : Cmd) (o : Obj) (ho : Present s o) (ht : target c ≠ some o) :
    content (s.step c) o = content s o :=
  (step_content ht ho).1

/-- C80: a command that raises changes nothing. -/
theorem C80_raises (s : Store) (c : Cmd) (e : Exc) (h : s.call c = .error e) : s.step c = s := by
  unfold Store.step; rw [h]

/-! ### `Intent(...)`, `Entity(...)`, lists -/

/-- C80: `Intent(...)` and `Entity(...)` give new objects with the contents C43 describes, or raise. -/
theorem C80_create (s : Store) :
    (∀ label i, Intent.new label = .ok i → ∃ s' r, s.call (.intent label) = .ok (s', [r]) ∧
      content s' (.intent r) = some (.intent i) ∧ ¬ Present s (.intent r)) ∧
    (∀ label e, Intent.new label = .error e → s.call (.intent label) = .error e) ∧
    (∀ label value start stop reps x, Entity.new label value start stop reps = .ok x →
      ∃ s' r, s.call (.entity label value start stop reps) = .ok (s', [r]) ∧
        content s' (.entity r) = some (.entity x) ∧ ¬ Present s (.entity r)) ∧
    (∀ label value start stop reps e, Entity.new label value start stop reps = .error e →
      s.call (.entity label value start stop reps) = .error e) := by
  refine ⟨fun label i h => ⟨{ s with intents := s.intents ++ [i] }, s.intents.length, ?_, ?_, Nat.lt_irrefl _⟩,
    fun label e h => ?_, fun label value start stop reps x h =>
      ⟨{ s with entities := s.entities ++ [x] }, s.entities.length, ?_, ?_, Nat.lt_irrefl _⟩,
    fun label value start stop reps e h => ?_⟩
  · unfold Store.call; dsimp only; rw [h]; rfl
  · simp [content]
  · unfold Store.call; dsimp only; rw [h]; rfl
  · unfold Store.call; dsimp only; rw [h]; rfl
  · simp [content]
  · unfold Store.call; dsimp only; rw [h]; rfl

/-- C80: `[x1, ..., xn]` gives a new list object holding the given objects themselves. -/
theorem C80_create_list (s : Store) (refs : List Ref) :
    ((∀ r ∈ refs, Present s (.intent r)) → ∃ s' l, s.call (.intentList refs) = .ok (s', [l]) ∧
      content s' (.intentList l) = some (.intentList refs) ∧ ¬ Present s (.intentList l)) ∧
    ((∀ r ∈ refs, Present s (.entity r)) → ∃ s' l, s.call (.entityList refs) = .ok (s', [l]) ∧
      content s' (.entityList l) = some (.entityList refs) ∧ ¬ Present s (.entityList l)) := by
  refine ⟨fun h => ⟨{ s with intentLists := s.intentLists ++ [refs] }, s.intentLists.length, ?_, ?_,
    Nat.lt_irrefl _⟩, fun h => ⟨{ s with entityLists := s.entityLists ++ [refs] }, s.entityLists.length, ?_, ?_,
    Nat.lt_irrefl _⟩⟩
  · obtain ⟨ps, hp⟩ := deref_exists s.intents refs h
    unfold Store.call; dsimp only; rw [hp]; rfl
  · simp [content]
  · obtain ⟨ps, hp⟩ := deref_exists s.entities refs h
    unfold Store.call; dsimp only; rw [hp]; rfl
  · simp [content]

/-! ### `Datum(...)` -/

/-- C80: `Datum(utterance, intents, entities)` raises exactly as on the contents of the lists; otherwise the new
datum has new lists, which hold the given intents and entities themselves. -/
theorem C80_datum {s : Store} {a b : Option Ref} {irefs erefs : List Ref} {is : List Intent} {es : List Entity}
    (ha : given s.intentLists a = some irefs) (hb : given s.entityLists b = some erefs)
    (hi : Holds s.intents irefs is) (he : Holds s.entities erefs es) (u : Str) :
    (∀ e, Datum.new u (some is) (some es) = .error e → s.call (.datum u a b) = .error e) ∧
    ∀ D, Datum.new u (some is) (some es) = .ok D →
      ∃ s' d, s.call (.datum u a b) = .ok (s', [d]) ∧ s'.datum d = some D ∧
        (∀ o, Present s o → content s' o = content s o) ∧
        ¬ Present s (.datum d) ∧
        (∀ l, PartOf s' d (.intentList l) → ¬ Present s (.intentList l)) ∧
        (∀ l, PartOf s' d (.entityList l) → ¬ Present s (.entityList l)) ∧
        (intentRefs s' d).Perm irefs ∧ (entityRefs s' d).Perm erefs := by
  obtain ⟨i1, i2, i3⟩ := holds_deref hi
  obtain ⟨e1, e2, e3⟩ := holds_deref he
  have key := newDatum_eq (u := u) (elems_eq ha i1) (elems_eq hb e1)
  rw [i2, e2] at key
  refine ⟨fun e hx => ?_, fun D hD => ?_⟩
  · unfold Store.call
    dsimp only
    rw [key, hx]
    rfl
  · have hD' : Datum.new u (some ((irefs.zip is).map Prod.snd)) (some ((erefs.zip es).map Prod.snd)) = .ok D := by
      rw [i2, e2]; exact hD
    refine ⟨withDatum s u (irefs.zip is) (erefs.zip es), s.data.length, ?_,
      withDatum_datum (deref_some i1).2 (deref_some e1).2 hD',
      fun o ho => (withDatum_ext s u _ _).content ho, Nat.lt_irrefl _, fun l hl => ?_, fun l hl => ?_, ?_, ?_⟩
    · unfold Store.call
      dsimp only
      rw [key, hD]
      rfl
    · cases withDatum_partOf (.intentList l) |>.mp hl
      exact Nat.lt_irrefl _
    · cases withDatum_partOf (.entityList l) |>.mp hl
      exact Nat.lt_irrefl _
    · rw [intentRefs_of (s := withDatum s u (irefs.zip is) (erefs.zip es))
        (o := ⟨u, s.intentLists.length, s.entityLists.length⟩)
        (il := (pySorted (fun p => p.2.hash) (irefs.zip is)).map Prod.fst)
        (by simp [withDatum]) (by simp [withDatum])]
      have := (pySorted_perm (fun p : Ref × Intent => p.2.hash) (irefs.zip is)).map Prod.fst
      rw [i3] at this
      exact this
    · rw [entityRefs_of (s := withDatum s u (irefs.zip is) (erefs.zip es))
        (o := ⟨u, s.intentLists.length, s.entityLists.length⟩)
        (el := (pySorted (fun p => p.2.start) (erefs.zip es)).map Prod.fst)
        (by simp [withDatum]) (by simp [withDatum])]
      have := (pySorted_perm (fun p : Ref × Entity => p.2.start) (erefs.zip es)).map Prod.fst
      rw [e3] at this
      exact this

/-! ### assignments -/

theorem toInt32_fits (i : Int) :
    (Spec.IsInt32 i ∧ toInt32 i = .ok i) ∨ (¬ Spec.IsInt32 i ∧ toInt32 i = .error .overflowError) := by
  unfold toInt32 Spec.IsInt32
  by_cases h : -2147483648 ≤ i ∧ i < 2147483648
  · exact Or.inl ⟨by omega, if_pos h⟩
  · exact Or.inr ⟨by omega, if_neg h⟩

theorem assign_fits (x : Entity) (a : Attr) :
    (Fits a ∧ ∃ y, Assigned x y a ∧ a.assign x = .ok y) ∨ (¬ Fits a ∧ a.assign x = .error .overflowError) := by
  cases a with
  | label i =>
    rcases toInt32_fits i with ⟨h1, h2⟩ | ⟨h1, h2⟩
    · exact Or.inl ⟨h1, _, rfl, by unfold Attr.assign; dsimp only; rw [h2]; rfl⟩
    · exact Or.inr ⟨h1, by unfold Attr.assign; dsimp only; rw [h2]; rfl⟩
  | value v => exact Or.inl ⟨trivial, _, rfl, rfl⟩
  | start i =>
    rcases toInt32_fits i with ⟨h1, h2⟩ | ⟨h1, h2⟩
    · exact Or.inl ⟨h1, _, rfl, by unfold Attr.assign; dsimp only; rw [h2]; rfl⟩
    · exact Or.inr ⟨h1, by unfold Attr.assign; dsimp only; rw [h2]; rfl⟩
  | stop i =>
    rcases toInt32_fits i with ⟨h1, h2⟩ | ⟨h1, h2⟩
    · exact Or.inl ⟨h1, _, rfl, by unfold Attr.assign; dsimp only; rw [h2]; rfl⟩
    · exact Or.inr ⟨h1, by unfold Attr.assign; dsimp only; rw [h2]; rfl⟩
  | replacements l =>
    exact Or.inl ⟨trivial, _, ⟨pyDedup l, nodup_pyDedup l, fun r => mem_pyDedup, rfl⟩, rfl⟩

/-- C80: assigning to an attribute of an entity changes every datum that holds this entity, at exactly the places
where it does, and nothing is checked again; an integer that is no C `int` raises `OverflowError`. -/
theorem C80_set_entity {s : Store} {e : Ref} {x : Entity} (hx : s.entities[e]? = some x) (a : Attr) :
    (¬ Fits a → s.call (.setEntity e a) = .error .overflowError) ∧
    (Fits a → ∃ s' y, s.call (.setEntity e a) = .ok (s', []) ∧ Assigned x y a ∧ s'.entities[e]? = some y ∧
      ∀ d D, s.datum d = some D →
        s'.datum d = some { D with entities := replaced (entityRefs s d) D.entities e y }) := by
  have he : e < s.entities.length := (List.getElem?_eq_some_iff.mp hx).1
  rcases assign_fits x a with ⟨h1, y, h2, h3⟩ | ⟨h1, h2⟩
  · refine ⟨fun h => absurd h1 h, fun _ => ⟨{ s with entities := s.entities.set e y }, y, ?_, h2,
      List.getElem?_set_self he, fun d D hD => ?_⟩⟩
    · unfold Store.call
      dsimp only
      rw [hx]
      simp only [bound, Except.bind_ok]
      rw [h3]
      rfl
    · obtain ⟨o, il, el, is, es, k1, k2, k3, k4, k5, rfl⟩ := datum_some hD
      obtain ⟨qs, q1, q2⟩ := deref_set e y k5 he
      rw [entityRefs_of k1 k3]
      dsimp only
      rw [← q2]
      exact datum_of k1 k2 k3 k4 q1
  · refine ⟨fun _ => ?_, fun h => absurd h h1⟩
    unfold Store.call
    dsimp only
    rw [hx]
    simp only [bound, Except.bind_ok]
    rw [h2]
    rfl

/-- C80: assigning to the label of an intent changes every datum that holds this intent. -/
theorem C80_set_label {s : Store} {i : Ref} {x : Intent} (hx : s.intents[i]? = some x) (label : Int) :
    (¬ Spec.IsInt32 label → s.call (.setLabel i label) = .error .overflowError) ∧
    (Spec.IsInt32 label → ∃ s', s.call (.setLabel i label) = .ok (s', []) ∧ s'.intents[i]? = some ⟨label⟩ ∧
      ∀ d D, s.datum d = some D →
        s'.datum d = some { D with intents := replaced (intentRefs s d) D.intents i ⟨label⟩ }) := by
  have hi : i < s.intents.length := (List.getElem?_eq_some_iff.mp hx).1
  rcases toInt32_fits label with ⟨h1, h3⟩ | ⟨h1, h2⟩
  · refine ⟨fun h => absurd h1 h, fun _ => ⟨{ s with intents := s.intents.set i ⟨label⟩ }, ?_,
      List.getElem?_set_self hi, fun d D hD => ?_⟩⟩
    · unfold Store.call
      dsimp only
      rw [hx]
      simp only [bound, Except.bind_ok]
      rw [h3]
      rfl
    · obtain ⟨o, il, el, is, es, k1, k2, k3, k4, k5, rfl⟩ := datum_some hD
      obtain ⟨qs, q1, q2⟩ := deref_set i ⟨label⟩ k4 hi
      rw [intentRefs_of k1 k2]
      dsimp only
      rw [← q2]
      exact datum_of k1 k2 k3 q1 k5
  · refine ⟨fun _ => ?_, fun h => absurd h h1⟩
    unfold Store.call
    dsimp only
    rw [hx]
    simp only [bound, Except.bind_ok]
    rw [h2]
    rfl

/-- C80: changing a list of entities in place changes exactly the data that have this list object, to whatever the
list now holds: nothing is sorted or checked again. -/
theorem C80_set_entity_list {s : Store} {l : Ref} {refs : List Ref} {es : List Entity}
    (hl : Present s (.entityList l)) (he : Holds s.entities refs es) :
    ∃ s', s.call (.setEntityList l refs) = .ok (s', []) ∧ ∀ d D, s.datum d = some D →
      (PartOf s d (.entityList l) → s'.datum d = some { D with entities := es }) ∧
      (¬ PartOf s d (.entityList l) → s'.datum d = some D) := by
  obtain ⟨e1, e2, e3⟩ := holds_deref he
  have hcall : s.call (.setEntityList l refs) = .ok ({ s with entityLists := s.entityLists.set l refs }, []) := by
    unfold Store.call
    dsimp only
    rw [List.getElem?_eq_getElem hl, e1]
    rfl
  refine ⟨_, hcall, fun d D hD => ⟨fun hp => ?_, fun hp => ?_⟩⟩
  · obtain ⟨o, il, el, is, es', k1, k2, k3, k4, k5, rfl⟩ := datum_some hD
    obtain ⟨o', h1, h2⟩ := hp
    rw [k1] at h1
    cases h1
    dsimp only
    rw [← e2]
    refine datum_of (s := { s with entityLists := s.entityLists.set l refs }) k1 k2 ?_ k4 e1
    rw [h2]
    exact List.getElem?_set_self hl
  · refine (datum_congr hD fun o ho => (call_content hcall (fun ht => ?_) (partOf_exists hD ho)).1).1
    cases ht
    exact hp ho

/-- C80: changing a list of intents in place changes exactly the data that have this list object. -/
theorem C80_set_intent_list {s : Store} {l : Ref} {refs : List Ref} {is : List Intent}
    (hl : Present s (.intentList l)) (hi : Holds s.intents refs is) :
    ∃ s', s.call (.setIntentList l refs) = .ok (s', []) ∧ ∀ d D, s.datum d = some D →
      (PartOf s d (.intentList l) → s'.datum d = some { D with intents := is }) ∧
      (¬ PartOf s d (.intentList l) → s'.datum d = some D) := by
  obtain ⟨e1, e2, e3⟩ := holds_deref hi
  have hcall : s.call (.setIntentList l refs) = .ok ({ s with intentLists := s.intentLists.set l refs }, []) := by
    unfold Store.call
    dsimp only
    rw [List.getElem?_eq_getElem hl, e1]
    rfl
  refine ⟨_, hcall, fun d D hD => ⟨fun hp => ?_, fun hp => ?_⟩⟩
  · obtain ⟨o, il, el, is, es', k1, k2, k3, k4, k5, rfl⟩ := datum_some hD
    obtain ⟨o', h1, h2⟩ := hp
    rw [k1] at h1
    cases h1
    dsimp only
    rw [← e2]
    refine datum_of (s := { s with intentLists := s.intentLists.set l refs }) k1 ?_ k3 e1 k5
    rw [h2]
    exact List.getElem?_set_self hl
  · refine (datum_congr hD fun o ho => (call_content hcall (fun ht => ?_) (partOf_exists hD ho)).1).1
    cases ht
    exact hp ho

/-- C80: assigning to an attribute of a datum changes this attribute of this datum, to exactly what is assigned: an
assigned list is neither copied nor sorted nor checked. -/
theorem C80_set_datum {s : Store} {d : Ref} {D : Datum} (hD : s.datum d = some D) :
    (∀ u, ∃ s', s.call (.setUtterance d u) = .ok (s', []) ∧ s'.datum d = some { D with utterance := u }) ∧
    (∀ l refs is, s.intentLists[l]? = some refs → Holds s.intents refs is →
      ∃ s', s.call (.setIntents d l) = .ok (s', []) ∧ s'.datum d = some { D with intents := is } ∧
        PartOf s' d (.intentList l)) ∧
    (∀ l refs es, s.entityLists[l]? = some refs → Holds s.entities refs es →
      ∃ s', s.call (.setEntities d l) = .ok (s', []) ∧ s'.datum d = some { D with entities := es } ∧
        PartOf s' d (.entityList l)) := by
  obtain ⟨o, il, el, is, es, k1, k2, k3, k4, k5, rfl⟩ := datum_some hD
  have hd : d < s.data.length := (List.getElem?_eq_some_iff.mp k1).1
  refine ⟨fun u => ⟨_, by unfold Store.call; dsimp only; rw [k1]; rfl, ?_⟩,
    fun l refs is' hl hi => ⟨_, by unfold Store.call; dsimp only; rw [k1, hl]; rfl, ?_, ?_⟩,
    fun l refs es' hl hi => ⟨_, by unfold Store.call; dsimp only; rw [k1, hl]; rfl, ?_, ?_⟩⟩
  · exact datum_of (s := { s with data := s.data.set d { o with utterance := u } }) (o := { o with utterance := u })
      (List.getElem?_set_self hd) k2 k3 k4 k5
  · obtain ⟨e1, e2, e3⟩ := holds_deref hi
    dsimp only
    rw [← e2]
    exact datum_of (s := { s with data := s.data.set d { o with intents := l } }) (o := { o with intents := l })
      (List.getElem?_set_self hd) hl k3 e1 k5
  · exact ⟨_, List.getElem?_set_self hd, rfl⟩
  · obtain ⟨e1, e2, e3⟩ := holds_deref hi
    dsimp only
    rw [← e2]
    exact datum_of (s := { s with data := s.data.set d { o with entities := l } }) (o := { o with entities := l })
      (List.getElem?_set_self hd) k2 hl k4 e1
  · exact ⟨_, List.getElem?_set_self hd, rfl⟩

/-! ### `expand_by_entities`, `pack_to_datum`, `copy_intents` -/

/-- C80: expanding a datum with entities gives data with the contents C50 describes, made of new objects only, no
two of them sharing any; existing objects stay as they are. -/
theorem C80_expand {s : Store} {d : Ref} {D : Datum} (hD : s.datum d = some D) (hE : D.entities ≠ [])
    (σ : SetOrder) (sampling : Option (Nat → List Int)) (o : Bool) :
    (∀ e, expandByEntities σ D sampling o = .error e → s.call (.expand σ d sampling o) = .error e) ∧
    ∀ Ds, expandByEntities σ D sampling o = .ok Ds →
      ∃ s' rs, s.call (.expand σ d sampling o) = .ok (s', rs) ∧ rs.map s'.datum = Ds.map some ∧
        (∀ x, Present s x → content s' x = content s x) ∧
        (∀ r ∈ rs, ∀ x, PartOf s' r x → ¬ Present s x) ∧ rs.Pairwise (Apart s') := by
  refine ⟨fun e h => expand_error hD h, fun Ds h => ?_⟩
  obtain ⟨s', rs, h1, h2, h3, h4, h5, -⟩ := expand_ok hD hE h
  exact ⟨s', rs, h1, h3, fun x hx => h2.content hx, h4, h5⟩

/-- C80: expanding a datum without entities gives the given object itself, not a copy. -/
theorem C80_expand_same {s : Store} {d : Ref} {D : Datum} (hD : s.datum d = some D) (hE : D.entities = [])
    (σ : SetOrder) (sampling : Option (Nat → List Int)) (o : Bool) :
    s.call (.expand σ d sampling o) = .ok (s, [d]) :=
  expand_noEntities hD hE

/-- C80: whatever is done afterwards to one of the data that an expansion gave, and to objects made later, leaves
the expanded datum, all older data and the other results as they are. -/
theorem C80_expand_independent {s s' : Store} {d : Ref} {D : Datum} {σ : SetOrder}
    {sampling : Option (Nat → List Int)} {o : Bool} {rs : List Ref} (hD : s.datum d = some D) (hE : D.entities ≠ [])
    (h : s.call (.expand σ d sampling o) = .ok (s', rs)) {i : Nat} {r : Ref} (hi : rs[i]? = some r)
    (cmds : List Cmd) (hc : ∀ c ∈ cmds, ∀ x, target c = some x → PartOf s' r x ∨ ¬ Present s' x) :
    (∀ d' D', s.datum d' = some D' → (s'.run cmds).datum d' = some D') ∧
    ∀ j r', j ≠ i → rs[j]? = some r' → ∃ D', s'.datum r' = some D' ∧ (s'.run cmds).datum r' = some D' := by
  change s.expand σ d sampling o = _ at h
  cases hx : expandByEntities σ D sampling o with
  | error e => rw [expand_error hD hx] at h; cases h
  | ok Ds =>
    obtain ⟨t, qs, h1, h2, h3, h4, h5, -⟩ := expand_ok hD hE hx
    rw [h] at h1
    cases h1
    refine ⟨fun d' D' hd' => ?_, fun j r' hj hr' => ?_⟩
    · obtain ⟨k1, k2⟩ := h2.datum hd'
      refine (C80_frame k1 cmds fun c hcm x hx hp => ?_).1
      rcases hc c hcm x hx with hr | hr
      · exact h4 r (List.mem_of_getElem? hi) x hr (partOf_exists hd' ((k2 x).mp hp))
      · exact hr (partOf_exists k1 hp)
    · have hm : s'.datum r' ∈ rs.map s'.datum := List.mem_map_of_mem (List.mem_of_getElem? hr')
      rw [h3] at hm
      obtain ⟨D', -, hD'⟩ := List.mem_map.mp hm
      refine ⟨D', hD'.symm, (C80_frame hD'.symm cmds fun c hcm x hx hp => ?_).1⟩
      rcases hc c hcm x hx with hr | hr
      · obtain ⟨li, ei⟩ := List.getElem?_eq_some_iff.mp hi
        obtain ⟨lj, ej⟩ := List.getElem?_eq_some_iff.mp hr'
        rw [List.pairwise_iff_getElem] at h5
        rcases Nat.lt_or_gt_of_ne hj with hlt | hgt
        · have := h5 j i lj li hlt
          rw [ei, ej] at this
          exact this x hp hr
        · have := h5 i j li lj hgt
          rw [ei, ej] at this
          exact this x hr hp
      · exact hr (partOf_exists hD'.symm hp)

/-- C80: `pack_to_datum` gives a datum made of new objects only. -/
theorem C80_pack (s : Store) (u : Str) (is es : List Int) :
    (∀ e, packToDatum u is es = .error e → s.call (.pack u is es) = .error e) ∧
    ∀ D, packToDatum u is es = .ok D → ∃ s' d, s.call (.pack u is es) = .ok (s', [d]) ∧ s'.datum d = some D ∧
      (∀ x, Present s x → content s' x = content s x) ∧ ∀ x, PartOf s' d x → ¬ Present s x := by
  refine ⟨fun e h => ?_, fun D h => ?_⟩
  · unfold Store.call
    dsimp only
    rw [pack_error h]
    rfl
  · obtain ⟨is', es', h1, h2⟩ := pack_ok (s := s) h
    refine ⟨built s u is' es', s.data.length, ?_, built_datum h1, fun x hx => (built_ext _ _ _ _).content hx,
      fun x hx => built_new _ _ _ _ x hx⟩
    unfold Store.call
    dsimp only
    rw [h2]
    rfl

/-- C80: `copy_intents` gives a new list of new intents with the same labels. -/
theorem C80_copy_intents {s : Store} {d : Ref} {D : Datum} (hD : s.datum d = some D)
    (hl : ∀ i ∈ D.intents, Spec.IsInt32 i.label) :
    ∃ s' l refs, s.call (.copyIntents d) = .ok (s', [l]) ∧ s'.intentLists[l]? = some refs ∧
      Holds s'.intents refs D.intents ∧ ¬ Present s (.intentList l) ∧ (∀ i ∈ refs, ¬ Present s (.intent i)) ∧
      ∀ x, Present s x → content s' x = content s x := by
  have hm : D.intents.mapM (fun i => Intent.new i.label) = .ok D.intents := by
    have := mapM_ok_map (fun i : Intent => Intent.new i.label) (fun i => i) D.intents fun i hi => by
      unfold Intent.new
      rcases toInt32_fits i.label with ⟨-, h⟩ | ⟨h, -⟩
      · rw [h]; rfl
      · exact absurd (hl i hi) h
    rw [List.map_id'] at this
    exact this
  have hcall : s.call (.copyIntents d) = .ok ((s.addIntents D.intents).1, [s.intentLists.length]) := by
    unfold Store.call Store.copyIntents
    dsimp only
    rw [hD]
    simp only [bound, Except.bind_ok]
    rw [hm]
    rfl
  refine ⟨_, _, List.range' s.intents.length D.intents.length, hcall, ?_, ?_, Nat.lt_irrefl _, ?_, ?_⟩
  · simp [Store.addIntents]
  · have := deref_of (objs := s.intents ++ D.intents) _ (zip_range'_at s.intents D.intents)
    rw [zip_range'_fst] at this
    have := deref_holds this
    rw [zip_range'_snd] at this
    exact this
  · intro i hi hp
    have := (List.mem_range'_1.mp hi).1
    exact absurd hp (Nat.not_lt.mpr this)
  · exact fun x hx => (call_ext rfl hcall).content hx

/-! ### validity -/

theorem valid_of_new {u : Str} {is : List Intent} {es : List Entity} {D : Datum}
    (h : Datum.new u (some is) (some es) = .ok D) : Valid D := by
  obtain ⟨rfl, h1, h2⟩ := datum_new_cases _ _ _ _ h
  exact ⟨fun e he => h1 e (mem_pySorted.mp he), pySorted_pairwise _ _, h2, pySorted_pairwise _ _⟩

/-- C80: as long as a program assigns to nothing and changes no list in place, every datum in it is valid. -/
theorem C80_valid (cmds : List Cmd) (h : ∀ c ∈ cmds, target c = none) (d : Ref)
    (hd : d < (Store.empty.run cmds).data.length) :
    ∃ D, (Store.empty.run cmds).datum d = some D ∧ Valid D := by
  suffices H : ∀ (s : Store), Closed s → (∀ d, d < s.data.length → ∃ D, s.datum d = some D ∧ Valid D) →
      ∀ d, d < (s.run cmds).data.length → ∃ D, (s.run cmds).datum d = some D ∧ Valid D from
    H _ closed_empty (fun d hd => absurd hd (Nat.not_lt_zero d)) d hd
  clear hd d
  induction cmds with
  | nil => intro s _ hs; exact hs
  | cons c cmds ih =>
    intro s hcl hs
    refine ih (fun c' hc' => h c' (List.mem_cons_of_mem _ hc')) (s.step c) (closed_run hcl [c]) ?_
    unfold Store.step
    cases hc : s.call c with
    | error e => exact hs
    | ok p =>
      obtain ⟨s', rs⟩ := p
      have ht := h c (List.mem_cons_self ..)
      have hext := call_ext ht hc
      have old : ∀ d, d < s.data.length → ∃ D, s'.datum d = some D ∧ Valid D := fun d hd => by
        obtain ⟨D, h1, h2⟩ := hs d hd
        exact ⟨D, (hext.datum h1).1, h2⟩
      dsimp only
      cases c with
      | intent label =>
        obtain ⟨i, -, hc⟩ := bind_eq_ok hc
        cases hc; exact old
      | entity =>
        obtain ⟨i, -, hc⟩ := bind_eq_ok hc
        cases hc; exact old
      | intentList =>
        obtain ⟨i, -, hc⟩ := bind_eq_ok hc
        cases hc; exact old
      | entityList =>
        obtain ⟨i, -, hc⟩ := bind_eq_ok hc
        cases hc; exact old
      | copyIntents d =>
        obtain ⟨⟨t, r⟩, h1, hc⟩ := bind_eq_ok hc
        cases hc
        unfold Store.copyIntents at h1
        obtain ⟨D, -, h1⟩ := bind_eq_ok h1
        obtain ⟨is, -, h1⟩ := bind_eq_ok h1
        cases h1
        exact old
      | datum u a b =>
        obtain ⟨⟨t, r⟩, h1, hc⟩ := bind_eq_ok hc
        cases hc
        obtain ⟨_, _, is, es, D, -, -, h4, h5, h6, rfl, -⟩ := newDatum_cases h1
        intro d hd
        by_cases hlt : d < s.data.length
        · exact old d hlt
        · have : d = s.data.length := by
            have : d < (s.data ++ [_]).length := hd
            rw [List.length_append] at this
            exact Nat.le_antisymm (Nat.lt_succ_iff.mp this) (Nat.not_lt.mp hlt)
          subst this
          exact ⟨D, withDatum_datum (deref_some h4).2 (deref_some h5).2 h6, valid_of_new h6⟩
      | pack u is es =>
        obtain ⟨⟨t, r⟩, h1, hc⟩ := bind_eq_ok hc
        cases hc
        obtain ⟨D, is', es', -, h6, rfl, -⟩ := pack_cases h1
        intro d hd
        by_cases hlt : d < s.data.length
        · exact old d hlt
        · have : d = s.data.length := by
            have : d < (s.data ++ [_]).length := hd
            rw [List.length_append] at this
            exact Nat.le_antisymm (Nat.lt_succ_iff.mp this) (Nat.not_lt.mp hlt)
          subst this
          exact ⟨D, built_datum h6, valid_of_new h6⟩
      | expand σ r sampling o =>
        obtain ⟨D, hD, ⟨hE, rfl, rfl⟩ | ⟨hE, Ds, hx⟩⟩ := expand_cases hc
        · exact old
        · obtain ⟨t, qs, k1, k2, k3, k4, k5, k6, k7⟩ := expand_ok hD hE hx
          change s.expand σ r sampling o = _ at hc
          rw [hc] at k1
          cases k1
          intro d hd
          by_cases hlt : d < s.data.length
          · exact old d hlt
          · have hm : d ∈ rs := by
              rw [k6, List.mem_range'_1]
              rw [k7] at hd
              exact ⟨Nat.not_lt.mp hlt, hd⟩
            have hm' : s'.datum d ∈ rs.map s'.datum := List.mem_map_of_mem hm
            rw [k3] at hm'
            obtain ⟨D', hD', hd'⟩ := List.mem_map.mp hm'
            refine ⟨D', hd'.symm, ?_⟩
            unfold expandByEntities at hx
            split at hx
            · rename_i hn
              exact absurd (by simpa [Datum.hasEntities] using hn) hE
            · obtain ⟨i, -, hi⟩ := mapM_ok_mem _ _ _ hx D' hD'
              unfold expandOne at hi
              obtain ⟨_, _, hi⟩ := bind_eq_ok hi
              obtain ⟨_, _, hi⟩ := bind_eq_ok hi
              obtain ⟨_, _, hi⟩ := bind_eq_ok hi
              exact valid_of_new hi
      | _ => cases ht

/-! ### a program -/

/-- `e0 = Entity(1, "cd", 2, 4, {"x", "yz"})`, `i0 = Intent(3)`, `il = [i0]`, `el = [e0]`,
`d0 = Datum("abcd", il, el)`, `d1 = Datum("abcd", None, el)`, `d2 = Datum("ab")`. -/
def exProgram : List Cmd :=
  [.entity 1 "cd".toList 2 4 (some ["x".toList, "yz".toList]), .intent 3, .intentList [0], .entityList [0],
    .datum "abcd".toList (some 0) (some 0), .datum "abcd".toList none (some 0), .datum "ab".toList none none]

/-- Iteration over sets in order of insertion. -/
def exOrder : SetOrder := ⟨fun _ l => l, fun _ l => List.Perm.refl l⟩

def exStore : Store := Store.empty.run exProgram

example : exStore.datum 0 = some ⟨"abcd".toList, [⟨3⟩], [⟨1, "cd".toList, 2, 4, ["x".toList, "yz".toList]⟩]⟩ := by
  decide

/-- The two data have different lists holding the same entity object. -/
example : entityRefs exStore 0 = [0] ∧ entityRefs exStore 1 = [0] ∧
    exStore.data[0]? = some ⟨"abcd".toList, 1, 1⟩ ∧ exStore.data[1]? = some ⟨"abcd".toList, 2, 2⟩ := by decide

/-- Assigning `e0.start = 1` changes both, and makes both invalid: their values are not the text there any more
(`C80_valid` cannot do without its hypothesis). -/
theorem C80_unchecked : ∃ cmds d D, (Store.empty.run cmds).datum d = some D ∧ ¬ Valid D :=
  ⟨exProgram ++ [.setEntity 0 (.start 1)], 1, ⟨"abcd".toList, [], [⟨1, "cd".toList, 1, 4, ["x".toList, "yz".toList]⟩]⟩,
    by decide, fun h => absurd (h.1 _ (List.mem_singleton.mpr rfl)) (by unfold Spec.ValueAt; decide)⟩

/-- `Datum(...)` checks what `d.utterance = ...` does not. -/
example : ((exStore.step (.setUtterance 0 "abXX".toList)).datum 0).map (·.utterance) = some "abXX".toList ∧
    Datum.new "abXX".toList none (some [⟨1, "cd".toList, 2, 4, []⟩]) = .error .entityPositionError := by decide

/-- The expansion of `d0`: two new data, made of new objects. -/
example : ∃ s', exStore.call (.expand exOrder 0 none false) = .ok (s', [3, 4]) ∧
    s'.datum 3 = some ⟨"abx".toList, [⟨3⟩], [⟨1, "x".toList, 2, 3, []⟩]⟩ ∧
    s'.datum 4 = some ⟨"abyz".toList, [⟨3⟩], [⟨1, "yz".toList, 2, 4, []⟩]⟩ ∧
    entityRefs s' 3 = [1] ∧ entityRefs s' 4 = [2] ∧ intentRefs s' 3 = [1] ∧ intentRefs s' 4 = [2] :=
  ⟨(exStore.step (.expand exOrder 0 none false)), by decide, by decide, by decide, by decide⟩

/-- The expansion of `d2`, which has no entities, is `d2` itself. -/
example : exStore.call (.expand exOrder 2 none false) = .ok (exStore, [2]) := by decide

/-- A case of `C80_frame`: changing `d1`'s list, utterance and entities leaves `d0` alone. -/
example : (exStore.run [.setEntityList 2 [], .setUtterance 1 [], .pack "ab".toList [1] [0, 1]]).datum 0 =
    exStore.datum 0 := by
  refine (C80_frame (D := ⟨"abcd".toList, [⟨3⟩], [⟨1, "cd".toList, 2, 4, ["x".toList, "yz".toList]⟩]⟩)
    (by decide) _ fun c hc o ho hp => ?_).1
  have h0 : exStore.data[0]? = some ⟨"abcd".toList, 1, 1⟩ := by decide
  rcases List.mem_cons.mp hc with rfl | hc
  · cases ho
    obtain ⟨x, h1, h2⟩ := hp
    rw [h0] at h1; cases h1; cases h2
  · rcases List.mem_cons.mp hc with rfl | hc
    · cases ho
      cases hp.1
    · cases List.mem_singleton.mp hc
      cases ho

/-- A case of `C80_datum`. -/
example : ∃ s' d, exStore.call (.datum "..cd".toList (some 0) (some 0)) = .ok (s', [d]) ∧
    (entityRefs s' d).Perm [0] := by
  obtain ⟨s', d, h1, -, -, -, -, -, -, h2⟩ := (C80_datum (s := exStore) (a := some 0) (b := some 0) (irefs := [0])
    (erefs := [0]) (is := [⟨3⟩]) (es := [⟨1, "cd".toList, 2, 4, ["x".toList, "yz".toList]⟩]) (by decide) (by decide)
    (by decide) (by decide) "..cd".toList).2 _ rfl
  exact ⟨s', d, h1, h2⟩

/-- A case of `C80_copy_intents`. -/
example : ∃ s', exStore.call (.copyIntents 0) = .ok (s', [4]) ∧ s'.intentLists[4]? = some [1] ∧
    s'.intents = [⟨3⟩, ⟨3⟩] :=
  ⟨exStore.step (.copyIntents 0), by decide, by decide, by decide⟩

/-- A case of `C80_expand_independent`: changing the first result leaves the second and `d0` alone. -/
example : let s' := exStore.step (.expand exOrder 0 none false)
    ∃ D, s'.datum 4 = some D ∧ (s'.run [.setEntity 1 (.label 9), .setUtterance 3 []]).datum 4 = some D := by
  intro s'
  refine (C80_expand_independent (s := exStore) (s' := s') (d := 0) (σ := exOrder) (sampling := none) (o := false)
    (rs := [3, 4]) (D := ⟨"abcd".toList, [⟨3⟩], [⟨1, "cd".toList, 2, 4, ["x".toList, "yz".toList]⟩]⟩) (by decide)
    (by decide) (by decide) (i := 0) (r := 3) rfl _ fun c hc x hx => Or.inl ?_).2 1 4 (by decide) rfl
  rcases List.mem_cons.mp hc with rfl | hc
  · cases hx
    exact ⟨⟨"abx".toList, 5, 5⟩, [1], by decide, by decide, by decide⟩
  · cases List.mem_singleton.mp hc
    cases hx
    exact ⟨rfl, by decide⟩

/-- A case of `C80_set_label`, `C80_set_intent_list` and `C80_set_datum`. -/
example : ((exStore.step (.setLabel 0 7)).datum 0).map (·.intents) = some [⟨7⟩] ∧
    ((exStore.step (.setIntentList 1 [0, 0])).datum 0).map (·.intents) = some [⟨3⟩, ⟨3⟩] ∧
    ((exStore.step (.setEntities 2 0)).datum 2).map (·.entities.length) = some 1 ∧
    exStore.call (.setLabel 0 (2 ^ 31)) = .error .overflowError := by decide

end Uttut.Objects
