import Verif.Spec.Objects
import Verif.Lemmas.Data
import Verif.Props.Ordinal

/-! Lemmas about the object store of `Model/Objects.lean`. -/

namespace Uttut.Objects

open Store

/-! ### `deref` -/

theorem deref_nil {α : Type} (objs : List α) : deref objs [] = some [] := rfl

theorem deref_cons {α : Type} (objs : List α) (r : Ref) (refs : List Ref) :
    deref objs (r :: refs) =
      (objs[r]?).bind fun a => (deref objs refs).map fun ps => (r, a) :: ps := by
  unfold deref
  rw [List.mapM_cons]
  cases objs[r]? with
  | none => rfl
  | some a =>
    cases (List.mapM (fun r => (objs[r]?).map fun a => (r, a)) refs) <;> rfl

theorem deref_some {α : Type} {objs : List α} {refs : List Ref} {ps : List (Ref × α)}
    (h : deref objs refs = some ps) : ps.map Prod.fst = refs ∧ ∀ p ∈ ps, objs[p.1]? = some p.2 := by
  induction refs generalizing ps with
  | nil => cases h; exact ⟨rfl, fun _ h => nomatch h⟩
  | cons r refs ih =>
    rw [deref_cons] at h
    cases ho : objs[r]? with
    | none => rw [ho] at h; cases h
    | some a =>
      cases hd : deref objs refs with
      | none => rw [ho, hd] at h; cases h
      | some qs =>
        rw [ho, hd] at h
        cases h
        obtain ⟨h1, h2⟩ := ih hd
        refine ⟨by rw [List.map_cons, h1], fun p hp => ?_⟩
        rcases List.mem_cons.mp hp with rfl | hp
        · exact ho
        · exact h2 p hp

theorem deref_of {α : Type} {objs : List α} (ps : List (Ref × α)) (h : ∀ p ∈ ps, objs[p.1]? = some p.2) :
    deref objs (ps.map Prod.fst) = some ps := by
  induction ps with
  | nil => rfl
  | cons p ps ih =>
    rw [List.map_cons, deref_cons, h p (List.mem_cons_self ..), ih fun q hq => h q (List.mem_cons_of_mem _ hq)]
    rfl

theorem deref_exists {α : Type} (objs : List α) (refs : List Ref) (h : ∀ r ∈ refs, r < objs.length) :
    ∃ ps, deref objs refs = some ps := by
  induction refs with
  | nil => exact ⟨[], rfl⟩
  | cons r refs ih =>
    obtain ⟨ps, hp⟩ := ih fun q hq => h q (List.mem_cons_of_mem _ hq)
    rw [deref_cons, List.getElem?_eq_getElem (h r (List.mem_cons_self ..)), hp]
    exact ⟨_, rfl⟩

theorem deref_lt {α : Type} {objs : List α} {refs : List Ref} {ps : List (Ref × α)}
    (h : deref objs refs = some ps) : ∀ r ∈ refs, r < objs.length := by
  obtain ⟨h1, h2⟩ := deref_some h
  intro r hr
  rw [← h1] at hr
  obtain ⟨p, hp, rfl⟩ := List.mem_map.mp hr
  exact (List.getElem?_eq_some_iff.mp (h2 p hp)).1

theorem deref_congr {α : Type} {objs objs' : List α} {refs : List Ref}
    (h : ∀ r ∈ refs, objs'[r]? = objs[r]?) : deref objs' refs = deref objs refs := by
  induction refs with
  | nil => rfl
  | cons r refs ih =>
    rw [deref_cons, deref_cons, h r (List.mem_cons_self ..), ih fun q hq => h q (List.mem_cons_of_mem _ hq)]

/-! ### reading a datum -/

theorem datum_some {s : Store} {d : Ref} {D : Datum} (h : s.datum d = some D) :
    ∃ o il el is es, s.data[d]? = some o ∧ s.intentLists[o.intents]? = some il ∧
      s.entityLists[o.entities]? = some el ∧ deref s.intents il = some is ∧ deref s.entities el = some es ∧
      D = ⟨o.utterance, is.map Prod.snd, es.map Prod.snd⟩ := by
  unfold Store.datum at h
  cases h1 : s.data[d]? with
  | none => rw [h1] at h; cases h
  | some o =>
    cases h2 : s.intentLists[o.intents]? with
    | none => simp [h1, h2] at h
    | some il =>
      cases h3 : deref s.intents il with
      | none => simp [h1, h2, h3] at h
      | some is =>
        cases h4 : s.entityLists[o.entities]? with
        | none => simp [h1, h2, h3, h4] at h
        | some el =>
          cases h5 : deref s.entities el with
          | none => simp [h1, h2, h3, h4, h5] at h
          | some es =>
            simp [h1, h2, h3, h4, h5] at h
            exact ⟨o, il, el, is, es, rfl, h2, h4, h3, h5, h.symm⟩

theorem datum_of {s : Store} {d : Ref} {o : DatumObj} {il el : List Ref} {is : List (Ref × Intent)}
    {es : List (Ref × Entity)} (h1 : s.data[d]? = some o) (h2 : s.intentLists[o.intents]? = some il)
    (h3 : s.entityLists[o.entities]? = some el) (h4 : deref s.intents il = some is)
    (h5 : deref s.entities el = some es) :
    s.datum d = some ⟨o.utterance, is.map Prod.snd, es.map Prod.snd⟩ := by
  unfold Store.datum
  simp [h1, h2, h3, h4, h5]

theorem partOf_exists {s : Store} {d : Ref} {D : Datum} (h : s.datum d = some D) {o : Obj}
    (ho : PartOf s d o) : Present s o := by
  obtain ⟨x, il, el, is, es, h1, h2, h3, h4, h5, _⟩ := datum_some h
  cases o with
  | datum r => exact ho.1 ▸ ho.2
  | intentList l =>
    obtain ⟨y, hy, rfl⟩ := ho
    rw [h1] at hy; cases hy
    exact (List.getElem?_eq_some_iff.mp h2).1
  | entityList l =>
    obtain ⟨y, hy, rfl⟩ := ho
    rw [h1] at hy; cases hy
    exact (List.getElem?_eq_some_iff.mp h3).1
  | intent i =>
    obtain ⟨y, l, hy, hl, hi⟩ := ho
    rw [h1] at hy; cases hy
    rw [h2] at hl; cases hl
    exact deref_lt h4 i hi
  | entity i =>
    obtain ⟨y, l, hy, hl, hi⟩ := ho
    rw [h1] at hy; cases hy
    rw [h3] at hl; cases hl
    exact deref_lt h5 i hi

theorem map_inj {α β : Type} {f : α → β} (hf : ∀ a b, f a = f b → a = b) {x y : Option α}
    (h : x.map f = y.map f) : x = y := by
  cases x <;> cases y <;> first | rfl | (cases h; done) | exact congrArg some (hf _ _ (Option.some.inj h))

theorem content_intent {s s' : Store} {i : Ref} (h : content s' (.intent i) = content s (.intent i)) :
    s'.intents[i]? = s.intents[i]? := by
  exact map_inj (fun _ _ k => by cases k; rfl) h

theorem content_entity {s s' : Store} {i : Ref} (h : content s' (.entity i) = content s (.entity i)) :
    s'.entities[i]? = s.entities[i]? := by
  exact map_inj (fun _ _ k => by cases k; rfl) h

theorem content_intentList {s s' : Store} {i : Ref}
    (h : content s' (.intentList i) = content s (.intentList i)) : s'.intentLists[i]? = s.intentLists[i]? := by
  exact map_inj (fun _ _ k => by cases k; rfl) h

theorem content_entityList {s s' : Store} {i : Ref}
    (h : content s' (.entityList i) = content s (.entityList i)) : s'.entityLists[i]? = s.entityLists[i]? := by
  exact map_inj (fun _ _ k => by cases k; rfl) h

theorem content_datum {s s' : Store} {i : Ref} (h : content s' (.datum i) = content s (.datum i)) :
    s'.data[i]? = s.data[i]? := by
  exact map_inj (fun _ _ k => by cases k; rfl) h

/-- A datum whose objects are all unchanged is unchanged, and consists of the same objects. -/
theorem datum_congr {s s' : Store} {d : Ref} {D : Datum} (h : s.datum d = some D)
    (hc : ∀ o, PartOf s d o → content s' o = content s o) :
    s'.datum d = some D ∧ ∀ o, PartOf s' d o ↔ PartOf s d o := by
  obtain ⟨x, il, el, is, es, h1, h2, h3, h4, h5, hD⟩ := datum_some h
  have hd : d < s.data.length := (List.getElem?_eq_some_iff.mp h1).1
  have k1 : s'.data[d]? = some x := (content_datum (hc (.datum d) ⟨rfl, hd⟩)).trans h1
  have k2 : s'.intentLists[x.intents]? = some il :=
    (content_intentList (hc (.intentList x.intents) ⟨x, h1, rfl⟩)).trans h2
  have k3 : s'.entityLists[x.entities]? = some el :=
    (content_entityList (hc (.entityList x.entities) ⟨x, h1, rfl⟩)).trans h3
  have k4 : deref s'.intents il = some is :=
    (deref_congr fun r hr => content_intent (hc (.intent r) ⟨x, il, h1, h2, hr⟩)).trans h4
  have k5 : deref s'.entities el = some es :=
    (deref_congr fun r hr => content_entity (hc (.entity r) ⟨x, el, h1, h3, hr⟩)).trans h5
  refine ⟨hD ▸ datum_of k1 k2 k3 k4 k5, fun o => ?_⟩
  have hd' : d < s'.data.length := (List.getElem?_eq_some_iff.mp k1).1
  cases o with
  | datum r => exact ⟨fun h => ⟨h.1, hd⟩, fun h => ⟨h.1, hd'⟩⟩
  | intentList l => unfold PartOf; rw [k1, h1]
  | entityList l => unfold PartOf; rw [k1, h1]
  | intent i =>
    unfold PartOf
    constructor
    · rintro ⟨y, l, hy, hl, hi⟩
      rw [k1] at hy; cases hy
      rw [k2] at hl; cases hl
      exact ⟨x, il, h1, h2, hi⟩
    · rintro ⟨y, l, hy, hl, hi⟩
      rw [h1] at hy; cases hy
      rw [h2] at hl; cases hl
      exact ⟨x, il, k1, k2, hi⟩
  | entity i =>
    unfold PartOf
    constructor
    · rintro ⟨y, l, hy, hl, hi⟩
      rw [k1] at hy; cases hy
      rw [k3] at hl; cases hl
      exact ⟨x, el, h1, h3, hi⟩
    · rintro ⟨y, l, hy, hl, hi⟩
      rw [h1] at hy; cases hy
      rw [h3] at hl; cases hl
      exact ⟨x, el, k1, k3, hi⟩

/-! ### growing stores -/

/-- Only new objects have been added. -/
structure Ext (s s' : Store) : Prop where
  intents : s.intents <+: s'.intents
  entities : s.entities <+: s'.entities
  intentLists : s.intentLists <+: s'.intentLists
  entityLists : s.entityLists <+: s'.entityLists
  data : s.data <+: s'.data

theorem Ext.refl (s : Store) : Ext s s := ⟨List.prefix_rfl, List.prefix_rfl, List.prefix_rfl, List.prefix_rfl, List.prefix_rfl⟩

theorem Ext.trans {s t u : Store} (h : Ext s t) (k : Ext t u) : Ext s u :=
  ⟨h.1.trans k.1, h.2.trans k.2, h.3.trans k.3, h.4.trans k.4, h.5.trans k.5⟩

theorem prefix_getElem? {α : Type} {l l' : List α} (h : l <+: l') {i : Nat} (hi : i < l.length) :
    l'[i]? = l[i]? := by
  obtain ⟨t, rfl⟩ := h
  rw [List.getElem?_append_left hi]

theorem Ext.content {s s' : Store} (h : Ext s s') {o : Obj} (ho : Present s o) :
    Objects.content s' o = Objects.content s o := by
  cases o with
  | intent i => unfold Objects.content; dsimp only; rw [prefix_getElem? h.1 ho]
  | entity i => unfold Objects.content; dsimp only; rw [prefix_getElem? h.2 ho]
  | intentList i => unfold Objects.content; dsimp only; rw [prefix_getElem? h.3 ho]
  | entityList i => unfold Objects.content; dsimp only; rw [prefix_getElem? h.4 ho]
  | datum i => unfold Objects.content; dsimp only; rw [prefix_getElem? h.5 ho]

theorem Ext.exists {s s' : Store} (h : Ext s s') {o : Obj} (ho : Present s o) : Present s' o := by
  cases o with
  | intent i => exact Nat.lt_of_lt_of_le ho h.1.length_le
  | entity i => exact Nat.lt_of_lt_of_le ho h.2.length_le
  | intentList i => exact Nat.lt_of_lt_of_le ho h.3.length_le
  | entityList i => exact Nat.lt_of_lt_of_le ho h.4.length_le
  | datum i => exact Nat.lt_of_lt_of_le ho h.5.length_le

theorem Ext.datum {s s' : Store} (h : Ext s s') {d : Ref} {D : Datum} (hd : s.datum d = some D) :
    s'.datum d = some D ∧ ∀ o, PartOf s' d o ↔ PartOf s d o :=
  datum_congr hd fun _ ho => h.content (partOf_exists hd ho)

/-! ### the constructor of data -/

theorem elems_eq {α : Type} {objs : List α} {lists : List (List Ref)} {a : Option Ref} {refs : List Ref}
    {ps : List (Ref × α)} (h : given lists a = some refs) (hp : deref objs refs = some ps) :
    elems objs lists a = .ok ps := by
  cases a with
  | none => cases h; cases hp; rfl
  | some l =>
    unfold elems
    dsimp only
    rw [show lists[l]? = some refs from h]
    show bound (deref objs refs) = _
    rw [hp]; rfl

theorem elems_ok {α : Type} {objs : List α} {lists : List (List Ref)} {a : Option Ref} {ps : List (Ref × α)}
    (h : elems objs lists a = .ok ps) : ∃ refs, given lists a = some refs ∧ deref objs refs = some ps := by
  cases a with
  | none => cases h; exact ⟨[], rfl, rfl⟩
  | some l =>
    unfold elems at h
    dsimp only at h
    cases h1 : lists[l]? with
    | none => rw [h1] at h; cases h
    | some refs =>
      rw [h1] at h
      change bound (deref objs refs) = _ at h
      cases h2 : deref objs refs with
      | none => rw [h2] at h; cases h
      | some qs => rw [h2] at h; cases h; exact ⟨refs, h1, h2⟩

/-- The store after `Datum(...)` succeeded. -/
def withDatum (s : Store) (u : Str) (is : List (Ref × Intent)) (es : List (Ref × Entity)) : Store :=
  { s with
    intentLists := s.intentLists ++ [(pySorted (fun p => p.2.hash) is).map Prod.fst]
    entityLists := s.entityLists ++ [(pySorted (fun p => p.2.start) es).map Prod.fst]
    data := s.data ++ [⟨u, s.intentLists.length, s.entityLists.length⟩] }

theorem newDatum_eq {s : Store} {u : Str} {a b : Option Ref} {is : List (Ref × Intent)}
    {es : List (Ref × Entity)} (ha : elems s.intents s.intentLists a = .ok is)
    (hb : elems s.entities s.entityLists b = .ok es) :
    s.newDatum u a b =
      (Datum.new u (some (is.map Prod.snd)) (some (es.map Prod.snd))).map
        fun _ => (withDatum s u is es, s.data.length) := by
  unfold Store.newDatum Datum.new
  rw [ha, hb]
  simp only [Except.bind_ok]
  rw [pySorted_map Prod.snd Entity.start es]
  cases checkPositions u ((pySorted (fun p => p.2.start) es).map Prod.snd) with
  | error e => rfl
  | ok x =>
    simp only [Except.bind_ok]
    cases checkOverlaps ((pySorted (fun p => p.2.start) es).map Prod.snd) with
    | error e => rfl
    | ok x => rfl

theorem withDatum_ext (s : Store) (u : Str) (is : List (Ref × Intent)) (es : List (Ref × Entity)) :
    Ext s (withDatum s u is es) :=
  ⟨List.prefix_rfl, List.prefix_rfl, List.prefix_append .., List.prefix_append .., List.prefix_append ..⟩

theorem withDatum_datum {s : Store} {u : Str} {is : List (Ref × Intent)} {es : List (Ref × Entity)}
    (hi : ∀ p ∈ is, s.intents[p.1]? = some p.2) (he : ∀ p ∈ es, s.entities[p.1]? = some p.2) {D : Datum}
    (hD : Datum.new u (some (is.map Prod.snd)) (some (es.map Prod.snd)) = .ok D) :
    (withDatum s u is es).datum s.data.length = some D := by
  obtain ⟨rfl, -⟩ := datum_new_cases _ _ _ _ hD
  rw [pySorted_map Prod.snd Entity.start es, pySorted_map Prod.snd Intent.hash is]
  exact datum_of (s := withDatum s u is es) (o := ⟨u, s.intentLists.length, s.entityLists.length⟩)
    (by simp [withDatum]) (by simp [withDatum]) (by simp [withDatum])
    (deref_of _ fun p hp => hi p (mem_pySorted.mp hp)) (deref_of _ fun p hp => he p (mem_pySorted.mp hp))

theorem withDatum_partOf {s : Store} {u : Str} {is : List (Ref × Intent)} {es : List (Ref × Entity)} (o : Obj) :
    PartOf (withDatum s u is es) s.data.length o ↔
      (match o with
        | .datum r => r = s.data.length
        | .intentList l => l = s.intentLists.length
        | .entityList l => l = s.entityLists.length
        | .intent i => i ∈ is.map Prod.fst
        | .entity e => e ∈ es.map Prod.fst) := by
  have k1 : (withDatum s u is es).data[s.data.length]? =
      some ⟨u, s.intentLists.length, s.entityLists.length⟩ := by simp [withDatum]
  have k2 : (withDatum s u is es).intentLists[s.intentLists.length]? =
      some ((pySorted (fun p => p.2.hash) is).map Prod.fst) := by simp [withDatum]
  have k3 : (withDatum s u is es).entityLists[s.entityLists.length]? =
      some ((pySorted (fun p => p.2.start) es).map Prod.fst) := by simp [withDatum]
  cases o with
  | datum r => exact ⟨fun h => h.1, fun h => ⟨h, by simp [withDatum]⟩⟩
  | intentList l =>
    unfold PartOf
    constructor
    · rintro ⟨y, hy, rfl⟩; rw [k1] at hy; cases hy; rfl
    · rintro rfl; exact ⟨_, k1, rfl⟩
  | entityList l =>
    unfold PartOf
    constructor
    · rintro ⟨y, hy, rfl⟩; rw [k1] at hy; cases hy; rfl
    · rintro rfl; exact ⟨_, k1, rfl⟩
  | intent i =>
    unfold PartOf
    constructor
    · rintro ⟨y, l, hy, hl, hi⟩
      rw [k1] at hy; cases hy
      rw [k2] at hl; cases hl
      exact ((pySorted_perm _ is).map Prod.fst).mem_iff.mp hi
    · intro hi
      exact ⟨_, _, k1, k2, ((pySorted_perm _ is).map Prod.fst).mem_iff.mpr hi⟩
  | entity i =>
    unfold PartOf
    constructor
    · rintro ⟨y, l, hy, hl, hi⟩
      rw [k1] at hy; cases hy
      rw [k3] at hl; cases hl
      exact ((pySorted_perm _ es).map Prod.fst).mem_iff.mp hi
    · intro hi
      exact ⟨_, _, k1, k3, ((pySorted_perm _ es).map Prod.fst).mem_iff.mpr hi⟩

/-! ### data built from new objects -/

theorem zip_range'_fst {α : Type} (n : Nat) (l : List α) :
    ((List.range' n l.length).zip l).map Prod.fst = List.range' n l.length :=
  List.map_fst_zip (by simp)

theorem zip_range'_snd {α : Type} (n : Nat) (l : List α) :
    ((List.range' n l.length).zip l).map Prod.snd = l :=
  List.map_snd_zip (by simp)

theorem zip_range'_at {α : Type} (pre l : List α) :
    ∀ p ∈ (List.range' pre.length l.length).zip l, (pre ++ l)[p.1]? = some p.2 := by
  induction l generalizing pre with
  | nil => intro p hp; cases hp
  | cons x xs ih =>
    intro p hp
    rw [List.length_cons, List.range'_succ, List.zip_cons_cons] at hp
    rcases List.mem_cons.mp hp with rfl | hp
    · simp
    · have := ih (pre ++ [x]) p (by simpa using hp)
      simpa using this

/-- The store `build` leaves behind. -/
def built (s : Store) (u : Str) (is : List Intent) (es : List Entity) : Store :=
  withDatum ((s.addIntents is).1.addEntities es).1 u ((List.range' s.intents.length is.length).zip is)
    ((List.range' s.entities.length es.length).zip es)

theorem build_eq (s : Store) (u : Str) (is : List Intent) (es : List Entity) :
    s.build u is es = (Datum.new u (some is) (some es)).map fun _ => (built s u is es, s.data.length) := by
  have h := newDatum_eq (s := ((s.addIntents is).1.addEntities es).1) (u := u) (a := some s.intentLists.length)
    (b := some s.entityLists.length) (is := (List.range' s.intents.length is.length).zip is)
    (es := (List.range' s.entities.length es.length).zip es)
    (elems_eq (refs := List.range' s.intents.length is.length)
      (by simp [given, Store.addIntents, Store.addEntities])
      (by
        have := deref_of (objs := s.intents ++ is) _ (zip_range'_at s.intents is)
        rw [zip_range'_fst] at this
        exact this))
    (elems_eq (refs := List.range' s.entities.length es.length)
      (by simp [given, Store.addIntents, Store.addEntities])
      (by
        have := deref_of (objs := s.entities ++ es) _ (zip_range'_at s.entities es)
        rw [zip_range'_fst] at this
        exact this))
  rw [zip_range'_snd, zip_range'_snd] at h
  exact h

theorem built_ext (s : Store) (u : Str) (is : List Intent) (es : List Entity) : Ext s (built s u is es) :=
  Ext.trans (t := ((s.addIntents is).1.addEntities es).1)
    ⟨List.prefix_append .., List.prefix_append .., List.prefix_append .., List.prefix_append .., List.prefix_rfl⟩
    (withDatum_ext _ _ _ _)

theorem built_datum {s : Store} {u : Str} {is : List Intent} {es : List Entity} {D : Datum}
    (hD : Datum.new u (some is) (some es) = .ok D) : (built s u is es).datum s.data.length = some D :=
  withDatum_datum (s := ((s.addIntents is).1.addEntities es).1) (zip_range'_at s.intents is)
    (zip_range'_at s.entities es) (by rw [zip_range'_snd, zip_range'_snd]; exact hD)

/-- Every object of a datum built from new objects is new. -/
theorem built_new (s : Store) (u : Str) (is : List Intent) (es : List Entity) (o : Obj)
    (h : PartOf (built s u is es) s.data.length o) : ¬ Present s o := by
  have h := (withDatum_partOf (s := ((s.addIntents is).1.addEntities es).1) o).mp h
  cases o with
  | datum r => cases h; exact Nat.lt_irrefl _
  | intentList l =>
    have h : @Eq Nat l (s.intentLists ++ [List.range' s.intents.length is.length]).length := h
    simp only [List.length_append, List.length_cons, List.length_nil] at h
    intro hx; change @LT.lt Nat _ _ _ at hx; omega
  | entityList l =>
    have h : @Eq Nat l (s.entityLists ++ [List.range' s.entities.length es.length]).length := h
    simp only [List.length_append, List.length_cons, List.length_nil] at h
    intro hx; change @LT.lt Nat _ _ _ at hx; omega
  | intent i =>
    change i ∈ ((List.range' s.intents.length is.length).zip is).map Prod.fst at h
    rw [zip_range'_fst, List.mem_range'_1] at h
    intro hx; change @LT.lt Nat _ _ _ at hx; omega
  | entity i =>
    change i ∈ ((List.range' s.entities.length es.length).zip es).map Prod.fst at h
    rw [zip_range'_fst, List.mem_range'_1] at h
    intro hx; change @LT.lt Nat _ _ _ at hx; omega

/-! ### expansion -/

theorem expandLoop_error (d : Datum) (parts : List (List Str)) (labels : List (Option Int)) (s : Store)
    (idxs : List Int) (e : Exc) (h : idxs.mapM (fun i => expandOne d parts labels i) = .error e) :
    Store.expandLoop d parts labels s idxs = .error e := by
  induction idxs generalizing s with
  | nil => cases h
  | cons i idxs ih =>
    rw [List.mapM_cons] at h
    have ih' := fun t => ih t
    generalize hm : idxs.mapM (fun i => expandOne d parts labels i) = m at h ih'
    unfold Store.expandLoop
    unfold expandOne at h
    cases h1 : getKthCombination parts i with
    | error e1 => rw [h1] at h; cases h; rfl
    | ok segments =>
      rw [h1] at h
      simp only [Except.bind_ok] at h ⊢
      cases h2 : aggregateEntities segments labels 0 with
      | error e1 => rw [h2] at h; cases h; rfl
      | ok es =>
        rw [h2] at h
        simp only [Except.bind_ok] at h ⊢
        cases h3 : d.copyIntents with
        | error e1 => rw [h3] at h; cases h; rfl
        | ok is =>
          rw [h3] at h
          simp only [Except.bind_ok] at h ⊢
          rw [build_eq]
          cases h4 : Datum.new segments.flatten (some is) (some es) with
          | error e1 => rw [h4] at h; cases h; rfl
          | ok D =>
            rw [h4] at h
            simp only [Except.bind_ok] at h
            simp only [Except.map, Except.bind_ok]
            cases m with
            | ok Ds => cases h
            | error e1 =>
              cases h
              rw [ih' _ rfl]
              rfl

theorem expandLoop_ok (d : Datum) (parts : List (List Str)) (labels : List (Option Int)) (s : Store)
    (idxs : List Int) (Ds : List Datum) (h : idxs.mapM (fun i => expandOne d parts labels i) = .ok Ds) :
    ∃ s' rs, Store.expandLoop d parts labels s idxs = .ok (s', rs) ∧ Ext s s' ∧
      rs.map s'.datum = Ds.map some ∧ (∀ r ∈ rs, ∀ o, PartOf s' r o → ¬ Present s o) ∧
      rs.Pairwise (Apart s') ∧ rs = List.range' s.data.length Ds.length ∧
      s'.data.length = s.data.length + Ds.length := by
  induction idxs generalizing s Ds with
  | nil =>
    cases h
    exact ⟨s, [], rfl, Ext.refl s, rfl, fun _ h => (nomatch h), List.Pairwise.nil, rfl, rfl⟩
  | cons i idxs ih =>
    rw [List.mapM_cons] at h
    unfold Store.expandLoop
    obtain ⟨D, h1, h⟩ := bind_eq_ok h
    obtain ⟨Ds', h5, h⟩ := bind_eq_ok h
    cases h
    unfold expandOne at h1
    obtain ⟨segments, k1, h1⟩ := bind_eq_ok h1
    obtain ⟨es, k2, h1⟩ := bind_eq_ok h1
    obtain ⟨is, k3, h1⟩ := bind_eq_ok h1
    rw [k1]
    simp only [Except.bind_ok]
    rw [k2]
    simp only [Except.bind_ok]
    rw [k3]
    simp only [Except.bind_ok]
    rw [build_eq, h1]
    simp only [Except.map, Except.bind_ok]
    obtain ⟨s', rs, m1, m2, m3, m4, m5, m6, m7⟩ := ih (built s segments.flatten is es) Ds' h5
    rw [m1]
    have hd := m2.datum (built_datum (s := s) h1)
    have hl : (built s segments.flatten is es).data.length = s.data.length + 1 := by
      simp [built, withDatum, Store.addIntents, Store.addEntities]
    refine ⟨s', _, rfl, (built_ext _ _ _ _).trans m2, ?_, ?_, ?_, ?_, ?_⟩
    · rw [List.map_cons, List.map_cons, m3, hd.1]
    · intro r hr o ho
      rcases List.mem_cons.mp hr with rfl | hr
      · exact built_new _ _ _ _ o ((hd.2 o).mp ho)
      · exact fun hx => m4 r hr o ho ((built_ext _ _ _ _).exists hx)
    · refine List.pairwise_cons.mpr ⟨fun r hr o ho ho' => ?_, m5⟩
      exact m4 r hr o ho' (partOf_exists (built_datum (s := s) h1) ((hd.2 o).mp ho))
    · rw [m6, hl, List.length_cons, List.range'_succ]
    · rw [m7, hl, List.length_cons]; omega

theorem expand_noEntities {σ : SetOrder} {s : Store} {r : Ref} {D : Datum} {sampling : Option (Nat → List Int)}
    {o : Bool} (hD : s.datum r = some D) (h : D.entities = []) :
    s.expand σ r sampling o = .ok (s, [r]) := by
  unfold Store.expand
  rw [hD]
  simp only [bound, Except.bind_ok]
  rw [if_pos (by simp [Datum.hasEntities, h])]

theorem expand_error {σ : SetOrder} {s : Store} {r : Ref} {D : Datum} {sampling : Option (Nat → List Int)}
    {o : Bool} {e : Exc} (hD : s.datum r = some D) (h : expandByEntities σ D sampling o = .error e) :
    s.expand σ r sampling o = .error e := by
  unfold Store.expand
  unfold expandByEntities at h
  rw [hD]
  simp only [bound, Except.bind_ok]
  by_cases hE : D.hasEntities = false
  · rw [if_pos hE] at h; cases h
  · rw [if_neg hE] at h ⊢
    exact expandLoop_error _ _ _ _ _ _ h

theorem expand_ok {σ : SetOrder} {s : Store} {r : Ref} {D : Datum} {sampling : Option (Nat → List Int)}
    {o : Bool} {Ds : List Datum} (hD : s.datum r = some D) (hne : D.entities ≠ [])
    (h : expandByEntities σ D sampling o = .ok Ds) :
    ∃ s' rs, s.expand σ r sampling o = .ok (s', rs) ∧ Ext s s' ∧
      rs.map s'.datum = Ds.map some ∧ (∀ r ∈ rs, ∀ o, PartOf s' r o → ¬ Present s o) ∧
      rs.Pairwise (Apart s') ∧ rs = List.range' s.data.length Ds.length ∧
      s'.data.length = s.data.length + Ds.length := by
  unfold Store.expand
  unfold expandByEntities at h
  rw [hD]
  simp only [bound, Except.bind_ok]
  have hE : ¬ D.hasEntities = false := by
    unfold Datum.hasEntities
    cases he : D.entities with
    | nil => exact absurd he hne
    | cons e es => simp
  rw [if_neg hE] at h ⊢
  exact expandLoop_ok _ _ _ _ _ _ h

theorem pack_error {s : Store} {u : Str} {is es : List Int} {e : Exc} (h : packToDatum u is es = .error e) :
    s.pack u is es = .error e := by
  unfold packToDatum at h
  unfold Store.pack
  by_cases hl : u.length ≠ es.length
  · rw [if_pos hl] at h ⊢; cases h; rfl
  · rw [if_neg hl] at h ⊢
    cases h1 : (pySorted (fun i => i) (pyDedup is)).mapM Intent.new with
    | error e1 => rw [h1] at h; cases h; rfl
    | ok is' =>
      rw [h1] at h
      simp only [Except.bind_ok] at h ⊢
      cases h2 : getMeaningfulStartIndices es with
      | error e1 => rw [h2] at h; cases h; rfl
      | ok a =>
        rw [h2] at h
        simp only [Except.bind_ok] at h ⊢
        cases h3 : getMeaningfulStartIndices es.reverse with
        | error e1 => rw [h3] at h; cases h; rfl
        | ok b =>
          rw [h3] at h
          simp only [Except.bind_ok] at h ⊢
          cases h4 : packEntities u es (a.zip b.reverse) with
          | error e1 => rw [h4] at h; cases h; rfl
          | ok es' =>
            rw [h4] at h
            simp only [Except.bind_ok] at h ⊢
            rw [build_eq, h]
            rfl

theorem pack_ok {s : Store} {u : Str} {is es : List Int} {D : Datum} (h : packToDatum u is es = .ok D) :
    ∃ is' es', Datum.new u (some is') (some es') = .ok D ∧
      s.pack u is es = .ok (built s u is' es', s.data.length) := by
  unfold packToDatum at h
  unfold Store.pack
  by_cases hl : u.length ≠ es.length
  · rw [if_pos hl] at h; cases h
  · rw [if_neg hl] at h ⊢
    obtain ⟨is', h1, h⟩ := bind_eq_ok h
    obtain ⟨a, h2, h⟩ := bind_eq_ok h
    obtain ⟨b, h3, h⟩ := bind_eq_ok h
    obtain ⟨es', h4, h⟩ := bind_eq_ok h
    refine ⟨is', es', h, ?_⟩
    rw [h1]
    simp only [Except.bind_ok]
    rw [h2]
    simp only [Except.bind_ok]
    rw [h3]
    simp only [Except.bind_ok]
    rw [h4]
    simp only [Except.bind_ok]
    rw [build_eq, h]
    rfl

/-! ### commands -/

/-- Where a successful expansion comes from. -/
theorem expand_cases {σ : SetOrder} {s s' : Store} {r : Ref} {sampling : Option (Nat → List Int)} {o : Bool}
    {rs : List Ref} (h : s.expand σ r sampling o = .ok (s', rs)) :
    ∃ D, s.datum r = some D ∧ (D.entities = [] ∧ s' = s ∧ rs = [r] ∨
      D.entities ≠ [] ∧ ∃ Ds, expandByEntities σ D sampling o = .ok Ds) := by
  cases hD : s.datum r with
  | none => unfold Store.expand at h; rw [hD] at h; cases h
  | some D =>
    refine ⟨D, rfl, ?_⟩
    by_cases hE : D.entities = []
    · rw [expand_noEntities hD hE] at h
      cases h
      exact Or.inl ⟨hE, rfl, rfl⟩
    · refine Or.inr ⟨hE, ?_⟩
      cases hx : expandByEntities σ D sampling o with
      | ok Ds => exact ⟨Ds, rfl⟩
      | error e => rw [expand_error hD hx] at h; cases h

theorem expand_ext {σ : SetOrder} {s s' : Store} {r : Ref} {sampling : Option (Nat → List Int)} {o : Bool}
    {rs : List Ref} (h : s.expand σ r sampling o = .ok (s', rs)) : Ext s s' := by
  obtain ⟨D, hD, ⟨hE, rfl, rfl⟩ | ⟨hE, Ds, hx⟩⟩ := expand_cases h
  · exact Ext.refl s'
  · obtain ⟨t, qs, k, ke, -⟩ := expand_ok hD hE hx
    rw [h] at k; cases k
    exact ke

theorem newDatum_cases {s s' : Store} {u : Str} {a b : Option Ref} {r : Ref}
    (h : s.newDatum u a b = .ok (s', r)) :
    ∃ irefs erefs is es D, given s.intentLists a = some irefs ∧ given s.entityLists b = some erefs ∧
      deref s.intents irefs = some is ∧ deref s.entities erefs = some es ∧
      Datum.new u (some (is.map Prod.snd)) (some (es.map Prod.snd)) = .ok D ∧
      s' = withDatum s u is es ∧ r = s.data.length := by
  have h0 := h
  unfold Store.newDatum at h
  obtain ⟨is, h1, h⟩ := bind_eq_ok h
  obtain ⟨es, h2, h⟩ := bind_eq_ok h
  obtain ⟨irefs, i1, i2⟩ := elems_ok h1
  obtain ⟨erefs, e1, e2⟩ := elems_ok h2
  rw [newDatum_eq h1 h2] at h0
  cases hD : Datum.new u (some (is.map Prod.snd)) (some (es.map Prod.snd)) with
  | error e => rw [hD] at h0; cases h0
  | ok D =>
    rw [hD] at h0
    cases h0
    exact ⟨irefs, erefs, is, es, D, i1, e1, i2, e2, hD, rfl, rfl⟩

theorem pack_cases {s s' : Store} {u : Str} {is es : List Int} {r : Ref}
    (h : s.pack u is es = .ok (s', r)) :
    ∃ D is' es', packToDatum u is es = .ok D ∧ Datum.new u (some is') (some es') = .ok D ∧
      s' = built s u is' es' ∧ r = s.data.length := by
  cases hp : packToDatum u is es with
  | error e => rw [pack_error hp] at h; cases h
  | ok D =>
    obtain ⟨is', es', h1, h2⟩ := pack_ok (s := s) hp
    rw [h] at h2
    cases h2
    exact ⟨D, is', es', rfl, h1, rfl, rfl⟩

/-- Commands without target only add objects. -/
theorem call_ext {s s' : Store} {c : Cmd} {rs : List Ref} (ht : target c = none)
    (h : s.call c = .ok (s', rs)) : Ext s s' := by
  cases c with
  | intent label =>
    obtain ⟨i, -, h⟩ := bind_eq_ok h
    cases h
    exact ⟨List.prefix_append .., List.prefix_rfl, List.prefix_rfl, List.prefix_rfl, List.prefix_rfl⟩
  | entity =>
    obtain ⟨i, -, h⟩ := bind_eq_ok h
    cases h
    exact ⟨List.prefix_rfl, List.prefix_append .., List.prefix_rfl, List.prefix_rfl, List.prefix_rfl⟩
  | intentList =>
    obtain ⟨i, -, h⟩ := bind_eq_ok h
    cases h
    exact ⟨List.prefix_rfl, List.prefix_rfl, List.prefix_append .., List.prefix_rfl, List.prefix_rfl⟩
  | entityList =>
    obtain ⟨i, -, h⟩ := bind_eq_ok h
    cases h
    exact ⟨List.prefix_rfl, List.prefix_rfl, List.prefix_rfl, List.prefix_append .., List.prefix_rfl⟩
  | datum u a b =>
    obtain ⟨⟨t, r⟩, h1, h⟩ := bind_eq_ok h
    cases h
    obtain ⟨_, _, is, es, _, -, -, -, -, -, rfl, -⟩ := newDatum_cases h1
    exact withDatum_ext _ _ _ _
  | copyIntents d =>
    obtain ⟨⟨t, r⟩, h1, h⟩ := bind_eq_ok h
    cases h
    unfold Store.copyIntents at h1
    obtain ⟨D, -, h1⟩ := bind_eq_ok h1
    obtain ⟨is, -, h1⟩ := bind_eq_ok h1
    cases h1
    exact ⟨List.prefix_append .., List.prefix_rfl, List.prefix_append .., List.prefix_rfl, List.prefix_rfl⟩
  | expand σ d sampling o => exact expand_ext h
  | pack u is es =>
    obtain ⟨⟨t, r⟩, h1, h⟩ := bind_eq_ok h
    cases h
    obtain ⟨D, is', es', -, -, rfl, -⟩ := pack_cases h1
    exact built_ext _ _ _ _
  | _ => cases ht

theorem getElem?_set_other {α : Type} (l : List α) {i j : Nat} (x : α) (h : i ≠ j) :
    (l.set i x)[j]? = l[j]? := List.getElem?_set_ne h

/-- A command leaves every object as it was, except its target. -/
theorem call_content {s s' : Store} {c : Cmd} {rs : List Ref} (h : s.call c = .ok (s', rs)) {o : Obj}
    (ht : target c ≠ some o) (ho : Present s o) : content s' o = content s o ∧ Present s' o := by
  by_cases hn : target c = none
  · exact ⟨(call_ext hn h).content ho, (call_ext hn h).exists ho⟩
  · have key : ∀ {α : Type} (l : List α) (i : Ref) (x : α), (l.set i x).length = l.length :=
      fun l i x => List.length_set
    cases c with
    | setLabel i label =>
      obtain ⟨_, -, h⟩ := bind_eq_ok h
      obtain ⟨_, -, h⟩ := bind_eq_ok h
      cases h
      cases o with
      | intent j =>
        have hij : i ≠ j := fun e => ht (by rw [e]; rfl)
        refine ⟨?_, ?_⟩
        · unfold content; dsimp only; rw [getElem?_set_other _ _ hij]
        · exact Nat.lt_of_lt_of_eq ho (key _ _ _).symm
      | _ => exact ⟨rfl, ho⟩
    | setEntity i a =>
      obtain ⟨_, -, h⟩ := bind_eq_ok h
      obtain ⟨_, -, h⟩ := bind_eq_ok h
      cases h
      cases o with
      | entity j =>
        have hij : i ≠ j := fun e => ht (by rw [e]; rfl)
        refine ⟨?_, ?_⟩
        · unfold content; dsimp only; rw [getElem?_set_other _ _ hij]
        · exact Nat.lt_of_lt_of_eq ho (key _ _ _).symm
      | _ => exact ⟨rfl, ho⟩
    | setIntentList i a =>
      obtain ⟨_, -, h⟩ := bind_eq_ok h
      obtain ⟨_, -, h⟩ := bind_eq_ok h
      cases h
      cases o with
      | intentList j =>
        have hij : i ≠ j := fun e => ht (by rw [e]; rfl)
        refine ⟨?_, ?_⟩
        · unfold content; dsimp only; rw [getElem?_set_other _ _ hij]
        · exact Nat.lt_of_lt_of_eq ho (key _ _ _).symm
      | _ => exact ⟨rfl, ho⟩
    | setEntityList i a =>
      obtain ⟨_, -, h⟩ := bind_eq_ok h
      obtain ⟨_, -, h⟩ := bind_eq_ok h
      cases h
      cases o with
      | entityList j =>
        have hij : i ≠ j := fun e => ht (by rw [e]; rfl)
        refine ⟨?_, ?_⟩
        · unfold content; dsimp only; rw [getElem?_set_other _ _ hij]
        · exact Nat.lt_of_lt_of_eq ho (key _ _ _).symm
      | _ => exact ⟨rfl, ho⟩
    | setUtterance i u =>
      obtain ⟨_, -, h⟩ := bind_eq_ok h
      cases h
      cases o with
      | datum j =>
        have hij : i ≠ j := fun e => ht (by rw [e]; rfl)
        refine ⟨?_, ?_⟩
        · unfold content; dsimp only; rw [getElem?_set_other _ _ hij]
        · exact Nat.lt_of_lt_of_eq ho (key _ _ _).symm
      | _ => exact ⟨rfl, ho⟩
    | setIntents i l =>
      obtain ⟨_, -, h⟩ := bind_eq_ok h
      obtain ⟨_, -, h⟩ := bind_eq_ok h
      cases h
      cases o with
      | datum j =>
        have hij : i ≠ j := fun e => ht (by rw [e]; rfl)
        refine ⟨?_, ?_⟩
        · unfold content; dsimp only; rw [getElem?_set_other _ _ hij]
        · exact Nat.lt_of_lt_of_eq ho (key _ _ _).symm
      | _ => exact ⟨rfl, ho⟩
    | setEntities i l =>
      obtain ⟨_, -, h⟩ := bind_eq_ok h
      obtain ⟨_, -, h⟩ := bind_eq_ok h
      cases h
      cases o with
      | datum j =>
        have hij : i ≠ j := fun e => ht (by rw [e]; rfl)
        refine ⟨?_, ?_⟩
        · unfold content; dsimp only; rw [getElem?_set_other _ _ hij]
        · exact Nat.lt_of_lt_of_eq ho (key _ _ _).symm
      | _ => exact ⟨rfl, ho⟩
    | _ => exact absurd rfl hn

theorem step_content {s : Store} {c : Cmd} {o : Obj} (ht : target c ≠ some o) (ho : Present s o) :
    content (s.step c) o = content s o ∧ Present (s.step c) o := by
  unfold Store.step
  cases h : s.call c with
  | error e => exact ⟨rfl, ho⟩
  | ok p => exact call_content h ht ho

/-! ### references to existing objects -/

/-- Every reference leads to an object. -/
structure Closed (s : Store) : Prop where
  intents : ∀ l ∈ s.intentLists, ∀ r ∈ l, r < s.intents.length
  entities : ∀ l ∈ s.entityLists, ∀ r ∈ l, r < s.entities.length
  data : ∀ o ∈ s.data, o.intents < s.intentLists.length ∧ o.entities < s.entityLists.length

theorem closed_empty : Closed Store.empty :=
  ⟨fun _ h => (nomatch h), fun _ h => (nomatch h), fun _ h => (nomatch h)⟩

theorem closed_datum {s : Store} (h : Closed s) {d : Ref} (hd : d < s.data.length) :
    ∃ D, s.datum d = some D := by
  have h1 := List.getElem?_eq_getElem hd
  obtain ⟨k1, k2⟩ := h.data _ (List.getElem_mem hd)
  have h2 := List.getElem?_eq_getElem k1
  have h3 := List.getElem?_eq_getElem k2
  obtain ⟨is, h4⟩ := deref_exists s.intents _ (h.intents _ (List.getElem_mem k1))
  obtain ⟨es, h5⟩ := deref_exists s.entities _ (h.entities _ (List.getElem_mem k2))
  exact ⟨_, datum_of h1 h2 h3 h4 h5⟩

theorem closed_withDatum {s : Store} (h : Closed s) {u : Str} {is : List (Ref × Intent)}
    {es : List (Ref × Entity)} (hi : ∀ p ∈ is, s.intents[p.1]? = some p.2)
    (he : ∀ p ∈ es, s.entities[p.1]? = some p.2) : Closed (withDatum s u is es) := by
  refine ⟨fun l hl r hr => ?_, fun l hl r hr => ?_, fun o ho => ?_⟩
  · rcases List.mem_append.mp hl with hl | hl
    · exact h.intents l hl r hr
    · cases List.mem_singleton.mp hl
      obtain ⟨p, hp, rfl⟩ := List.mem_map.mp hr
      exact (List.getElem?_eq_some_iff.mp (hi p (mem_pySorted.mp hp))).1
  · rcases List.mem_append.mp hl with hl | hl
    · exact h.entities l hl r hr
    · cases List.mem_singleton.mp hl
      obtain ⟨p, hp, rfl⟩ := List.mem_map.mp hr
      exact (List.getElem?_eq_some_iff.mp (he p (mem_pySorted.mp hp))).1
  · show o.intents < (s.intentLists ++ _).length ∧ o.entities < (s.entityLists ++ _).length
    simp only [List.length_append, List.length_cons, List.length_nil]
    rcases List.mem_append.mp ho with ho | ho
    · exact ⟨Nat.lt_succ_of_lt (h.data o ho).1, Nat.lt_succ_of_lt (h.data o ho).2⟩
    · cases List.mem_singleton.mp ho
      exact ⟨Nat.lt_succ_self _, Nat.lt_succ_self _⟩

theorem closed_addIntents {s : Store} (h : Closed s) (is : List Intent) : Closed (s.addIntents is).1 := by
  refine ⟨fun l hl r hr => ?_, h.entities, fun o ho => ?_⟩
  · show r < (s.intents ++ is).length
    rw [List.length_append]
    rcases List.mem_append.mp hl with hl | hl
    · exact Nat.lt_add_right _ (h.intents l hl r hr)
    · cases List.mem_singleton.mp hl
      exact (List.mem_range'_1.mp hr).2
  · show o.intents < (s.intentLists ++ _).length ∧ _
    simp only [List.length_append, List.length_cons, List.length_nil]
    exact ⟨Nat.lt_succ_of_lt (h.data o ho).1, (h.data o ho).2⟩

theorem closed_addEntities {s : Store} (h : Closed s) (es : List Entity) : Closed (s.addEntities es).1 := by
  refine ⟨h.intents, fun l hl r hr => ?_, fun o ho => ?_⟩
  · show r < (s.entities ++ es).length
    rw [List.length_append]
    rcases List.mem_append.mp hl with hl | hl
    · exact Nat.lt_add_right _ (h.entities l hl r hr)
    · cases List.mem_singleton.mp hl
      exact (List.mem_range'_1.mp hr).2
  · show _ ∧ o.entities < (s.entityLists ++ _).length
    simp only [List.length_append, List.length_cons, List.length_nil]
    exact ⟨(h.data o ho).1, Nat.lt_succ_of_lt (h.data o ho).2⟩

theorem closed_built {s : Store} (h : Closed s) (u : Str) (is : List Intent) (es : List Entity) :
    Closed (built s u is es) :=
  closed_withDatum (closed_addEntities (closed_addIntents h is) es) (zip_range'_at s.intents is)
    (zip_range'_at s.entities es)

theorem closed_expandLoop {d : Datum} {parts : List (List Str)} {labels : List (Option Int)} {idxs : List Int}
    {s s' : Store} {rs : List Ref} (hs : Closed s)
    (h : Store.expandLoop d parts labels s idxs = .ok (s', rs)) : Closed s' := by
  induction idxs generalizing s s' rs with
  | nil => cases h; exact hs
  | cons i idxs ih =>
    unfold Store.expandLoop at h
    obtain ⟨segments, -, h⟩ := bind_eq_ok h
    obtain ⟨es, -, h⟩ := bind_eq_ok h
    obtain ⟨is, -, h⟩ := bind_eq_ok h
    obtain ⟨⟨t, r⟩, h1, h⟩ := bind_eq_ok h
    obtain ⟨⟨t', qs⟩, h2, h⟩ := bind_eq_ok h
    cases h
    rw [build_eq] at h1
    cases hD : Datum.new segments.flatten (some is) (some es) with
    | error e => rw [hD] at h1; cases h1
    | ok D =>
      rw [hD] at h1
      cases h1
      exact ih (closed_built hs _ _ _) h2

theorem mem_set {α : Type} {l : List α} {i : Nat} {a x : α} (h : x ∈ l.set i a) : x ∈ l ∨ x = a :=
  List.mem_or_eq_of_mem_set h

theorem bound_ok {α : Type} {o : Option α} {a : α} (h : bound o = .ok a) : o = some a := by
  cases o <;> cases h
  rfl

theorem closed_call {s s' : Store} {c : Cmd} {rs : List Ref} (hs : Closed s)
    (h : s.call c = .ok (s', rs)) : Closed s' := by
  cases c with
  | intent label =>
    obtain ⟨i, -, h⟩ := bind_eq_ok h
    cases h
    refine ⟨fun l hl r hr => ?_, hs.entities, hs.data⟩
    show r < (s.intents ++ [i]).length
    rw [List.length_append]
    exact Nat.lt_add_right _ (hs.intents l hl r hr)
  | entity =>
    obtain ⟨i, -, h⟩ := bind_eq_ok h
    cases h
    refine ⟨hs.intents, fun l hl r hr => ?_, hs.data⟩
    show r < (s.entities ++ [i]).length
    rw [List.length_append]
    exact Nat.lt_add_right _ (hs.entities l hl r hr)
  | intentList refs =>
    obtain ⟨i, h1, h⟩ := bind_eq_ok h
    cases h
    refine ⟨fun l hl r hr => ?_, hs.entities, fun o ho => ?_⟩
    · rcases List.mem_append.mp hl with hl | hl
      · exact hs.intents l hl r hr
      · cases List.mem_singleton.mp hl
        exact deref_lt (bound_ok h1) r hr
    · refine ⟨?_, (hs.data o ho).2⟩
      show o.intents < (s.intentLists ++ _).length
      rw [List.length_append]
      exact Nat.lt_add_right _ (hs.data o ho).1
  | entityList refs =>
    obtain ⟨i, h1, h⟩ := bind_eq_ok h
    cases h
    refine ⟨hs.intents, fun l hl r hr => ?_, fun o ho => ?_⟩
    · rcases List.mem_append.mp hl with hl | hl
      · exact hs.entities l hl r hr
      · cases List.mem_singleton.mp hl
        exact deref_lt (bound_ok h1) r hr
    · refine ⟨(hs.data o ho).1, ?_⟩
      show o.entities < (s.entityLists ++ _).length
      rw [List.length_append]
      exact Nat.lt_add_right _ (hs.data o ho).2
  | datum u a b =>
    obtain ⟨⟨t, r⟩, h1, h⟩ := bind_eq_ok h
    cases h
    obtain ⟨_, _, is, es, _, -, -, h4, h5, -, rfl, -⟩ := newDatum_cases h1
    exact closed_withDatum hs (deref_some h4).2 (deref_some h5).2
  | copyIntents d =>
    obtain ⟨⟨t, r⟩, h1, h⟩ := bind_eq_ok h
    cases h
    unfold Store.copyIntents at h1
    obtain ⟨D, -, h1⟩ := bind_eq_ok h1
    obtain ⟨is, -, h1⟩ := bind_eq_ok h1
    cases h1
    exact closed_addIntents hs is
  | expand σ d sampling o =>
    change s.expand σ d sampling o = _ at h
    unfold Store.expand at h
    obtain ⟨D, -, h⟩ := bind_eq_ok h
    split at h
    · cases h; exact hs
    · exact closed_expandLoop hs h
  | pack u is es =>
    obtain ⟨⟨t, r⟩, h1, h⟩ := bind_eq_ok h
    cases h
    obtain ⟨D, is', es', -, -, rfl, -⟩ := pack_cases h1
    exact closed_built hs _ _ _
  | setLabel i label =>
    obtain ⟨_, -, h⟩ := bind_eq_ok h
    obtain ⟨_, -, h⟩ := bind_eq_ok h
    cases h
    refine ⟨fun l hl r hr => ?_, hs.entities, hs.data⟩
    show r < (s.intents.set i _).length
    rw [List.length_set]
    exact hs.intents l hl r hr
  | setEntity i a =>
    obtain ⟨_, -, h⟩ := bind_eq_ok h
    obtain ⟨_, -, h⟩ := bind_eq_ok h
    cases h
    refine ⟨hs.intents, fun l hl r hr => ?_, hs.data⟩
    show r < (s.entities.set i _).length
    rw [List.length_set]
    exact hs.entities l hl r hr
  | setIntentList i refs =>
    obtain ⟨_, -, h⟩ := bind_eq_ok h
    obtain ⟨_, h1, h⟩ := bind_eq_ok h
    cases h
    refine ⟨fun l hl r hr => ?_, hs.entities, fun o ho => ?_⟩
    · rcases mem_set hl with hl | rfl
      · exact hs.intents l hl r hr
      · exact deref_lt (bound_ok h1) r hr
    · show o.intents < (s.intentLists.set i refs).length ∧ _
      rw [List.length_set]
      exact hs.data o ho
  | setEntityList i refs =>
    obtain ⟨_, -, h⟩ := bind_eq_ok h
    obtain ⟨_, h1, h⟩ := bind_eq_ok h
    cases h
    refine ⟨hs.intents, fun l hl r hr => ?_, fun o ho => ?_⟩
    · rcases mem_set hl with hl | rfl
      · exact hs.entities l hl r hr
      · exact deref_lt (bound_ok h1) r hr
    · show _ ∧ o.entities < (s.entityLists.set i refs).length
      rw [List.length_set]
      exact hs.data o ho
  | setUtterance i u =>
    obtain ⟨x, h1, h⟩ := bind_eq_ok h
    cases h
    refine ⟨hs.intents, hs.entities, fun o ho => ?_⟩
    have hx := hs.data x (List.mem_of_getElem? (bound_ok h1))
    rcases mem_set ho with ho | rfl
    · exact hs.data o ho
    · exact hx
  | setIntents i l =>
    obtain ⟨x, h1, h⟩ := bind_eq_ok h
    obtain ⟨y, h2, h⟩ := bind_eq_ok h
    cases h
    refine ⟨hs.intents, hs.entities, fun o ho => ?_⟩
    have hx := hs.data x (List.mem_of_getElem? (bound_ok h1))
    rcases mem_set ho with ho | rfl
    · exact hs.data o ho
    · exact ⟨(List.getElem?_eq_some_iff.mp (bound_ok h2)).1, hx.2⟩
  | setEntities i l =>
    obtain ⟨x, h1, h⟩ := bind_eq_ok h
    obtain ⟨y, h2, h⟩ := bind_eq_ok h
    cases h
    refine ⟨hs.intents, hs.entities, fun o ho => ?_⟩
    have hx := hs.data x (List.mem_of_getElem? (bound_ok h1))
    rcases mem_set ho with ho | rfl
    · exact hs.data o ho
    · exact ⟨hx.1, (List.getElem?_eq_some_iff.mp (bound_ok h2)).1⟩

theorem closed_run {s : Store} (hs : Closed s) (cmds : List Cmd) : Closed (s.run cmds) := by
  induction cmds generalizing s with
  | nil => exact hs
  | cons c cmds ih =>
    refine ih (s := s.step c) ?_
    unfold Store.step
    cases h : s.call c with
    | error e => exact hs
    | ok p => exact closed_call hs h

end Uttut.Objects
