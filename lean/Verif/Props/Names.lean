import Verif.Spec.Names
import Verif.Props.Ordinal
import Verif.Props.Recover

/-!
C81: data described by names: from raw dictionaries to labels, through pipes and back to names.
-/

namespace Uttut

open Spec OrdinalLabel

theorem mapM_ok_iff {α β : Type} (f : α → Res β) (l : List α) (ys : List β) :
    l.mapM f = .ok ys ↔ List.Forall₂ (fun x y => f x = .ok y) l ys := by
  induction l generalizing ys with
  | nil =>
    constructor
    · intro h
      have h : Except.ok [] = (Except.ok ys : Res (List β)) := h
      injection h with h
      subst h
      exact .nil
    · intro h
      cases h
      rfl
  | cons x l ih =>
    rw [List.mapM_cons]
    constructor
    · intro h
      obtain ⟨y, h1, h⟩ := bind_eq_ok h
      obtain ⟨zs, h2, h⟩ := bind_eq_ok h
      injection h with h
      subst h
      exact .cons h1 ((ih zs).mp h2)
    · intro h
      cases h with
      | cons h1 h2 =>
        rw [h1, (ih _).mpr h2]
        rfl

/-! ### the mappings of a transformer -/

theorem transformer_numberings {t : OrdinalLabel} (ht : IsTransformer t) :
    IsNumbering (t.intent2index.map Prod.snd) ∧ IsNumbering (t.notEntityIndex :: t.entity2index.map Prod.snd) := by
  by_cases h : IsNumbering (t.intent2index.map Prod.snd) ∧ IsNumbering (t.notEntityIndex :: t.entity2index.map Prod.snd)
  · exact h
  · have := (C53_new _ _ _ ht.reserved).2 h
    rw [ht.constructed] at this
    cases this

theorem dict_label_unique {m : List (Str × Int)} (h : IsDict m) {s : Str} {i j : Int} (h1 : (s, i) ∈ m)
    (h2 : (s, j) ∈ m) : i = j := by
  have := lookup_of_mem h h1
  rw [lookup_of_mem h h2] at this
  injection this with this
  exact this.symm

theorem snd_name_unique {m : List (Str × Int)} (h : (m.map Prod.snd).Nodup) {s s' : Str} {i : Int} (h1 : (s, i) ∈ m)
    (h2 : (s', i) ∈ m) : s = s' := by
  have := eq_of_nodup_map Prod.snd h h1 h2 rfl
  injection this

theorem intent_name_unique {t : OrdinalLabel} (ht : IsTransformer t) {s s' : Str} {i : Int}
    (h1 : (s, i) ∈ t.intent2index) (h2 : (s', i) ∈ t.intent2index) : s = s' :=
  snd_name_unique (transformer_numberings ht).1.1 h1 h2

theorem entity_name_unique {t : OrdinalLabel} (ht : IsTransformer t) {s s' : Str} {i : Int}
    (h1 : (s, i) ∈ t.entity2index) (h2 : (s', i) ∈ t.entity2index) : s = s' :=
  snd_name_unique (List.nodup_cons.mp (transformer_numberings ht).2.1).2 h1 h2

theorem label_ne_notEntity {t : OrdinalLabel} (ht : IsTransformer t) {s : Str} {i : Int}
    (h : (s, i) ∈ t.entity2index) : i ≠ t.notEntityIndex := by
  rintro rfl
  exact (List.nodup_cons.mp (transformer_numberings ht).2.1).1 (List.mem_map.mpr ⟨_, h, rfl⟩)

/-! ### names of data -/

theorem humanizeEntity_iff (σ : SetOrder) {t : OrdinalLabel} (ht : IsTransformer t) (e : Entity) (x : RawEntity) :
    t.humanizeEntity σ e = .ok x ↔ (x.name, e.label) ∈ t.entity2index ∧
      x = ⟨x.name, e.start, e.stop, if e.noReplacements then none else some (σ.listSet e.replacements)⟩ := by
  obtain ⟨_, _, c3, _, _⟩ := C53_inverse _ _ _ t ht.reserved ht.constructed
  unfold humanizeEntity
  constructor
  · intro h
    obtain ⟨n, h1, h2⟩ := bind_eq_ok h
    injection h2 with h2
    subst h2
    exact ⟨(c3 _ _).mp h1, rfl⟩
  · rintro ⟨h1, h2⟩
    rw [(c3 _ _).mpr h1]
    exact congrArg Except.ok h2.symm

theorem named_humanizeEntity (σ : SetOrder) {t : OrdinalLabel} (ht : IsTransformer t) {e : Entity} {x : RawEntity}
    (h : t.humanizeEntity σ e = .ok x) : Named t e x ∧ (x.replacements = none ↔ e.replacements = []) := by
  obtain ⟨h1, h2⟩ := (humanizeEntity_iff σ ht e x).mp h
  have hr : x.replacements = if e.noReplacements then none else some (σ.listSet e.replacements) := by rw [h2]
  refine ⟨⟨h1, by rw [h2], by rw [h2], fun s => ?_⟩, ?_⟩
  · rw [hr]
    unfold Entity.noReplacements
    split
    · rename_i h0
      have : e.replacements = [] := by simpa using h0
      simp [this]
    · rw [Option.getD_some, mem_listSet]
  · rw [hr]
    unfold Entity.noReplacements
    split
    · rename_i h0
      simpa using h0
    · rename_i h0
      simpa using h0

theorem hasEntities_iff (d : Datum) : d.hasEntities = true ↔ d.entities ≠ [] := by
  unfold Datum.hasEntities
  cases d.entities <;> simp

theorem described_humanize (σ : SetOrder) {t : OrdinalLabel} (ht : IsTransformer t) {d : Datum} {r : RawDatum}
    (h : t.humanize σ d = .ok r) : Described t d r := by
  obtain ⟨c1, _, _, _, _⟩ := C53_inverse _ _ _ t ht.reserved ht.constructed
  unfold humanize at h
  obtain ⟨ns, h1, h⟩ := bind_eq_ok h
  have hn : List.Forall₂ (fun (i : Intent) (n : Str) => (n, i.label) ∈ t.intent2index) d.intents ns :=
    ((mapM_ok_iff _ _ _).mp h1).imp fun i n hin => (c1 _ _).mp hin
  by_cases hh : d.hasEntities = true
  · rw [if_pos hh] at h
    obtain ⟨xs, h2, h⟩ := bind_eq_ok h
    injection h with h
    subst h
    exact ⟨rfl, hn, ((mapM_ok_iff _ _ _).mp h2).imp fun e x hx => named_humanizeEntity σ ht hx,
      by have := (hasEntities_iff d).mp hh; simp [this]⟩
  · rw [if_neg hh] at h
    injection h with h
    subst h
    have h0 : d.entities = [] := Classical.not_not.mp fun h0 => hh ((hasEntities_iff d).mpr h0)
    exact ⟨rfl, hn, by rw [h0]; exact .nil, by simp [h0]⟩

/-- C81: `humanize` succeeds exactly if every label is known, and then says by name what the datum says by label;
otherwise it raises KeyError. -/
theorem C81_humanize (σ : SetOrder) (t : OrdinalLabel) (ht : IsTransformer t) (d : Datum) :
    ((∀ i ∈ d.intents, ∃ n, (n, i.label) ∈ t.intent2index) ∧ (∀ e ∈ d.entities, ∃ n, (n, e.label) ∈ t.entity2index) →
      ∃ r, t.humanize σ d = .ok r ∧ Described t d r) ∧
    (¬ ((∀ i ∈ d.intents, ∃ n, (n, i.label) ∈ t.intent2index) ∧
      (∀ e ∈ d.entities, ∃ n, (n, e.label) ∈ t.entity2index)) → t.humanize σ d = .error .keyError) := by
  obtain ⟨c1, _, c3, _, _⟩ := C53_inverse _ _ _ t ht.reserved ht.constructed
  constructor
  · rintro ⟨h1, h2⟩
    obtain ⟨ns, hn, _⟩ := mapM_ok_exists (fun i : Intent => t.index2intent i.label) d.intents (fun _ _ => True) (by
      intro i hi
      obtain ⟨n, hn⟩ := h1 i hi
      exact ⟨n, (c1 _ _).mpr hn, trivial⟩)
    obtain ⟨xs, hx, _⟩ := mapM_ok_exists (t.humanizeEntity σ) d.entities (fun _ _ => True) (by
      intro e he
      obtain ⟨n, hn⟩ := h2 e he
      exact ⟨_, (humanizeEntity_iff σ ht e ⟨n, _, _, _⟩).mpr ⟨hn, rfl⟩, trivial⟩)
    have : ∃ r, t.humanize σ d = .ok r := by
      unfold humanize
      rw [hn]
      simp only [Except.bind_ok]
      by_cases hh : d.hasEntities = true
      · rw [if_pos hh, hx]
        exact ⟨_, rfl⟩
      · rw [if_neg hh]
        exact ⟨_, rfl⟩
    obtain ⟨r, hr⟩ := this
    exact ⟨r, hr, described_humanize σ ht hr⟩
  · intro h
    refine C55_unknown_label σ t d ?_
    by_cases hi : ∀ i ∈ d.intents, ∃ n, (n, i.label) ∈ t.intent2index
    · right
      refine Classical.byContradiction fun hc => h ⟨hi, fun e he => Classical.byContradiction fun hn => hc ⟨e, he, fun hm => ?_⟩⟩
      obtain ⟨⟨n, l⟩, hm, rfl⟩ := List.mem_map.mp hm
      exact hn ⟨n, hm⟩
    · left
      refine Classical.byContradiction fun hc => hi fun i hi => Classical.byContradiction fun hn => hc ⟨i, hi, fun hm => ?_⟩
      obtain ⟨⟨n, l⟩, hm, rfl⟩ := List.mem_map.mp hm
      exact hn ⟨n, hm⟩

/-! ### labels of raw dictionaries -/

theorem machanizeIntent_iff {t : OrdinalLabel} (ht : IsTransformer t) (n : Str) (i : Intent) :
    (do let j ← lookup t.intent2index n; Intent.new j) = .ok i ↔ (n, i.label) ∈ t.intent2index ∧ IsInt32 i.label := by
  constructor
  · intro h
    obtain ⟨j, h1, h2⟩ := bind_eq_ok h
    by_cases hj : IsInt32 j
    · unfold Intent.new at h2
      rw [toInt32_ok hj] at h2
      injection h2 with h2
      subst h2
      exact ⟨mem_of_lookup h1, hj⟩
    · unfold Intent.new at h2
      rw [toInt32_error hj] at h2
      cases h2
  · rintro ⟨h1, h2⟩
    rw [lookup_of_mem ht.intents h1]
    show Intent.new i.label = _
    unfold Intent.new
    rw [toInt32_ok h2]
    rfl

theorem machanizeEntity_iff {t : OrdinalLabel} (ht : IsTransformer t) (u : Str) (x : RawEntity) (e : Entity) :
    t.machanizeEntity u x = .ok e ↔ (x.name, e.label) ∈ t.entity2index ∧
      (IsInt32 e.label ∧ IsInt32 x.start ∧ IsInt32 x.stop) ∧
      e = ⟨e.label, pySlice u x.start x.stop, x.start, x.stop, pyDedup (x.replacements.getD [])⟩ := by
  unfold machanizeEntity
  constructor
  · intro h
    obtain ⟨j, h1, h2⟩ := bind_eq_ok h
    by_cases hj : IsInt32 j ∧ IsInt32 x.start ∧ IsInt32 x.stop
    · rw [entity_new_ok _ _ hj.1 hj.2.1 hj.2.2] at h2
      injection h2 with h2
      subst h2
      exact ⟨mem_of_lookup h1, hj, rfl⟩
    · rw [entity_new_error _ _ hj] at h2
      cases h2
  · rintro ⟨h1, hj, h2⟩
    rw [lookup_of_mem ht.entities h1]
    refine (entity_new_ok _ _ hj.1 hj.2.1 hj.2.2).trans ?_
    rw [h2]

/-- The entity of a raw entity. -/
structure Labelled (t : OrdinalLabel) (u : Str) (x : RawEntity) (e : Entity) : Prop where
  name : (x.name, e.label) ∈ t.entity2index
  ints : IsInt32 e.label ∧ IsInt32 x.start ∧ IsInt32 x.stop
  entity : e = ⟨e.label, pySlice u x.start x.stop, x.start, x.stop, pyDedup (x.replacements.getD [])⟩

theorem machanize_iff {t : OrdinalLabel} (ht : IsTransformer t) (r : RawDatum) (d : Datum) :
    t.machanize r = .ok d ↔ ∃ is es,
      List.Forall₂ (fun (n : Str) (i : Intent) => (n, i.label) ∈ t.intent2index ∧ IsInt32 i.label) r.names is ∧
      List.Forall₂ (Labelled t r.utterance) (r.entities.getD []) es ∧
      Datum.new r.utterance (some is) (some es) = .ok d := by
  unfold machanize
  constructor
  · intro h
    obtain ⟨is, h1, h⟩ := bind_eq_ok h
    obtain ⟨es, h2, h⟩ := bind_eq_ok h
    refine ⟨is, es, ((mapM_ok_iff _ _ _).mp h1).imp fun n i hi => (machanizeIntent_iff ht n i).mp hi,
      ((mapM_ok_iff _ _ _).mp h2).imp fun x e he => ?_, h⟩
    obtain ⟨a, b, c⟩ := (machanizeEntity_iff ht _ x e).mp he
    exact ⟨a, b, c⟩
  · rintro ⟨is, es, h1, h2, h⟩
    rw [(mapM_ok_iff _ _ _).mpr (h1.imp fun n i hi => (machanizeIntent_iff ht n i).mpr hi)]
    simp only [Except.bind_ok]
    rw [(mapM_ok_iff _ _ _).mpr (h2.imp fun x e he => (machanizeEntity_iff ht _ x e).mpr ⟨he.name, he.ints, he.entity⟩)]
    exact h

theorem forall₂_pySorted {α β : Type} (R : α → β → Prop) (k : α → Int) (k' : β → Int) (hk : ∀ a b, R a b → k a = k' b)
    {l : List α} {l' : List β} (h : List.Forall₂ R l l') : List.Forall₂ R (pySorted k l) (pySorted k' l') := by
  -- sort the pairs
  have hz : ∃ ps : List {p : α × β // R p.1 p.2}, l = ps.map (fun p => p.1.1) ∧ l' = ps.map (fun p => p.1.2) := by
    induction h with
    | nil => exact ⟨[], rfl, rfl⟩
    | cons h1 _ ih =>
      obtain ⟨ps, rfl, rfl⟩ := ih
      exact ⟨⟨(_, _), h1⟩ :: ps, rfl, rfl⟩
  obtain ⟨ps, rfl, rfl⟩ := hz
  rw [pySorted_map, pySorted_map]
  rw [show (fun p : {p : α × β // R p.1 p.2} => k' p.1.2) = fun p => k p.1.1 from funext fun p => (hk _ _ p.2).symm]
  generalize pySorted _ ps = qs
  induction qs with
  | nil => exact .nil
  | cons q qs ih => exact .cons q.2 ih

theorem forall₂_mem_left {α β : Type} {R : α → β → Prop} {l : List α} {l' : List β} (h : List.Forall₂ R l l') :
    ∀ a ∈ l, ∃ b ∈ l', R a b := by
  induction h with
  | nil => simp
  | cons h1 _ ih =>
    intro a ha
    rcases List.mem_cons.mp ha with rfl | ha
    · exact ⟨_, by simp, h1⟩
    · obtain ⟨b, hb, hr⟩ := ih a ha
      exact ⟨b, by simp [hb], hr⟩

theorem forall₂_mem_right {α β : Type} {R : α → β → Prop} {l : List α} {l' : List β} (h : List.Forall₂ R l l') :
    ∀ b ∈ l', ∃ a ∈ l, R a b := by
  induction h with
  | nil => simp
  | cons h1 _ ih =>
    intro b hb
    rcases List.mem_cons.mp hb with rfl | hb
    · exact ⟨_, by simp, h1⟩
    · obtain ⟨a, ha, hr⟩ := ih b hb
      exact ⟨a, by simp [ha], hr⟩

theorem forall₂_exists {α β : Type} {R : α → β → Prop} {l : List α} (h : ∀ a ∈ l, ∃ b, R a b) :
    ∃ l', List.Forall₂ R l l' := by
  induction l with
  | nil => exact ⟨[], .nil⟩
  | cons a l ih =>
    obtain ⟨b, hb⟩ := h a (by simp)
    obtain ⟨l', hl⟩ := ih fun x hx => h x (by simp [hx])
    exact ⟨b :: l', .cons hb hl⟩

theorem neighbours_forall₂ {α β : Type} {R : α → β → Prop} {P : α → α → Prop} {Q : β → β → Prop}
    (hpq : ∀ a b a' b', R a b → R a' b' → (P a a' ↔ Q b b')) {l : List α} {l' : List β} (h : List.Forall₂ R l l') :
    Neighbours P l ↔ Neighbours Q l' := by
  induction h with
  | nil => simp [Neighbours]
  | cons h1 h2 ih =>
    cases h2 with
    | nil => simp [Neighbours]
    | cons h3 h4 => exact and_congr (hpq _ _ _ _ h1 h3) ih

theorem intent_label_int {t : OrdinalLabel} (ht : IsTransformer t) (hl : t.intent2index.length ≤ 2 ^ 31) {n : Str} {l : Int}
    (h : (n, l) ∈ t.intent2index) : 0 ≤ l ∧ IsInt32 l := by
  have := ((transformer_numberings ht).1.2 l).mp (List.mem_map.mpr ⟨_, h, rfl⟩)
  rw [List.length_map] at this
  unfold IsInt32
  omega

theorem entity_label_int {t : OrdinalLabel} (ht : IsTransformer t) (hl : t.entity2index.length < 2 ^ 31) {n : Str} {l : Int}
    (h : (n, l) ∈ t.entity2index) : 0 ≤ l ∧ IsInt32 l := by
  have := ((transformer_numberings ht).2.2 l).mp (List.mem_cons_of_mem _ (List.mem_map.mpr ⟨_, h, rfl⟩))
  rw [List.length_cons, List.length_map] at this
  unfold IsInt32
  omega

theorem labelled_named {t : OrdinalLabel} {u : Str} {x : RawEntity} {e : Entity} (h : Labelled t u x e) :
    Named t e x ∧ e.value = pySlice u x.start x.stop := by
  obtain ⟨h1, h2, h3⟩ := h
  refine ⟨⟨h1, by rw [h3], by rw [h3], fun s => ?_⟩, by rw [h3]⟩
  rw [h3, mem_pyDedup]

theorem labelled_valueAt {t : OrdinalLabel} {u : Str} {x : RawEntity} {e : Entity} (h : Labelled t u x e) :
    ValueAt u e := by
  unfold ValueAt
  rw [h.entity]

theorem intent_hash_label {i : Intent} (h : 0 ≤ i.label) : i.hash = i.label := by
  unfold Intent.hash
  simp
  omega

/-- C81: for a raw dictionary whose names are all known, `machanize` raises OverflowError if some position is no C
`int`; otherwise EntityOverlapping if, sorted by start, some entity ends after the start of the next; otherwise it
returns the datum with the labels of the names. It never raises KeyError or EntityPositionError. -/
theorem C81_machanize (t : OrdinalLabel) (ht : IsTransformer t) (hi : t.intent2index.length ≤ 2 ^ 31)
    (he : t.entity2index.length < 2 ^ 31) (r : RawDatum) (hk : KnownNames t r) :
    ((∃ x ∈ r.entities.getD [], ¬ (IsInt32 x.start ∧ IsInt32 x.stop)) → t.machanize r = .error .overflowError) ∧
    ((∀ x ∈ r.entities.getD [], IsInt32 x.start ∧ IsInt32 x.stop) →
      ∀ xs, IsStableSort (fun x : RawEntity => x.start) (r.entities.getD []) xs →
        (¬ Neighbours (fun x y : RawEntity => x.stop ≤ y.start) xs → t.machanize r = .error .entityOverlapping) ∧
        (Neighbours (fun x y : RawEntity => x.stop ≤ y.start) xs → ∃ d, t.machanize r = .ok d ∧
          d.utterance = r.utterance ∧
          (∃ is : List Int, List.Forall₂ (fun n l => (n, l) ∈ t.intent2index) r.names is ∧
            (d.intents.map fun i => i.label).Perm is ∧ (d.intents.map fun i => i.label).Pairwise (· ≤ ·)) ∧
          List.Forall₂ (fun e x => Named t e x ∧ e.value = pySlice r.utterance x.start x.stop) d.entities xs)) := by
  obtain ⟨is, hns⟩ : ∃ is : List Intent,
      List.Forall₂ (fun (n : Str) (i : Intent) => (n, i.label) ∈ t.intent2index ∧ IsInt32 i.label) r.names is :=
    forall₂_exists fun n hn => by
      obtain ⟨l, hl⟩ := hk.intents n hn
      exact ⟨⟨l⟩, hl, (intent_label_int ht hi hl).2⟩
  have hnm := (mapM_ok_iff _ _ _).mpr (hns.imp fun n i hin => (machanizeIntent_iff ht n i).mpr hin)
  have h0 : ∀ i ∈ is, 0 ≤ i.label := by
    intro i hi'
    obtain ⟨n, _, h1, _⟩ := forall₂_mem_right hns i hi'
    exact (intent_label_int ht hi h1).1
  constructor
  · intro hb
    have : (r.entities.getD []).mapM (t.machanizeEntity r.utterance) = .error .overflowError := by
      refine mapM_error_of _ _ _ (fun x hx => ?_) ?_
      · obtain ⟨l, hl⟩ := hk.entities x hx
        unfold machanizeEntity
        rw [lookup_of_mem ht.entities hl]
        simp only [Except.bind_ok]
        by_cases h : IsInt32 l ∧ IsInt32 x.start ∧ IsInt32 x.stop
        · exact .inl ⟨_, entity_new_ok _ _ h.1 h.2.1 h.2.2⟩
        · exact .inr (entity_new_error _ _ h)
      · obtain ⟨x, hx, hbad⟩ := hb
        obtain ⟨l, hl⟩ := hk.entities x hx
        refine ⟨x, hx, ?_⟩
        unfold machanizeEntity
        rw [lookup_of_mem ht.entities hl]
        exact entity_new_error _ _ fun h => hbad h.2
    unfold machanize
    rw [hnm]
    simp only [Except.bind_ok]
    rw [this]
    rfl
  · intro hpos xs hxs
    obtain ⟨es, hes⟩ : ∃ es : List Entity, List.Forall₂ (Labelled t r.utterance) (r.entities.getD []) es :=
      forall₂_exists fun x hx => by
        obtain ⟨l, hl⟩ := hk.entities x hx
        exact ⟨⟨l, _, _, _, _⟩, hl, ⟨(entity_label_int ht he hl).2, hpos x hx⟩, rfl⟩
    have hem := (mapM_ok_iff _ _ _).mpr (hes.imp fun x e he => (machanizeEntity_iff ht _ x e).mpr ⟨he.name, he.ints, he.entity⟩)
    have hxs' : xs = pySorted (fun x : RawEntity => x.start) (r.entities.getD []) :=
      ((C43_sort_unique _ _).2 xs _ hxs (pySorted_stable_int _ _)).1
    have hsort := forall₂_pySorted (Labelled t r.utterance) (fun x : RawEntity => x.start) Entity.start
      (fun x e h => by rw [h.entity]) hes
    rw [← hxs'] at hsort
    have hnb : Neighbours (fun x y : RawEntity => x.stop ≤ y.start) xs ↔ Neighbours Before (pySorted Entity.start es) := by
      refine neighbours_forall₂ (fun x e y f h1 h2 => ?_) hsort
      unfold Before
      rw [h1.entity, h2.entity]
    have hv : ∀ e ∈ es, ValueAt r.utterance e := by
      intro e he'
      obtain ⟨x, _, hx⟩ := forall₂_mem_right hes e he'
      exact labelled_valueAt hx
    have heq : t.machanize r = Datum.new r.utterance (some is) (some es) := by
      unfold machanize
      rw [hnm]
      simp only [Except.bind_ok]
      rw [hem]
      rfl
    constructor
    · intro hn
      rw [heq]
      refine ((C43_errors _ is es).2.1).mpr ⟨hv, fun l hl => ?_⟩
      rw [((C43_sort_unique _ _).2 l _ hl (pySorted_stable_int _ _)).1]
      exact fun h => hn (hnb.mpr h)
    · intro hn
      refine ⟨_, heq.trans (datum_new_ok _ _ _ hv (hnb.mp hn)), rfl, ⟨is.map fun i => i.label, ?_, ?_, ?_⟩, ?_⟩
      · rw [List.forall₂_map_right_iff]
        exact hns.imp fun _ _ h => h.1
      · exact (pySorted_perm _ _).map _
      · rw [List.pairwise_map]
        refine (pySorted_pairwise Intent.hash is).imp_of_mem fun {a b} ha hb hab => ?_
        rw [intent_hash_label (h0 a (mem_pySorted.mp ha)), intent_hash_label (h0 b (mem_pySorted.mp hb))] at hab
        exact hab
      · exact (List.Forall₂.flip hsort).imp fun e x h => labelled_named h

/-! ### transformers made from data -/

theorem numbered_fst (f : Nat → Int) (l : List Str) : (numbered f l).map Prod.fst = l := by
  unfold numbered
  rw [List.map_map]
  show l.zipIdx.map (fun p => p.1) = l
  simp

/-- C81: the transformer made from data knows exactly the names in the data, so every raw dictionary of the data
meets the hypotheses of `C81_machanize`. -/
theorem C81_data (data : List RawDatum) (ne : Int) (t : OrdinalLabel)
    (hr : ∀ r ∈ data, ∀ x ∈ r.entities.getD [], x.name ≠ "__NOT_ENTITY__".toList)
    (h : fromRawDictionary data ne = .ok t) :
    IsTransformer t ∧ t.notEntityIndex = ne ∧ (∀ r ∈ data, KnownNames t r) ∧
      (∀ n l, (n, l) ∈ t.intent2index → ∃ r ∈ data, n ∈ r.names) ∧
      (∀ n l, (n, l) ∈ t.entity2index → ∃ r ∈ data, ∃ x ∈ r.entities.getD [], x.name = n) := by
  have hr' : notEntityName ∉ data.flatMap fun d => (d.entities.getD []).map fun e => e.name := by
    intro hm
    obtain ⟨r, h1, h2⟩ := List.mem_flatMap.mp hm
    obtain ⟨x, h3, h4⟩ := List.mem_map.mp h2
    exact hr r h1 x h3 h4
  obtain ⟨I, E, hI, hE, ok, bad⟩ := C54_from_raw data ne _ _ rfl rfl hr'
  by_cases hne : 0 ≤ ne ∧ ne ≤ E.length
  · rw [ok hne] at h
    have h' := h
    injection h with h
    subst h
    have hres : notEntityName ∉ (numbered (skipping ne) E).map Prod.fst := by
      rw [numbered_fst]
      exact fun hm => hr' ((hE.2.1 _).mp hm)
    have hnew : OrdinalLabel.new (numbered (fun k => (k : Int)) I) (numbered (skipping ne) E) ne =
        .ok ⟨numbered (fun k => (k : Int)) I, numbered (skipping ne) E, ne⟩ := by
      have hb := ok hne
      unfold fromRawDictionary at hb
      have hc := (new_cases hb).1
      injection hc with c1 c2 c3
      dsimp only at hb
      rw [← c1, ← c2] at hb
      exact hb
    refine ⟨⟨hnew, ?_, ?_, hres⟩, rfl, fun r hrd => ⟨fun n hn => ?_, fun x hx => ?_⟩, fun n l hm => ?_, fun n l hm => ?_⟩
    · unfold IsDict
      dsimp only
      rw [numbered_fst]
      exact hI.1
    · unfold IsDict
      dsimp only
      rw [numbered_fst]
      exact hE.1
    · have : n ∈ (numbered (fun k => (k : Int)) I).map Prod.fst := by
        rw [numbered_fst]
        exact (hI.2.1 n).mpr (List.mem_flatMap.mpr ⟨r, hrd, hn⟩)
      obtain ⟨⟨n', l⟩, hm, rfl⟩ := List.mem_map.mp this
      exact ⟨l, hm⟩
    · have : x.name ∈ (numbered (skipping ne) E).map Prod.fst := by
        rw [numbered_fst]
        exact (hE.2.1 _).mpr (List.mem_flatMap.mpr ⟨r, hrd, List.mem_map.mpr ⟨x, hx, rfl⟩⟩)
      obtain ⟨⟨n', l⟩, hm, hn⟩ := List.mem_map.mp this
      dsimp only at hn
      subst hn
      exact ⟨l, hm⟩
    · have : n ∈ (numbered (fun k => (k : Int)) I).map Prod.fst := List.mem_map.mpr ⟨_, hm, rfl⟩
      rw [numbered_fst] at this
      exact List.mem_flatMap.mp ((hI.2.1 n).mp this)
    · have : n ∈ (numbered (skipping ne) E).map Prod.fst := List.mem_map.mpr ⟨_, hm, rfl⟩
      rw [numbered_fst] at this
      obtain ⟨r, h1, h2⟩ := List.mem_flatMap.mp ((hE.2.1 n).mp this)
      obtain ⟨x, h3, h4⟩ := List.mem_map.mp h2
      exact ⟨r, h1, x, h3, h4⟩
  · rw [bad hne] at h
    cases h

/-! ### predicted labels -/

theorem machanize_described {t : OrdinalLabel} (ht : IsTransformer t) {d : Datum} {r : RawDatum} (hd : IsDatum d)
    (hi : ∀ i ∈ d.intents, IsInt32 i.label)
    (he : ∀ e ∈ d.entities, IsInt32 e.label ∧ IsInt32 e.start ∧ IsInt32 e.stop) (hp : ∀ e ∈ d.entities, e.replacements = [])
    (h : Described t d r) : t.machanize r = .ok d := by
  refine (machanize_iff ht r d).mpr ⟨d.intents, d.entities, ?_, ?_, ?_⟩
  · have := List.Forall₂.flip h.names
    have h2 : List.Forall₂ (fun (_ : Str) (i : Intent) => i ∈ d.intents) r.names d.intents := by
      rw [List.forall₂_iff_get]
      exact ⟨this.length_eq, fun i h1 h2 => List.get_mem _ _⟩
    rw [List.forall₂_iff_get] at this h2 ⊢
    exact ⟨this.1, fun i h1 h3 => ⟨this.2 i h1 h3, hi _ (h2.2 i h1 h3)⟩⟩
  · have := List.Forall₂.flip h.entities
    rw [List.forall₂_iff_get] at this ⊢
    refine ⟨this.1, fun i h1 h3 => ?_⟩
    obtain ⟨hn, hpl⟩ := this.2 i h1 h3
    have hm := List.get_mem d.entities ⟨i, h3⟩
    have hint := he _ hm
    have hpe := hp _ hm
    have hv := hd.values _ hm
    generalize d.entities.get ⟨i, h3⟩ = e at *
    generalize (r.entities.getD []).get ⟨i, h1⟩ = x at *
    refine ⟨hn.name, ⟨hint.1, by rw [hn.start]; exact hint.2.1, by rw [hn.stop]; exact hint.2.2⟩, ?_⟩
    unfold ValueAt at hv
    obtain ⟨l, v, a, b, rs⟩ := e
    dsimp only at hpe hv
    rw [hpl.mpr hpe, hn.start, hn.stop, h.utterance]
    dsimp only
    rw [← hv, hpe]
    rfl
  · rw [h.utterance, datum_new_ok _ _ _ hd.values]
    · rw [pySorted_of_pairwise _ _ hd.sorted, pySorted_of_pairwise _ _ hd.intents]
    · rw [pySorted_of_pairwise _ _ hd.sorted]
      exact pairwise_neighbours hd.before

theorem described_names {t : OrdinalLabel} (ht : IsTransformer t) {d : Datum} {r : RawDatum} (h : Described t d r) (n : Str) :
    n ∈ r.names ↔ ∃ i ∈ d.intents, (n, i.label) ∈ t.intent2index := by
  constructor
  · exact forall₂_mem_right h.names n
  · rintro ⟨i, h1, h2⟩
    obtain ⟨n', h3, h4⟩ := forall₂_mem_left h.names i h1
    rw [intent_name_unique ht h2 h4]
    exact h3

/-- A label of the text other than 0 is the label of an entity. -/
theorem unpack_label {d : Datum} {u : Str} {is labels : List Int} (h : unpackDatum d = .ok (u, is, labels)) :
    ∀ l ∈ labels, l ≠ 0 → ∃ e ∈ d.entities, e.label = l := by
  by_cases hc : ∀ e ∈ d.entities, e.start < e.stop → -(d.utterance.length : Int) ≤ e.start ∧ e.stop ≤ d.utterance.length
  · obtain ⟨ls, h1, h2, h3⟩ := (C45_unpack d).1 hc
    rw [h] at h1
    injection h1 with h1
    injection h1 with _ h1
    injection h1 with _ h1
    subst h1
    intro l hl h0
    obtain ⟨k, hk⟩ := List.getElem?_of_mem hl
    have hlt : k < d.utterance.length := by rw [← h2]; exact (List.getElem?_eq_some_iff.mp hk).1
    rw [h3 k hlt] at hk
    cases hg : (d.entities.filter (fun e => decide (Covers d.utterance.length e k))).getLast? with
    | none =>
      rw [hg] at hk
      exact absurd (Option.some.inj hk).symm h0
    | some e =>
      rw [hg] at hk
      exact ⟨e, (List.mem_filter.mp (List.mem_of_getLast? hg)).1, Option.some.inj hk⟩
  · rw [(C45_unpack d).2 hc] at h
    cases h

/-- A packed datum is a datum. -/
theorem pack_facts {u : Str} {intents labels : List Int} {d : Datum} (h : packToDatum u intents labels = .ok d) :
    IsDatum d ∧ d.utterance = u := by
  unfold packToDatum at h
  split at h
  · cases h
  · obtain ⟨is, _, h⟩ := bind_eq_ok h
    obtain ⟨ps, _, h⟩ := bind_eq_ok h
    obtain ⟨qs, _, h⟩ := bind_eq_ok h
    obtain ⟨es, _, h⟩ := bind_eq_ok h
    exact ⟨isDatum_of_new h, (datum_new_cases _ _ _ _ h).1 ▸ rfl⟩

/-- C81: any labels that are 0 or known, packed and named, give exactly the names of the maximal runs of equal labels
other than 0, and reading the names gives the same labels again; any other labels make `humanize` raise KeyError. -/
theorem C81_predicted (σ : SetOrder) (t : OrdinalLabel) (ht : IsTransformer t) (u : Str) (intents labels : List Int)
    (hu : u ≠ []) (hlen : u.length = labels.length) (hs : u.length < 2 ^ 31) (hi : ∀ l ∈ intents, IsInt32 l)
    (hl : ∀ l ∈ labels, IsInt32 l) :
    ∃ d, packToDatum u intents labels = .ok d ∧
      (KnownIntents t intents ∧ KnownLabels t labels →
        ∃ r is, t.humanize σ d = .ok r ∧ r.utterance = u ∧
          (∀ n, n ∈ r.names ↔ ∃ l ∈ intents, (n, l) ∈ t.intent2index) ∧ r.names.Nodup ∧
          NamesRuns t labels (r.entities.getD []) ∧
          t.machanize r = .ok d ∧ unpackDatum d = .ok (u, is, labels) ∧ ∀ l, l ∈ is ↔ l ∈ intents) ∧
      (¬ (KnownIntents t intents ∧ KnownLabels t labels) → t.humanize σ d = .error .keyError) := by
  obtain ⟨d, is, h1, h2, h3, h4, h5, h6, h7⟩ := C46_pack u intents labels hu hlen hs hi hl
  obtain ⟨hd, _⟩ := pack_facts h1
  have his : is = d.intents.map fun i => i.label := by
    unfold unpackDatum at h5
    obtain ⟨ls, _, h5⟩ := bind_eq_ok h5
    injection h5 with h5
    injection h5 with _ h5
    injection h5 with h5 _
    exact h5.symm
  have hint : ∀ i ∈ d.intents, i.label ∈ intents := fun i hi' =>
    (h7 _).mp (by rw [his]; exact List.mem_map.mpr ⟨i, hi', rfl⟩)
  have hint' : ∀ l ∈ intents, ∃ i ∈ d.intents, i.label = l := fun l hl' => by
    have := (h7 l).mpr hl'
    rw [his] at this
    obtain ⟨i, h, h'⟩ := List.mem_map.mp this
    exact ⟨i, h, h'⟩
  have hrun : ∀ (a b : Nat) (v : Int), IsMaximalRun labels a b v → v ∈ labels := fun a b v hr =>
    List.mem_of_getElem? (hr.2.2.1 a (Nat.le_refl _) hr.1)
  refine ⟨d, h1, ?_, ?_⟩
  · rintro ⟨k1, k2⟩
    obtain ⟨r, hr, hdesc⟩ := (C81_humanize σ t ht d).1 ⟨fun i hi' => k1 _ (hint i hi'), fun e he => by
      obtain ⟨a, b, hrn, hne, _⟩ := (h3 e).mp he
      exact (k2 _ (hrun _ _ _ hrn)).resolve_left hne⟩
    refine ⟨r, is, hr, hdesc.utterance.trans h2, fun n => ?_, ?_, ?_, ?_, h5, h7⟩
    · rw [described_names ht hdesc]
      constructor
      · rintro ⟨i, a, b⟩
        exact ⟨_, hint i a, b⟩
      · rintro ⟨l, a, b⟩
        obtain ⟨i, hi', rfl⟩ := hint' l a
        exact ⟨i, hi', b⟩
    · -- different intents have different names
      have hnd : (d.intents.map fun i => i.label).Nodup := by
        rw [← his]
        exact h6.imp fun h => by omega
      have := hdesc.names
      generalize d.intents = ds at *
      generalize r.names = ns at *
      clear hdesc hint hint' h7 his
      induction this with
      | nil => exact List.nodup_nil
      | cons a b ih =>
        rw [List.map_cons, List.nodup_cons] at hnd
        refine List.nodup_cons.mpr ⟨fun hm => ?_, ih hnd.2⟩
        obtain ⟨j, hj, hj'⟩ := forall₂_mem_right b _ hm
        have := dict_label_unique ht.intents a hj'
        exact hnd.1 (List.mem_map.mpr ⟨j, hj, this.symm⟩)
    · constructor
      · intro x
        constructor
        · intro hx
          obtain ⟨e, he, hn, hp⟩ := forall₂_mem_right hdesc.entities x hx
          obtain ⟨a, b, hrn, hne, heq⟩ := (h3 e).mp he
          refine ⟨a, b, e.label, hrn, hne, hn.name, ?_⟩
          have e1 := hn.start
          have e2 := hn.stop
          have e3 := hp.mpr (by rw [heq])
          rw [heq] at e1 e2
          dsimp only at e1 e2
          obtain ⟨n, p, q, rs⟩ := x
          dsimp only at e1 e2 e3 ⊢
          rw [e1, e2, e3]
        · rintro ⟨a, b, l, hrn, hne, hname, hx⟩
          have he : (⟨l, pySlice u a b, a, b, []⟩ : Entity) ∈ d.entities := (h3 _).mpr ⟨a, b, hrn, hne, rfl⟩
          obtain ⟨x', hx', hn, hp⟩ := forall₂_mem_left hdesc.entities _ he
          have : x' = x := by
            rw [hx]
            have e0 := entity_name_unique ht hname hn.name
            have e1 := hn.start
            have e2 := hn.stop
            have e3 := hp.mpr rfl
            obtain ⟨n, p, q, rs⟩ := x'
            dsimp only at e0 e1 e2 e3 ⊢
            rw [e0, e1, e2, e3]
          exact this ▸ hx'
      · have := hdesc.entities
        generalize d.entities = es at *
        generalize r.entities.getD [] = xs at *
        clear hdesc h3
        induction this with
        | nil => exact .nil
        | cons a b ih =>
          rw [List.pairwise_cons] at h4
          refine List.pairwise_cons.mpr ⟨fun y hy => ?_, ih h4.2⟩
          obtain ⟨f, hf, hfy, _⟩ := forall₂_mem_right b y hy
          have := h4.1 f hf
          unfold Before at this
          rw [a.1.stop, hfy.start]
          exact this
    · refine machanize_described ht hd (fun i hi' => hi _ (hint i hi')) (fun e he => ?_) (fun e he => ?_) hdesc
      · obtain ⟨a, b, hrn, hne, heq⟩ := (h3 e).mp he
        have hb := hrn.2.1
        have ha := hrn.1
        refine ⟨hl _ (hrun _ _ _ hrn), ?_, ?_⟩
        · rw [heq]; unfold IsInt32; dsimp only; omega
        · rw [heq]; unfold IsInt32; dsimp only; omega
      · obtain ⟨a, b, hrn, hne, heq⟩ := (h3 e).mp he
        rw [heq]
  · intro hk
    refine (C81_humanize σ t ht d).2 fun hc => hk ⟨fun l hl' => ?_, fun l hl' => ?_⟩
    · obtain ⟨i, hi', rfl⟩ := hint' l hl'
      exact hc.1 i hi'
    · by_cases h0 : l = 0
      · exact .inl h0
      · refine .inr ?_
        obtain ⟨e, he, rfl⟩ := unpack_label h5 l hl' h0
        exact hc.2 e he

theorem pack_inputs {u : Str} {intents labels : List Int} {d : Datum} (h : packToDatum u intents labels = .ok d) :
    u ≠ [] ∧ u.length = labels.length ∧ (∀ l ∈ intents, IsInt32 l) ∧ ∀ l ∈ labels, IsInt32 l := by
  obtain ⟨e1, e2, e3, e4⟩ := C46_pack_errors u intents labels
  have hlen : u.length = labels.length := Classical.byContradiction fun hc => by rw [e1 hc] at h; cases h
  have hi : ∀ l ∈ intents, IsInt32 l := fun l hl => Classical.byContradiction fun hc => by
    rw [e2 hlen ⟨l, hl, hc⟩] at h; cases h
  refine ⟨?_, hlen, hi, fun l hl => Classical.byContradiction fun hc => ?_⟩
  · rintro rfl
    have : labels = [] := List.eq_nil_of_length_eq_zero hlen.symm
    subst this
    rw [e3 hi] at h
    cases h
  · by_cases h0 : l = 0
    · subst h0
      exact hc (by unfold IsInt32; omega)
    · rw [e4 hlen ⟨l, hl, h0, hc⟩] at h
      cases h

/-- C81: with `not_entity_index` other than 0 there is a known entity name that no prediction can ever yield, because
`pack_to_datum` takes its label 0 for "no entity", while text labelled with `not_entity_index` itself makes `humanize`
raise KeyError. -/
theorem C81_nonzero (σ : SetOrder) (t : OrdinalLabel) (ht : IsTransformer t) (hne : t.notEntityIndex ≠ 0) :
    ∃ n, (n, 0) ∈ t.entity2index ∧
      ∀ u intents labels d, u.length < 2 ^ 31 → packToDatum u intents labels = .ok d →
        (∀ r, t.humanize σ d = .ok r → ∀ x ∈ r.entities.getD [], x.name ≠ n) ∧
        (t.notEntityIndex ∈ labels → t.humanize σ d = .error .keyError) := by
  have hnum := (transformer_numberings ht).2
  have h0 : (0 : Int) ∈ t.notEntityIndex :: t.entity2index.map Prod.snd :=
    (hnum.2 0).mpr ⟨Int.le_refl _, by simp only [List.length_cons]; omega⟩
  rcases List.mem_cons.mp h0 with h0 | h0
  · exact absurd h0.symm hne
  · obtain ⟨⟨n, l⟩, hm, hl⟩ := List.mem_map.mp h0
    dsimp only at hl
    subst hl
    refine ⟨n, hm, fun u intents labels d hu hp => ?_⟩
    obtain ⟨p1, p2, p3, p4⟩ := pack_inputs hp
    obtain ⟨d', h1, h2, h3⟩ := C81_predicted σ t ht u intents labels p1 p2 hu p3 p4
    rw [hp] at h1
    injection h1 with h1
    subst h1
    constructor
    · intro r hr x hx hxn
      by_cases hk : KnownIntents t intents ∧ KnownLabels t labels
      · obtain ⟨r', is, hr', _, _, _, hruns, _⟩ := h2 hk
        rw [hr] at hr'
        injection hr' with hr'
        subst hr'
        obtain ⟨a, b, l, _, hl0, hname, _⟩ := (hruns.1 x).mp hx
        rw [hxn] at hname
        exact hl0 (dict_label_unique ht.entities hname hm)
      · rw [h3 hk] at hr
        cases hr
    · intro hin
      refine h3 fun hk => ?_
      rcases hk.2 _ hin with h | ⟨n', h⟩
      · exact hne h
      · exact label_ne_notEntity ht h rfl

/-! ### there and back -/

theorem machanize_facts {t : OrdinalLabel} (ht : IsTransformer t) {r : RawDatum} {d : Datum} (h : t.machanize r = .ok d) :
    d.utterance = r.utterance ∧ (∃ is es, Datum.new d.utterance (some is) (some es) = .ok d) ∧
      (∀ i ∈ d.intents, IsInt32 i.label ∧ ∃ n ∈ r.names, (n, i.label) ∈ t.intent2index) ∧
      (∀ n ∈ r.names, ∃ i ∈ d.intents, (n, i.label) ∈ t.intent2index) ∧
      List.Forall₂ (fun x e => Labelled t r.utterance x e)
        (pySorted (fun x : RawEntity => x.start) (r.entities.getD [])) d.entities := by
  obtain ⟨is, es, h1, h2, h3⟩ := (machanize_iff ht r d).mp h
  obtain ⟨hd, _, _⟩ := datum_new_cases _ _ _ _ h3
  have hu : d.utterance = r.utterance := by rw [hd]
  refine ⟨hu, ⟨is, es, by rw [hu]; exact h3⟩, fun i hi => ?_, fun n hn => ?_, ?_⟩
  · rw [hd] at hi
    obtain ⟨n, hn, a, b⟩ := forall₂_mem_right h1 i (mem_pySorted.mp hi)
    exact ⟨b, n, hn, a⟩
  · obtain ⟨i, hi, a, b⟩ := forall₂_mem_left h1 n hn
    exact ⟨i, by rw [hd]; exact mem_pySorted.mpr hi, a⟩
  · rw [hd]
    exact forall₂_pySorted _ _ _ (fun x e h => by rw [h.entity]) h2

theorem machanize_proper {t : OrdinalLabel} (ht : IsTransformer t) {r : RawDatum} {d : Datum} (hr : RawProper r)
    (h : t.machanize r = .ok d) : Proper d := by
  obtain ⟨h1, h2, h3, _, h5⟩ := machanize_facts ht h
  refine ⟨h2, by rw [h1]; exact hr.text, by rw [h1]; exact hr.short, fun e he => ?_, fun e he => ?_, fun i hi => (h3 i hi).1⟩
  · obtain ⟨x, hx, hl⟩ := forall₂_mem_right h5 e he
    unfold WithinUtterance
    rw [hl.entity, h1]
    exact hr.within x (mem_pySorted.mp hx)
  · obtain ⟨x, hx, hl⟩ := forall₂_mem_right h5 e he
    exact hl.ints.1

theorem traceable_iff {t : OrdinalLabel} (ht : IsTransformer t) (h0 : t.notEntityIndex = 0) {r : RawDatum} {d : Datum}
    (h : t.machanize r = .ok d) : Traceable d.entities ↔ RawTraceable (r.entities.getD []) := by
  obtain ⟨_, _, _, _, h5⟩ := machanize_facts ht h
  have hL : ∀ x ∈ r.entities.getD [], ∃ e ∈ d.entities, Labelled t r.utterance x e := fun x hx =>
    forall₂_mem_left h5 x (mem_pySorted.mpr hx)
  have hR : ∀ e ∈ d.entities, ∃ x ∈ r.entities.getD [], Labelled t r.utterance x e := fun e he => by
    obtain ⟨x, hx, hl⟩ := forall₂_mem_right h5 e he
    exact ⟨x, mem_pySorted.mp hx, hl⟩
  have hs : ∀ {x : RawEntity} {e : Entity}, Labelled t r.utterance x e →
      e.start = x.start ∧ e.stop = x.stop ∧ e.replacements = pyDedup (x.replacements.getD []) := fun hl => by
    rw [hl.entity]; exact ⟨rfl, rfl, rfl⟩
  have hnil : ∀ l : List Str, pyDedup l = [] ↔ l = [] := fun l => by
    rw [List.eq_nil_iff_forall_not_mem, List.eq_nil_iff_forall_not_mem]
    simp only [mem_pyDedup]
  constructor
  · intro ⟨a, b, c, f⟩
    refine ⟨fun x hx => ?_, fun x hx => ?_, fun x hx y hy hxy hn => ?_⟩
    · obtain ⟨e, he, hl⟩ := hL x hx
      have := a e he
      rw [(hs hl).1, (hs hl).2.1] at this
      exact this
    · obtain ⟨e, he, hl⟩ := hL x hx
      have := c e he
      rw [(hs hl).2.2, hnil] at this
      exact this
    · obtain ⟨e, he, hl⟩ := hL x hx
      obtain ⟨g, hg, hl'⟩ := hL y hy
      refine f e he g hg (by rw [(hs hl).2.1, (hs hl').1, hxy]) ?_
      have := hl'.name
      rw [← hn] at this
      exact dict_label_unique ht.entities hl.name this
  · intro ⟨a, c, f⟩
    refine ⟨fun e he => ?_, fun e he => ?_, fun e he => ?_, fun e he g hg heg hn => ?_⟩
    · obtain ⟨x, hx, hl⟩ := hR e he
      rw [(hs hl).1, (hs hl).2.1]
      exact a x hx
    · obtain ⟨x, hx, hl⟩ := hR e he
      rw [← h0]
      exact label_ne_notEntity ht hl.name
    · obtain ⟨x, hx, hl⟩ := hR e he
      rw [(hs hl).2.2, hnil]
      exact c x hx
    · obtain ⟨x, hx, hl⟩ := hR e he
      obtain ⟨y, hy, hl'⟩ := hR g hg
      rw [(hs hl).2.1, (hs hl').1] at heg
      have h1 := hl.name
      rw [hn] at h1
      exact f x hx y hy heg (entity_name_unique ht h1 hl'.name)

theorem saysSame_iff {t : OrdinalLabel} (ht : IsTransformer t) {r r' : RawDatum} {d d' : Datum}
    (h : t.machanize r = .ok d) (hd' : IsDatum d') (hu : d'.utterance = r.utterance)
    (hdesc : Described t d' r') : SaysSame r r' ↔ d'.eq d = true := by
  obtain ⟨h1, _, h3, h4, h5⟩ := machanize_facts ht h
  rw [C47_datum_eq]
  unfold SaysSame
  have hE : (∃ xs, IsStableSort (fun x : RawEntity => x.start) (r.entities.getD []) xs ∧
      List.Forall₂ SameRaw (r'.entities.getD []) xs) ↔ d'.entities.length = d.entities.length ∧
      ∀ (n : Nat) (x y : Entity), d'.entities[n]? = some x → d.entities[n]? = some y → x.eq y = true := by
    have hx : (∃ xs, IsStableSort (fun x : RawEntity => x.start) (r.entities.getD []) xs ∧
        List.Forall₂ SameRaw (r'.entities.getD []) xs) ↔
        List.Forall₂ SameRaw (r'.entities.getD []) (pySorted (fun x : RawEntity => x.start) (r.entities.getD [])) := by
      constructor
      · rintro ⟨xs, hs, hf⟩
        rw [((C43_sort_unique _ _).2 xs _ hs (pySorted_stable_int _ _)).1] at hf
        exact hf
      · exact fun hf => ⟨_, pySorted_stable_int _ _, hf⟩
    rw [hx]
    have hv : ∀ e ∈ d'.entities, ValueAt r.utterance e := by rw [← hu]; exact hd'.values
    have hA := hdesc.entities
    generalize pySorted (fun x : RawEntity => x.start) (r.entities.getD []) = ys at *
    generalize r'.entities.getD [] = xs at *
    generalize d'.entities = es' at *
    generalize d.entities = es at *
    clear h1 h3 h4 hd' hdesc hu hx
    induction hA generalizing ys es with
    | nil =>
      cases h5 with
      | nil => simp
      | cons a b => simp
    | @cons e' x es' xs hn _ ih =>
      cases h5 with
      | nil => simp
      | @cons y e ys es hl hrest =>
        have ih' := ih ys (fun e he => hv e (List.mem_cons_of_mem _ he)) es hrest
        have hv' := hv e' (by simp)
        have hsame : SameRaw x y ↔ e'.eq e = true := by
          rw [C47_entity_eq]
          unfold SameRaw
          have n1 := hn.1
          have n2 := (labelled_named hl).1
          have hval := (labelled_named hl).2
          unfold ValueAt at hv'
          constructor
          · rintro ⟨a, b, c, g⟩
            refine ⟨?_, ?_, ?_, ?_, fun s => ?_⟩
            · have := n1.name
              rw [a] at this
              exact dict_label_unique ht.entities this n2.name
            · rw [hv', hval, ← n1.start, ← n1.stop, b, c]
            · rw [← n1.start, ← n2.start, b]
            · rw [← n1.stop, ← n2.stop, c]
            · rw [← n1.replacements, ← n2.replacements, g]
          · rintro ⟨a, _, b, c, g⟩
            refine ⟨?_, ?_, ?_, fun s => ?_⟩
            · have := n1.name
              rw [a] at this
              exact entity_name_unique ht this n2.name
            · rw [n1.start, n2.start, b]
            · rw [n1.stop, n2.stop, c]
            · rw [n1.replacements, n2.replacements, g]
        refine (List.forall₂_cons.trans (and_congr hsame ih')).trans ?_
        constructor
        · rintro ⟨a, b, c⟩
          refine ⟨by simp [b], fun n p q hp hq => ?_⟩
          cases n with
          | zero =>
            rw [List.getElem?_cons_zero] at hp hq
            rw [← Option.some.inj hp, ← Option.some.inj hq]
            exact a
          | succ n =>
            rw [List.getElem?_cons_succ] at hp hq
            exact c n p q hp hq
        · rintro ⟨a, b⟩
          exact ⟨b 0 e' e (by simp) (by simp), by simpa using a, fun n p q hp hq => b (n + 1) p q (by simpa using hp) (by simpa using hq)⟩
  rw [hE, hdesc.utterance, h1]
  refine and_congr Iff.rfl (and_congr ?_ Iff.rfl)
  constructor
  · intro hn i
    constructor
    · intro hi
      obtain ⟨n, hn', hm⟩ := forall₂_mem_left hdesc.names i hi
      obtain ⟨j, hj, hm'⟩ := h4 n ((hn n).mp hn')
      have : i = j := by
        have := dict_label_unique ht.intents hm hm'
        cases i; cases j; simpa using this
      exact this ▸ hj
    · intro hi
      obtain ⟨_, n, hn', hm⟩ := h3 i hi
      obtain ⟨j, hj, hm'⟩ := forall₂_mem_right hdesc.names n ((hn n).mpr hn')
      have : i = j := by
        have := dict_label_unique ht.intents hm hm'
        cases i; cases j; simpa using this
      exact this ▸ hj
  · intro hi n
    rw [described_names ht hdesc]
    constructor
    · rintro ⟨i, a, b⟩
      obtain ⟨_, n', hn', hm⟩ := h3 i ((hi i).mp a)
      rw [intent_name_unique ht b hm]
      exact hn'
    · intro hn
      obtain ⟨i, a, b⟩ := h4 n hn
      exact ⟨i, (hi i).mpr a, b⟩

/-- C81: with `not_entity_index` 0, a raw dictionary read, labelled, packed again from any labels and named says the
same exactly if no entity is empty or has replacements, no two that touch have the same name, and the labels are those
of the text. -/
theorem C81_pack (σ : SetOrder) (t : OrdinalLabel) (ht : IsTransformer t) (h0 : t.notEntityIndex = 0) (r : RawDatum)
    (hr : RawProper r) (d : Datum) (hm : t.machanize r = .ok d) (ls : List Int) (hl : ls.length = r.utterance.length)
    (hi : ∀ l ∈ ls, IsInt32 l) (hk : KnownLabels t ls) :
    ∃ d' r', packToDatum r.utterance (d.intents.map fun i => i.label) ls = .ok d' ∧ t.humanize σ d' = .ok r' ∧
      (SaysSame r r' ↔ RawTraceable (r.entities.getD []) ∧
        unpackDatum d = .ok (r.utterance, d.intents.map (fun i => i.label), ls)) := by
  have hp := machanize_proper ht hr hm
  obtain ⟨h1, _, h3, _, _⟩ := machanize_facts ht hm
  obtain ⟨d', e1, e2, _⟩ := C75_pack d hp ls (by rw [h1]; exact hl) hi
  rw [h1] at e1 e2
  obtain ⟨d'', f1, f2, _⟩ := C81_predicted σ t ht r.utterance (d.intents.map fun i => i.label) ls hr.text hl.symm hr.short
    (fun l hl' => by
      obtain ⟨i, hi', rfl⟩ := List.mem_map.mp hl'
      exact (h3 i hi').1) hi
  rw [e1] at f1
  injection f1 with f1
  subst f1
  obtain ⟨r', _, g1, _⟩ := f2 ⟨fun l hl' => by
    obtain ⟨i, hi', rfl⟩ := List.mem_map.mp hl'
    obtain ⟨_, n, _, hn⟩ := h3 i hi'
    exact ⟨n, hn⟩, hk⟩
  refine ⟨d', r', e1, g1, ?_⟩
  rw [saysSame_iff ht hm (pack_facts e1).1 (pack_facts e1).2 (described_humanize σ ht g1), e2, traceable_iff ht h0 hm]

/-- C81: the same through a pipe of built-in operators: the labels of its output, realigned, packed and named. -/
theorem C81_pipe (env : Env) (henv : env.Sane) (p : Pipe) (hp : ∀ op ∈ p.steps, IsBuiltin env op) (σ : SetOrder)
    (t : OrdinalLabel) (ht : IsTransformer t) (h0 : t.notEntityIndex = 0) (r : RawDatum) (hr : RawProper r) (d : Datum)
    (hm : t.machanize r = .ok d) (out : Transformed) (ho : p.transform d = .ok out) (ls : List Int)
    (hrl : realignAll out.aligners out.entityLabels = .ok ls) :
    ∃ d' r', packToDatum r.utterance out.intentLabels ls = .ok d' ∧ t.humanize σ d' = .ok r' ∧
      (SaysSame r r' ↔ RawTraceable (r.entities.getD []) ∧
        unpackDatum d = .ok (r.utterance, d.intents.map (fun i => i.label), ls)) := by
  have hd := machanize_proper ht hr hm
  obtain ⟨h1, _, _, _, h5⟩ := machanize_facts ht hm
  obtain ⟨l0, u1, u2, _⟩ := unpack_within (proper_isDatum hd) hd.within
  unfold Pipe.transform at ho
  rw [u1] at ho
  simp only [Except.bind_ok] at ho
  obtain ⟨⟨o, as, coll⟩, q1, q2⟩ := bind_eq_ok ho
  obtain ⟨ys, y1, y2⟩ := bind_eq_ok q2
  obtain ⟨rs, r1, r2, r3, r4⟩ := (C58_composition p _ o as coll).mp q1
  injection y2 with y2
  subst y2
  have hh := runs_honest henv r1 hp
  rw [← r3] at hh
  obtain ⟨k1, k2⟩ := round_honest as hh l0 ys ls y1 hrl
  have key : ∀ l ∈ ls, l = 0 ∨ ∃ e ∈ d.entities, e.label = l := by
    intro l hl
    by_cases hz : l = 0
    · exact .inl hz
    · exact .inr (unpack_label u1 l ((k2 l hl).resolve_left hz) hz)
  refine C81_pack σ t ht h0 r hr d hm ls (by rw [k1, u2, h1]) (fun l hl => ?_) (fun l hl => ?_)
  · rcases key l hl with rfl | ⟨e, he, rfl⟩
    · unfold IsInt32; omega
    · exact hd.entities e he
  · rcases key l hl with rfl | ⟨e, he, rfl⟩
    · exact .inl rfl
    · obtain ⟨x, _, hx⟩ := forall₂_mem_right h5 e he
      exact .inr ⟨_, hx.name⟩

theorem prediction_of_faithful (σ : SetOrder) (t : OrdinalLabel) (ht : IsTransformer t)
    (hni : t.intent2index.length ≤ 2 ^ 31) (hne : t.entity2index.length < 2 ^ 31) (u : Str) (hu : u ≠ [])
    (hs : u.length < 2 ^ 31) (o : Seq) (as : List Aligner) (hf : FaithfulAll as u.length o.length)
    (intents labels : List Int) (hi : KnownIntents t intents) (hl : KnownLabels t labels) (hlen : labels.length = o.length) :
    ∃ ls d r, realignAll as labels = .ok ls ∧ packToDatum u intents ls = .ok d ∧ t.humanize σ d = .ok r ∧
      r.utterance = u ∧ (∀ n, n ∈ r.names ↔ ∃ l ∈ intents, (n, l) ∈ t.intent2index) ∧
      NamesRuns t ls (r.entities.getD []) ∧
      ∀ x ∈ r.entities.getD [], ∃ l ∈ labels, (x.name, l) ∈ t.entity2index := by
  have hint : ∀ l ∈ labels, 0 ≤ l ∧ IsInt32 l := fun l hl' => by
    rcases hl l hl' with rfl | ⟨n, hn⟩
    · unfold IsInt32; omega
    · exact entity_label_int ht hne hn
  obtain ⟨ls, h1, h2, h3⟩ := hf.backward labels hlen fun l hl' => by
    have := hint l hl'
    unfold IsInt32 at this
    unfold IsUInt
    omega
  have h2' : u.length = ls.length := h2.symm
  obtain ⟨d, p1, p2, _⟩ := C81_predicted σ t ht u intents ls hu h2' hs (fun l hl' => by
      obtain ⟨n, hn⟩ := hi l hl'
      exact (intent_label_int ht hni hn).2) (fun l hl' => by
      rcases h3 l hl' with rfl | h
      · unfold IsInt32; omega
      · exact (hint l h).2)
  obtain ⟨r, _, g1, g2, g3, _, g5, _⟩ := p2 ⟨hi, fun l hl' => by
    rcases h3 l hl' with rfl | h
    · exact .inl rfl
    · exact hl l h⟩
  refine ⟨ls, d, r, h1, p1, g1, g2, g3, g5, fun x hx => ?_⟩
  obtain ⟨a, b, l, hrun, hl0, hname, _⟩ := (g5.1 x).mp hx
  have : l ∈ ls := List.mem_of_getElem? (hrun.2.2.1 a (Nat.le_refl _) hrun.1)
  exact ⟨l, (h3 l this).resolve_left hl0, hname⟩

/-- C81: the way of a prediction. Whatever known labels are predicted for the output of a pipe of built-in operators,
and whatever known intents, realigning, packing and naming succeeds, gives the text with the names of the predicted
intents, and names only entities whose labels were predicted. -/
theorem C81_prediction (env : Env) (henv : env.Sane) (p : Pipe) (hp : ∀ op ∈ p.steps, IsBuiltin env op) (σ : SetOrder)
    (t : OrdinalLabel) (ht : IsTransformer t) (hni : t.intent2index.length ≤ 2 ^ 31) (hne : t.entity2index.length < 2 ^ 31)
    (u : Str) (hu : u ≠ []) (hs : u.length < 2 ^ 31) (o : Seq) (as : List Aligner) (coll : List Seq)
    (ho : p.transformSequence (.str u) = .ok (o, as, coll))
    (hsafe : ∀ (i : Nat) op s, p.steps[i]? = some op → coll[i]? = some s → Safe env op s)
    (intents labels : List Int) (hi : KnownIntents t intents) (hl : KnownLabels t labels) (hlen : labels.length = o.length) :
    ∃ ls d r, realignAll as labels = .ok ls ∧ packToDatum u intents ls = .ok d ∧ t.humanize σ d = .ok r ∧
      r.utterance = u ∧ (∀ n, n ∈ r.names ↔ ∃ l ∈ intents, (n, l) ∈ t.intent2index) ∧
      NamesRuns t ls (r.entities.getD []) ∧
      ∀ x ∈ r.entities.getD [], ∃ l ∈ labels, (x.name, l) ∈ t.entity2index :=
  prediction_of_faithful σ t ht hni hne u hu hs o as (C14_C59_pipe env henv p hp (.str u) o as coll ho hsafe) intents labels
    hi hl hlen

/-! ### expanded data -/

theorem partition_labels (σ : SetOrder) (o : Bool) (u : Str) (es : List Entity) (start : Int) :
    (partitionLoop σ o u start es).2.filterMap (fun x => x) = es.map (fun e => e.label) ∧
      (partitionLoop σ o u start es).1.length = (partitionLoop σ o u start es).2.length := by
  induction es generalizing start with
  | nil =>
    unfold partitionLoop
    split <;> simp
  | cons e es ih =>
    unfold partitionLoop
    obtain ⟨i1, i2⟩ := ih e.stop
    dsimp only
    split <;> simp [i1, i2]

theorem kthLoop_length {α : Type} (ls : List (List α)) (k : Int) (xs : List α) (h : kthLoop ls k = .ok xs) :
    xs.length = ls.length := by
  induction ls generalizing k xs with
  | nil =>
    injection h with h
    subst h
    rfl
  | cons l ls ih =>
    unfold kthLoop at h
    split at h
    · cases h
    · split at h
      · cases h
      · obtain ⟨ys, h1, h2⟩ := bind_eq_ok h
        injection h2 with h2
        subst h2
        simp [ih _ _ h1]

theorem toInt32_eq {i j : Int} (h : toInt32 i = .ok j) : j = i := by
  by_cases hi : IsInt32 i
  · rw [toInt32_ok hi] at h
    injection h with h
    exact h.symm
  · rw [toInt32_error hi] at h
    cases h

theorem aggregate_labels (xs : List Str) (ls : List (Option Int)) (p : Int) (es : List Entity)
    (hlen : xs.length = ls.length) (h : aggregateEntities xs ls p = .ok es) :
    es.map (fun e => e.label) = ls.filterMap (fun x => x) ∧ (∀ e ∈ es, e.replacements = []) ∧
      (∀ e ∈ es, p ≤ e.start) ∧ es.Pairwise (fun a b => a.start ≤ b.start) := by
  induction xs generalizing ls p es with
  | nil =>
    cases ls with
    | nil =>
      injection h with h
      subst h
      simp
    | cons l ls => cases hlen
  | cons x xs ih =>
    cases ls with
    | nil => cases hlen
    | cons l ls =>
      have hlen' : xs.length = ls.length := by simpa using hlen
      cases l with
      | none =>
        unfold aggregateEntities at h
        obtain ⟨q, h1, h2⟩ := bind_eq_ok h
        have := toInt32_eq h1
        subst this
        obtain ⟨a, b, c, f⟩ := ih ls _ es hlen' h2
        refine ⟨by simpa using a, b, fun e he => ?_, f⟩
        have := c e he
        omega
      | some l =>
        unfold aggregateEntities at h
        obtain ⟨e, h0, h⟩ := bind_eq_ok h
        obtain ⟨q, h1, h⟩ := bind_eq_ok h
        obtain ⟨es', h2, h⟩ := bind_eq_ok h
        injection h with h
        subst h
        have := toInt32_eq h1
        subst this
        obtain ⟨a, b, c, f⟩ := ih ls _ es' hlen' h2
        by_cases hi : IsInt32 l ∧ IsInt32 p ∧ IsInt32 (p + x.length)
        · rw [entity_new_ok _ _ hi.1 hi.2.1 hi.2.2] at h0
          injection h0 with h0
          subst h0
          refine ⟨by simp [a], fun e he => ?_, fun e he => ?_, List.pairwise_cons.mpr ⟨fun e he => ?_, f⟩⟩
          · rcases List.mem_cons.mp he with rfl | he
            · rfl
            · exact b e he
          · rcases List.mem_cons.mp he with rfl | he
            · exact Int.le_refl _
            · have := c e he
              omega
          · have := c e he
            show p ≤ e.start
            omega
        · rw [entity_new_error _ _ hi] at h0
          cases h0

theorem copyIntents_eq {d : Datum} {is : List Intent} (h : d.copyIntents = .ok is) : is = d.intents := by
  unfold Datum.copyIntents at h
  have := (mapM_ok_iff _ _ _).mp h
  clear h
  generalize d.intents = js at this
  induction this with
  | nil => rfl
  | @cons i j is js h1 _ ih =>
    unfold Intent.new at h1
    obtain ⟨l, h2, h3⟩ := bind_eq_ok h1
    injection h3 with h3
    subst h3
    rw [toInt32_eq h2, ih]

theorem expand_facts {σ : SetOrder} {d : Datum} (hd : IsDatum d) {sampling : Option (Nat → List Int)} {o : Bool}
    {ds : List Datum} (h : expandByEntities σ d sampling o = .ok ds) (hne : d.entities ≠ []) :
    ∀ d' ∈ ds, d'.intents = d.intents ∧ d'.entities.map (fun e => e.label) = d.entities.map (fun e => e.label) ∧
      ∀ e ∈ d'.entities, e.replacements = [] := by
  unfold expandByEntities at h
  rw [if_neg (by rw [Bool.not_eq_false]; exact (hasEntities_iff d).mpr hne)] at h
  intro d' hd'
  obtain ⟨k, _, hk⟩ := mapM_ok_mem _ _ _ h d' hd'
  unfold expandOne at hk
  obtain ⟨segs, h1, hk⟩ := bind_eq_ok hk
  obtain ⟨es, h2, hk⟩ := bind_eq_ok hk
  obtain ⟨is, h3, hk⟩ := bind_eq_ok hk
  unfold getKthCombination at h1
  obtain ⟨k', _, h1⟩ := bind_eq_ok h1
  obtain ⟨p1, p2⟩ := partition_labels σ o d.utterance d.entities 0
  obtain ⟨a, b, _, f⟩ := aggregate_labels segs _ 0 es ((kthLoop_length _ _ _ h1).trans p2) h2
  obtain ⟨rfl, _, _⟩ := datum_new_cases _ _ _ _ hk
  have := copyIntents_eq h3
  subst this
  dsimp only
  rw [pySorted_of_pairwise _ _ f, pySorted_of_pairwise _ _ hd.intents]
  exact ⟨rfl, a.trans p1, b⟩

theorem forall₂_labels {t : OrdinalLabel} (ht : IsTransformer t) {es fs : List Entity} {xs ys : List RawEntity}
    (h1 : List.Forall₂ (fun (e : Entity) (x : RawEntity) => (x.name, e.label) ∈ t.entity2index) es xs)
    (h2 : List.Forall₂ (fun (e : Entity) (x : RawEntity) => (x.name, e.label) ∈ t.entity2index) fs ys)
    (h : es.map (fun e => e.label) = fs.map (fun e => e.label)) : xs.map (fun x => x.name) = ys.map (fun x => x.name) := by
  induction h1 generalizing fs ys with
  | nil =>
    cases h2 with
    | nil => rfl
    | cons a b => cases h
  | cons a _ ih =>
    cases h2 with
    | nil => cases h
    | cons b c =>
      rw [List.map_cons, List.map_cons] at h
      injection h with h3 h4
      rw [List.map_cons, List.map_cons, ih c h4]
      rw [h3] at a
      rw [entity_name_unique ht a b]

/-- C81: every datum that `expand_by_entities` makes from a raw dictionary that was read can be named again: with the
same intent names, and the same entity names in the order of the text, without replacements. -/
theorem C81_expand (σ : SetOrder) (t : OrdinalLabel) (ht : IsTransformer t) (r : RawDatum) (d : Datum)
    (hm : t.machanize r = .ok d) (hne : r.entities.getD [] ≠ []) (sampling : Option (Nat → List Int)) (o : Bool)
    (ds : List Datum) (h : expandByEntities σ d sampling o = .ok ds) (d' : Datum) (hd' : d' ∈ ds) :
    ∃ r', t.humanize σ d' = .ok r' ∧ r'.utterance = d'.utterance ∧ (∀ n, n ∈ r'.names ↔ n ∈ r.names) ∧
      (∃ xs, IsStableSort (fun x : RawEntity => x.start) (r.entities.getD []) xs ∧
        (r'.entities.getD []).map (fun x => x.name) = xs.map (fun x => x.name)) ∧
      (∀ x ∈ r'.entities.getD [], x.replacements = none) ∧
      List.Forall₂ (fun e x => x.start = e.start ∧ x.stop = e.stop) d'.entities (r'.entities.getD []) := by
  obtain ⟨h1, ⟨is, es, hnew⟩, h3, h4, h5⟩ := machanize_facts ht hm
  have hne' : d.entities ≠ [] := by
    intro h0
    rw [h0] at h5
    have := h5.length_eq
    rw [(pySorted_perm _ _).length_eq] at this
    exact hne (List.eq_nil_of_length_eq_zero this)
  obtain ⟨f1, f2, f3⟩ := expand_facts (isDatum_of_new hnew) h hne' d' hd'
  have hlab : ∀ e ∈ d'.entities, ∃ n, (n, e.label) ∈ t.entity2index := by
    intro e he
    have : e.label ∈ d.entities.map (fun e => e.label) := f2 ▸ List.mem_map.mpr ⟨e, he, rfl⟩
    obtain ⟨e', he', hl⟩ := List.mem_map.mp this
    obtain ⟨x, _, hx⟩ := forall₂_mem_right h5 e' he'
    exact ⟨x.name, by rw [← hl]; exact hx.name⟩
  obtain ⟨r', hr', hdesc⟩ := (C81_humanize σ t ht d').1 ⟨fun i hi => by
    rw [f1] at hi
    obtain ⟨_, n, _, hn⟩ := h3 i hi
    exact ⟨n, hn⟩, hlab⟩
  refine ⟨r', hr', hdesc.utterance, fun n => ?_, ⟨_, pySorted_stable_int _ _, ?_⟩, fun x hx => ?_, ?_⟩
  · rw [described_names ht hdesc, f1]
    constructor
    · rintro ⟨i, a, b⟩
      obtain ⟨_, n', hn', hm'⟩ := h3 i a
      rw [intent_name_unique ht b hm']
      exact hn'
    · exact fun hn => h4 n hn
  · refine forall₂_labels ht (hdesc.entities.imp fun e x hx => hx.1.name) ?_ f2
    exact (List.Forall₂.flip h5).imp fun e x hx => hx.name
  · obtain ⟨e, he, _, hp⟩ := forall₂_mem_right hdesc.entities x hx
    exact hp.mpr (f3 e he)
  · exact hdesc.entities.imp fun e x hx => ⟨hx.1.start, hx.1.stop⟩

/-! ### Cases -/

/-- The data of `transformers/README.md`. -/
def exData : List RawDatum :=
  [⟨"你好".toList, ["GREETINGS".toList], none⟩,
    ⟨"我想喝珍奶半糖".toList, ["ORDER".toList],
      some [⟨"ITEM".toList, 3, 5, some ["拿鐵".toList, "多多綠".toList, "紅茶".toList]⟩,
        ⟨"SUGAR".toList, 5, 7, some ["無糖".toList, "全糖".toList]⟩]⟩,
    ⟨"紅茶大杯多少錢".toList, ["ASK_PRICE".toList],
      some [⟨"ITEM".toList, 0, 2, some ["珍奶".toList, "多多綠".toList]⟩,
        ⟨"SIZE".toList, 2, 4, some ["中杯".toList, "小杯".toList]⟩]⟩]

/-- The transformer made from it. -/
def exNames : OrdinalLabel :=
  ⟨[("GREETINGS".toList, 0), ("ORDER".toList, 1), ("ASK_PRICE".toList, 2)],
    [("ITEM".toList, 1), ("SUGAR".toList, 2), ("SIZE".toList, 3)], 0⟩

/-- A concrete case of `C81_data`. -/
example : fromRawDictionary exData 0 = .ok exNames ∧
    ∀ r ∈ exData, ∀ x ∈ r.entities.getD [], x.name ≠ "__NOT_ENTITY__".toList := ⟨by decide, by decide⟩

theorem exNames_transformer : IsTransformer exNames := (C81_data exData 0 exNames (by decide) (by decide)).1

/-- The raw dictionary and the datum of `transformers/README.md`. -/
def exRaw : RawDatum := ⟨"早安，我想喝珍奶".toList, ["GREETINGS".toList], some [⟨"ITEM".toList, 6, 8, none⟩]⟩

def exNamed : Datum := ⟨"早安，我想喝珍奶".toList, [⟨0⟩], [⟨1, "珍奶".toList, 6, 8, []⟩]⟩

/-- A concrete case of `C81_machanize` and `C81_humanize`: the asserts of `transformers/README.md`. -/
example (σ : SetOrder) : KnownNames exNames exRaw ∧ exNames.machanize exRaw = .ok exNamed ∧
    exNames.humanize σ exNamed = .ok exRaw := by
  refine ⟨⟨?_, ?_⟩, by decide, rfl⟩
  · intro n hn
    have : n = "GREETINGS".toList := List.mem_singleton.mp hn
    subst this
    exact ⟨0, by decide⟩
  · intro x hx
    have : x = ⟨"ITEM".toList, 6, 8, none⟩ := List.mem_singleton.mp hx
    subst this
    exact ⟨1, by decide⟩

/-- Overlapping entities and positions that are no C `int`. -/
example : exNames.machanize ⟨"abc".toList, [], some [⟨"ITEM".toList, 1, 3, none⟩, ⟨"SIZE".toList, 0, 2, none⟩]⟩ =
      .error .entityOverlapping ∧
    exNames.machanize ⟨"abc".toList, [], some [⟨"ITEM".toList, 0, 2 ^ 31, none⟩]⟩ = .error .overflowError :=
  ⟨by decide, by decide⟩

/-- A concrete case of `C81_predicted`. -/
example : ∃ d r, packToDatum "abcd".toList [2, 0, 2] [1, 1, 3, 0] = .ok d ∧ exNames.humanize SetOrder.id d = .ok r ∧
    r = ⟨"abcd".toList, ["GREETINGS".toList, "ASK_PRICE".toList],
      some [⟨"ITEM".toList, 0, 2, none⟩, ⟨"SIZE".toList, 2, 3, none⟩]⟩ ∧ exNames.machanize r = .ok d ∧
    KnownLabels exNames [1, 1, 3, 0] :=
  ⟨⟨"abcd".toList, [⟨0⟩, ⟨2⟩], [⟨1, "ab".toList, 0, 2, []⟩, ⟨3, "c".toList, 2, 3, []⟩]⟩, _, by decide, by decide, rfl, by decide, by
    intro l hl
    simp only [List.mem_cons, List.not_mem_nil, or_false] at hl
    rcases hl with rfl | rfl | rfl | rfl
    · exact .inr ⟨"ITEM".toList, by decide⟩
    · exact .inr ⟨"ITEM".toList, by decide⟩
    · exact .inr ⟨"SIZE".toList, by decide⟩
    · exact .inl rfl⟩

/-- A concrete case of `C81_nonzero`: with `not_entity_index` 2 the item is labelled 0 and lost. -/
example : IsTransformer ⟨[], [("ITEM".toList, 0), ("SIZE".toList, 1)], 2⟩ ∧ (2 : Int) ≠ 0 ∧
    (do
      let d ← (⟨[], [("ITEM".toList, 0), ("SIZE".toList, 1)], 2⟩ : OrdinalLabel).machanize
        ⟨"ab".toList, [], some [⟨"ITEM".toList, 0, 1, none⟩, ⟨"SIZE".toList, 1, 2, none⟩]⟩
      let (u, is, ls) ← unpackDatum d
      let d ← packToDatum u is ls
      (⟨[], [("ITEM".toList, 0), ("SIZE".toList, 1)], 2⟩ : OrdinalLabel).humanize SetOrder.id d) =
      .ok ⟨"ab".toList, [], some [⟨"SIZE".toList, 1, 2, none⟩]⟩ :=
  ⟨⟨by decide, by unfold IsDict; decide, by unfold IsDict; decide, by decide⟩, by decide, by decide⟩

/-- "aaa1b" with the digit named. -/
def exDigitRaw : RawDatum := ⟨"aaa1b".toList, [], some [⟨"SIZE".toList, 3, 4, none⟩]⟩

theorem exDigitRaw_proper : RawProper exDigitRaw := ⟨by decide, by decide, by decide⟩

/-- A concrete case of `C81_pack` and `C81_pipe`: the name comes back through the pipe. -/
example (σ : SetOrder) : ∃ out ls d' r', exNames.machanize exDigitRaw = .ok exDigit ∧
    (⟨[exOne], []⟩ : Pipe).transform exDigit = .ok out ∧ realignAll out.aligners out.entityLabels = .ok ls ∧
    packToDatum exDigitRaw.utterance out.intentLabels ls = .ok d' ∧ exNames.humanize σ d' = .ok r' ∧ SaysSame exDigitRaw r' := by
  obtain ⟨out, a, h1, h2, h3, h4, h5, _⟩ := exDigit_run
  have hr : realignAll out.aligners out.entityLabels = .ok [0, 0, 0, 3, 0] := by
    rw [h2, h3]
    show (a.inverseTransform [0, 0, 0, 3, 3, 3, 0] >>= fun m => .ok m) = _
    rw [h5]
    rfl
  obtain ⟨d', r', g1, g2, g3⟩ := C81_pipe exEnv exEnv_sane ⟨[exOne], []⟩
    (fun op hop => List.mem_singleton.mp hop ▸ exOne_builtin) σ exNames exNames_transformer rfl exDigitRaw
    exDigitRaw_proper exDigit (by decide) out h1 _ hr
  exact ⟨out, _, d', r', by decide, h1, hr, g1, g2, g3.mpr ⟨⟨by decide, by decide, by decide⟩, rfl⟩⟩

/-- A concrete case of `C81_prediction`: the label 2 predicted for one of the three characters put in for the digit. -/
example (σ : SetOrder) : ∃ as coll ls d r, (⟨[exOne], []⟩ : Pipe).transformSequence (.str "aaa1b".toList) =
      .ok (.str "aaaxyzb".toList, as, coll) ∧ realignAll as [1, 0, 0, 0, 2, 0, 0] = .ok ls ∧
    packToDatum "aaa1b".toList [1] ls = .ok d ∧ exNames.humanize σ d = .ok r ∧ NamesRuns exNames ls (r.entities.getD []) := by
  obtain ⟨out, a, h1, h2, h3, h4, h5, h6⟩ := exDigit_run
  unfold Pipe.transform at h1
  have hu : unpackDatum exDigit = .ok ("aaa1b".toList, [], [0, 0, 0, 3, 0]) := rfl
  rw [hu, Except.bind_ok] at h1
  obtain ⟨⟨o, as, coll⟩, q1, q2⟩ := bind_eq_ok h1
  have ho : o = .str "aaaxyzb".toList := by
    obtain ⟨ys, _, q2⟩ := bind_eq_ok q2
    injection q2 with q2
    rw [← q2] at h6
    exact h6
  subst ho
  obtain ⟨ls, d, r, g1, g2, g3, _, _, g6, _⟩ := C81_prediction exEnv exEnv_sane ⟨[exOne], []⟩
    (fun op hop => List.mem_singleton.mp hop ▸ exOne_builtin) σ exNames exNames_transformer (by decide) (by decide)
    "aaa1b".toList (by decide) (by decide) _ as coll q1
    (fun i op s hop _ => by
      match i with
      | 0 =>
        injection hop with hop
        subst hop
        exact C14_safe _ _ _ (.inr ⟨by decide, fun h => by injection h with h; injection h with h; cases h⟩)
      | i + 1 => cases hop)
    [1] [1, 0, 0, 0, 2, 0, 0]
    (fun l hl => by
      have : l = 1 := List.mem_singleton.mp hl
      subst this
      exact ⟨"ORDER".toList, by decide⟩)
    (fun l hl => by
      simp only [List.mem_cons, List.not_mem_nil, or_false] at hl
      rcases hl with rfl | rfl | rfl | rfl | rfl | rfl | rfl
      · exact .inr ⟨"ITEM".toList, by decide⟩
      · exact .inl rfl
      · exact .inl rfl
      · exact .inl rfl
      · exact .inr ⟨"SUGAR".toList, by decide⟩
      · exact .inl rfl
      · exact .inl rfl)
    rfl
  exact ⟨as, coll, ls, d, r, q1, g1, g2, g3, g6⟩

/-- A concrete case of `C81_expand`. -/
example : ∃ d ds, exNames.machanize ⟨"我想喝珍奶半糖".toList, ["ORDER".toList],
      some [⟨"ITEM".toList, 3, 5, some ["拿鐵".toList]⟩, ⟨"SUGAR".toList, 5, 7, none⟩]⟩ = .ok d ∧
    expandByEntities SetOrder.id d none false = .ok ds ∧
    ds.map (exNames.humanize SetOrder.id) = [.ok ⟨"我想喝拿鐵半糖".toList, ["ORDER".toList],
      some [⟨"ITEM".toList, 3, 5, none⟩, ⟨"SUGAR".toList, 5, 7, none⟩]⟩] :=
  ⟨_, _, rfl, rfl, by decide⟩

end Uttut
