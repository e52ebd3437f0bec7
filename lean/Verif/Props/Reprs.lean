import Verif.Spec.Reprs
import Verif.Props.Messages

/-!
C101: what `repr` and `str` of data, spans, replacements and their groups show.
-/

namespace Uttut

open Spec

/-! ### Spans, replacements, groups -/

/-- C101: `str` and `repr` of spans tell different spans apart. -/
theorem C101_span (s t : Span) : (s.str = t.str ↔ s = t) ∧ (s.repr = t.repr ↔ s = t) := by
  have key : ∀ a : Str, a ++ fmtInt s.start ++ ", ".toList ++ fmtInt s.stop ++ ")".toList =
      a ++ fmtInt t.start ++ ", ".toList ++ fmtInt t.stop ++ ")".toList → s = t := by
    intro a h
    simp only [List.append_assoc] at h
    have h := List.append_cancel_left h
    obtain ⟨h1, h⟩ := fmtInt_append (stops_append _ _ (by decide)) (stops_append _ _ (by decide)) h
    have h := List.append_cancel_left h
    rw [← List.append_nil ")".toList] at h
    obtain ⟨h2, _⟩ := fmtInt_append (stops_append _ _ (by decide)) (stops_append _ _ (by decide)) h
    cases s; cases t
    simp only [Span.mk.injEq]
    exact ⟨Int.ofNat.inj h1, Int.ofNat.inj h2⟩
  exact ⟨⟨key _, fun h => by rw [h]⟩, ⟨key _, fun h => by rw [h]⟩⟩

/-- C101: the `repr` of a replacement gives its bounds, and for annotations of equal length (such as `None`) its new value;
a new value can look like an annotation. -/
theorem C101_replacement (r s : Rep Str) (a b : Str) (h : r.repr a = s.repr b) :
    r.start = s.start ∧ r.stop = s.stop ∧ (a.length = b.length → r.val = s.val ∧ a = b) := by
  unfold Rep.repr at h
  simp only [List.append_assoc] at h
  have h := List.append_cancel_left h
  obtain ⟨h1, h⟩ := fmtInt_append (stops_append _ _ (by decide)) (stops_append _ _ (by decide)) h
  have h := List.append_cancel_left h
  obtain ⟨h2, h⟩ := fmtInt_append (stops_append _ _ (by decide)) (stops_append _ _ (by decide)) h
  have h := List.append_cancel_left h
  refine ⟨Int.ofNat.inj h1, Int.ofNat.inj h2, fun hl => ?_⟩
  obtain ⟨h3, h⟩ := List.append_inj' h (by simp only [List.length_append, hl])
  exact ⟨h3, List.append_cancel_right (List.append_cancel_left h)⟩

/-- C101: different replacements with different annotations can have the same `repr`. -/
theorem C101_replacement_ambiguous : ∃ (r s : Rep Str) (a b : Str), r ≠ s ∧ a ≠ b ∧ r.repr a = s.repr b :=
  ⟨⟨0, 1, "x".toList⟩, ⟨0, 1, "x, annotation=y".toList⟩, "y, annotation=z".toList, "z".toList, by decide, by decide, by decide⟩

/-- C101: the `repr` of a group of replacements tells how many there are, and nothing else; that of a group of spans is
always the name of the class. -/
theorem C101_groups {V : Type} (g h : ReplacementGroup V) (i j : SpanGroup) :
    (g.repr = h.repr ↔ g.reps.length = h.reps.length) ∧ i.repr = j.repr ∧
      i.repr = "SpanGroup".toList := by
  refine ⟨⟨fun e => ?_, fun e => by unfold ReplacementGroup.repr; rw [e]⟩, rfl, rfl⟩
  unfold ReplacementGroup.repr at e
  rw [List.append_assoc, List.append_assoc] at e
  have e := List.append_cancel_left e
  rw [← List.append_nil " elements".toList] at e
  exact Int.ofNat.inj (fmtInt_append (stops_append _ _ (by decide)) (stops_append _ _ (by decide)) e).1

/-! ### Data -/

theorem listed_joinWith (sep : String) : ∀ l : List Str, Enumerated sep l (joinWith sep.toList l)
  | [] => .nil
  | [x] => .one x
  | x :: y :: ys => .more x y ys _ (listed_joinWith sep (y :: ys))

theorem layout_pformat (l : List Str) : Layout l (pformat l) := by
  refine ⟨_, _, listed_joinWith _ l, listed_joinWith _ l, ?_⟩
  have hlen : ("[".toList ++ joinWith ", ".toList l ++ "]".toList).length = (joinWith ", ".toList l).length + 2 := by
    simp
  unfold pformat
  simp only [hlen]
  by_cases h : (joinWith ", ".toList l).length + 2 > 80
  · rw [if_pos h]
    exact .inr ⟨by omega, rfl⟩
  · rw [if_neg h]
    exact .inl ⟨by omega, rfl⟩

theorem listed_unique {sep : String} {l : List Str} {s t : Str} (hs : Enumerated sep l s) (ht : Enumerated sep l t) : s = t := by
  induction hs generalizing t with
  | nil => cases ht; rfl
  | one x => cases ht; rfl
  | more x y ys r h ih =>
    cases ht with
    | more _ _ _ r' h' => rw [ih h']

theorem listed_length {l : List Str} {s t : Str} (hs : Enumerated ", " l s) (ht : Enumerated ",\n " l t) : s.length ≤ t.length := by
  induction hs generalizing t with
  | nil => cases ht; exact Nat.le_refl _
  | one x => cases ht; exact Nat.le_refl _
  | more x y ys r h ih =>
    cases ht with
    | more _ _ _ r' h' =>
      have := ih h'
      simp only [List.length_append]
      have h1 : (", ".toList).length = 2 := by decide
      have h2 : (",\n ".toList).length = 3 := by decide
      omega

/-- Items that start with `<` and have no other one. -/
def Tagged (x : Str) : Prop := ∃ t, x = '<' :: t ∧ '<' ∉ t

theorem listed_head {sep : String} {x : Str} {xs : List Str} {s : Str} (hx : Tagged x) (h : Enumerated sep (x :: xs) s) :
    ∃ t, s = '<' :: t := by
  obtain ⟨t, rfl, _⟩ := hx
  cases h with
  | one => exact ⟨_, rfl⟩
  | more _ y ys r h => exact ⟨_, rfl⟩

theorem listed_inj {sep : String} (hsep : '<' ∉ sep.toList) : ∀ {l m : List Str} {s : Str}, (∀ x ∈ l, Tagged x) →
    (∀ x ∈ m, Tagged x) → Enumerated sep l s → Enumerated sep m s → l = m := by
  intro l m s hl hm hs ht
  induction hs generalizing m with
  | nil =>
    cases m with
    | nil => rfl
    | cons y ys =>
      obtain ⟨t, h⟩ := listed_head (hm y (by simp)) ht
      cases h
  | one x =>
    obtain ⟨t, rfl, hx⟩ := hl _ (List.mem_singleton.mpr rfl)
    generalize hw : '<' :: t = w at ht
    cases ht with
    | nil => cases hw
    | one => rfl
    | more y z ys r h =>
      exfalso
      obtain ⟨t', rfl, _⟩ := hm y (by simp)
      obtain ⟨r', rfl⟩ := listed_head (hm z (by simp)) h
      have hw : '<' :: t = '<' :: (t' ++ sep.toList ++ '<' :: r') := hw
      injection hw with _ hw
      exact hx (by rw [hw]; simp)
  | more x y ys r h ih =>
    obtain ⟨t, rfl, hx⟩ := hl x (by simp)
    obtain ⟨r', rfl⟩ := listed_head (hl y (by simp)) h
    generalize hw : '<' :: t ++ sep.toList ++ '<' :: r' = w at ht
    cases ht with
    | nil => cases hw
    | one z =>
      exfalso
      obtain ⟨t', rfl, hz⟩ := hm _ (List.mem_singleton.mpr rfl)
      have hw : '<' :: (t ++ sep.toList ++ '<' :: r') = '<' :: t' := hw
      injection hw with _ hw
      exact hz (by rw [← hw]; simp)
    | more z z' zs q h' =>
      obtain ⟨t', rfl, hz⟩ := hm z (by simp)
      obtain ⟨q', rfl⟩ := listed_head (hm z' (by simp)) h'
      have hw : '<' :: (t ++ sep.toList ++ '<' :: r') = '<' :: (t' ++ sep.toList ++ '<' :: q') := hw
      injection hw with _ hw
      obtain ⟨h1, h2⟩ := cut_at (by simp only [List.mem_append, not_or]; exact ⟨hx, hsep⟩)
        (by simp only [List.mem_append, not_or]; exact ⟨hz, hsep⟩) hw
      have h1 := List.append_cancel_right h1
      subst h1 h2
      rw [ih (fun x hx => hl x (List.mem_cons_of_mem _ hx)) (fun x hx => hm x (List.mem_cons_of_mem _ hx)) h']

/-- Two lists of such items with the same layout are the same. -/
theorem layout_inj {l m : List Str} {s : Str} (hl : ∀ x ∈ l, Tagged x) (hm : ∀ x ∈ m, Tagged x) (h : Layout l s)
    (h' : Layout m s) : l = m := by
  obtain ⟨o, w, ho, hw, h⟩ := h
  obtain ⟨o', w', ho', hw', h'⟩ := h'
  have e1 := listed_length ho hw
  have e2 := listed_length ho' hw'
  have cancel : ∀ a b : Str, '[' :: a ++ [']'] = '[' :: b ++ [']'] → a = b := fun a b e =>
    List.append_cancel_right (List.cons.inj e).2
  rcases h with ⟨k, rfl⟩ | ⟨k, rfl⟩ <;> rcases h' with ⟨k', h'⟩ | ⟨k', h'⟩ <;> have h' := cancel _ _ h' <;> subst h'
  · exact listed_inj (by decide) hl hm ho ho'
  · omega
  · omega
  · exact listed_inj (by decide) hl hm hw hw'

theorem fmtInt_chars (i : Int) : ∀ c ∈ fmtInt i, c = '-' ∨ Json.isDigitChar c = true := by
  intro c hc
  unfold fmtInt Json.intStr at hc
  split at hc
  · rcases List.mem_cons.mp hc with hc | hc
    · exact .inl hc
    · exact .inr (Json.natStr_digits _ _ c hc)
  · exact .inr (Json.natStr_digits _ _ c hc)

theorem fmtInt_no (i : Int) (c : Char) (h1 : c ≠ '-') (h2 : Json.isDigitChar c = false) : c ∉ fmtInt i := by
  intro h
  rcases fmtInt_chars i c h with h | h
  · exact h1 h
  · rw [h2] at h; cases h

theorem intent_tagged (i : Intent) : Tagged i.repr := by
  refine ⟨"Intent ".toList ++ fmtInt i.label ++ ">".toList, rfl, ?_⟩
  simp only [List.mem_append, not_or]
  exact ⟨⟨by decide, fmtInt_no _ _ (by decide) (by decide)⟩, by decide⟩

theorem joinWith_no (c : Char) (sep : Str) (hs : c ∉ sep) : ∀ l : List Str, (∀ x ∈ l, c ∉ x) → c ∉ joinWith sep l
  | [], _ => by simp [joinWith]
  | [x], h => h x (by simp)
  | x :: y :: ys, h => by
    unfold joinWith
    simp only [List.mem_append, not_or]
    exact ⟨⟨h x (by simp), hs⟩, joinWith_no c sep hs (y :: ys) fun z hz => h z (List.mem_cons_of_mem _ hz)⟩

theorem entity_tagged (σ : SetOrder) (e : Entity) (h : NoBracket e) : Tagged (e.repr σ) := by
  refine ⟨"Entity ".toList ++ fmtInt e.label ++ ": ".toList ++ e.value ++ " at ".toList ++ fmtInt e.start ++ " - ".toList ++
    fmtInt e.stop ++ ", with replacements: ".toList ++ joinWith ", ".toList (σ.listSet e.replacements) ++ ">".toList, rfl, ?_⟩
  have hn := fun i => fmtInt_no i '<' (by decide) (by decide)
  simp only [List.mem_append, not_or]
  exact ⟨⟨⟨⟨⟨⟨⟨⟨⟨⟨by decide, hn _⟩, by decide⟩, h.1⟩, by decide⟩, hn _⟩, by decide⟩, hn _⟩, by decide⟩,
    joinWith_no _ _ (by decide) _ fun x hx => h.2 x (mem_listSet.mp hx)⟩, by decide⟩

/-- C101: the `repr` of a datum shows its utterance, its intents and its entities in order, each list on one line if this
has at most 80 characters and otherwise one line for each element. -/
theorem C101_datum (σ : SetOrder) (d : Datum) : DatumText d (d.repr σ) := by
  unfold Datum.repr DatumText
  refine Exists.intro (d.intents.map fun i => i.repr) (Exists.intro (d.entities.map fun e => e.repr σ) ?_)
  generalize hp : pformat (d.intents.map fun i => i.repr) = p
  generalize hq : pformat (d.entities.map fun e => e.repr σ) = q
  refine ⟨p, q, ?_, ?_, hp ▸ layout_pformat _, hq ▸ layout_pformat _, Eq.refl _⟩
  · rw [List.forall₂_map_right_iff]
    exact List.forall₂_same.mpr fun i _ => ⟨_, fmtInt_numeral _, rfl⟩
  · rw [List.forall₂_map_right_iff]
    exact List.forall₂_same.mpr fun e _ => ⟨_, _, _, σ.listSet e.replacements, _, fmtInt_numeral _, fmtInt_numeral _,
      fmtInt_numeral _, nodup_listSet _ _, fun x => mem_listSet, listed_joinWith _ _, rfl⟩

theorem pformat_cut (l : List Str) (h : ∀ x ∈ l, ']' ∉ x) : ∃ a, ']' ∉ a ∧ pformat l = a ++ [']'] := by
  unfold pformat
  simp only
  split
  · refine ⟨"[".toList ++ joinWith ",\n ".toList l, ?_, rfl⟩
    simp only [List.mem_append, not_or]
    exact ⟨by decide, joinWith_no _ _ (by decide) _ h⟩
  · refine ⟨"[".toList ++ joinWith ", ".toList l, ?_, rfl⟩
    simp only [List.mem_append, not_or]
    exact ⟨by decide, joinWith_no _ _ (by decide) _ h⟩

theorem entity_label (σ τ : SetOrder) (e f : Entity) (h : e.repr σ = f.repr τ) : e.label = f.label := by
  unfold Entity.repr at h
  simp only [List.append_assoc] at h
  exact (fmtInt_append (stops_append _ _ (by decide)) (stops_append _ _ (by decide)) (List.append_cancel_left h)).1

/-- C101: from the `repr` of a datum with an utterance of one line the utterance and the intents can be read off, and, if no
value and no replacement contains `<`, also the `repr`s of the entities, and with them how many there are and their labels. -/
theorem C101_datum_read (σ τ : SetOrder) (d d' : Datum) (hu : '\n' ∉ d.utterance) (hu' : '\n' ∉ d'.utterance)
    (h : d.repr σ = d'.repr τ) :
    d.utterance = d'.utterance ∧ d.intents = d'.intents ∧
      ((∀ e ∈ d.entities, NoBracket e) → (∀ e ∈ d'.entities, NoBracket e) →
        d.entities.map (fun e => e.repr σ) = d'.entities.map (fun e => e.repr τ) ∧
        d.entities.map Entity.label = d'.entities.map Entity.label) := by
  unfold Datum.repr at h
  simp only [List.append_assoc] at h
  have h := List.append_cancel_left h
  rw [show "\n with intents: ".toList = '\n' :: " with intents: ".toList from rfl, List.cons_append, List.cons_append] at h
  obtain ⟨h1, h⟩ := cut_at hu hu' h
  have hn : ∀ (i : Intent), ']' ∉ i.repr := fun i => by
    unfold Intent.repr
    simp only [List.mem_append, not_or]
    exact ⟨⟨by decide, fmtInt_no _ _ (by decide) (by decide)⟩, by decide⟩
  obtain ⟨a, ha, ea⟩ := pformat_cut (d.intents.map fun i => i.repr) (by
    intro x hx
    obtain ⟨i, _, rfl⟩ := List.mem_map.mp hx
    exact hn i)
  obtain ⟨b, hb, eb⟩ := pformat_cut (d'.intents.map fun i => i.repr) (by
    intro x hx
    obtain ⟨i, _, rfl⟩ := List.mem_map.mp hx
    exact hn i)
  have h := List.append_cancel_left h
  rw [ea, eb, List.append_assoc, List.append_assoc, List.singleton_append, List.singleton_append] at h
  obtain ⟨h2, h⟩ := cut_at ha hb h
  have h := List.append_cancel_right (List.append_cancel_left h)
  have tagged : ∀ l : List Intent, ∀ x ∈ l.map fun i => i.repr, Tagged x := by
    intro l x hx
    obtain ⟨i, _, rfl⟩ := List.mem_map.mp hx
    exact intent_tagged i
  have hi : (d.intents.map fun i => i.repr) = d'.intents.map fun i => i.repr :=
    layout_inj (tagged _) (tagged _) (layout_pformat _) (by rw [ea, h2, ← eb]; exact layout_pformat _)
  refine ⟨h1, List.map_injective_iff.mpr (fun i j e => (C82_intent_repr i j).mp e) hi, fun he he' => ?_⟩
  have hr : d.entities.map (fun e => e.repr σ) = d'.entities.map fun e => e.repr τ := by
    refine layout_inj ?_ ?_ (layout_pformat _) (by rw [h]; exact layout_pformat _)
    · intro x hx
      obtain ⟨e, hm, rfl⟩ := List.mem_map.mp hx
      exact entity_tagged σ e (he e hm)
    · intro x hx
      obtain ⟨e, hm, rfl⟩ := List.mem_map.mp hx
      exact entity_tagged τ e (he' e hm)
  refine ⟨hr, ?_⟩
  have hf : List.Forall₂ (fun e f : Entity => e.repr σ = f.repr τ) d.entities d'.entities := by
    rw [← List.forall₂_eq_eq_eq, List.forall₂_map_left_iff, List.forall₂_map_right_iff] at hr
    exact hr
  rw [← List.forall₂_eq_eq_eq, List.forall₂_map_left_iff, List.forall₂_map_right_iff]
  exact hf.imp fun e f h => entity_label σ τ e f h

theorem cut_last {c : Char} {a b x y : Str} (hx : c ∉ x) (hy : c ∉ y) (h : a ++ c :: x = b ++ c :: y) : a = b ∧ x = y := by
  have h := congrArg List.reverse h
  simp only [List.reverse_append, List.reverse_cons, List.append_assoc, List.singleton_append] at h
  obtain ⟨h1, h2⟩ := cut_at (by simpa using hx) (by simpa using hy) h
  exact ⟨List.reverse_injective h2, List.reverse_injective h1⟩

theorem entity_bare (σ τ : SetOrder) (e f : Entity) (he : e.replacements = []) (hf : f.replacements = [])
    (h : e.repr σ = f.repr τ) : e = f := by
  have h1 := entity_label σ τ e f h
  have hs : ∀ ρ : SetOrder, ρ.listSet ([] : List Str) = [] := fun ρ =>
    List.eq_nil_iff_forall_not_mem.mpr fun x hx => by simpa using mem_listSet.mp hx
  unfold Entity.repr at h
  rw [he, hf, hs, hs, h1] at h
  have h := List.append_cancel_right (List.append_cancel_right (List.append_cancel_right h))
  have hn := fun i => fmtInt_no i ' ' (by decide) (by decide)
  rw [show " - ".toList = [' ', '-'] ++ [' '] from rfl, ← List.append_assoc, List.append_assoc _ [' '],
    ← List.append_assoc _ [' ', '-'] [' '], List.append_assoc _ [' '] (fmtInt f.stop)] at h
  obtain ⟨h, h2⟩ := cut_last (hn _) (hn _) h
  have h := List.append_cancel_right h
  rw [show " at ".toList = [' ', 'a', 't'] ++ [' '] from rfl, ← List.append_assoc, List.append_assoc _ [' '],
    ← List.append_assoc _ [' ', 'a', 't'] [' '], List.append_assoc _ [' '] (fmtInt f.start)] at h
  obtain ⟨h, h3⟩ := cut_last (hn _) (hn _) h
  have h := List.append_cancel_left (List.append_cancel_right h)
  have inj : ∀ i j, fmtInt i = fmtInt j → i = j := fun i j e =>
    (fmtInt_append (stops_append ">".toList [] (by decide)) (stops_append ">".toList [] (by decide)) (by rw [e])).1
  cases e; cases f
  simp only [Entity.mk.injEq]
  exact ⟨h1, h, inj _ _ h3, inj _ _ h2, he.trans hf.symm⟩

/-- C101: for data with utterances of one line and entities without replacements and without `<` in their values, the `repr`
tells everything. -/
theorem C101_datum_bare (σ τ : SetOrder) (d d' : Datum) (hu : '\n' ∉ d.utterance) (hu' : '\n' ∉ d'.utterance)
    (he : ∀ e ∈ d.entities, e.replacements = [] ∧ '<' ∉ e.value)
    (he' : ∀ e ∈ d'.entities, e.replacements = [] ∧ '<' ∉ e.value) : d.repr σ = d'.repr τ ↔ d = d' := by
  have bare : ∀ e : Entity, e.replacements = [] ∧ '<' ∉ e.value → NoBracket e := fun e h =>
    ⟨h.2, fun r hr => by rw [h.1] at hr; cases hr⟩
  constructor
  · intro h
    obtain ⟨h1, h2, h3⟩ := C101_datum_read σ τ d d' hu hu' h
    have h3 := (h3 (fun e hm => bare e (he e hm)) fun e hm => bare e (he' e hm)).1
    have : d.entities = d'.entities := by
      clear h h1 h2
      revert h3 he he'
      generalize d.entities = es
      generalize d'.entities = fs
      intro he he' h
      induction es generalizing fs with
      | nil =>
        cases fs with
        | nil => rfl
        | cons f fs => cases h
      | cons e es ih =>
        cases fs with
        | nil => cases h
        | cons f fs =>
          simp only [List.map_cons, List.cons.injEq] at h
          rw [entity_bare σ τ e f (he e (by simp)).1 (he' f (by simp)).1 h.1,
            ih fs (fun x hx => he x (List.mem_cons_of_mem _ hx)) (fun x hx => he' x (List.mem_cons_of_mem _ hx)) h.2]
    cases d; cases d'
    simp_all
  · rintro rfl
    have hs : ∀ ρ : SetOrder, ρ.listSet ([] : List Str) = [] := fun ρ =>
      List.eq_nil_iff_forall_not_mem.mpr fun x hx => by simpa using mem_listSet.mp hx
    have : d.entities.map (fun e => e.repr σ) = d.entities.map fun e => e.repr τ := by
      refine List.map_congr_left fun e hm => ?_
      unfold Entity.repr
      rw [(he e hm).1, hs, hs]
    unfold Datum.repr
    simp only [this]

/-- C101: different data can have the same `repr`, one of them with an entity on the whole utterance and one with an entity on
its first character, and equal data different ones: they may repeat intents. -/
theorem C101_datum_ambiguous :
    (∃ u e f d d', Datum.new u none (some [e]) = .ok d ∧ Datum.new u none (some [f]) = .ok d' ∧ d.eq d' = false ∧
      ∀ σ τ : SetOrder, d.repr σ = d'.repr τ) ∧
    ∃ u is js d d', Datum.new u (some is) none = .ok d ∧ Datum.new u (some js) none = .ok d' ∧ d.eq d' = true ∧
      ∀ σ τ : SetOrder, d.repr σ ≠ d'.repr τ := by
  refine ⟨⟨"a at 0 - 1, with replacements: ".toList, ⟨1, "a".toList, 0, 1, [" at 0 - 31, with replacements: ".toList]⟩,
      ⟨1, "a at 0 - 1, with replacements: ".toList, 0, 31, []⟩, ⟨"a at 0 - 1, with replacements: ".toList, [], [⟨1, "a".toList, 0, 1,
        [" at 0 - 31, with replacements: ".toList]⟩]⟩, ⟨"a at 0 - 1, with replacements: ".toList, [], [⟨1, "a at 0 - 1, with replacements: ".toList, 0, 31, []⟩]⟩,
        by decide, by decide, by decide, fun σ τ => ?_⟩,
    "a".toList, [⟨1⟩, ⟨1⟩], [⟨1⟩], ⟨"a".toList, [⟨1⟩, ⟨1⟩], []⟩, ⟨"a".toList, [⟨1⟩], []⟩, by decide, by decide, by decide,
    fun σ τ h => ?_⟩
  · have h0 : τ.listSet ([] : List Str) = [] :=
      List.eq_nil_iff_forall_not_mem.mpr fun x hx => by simpa using mem_listSet.mp hx
    have h1 : ∀ r : Str, σ.listSet [r] = [r] := fun r => List.perm_singleton.mp (listSet_perm σ [r])
    have he : Entity.repr σ ⟨1, "a".toList, 0, 1, [" at 0 - 31, with replacements: ".toList]⟩ =
        Entity.repr τ ⟨1, "a at 0 - 1, with replacements: ".toList, 0, 31, []⟩ := by
      unfold Entity.repr
      rw [h0, h1]
      decide
    unfold Datum.repr
    rw [List.map_singleton, List.map_singleton, he]
  · have := (C101_datum_read σ τ _ _ (by decide) (by decide) h).2.1
    cases this

set_option maxRecDepth 10000 in
/-- A datum with two intents and an entity. -/
example : Datum.repr SetOrder.id ⟨"to Rome".toList, [⟨1⟩, ⟨12⟩], [⟨3, "Rome".toList, 3, 7, []⟩]⟩ =
    "<Datum to Rome\n with intents: [<Intent 1>, <Intent 12>]\n with entities:\n[<Entity 3: Rome at 3 - 7, with replacements: >]>".toList := by
  decide

set_option maxRecDepth 10000 in
/-- Two entities that do not fit on one line. -/
example : Datum.repr SetOrder.id ⟨"from Bonn to Rome".toList, [], [⟨3, "Bonn".toList, 5, 9, []⟩, ⟨3, "Rome".toList, 13, 17, []⟩]⟩ =
    ("<Datum from Bonn to Rome\n with intents: []\n with entities:\n[<Entity 3: Bonn at 5 - 9, with replacements: >,\n" ++
      " <Entity 3: Rome at 13 - 17, with replacements: >]>").toList := by
  decide

example : Span.repr ⟨2, 10⟩ = "Span(2, 10)".toList ∧ Span.str ⟨2, 10⟩ = "(2, 10)".toList ∧
    Rep.repr ⟨0, 1, "x".toList⟩ "None".toList = "Replacement(0, 1, x, annotation=None)".toList ∧
    ReplacementGroup.repr (⟨[⟨0, 1, "x".toList⟩], true⟩ : ReplacementGroup Str) = "ReplacementGroup has 1 elements".toList := by
  decide

/-- The hypotheses of `C101_datum_bare` are met by data with intents and entities. -/
example (σ τ : SetOrder) : Datum.repr σ ⟨"to Rome".toList, [⟨1⟩, ⟨12⟩], [⟨3, "Rome".toList, 3, 7, []⟩]⟩ ≠
    Datum.repr τ ⟨"to Rome".toList, [⟨1⟩, ⟨12⟩], [⟨4, "Rome".toList, 3, 7, []⟩]⟩ := by
  intro h
  have := (C101_datum_bare σ τ _ _ (by decide) (by decide) (by decide) (by decide)).mp h
  cases this

end Uttut
