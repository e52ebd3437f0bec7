import Verif.Spec.Variants
import Verif.Props.Expand

/-!
C106: the data `expand_by_entities` returns.
-/

namespace Uttut

open Spec

/-! ### texts chosen for the parts -/

/-- The texts of the parts with `vs` in place of the entities. -/
def fill : List Part → List Str → List Str
  | (t, none) :: ps, vs => t :: fill ps vs
  | (_, some _) :: ps, v :: vs => v :: fill ps vs
  | _, _ => []

theorem candidates_mem {o : Bool} {e : Entity} {c : List Str} (h : Candidates o e c) (v : Str) :
    v ∈ c ↔ StandsFor o e v := by
  unfold StandsFor
  by_cases hr : e.replacements = []
  · rw [h.1 hr, hr]
    simp
  · obtain ⟨l, h1, _, h3⟩ := h.2 hr
    rw [h1, List.mem_append, h3]
    cases o <;> simp [hr]

theorem picks_fill {o : Bool} {ps : List Part} {cs : List (List Str)} {idx : List Nat} {xs : List Str}
    (h : Alternatives o ps cs) (hp : Picks cs idx xs) :
    ∃ vs, AllStandFor o (ps.filterMap Prod.snd) vs ∧ xs = fill ps vs := by
  induction ps generalizing cs idx xs with
  | nil =>
    cases cs with
    | nil =>
      cases idx with
      | nil =>
        cases xs with
        | nil => exact ⟨[], .nil, rfl⟩
        | cons x xs => exact absurd hp (by simp [Picks])
      | cons i idx => exact absurd hp (by simp [Picks])
    | cons c cs => exact absurd h (by simp [Alternatives])
  | cons p ps ih =>
    obtain ⟨t, x⟩ := p
    cases cs with
    | nil => cases x <;> exact absurd h (by simp [Alternatives])
    | cons c cs =>
      cases idx with
      | nil => exact absurd hp (by simp [Picks])
      | cons i idx =>
        cases xs with
        | nil => exact absurd hp (by simp [Picks])
        | cons y xs =>
          obtain ⟨p1, p2⟩ := hp
          cases x with
          | none =>
            obtain ⟨vs, v1, v2⟩ := ih h.2 p2
            have : y = t := by
              have := List.mem_of_getElem? p1
              rw [h.1] at this
              exact List.mem_singleton.mp this
            exact ⟨vs, v1, by rw [this, v2]; rfl⟩
          | some e =>
            obtain ⟨vs, v1, v2⟩ := ih h.2 p2
            exact ⟨y :: vs, .cons ((candidates_mem h.1 y).mp (List.mem_of_getElem? p1)) v1, by rw [v2]; rfl⟩

theorem fill_picks {o : Bool} {ps : List Part} {cs : List (List Str)} (h : Alternatives o ps cs) {vs : List Str}
    (hv : AllStandFor o (ps.filterMap Prod.snd) vs) : ∃ idx, Picks cs idx (fill ps vs) := by
  induction ps generalizing cs vs with
  | nil =>
    cases cs with
    | nil => cases hv; exact ⟨[], trivial⟩
    | cons c cs => exact absurd h (by simp [Alternatives])
  | cons p ps ih =>
    obtain ⟨t, x⟩ := p
    cases cs with
    | nil => cases x <;> exact absurd h (by simp [Alternatives])
    | cons c cs =>
      cases x with
      | none =>
        obtain ⟨idx, hi⟩ := ih h.2 (vs := vs) hv
        exact ⟨0 :: idx, by rw [h.1]; rfl, hi⟩
      | some e =>
        rw [List.filterMap_cons] at hv
        cases hv with
        | cons h1 h2 =>
          obtain ⟨idx, hi⟩ := ih h.2 h2
          obtain ⟨n, hn⟩ := List.mem_iff_getElem?.mp ((candidates_mem h.1 _).mpr h1)
          exact ⟨n :: idx, hn, hi⟩

/-- Parts and gaps: the texts written one after the other, and the places of the entities. -/
theorem fill_weave (u : Str) (ps : List Part) : ∀ (pos off base : Nat) (vs : List Str), pos ≤ off → LaidOut off ps →
    u.drop off = (ps.map Prod.fst).flatten → vs.length = (ps.filterMap Prod.snd).length → off ≤ u.length →
    weave (gaps u pos (ps.filterMap Prod.snd)) vs = (u.take off).drop pos ++ (fill ps vs).flatten ∧
      woven base (gaps u pos (ps.filterMap Prod.snd)) (ps.filterMap Prod.snd) vs =
        placed (base + (off - pos)) ps (fill ps vs) := by
  induction ps with
  | nil =>
    intro pos off base vs hpo _ hu hv hof
    have hv : vs = [] := by simpa using hv
    subst hv
    have : u.length ≤ off := by
      have := congrArg List.length hu
      simp at this
      omega
    have e : u.take off = u := List.take_of_length_le this
    simp [gaps, weave, woven, fill, placed, e]
  | cons p ps ih =>
    intro pos off base vs hpo hl hu hv hof
    obtain ⟨t, x⟩ := p
    obtain ⟨l1, l2⟩ := hl
    simp only [List.map_cons, List.flatten_cons] at hu
    have hlen : off + t.length ≤ u.length := by
      have := congrArg List.length hu
      simp at this
      omega
    have hd : u.drop (off + t.length) = (ps.map Prod.fst).flatten := by
      rw [← List.drop_drop, hu, List.drop_left]
    have ht : (u.take (off + t.length)).drop off = t := by
      rw [List.drop_take, hu, show off + t.length - off = t.length by omega, List.take_left]
    cases x with
    | none =>
      simp only [List.filterMap_cons] at hv ⊢
      obtain ⟨i1, i2⟩ := ih pos (off + t.length) base vs (by omega) l2 hd hv hlen
      have e : (u.take (off + t.length)).drop pos = (u.take off).drop pos ++ t := by
        conv => lhs; rw [← List.take_append_drop off (u.take (off + t.length))]
        rw [ht, List.take_take, Nat.min_eq_left (by omega), List.drop_append_of_le_length]
        rw [List.length_take]
        omega
      refine ⟨?_, ?_⟩
      · rw [i1, e]
        simp [fill]
      · rw [i2, show base + (off + t.length - pos) = base + (off - pos) + t.length by omega]
        rfl
    | some e =>
      simp only [List.filterMap_cons] at hv ⊢
      cases vs with
      | nil => simp at hv
      | cons v vs =>
        obtain ⟨a, b, c⟩ := l1
        have es : e.start.toNat = off := by omega
        have et : e.stop.toNat = off + t.length := by omega
        have hg : ((u.take off).drop pos).length = off - pos := by
          rw [List.length_drop, List.length_take]
          omega
        obtain ⟨i1, i2⟩ := ih (off + t.length) (off + t.length) (base + (off - pos) + v.length) vs (Nat.le_refl _) l2 hd
          (by simpa using hv) hlen
        have e0 : (u.take (off + t.length)).drop (off + t.length) = [] :=
          List.drop_eq_nil_of_le (by rw [List.length_take]; omega)
        rw [e0, List.nil_append] at i1
        rw [Nat.sub_self, Nat.add_zero] at i2
        simp only [gaps, weave, woven, fill, es, et, hg]
        refine ⟨?_, ?_⟩
        · rw [i1]
          simp
        · rw [i2]
          rfl

/-! ### results -/

/-- A datum `expand_by_entities` can work on: made by the constructor, with C `int` labels, its entities within the
utterance. -/
structure Extensible (d : Datum) : Prop where
  isDatum : IsDatum d
  within : ∀ e ∈ d.entities, WithinUtterance d.utterance e
  labels : ∀ e ∈ d.entities, IsInt32 e.label
  intents : ∀ i ∈ d.intents, IsInt32 i.label

theorem toInt32_inv {i r : Int} (h : toInt32 i = .ok r) : IsInt32 i ∧ r = i := by
  unfold toInt32 at h
  split at h
  · rename_i hi
    injection h with h
    exact ⟨by unfold IsInt32; omega, h.symm⟩
  · cases h

theorem aggregate_total (xs : List Str) : ∀ (ls : List (Option Int)) (off : Int) (es : List Entity), xs.length = ls.length →
    IsInt32 off → aggregateEntities xs ls off = .ok es → IsInt32 (off + xs.flatten.length) := by
  induction xs with
  | nil => intro ls off es _ ho _; simpa using ho
  | cons x xs ih =>
    intro ls off es hl ho h
    cases ls with
    | nil => cases hl
    | cons l ls =>
      have key : ∀ es', aggregateEntities xs ls (off + x.length) = .ok es' → IsInt32 (off + x.length) →
          IsInt32 (off + (x :: xs).flatten.length) := by
        intro es' h' ho'
        have := ih ls _ es' (by simpa using hl) ho' h'
        rw [List.flatten_cons, List.length_append, Int.natCast_add, ← Int.add_assoc]
        exact this
      cases l with
      | none =>
        unfold aggregateEntities at h
        obtain ⟨r, h1, h⟩ := bind_eq_ok h
        obtain ⟨i1, rfl⟩ := toInt32_inv h1
        exact key _ h i1
      | some l =>
        unfold aggregateEntities at h
        obtain ⟨e, _, h⟩ := bind_eq_ok h
        obtain ⟨r, h1, h⟩ := bind_eq_ok h
        obtain ⟨es', h2, h⟩ := bind_eq_ok h
        obtain ⟨i1, rfl⟩ := toInt32_inv h1
        exact key _ h2 i1

/-- One iteration that returns. -/
theorem expandOne_inv {d : Datum} (hd : Extensible d) (ps : List Part) (hps : ps.filterMap Prod.snd = d.entities)
    (parts : List (List Str)) (o : Bool) (halt : Alternatives o ps parts) (k : Int) (d' : Datum)
    (h : expandOne d parts (ps.map (fun p => p.2.map (fun e => e.label))) k = .ok d') :
    ∃ idx xs m, Picks parts idx xs ∧ k = (rank parts idx : Int) + m * (nChoices parts : Int) ∧
      xs.flatten.length < 2 ^ 31 ∧ d' = ⟨xs.flatten, d.intents, placed 0 ps xs⟩ := by
  have hpos : 0 < nChoices parts := alternatives_pos o ps _ halt
  have h0 := h
  unfold expandOne at h
  obtain ⟨segs, h1, h⟩ := bind_eq_ok h
  obtain ⟨es, h2, h⟩ := bind_eq_ok h
  have hk : IsInt32 k := by
    unfold getKthCombination at h1
    obtain ⟨r, hr, _⟩ := bind_eq_ok h1
    exact (toInt32_inv hr).1
  have hem := Int.emod_lt_of_pos k (b := (nChoices parts : Int)) (by omega)
  have hen := Int.emod_nonneg k (b := (nChoices parts : Int)) (by omega)
  obtain ⟨idx, xs, hp, hr⟩ := (C48_bijection parts).2.1 (k % (nChoices parts : Int)).toNat (by omega)
  have hk' : k = (rank parts idx : Int) + (k / (nChoices parts : Int)) * (nChoices parts : Int) := by
    rw [hr, Int.toNat_of_nonneg hen, Int.mul_comm]
    exact (Int.emod_add_mul_ediv k _).symm
  have e1 := (C48_kth parts idx xs hp k _ hk' hk).symm.trans h1
  injection e1 with e1
  subst e1
  have hlen := aggregate_total xs _ 0 es (by rw [(picks_lengths hp).1, List.length_map, alternatives_length halt])
    (by unfold IsInt32; omega) h2
  have hlt : xs.flatten.length < 2 ^ 31 := by
    unfold IsInt32 at hlen
    omega
  have := expandOne_spec hd.isDatum ps parts o halt (fun p hp' e he => hd.labels e (by
    rw [← hps, List.mem_filterMap]
    exact ⟨p, hp', he⟩)) hd.intents idx xs hp hlt k _ hk' hk
  rw [h0] at this
  injection this with this
  exact ⟨idx, xs, _, hp, hk', hlt, this⟩

theorem mapM_all {α β : Type} {f : α → Res β} {l : List α} {r : List β} (h : l.mapM f = .ok r) :
    ∀ (n : Nat) (x : α), l[n]? = some x → ∃ y, r[n]? = some y ∧ f x = .ok y := by
  induction l generalizing r with
  | nil => intro n x hx; simp at hx
  | cons a l ih =>
    rw [List.mapM_cons] at h
    obtain ⟨b, hb, h⟩ := bind_eq_ok h
    obtain ⟨bs, hbs, h⟩ := bind_eq_ok h
    injection h with h
    subst h
    intro n x hx
    cases n with
    | zero => simp at hx; subst hx; exact ⟨b, rfl, hb⟩
    | succ n => exact ih hbs n x (by simpa using hx)

/-- What a call that returns is made of. -/
theorem expand_inv (σ : SetOrder) {d : Datum} (hd : Extensible d) (hne : d.entities ≠ []) (o : Bool)
    (sampling : Option (Nat → List Int)) (ds : List Datum) (h : expandByEntities σ d sampling o = .ok ds) :
    ∃ (ps : List Part) (parts : List (List Str)),
      (ps.map Prod.fst).flatten = d.utterance ∧ ps.filterMap Prod.snd = d.entities ∧ LaidOut 0 ps ∧
      Alternatives o ps parts ∧
      (∀ d' ∈ ds, ∃ idx xs, Picks parts idx xs ∧ xs.flatten.length < 2 ^ 31 ∧
        d' = ⟨xs.flatten, d.intents, placed 0 ps xs⟩) ∧
      (sampling = none → ds.length = nChoices parts ∧ ∀ idx xs, Picks parts idx xs →
        ds[rank parts idx]? = some ⟨xs.flatten, d.intents, placed 0 ps xs⟩) := by
  obtain ⟨ps, h1, h2, h3, h4, h5⟩ := partition_parts σ o hd.isDatum hd.within
  refine ⟨ps, (partitionByEntities σ d o).1, h1, h2, h3, h4, ?_⟩
  unfold expandByEntities at h
  have hhas : ¬ d.hasEntities = false := by
    unfold Datum.hasEntities
    have := List.length_pos_iff.mpr hne
    simp [this]
  rw [if_neg hhas] at h
  dsimp only at h
  rw [nChoices_eq_foldl, h5] at h
  have hlen := mapM_length _ _ _ h
  have hall := mapM_all h
  refine ⟨fun d' hd' => ?_, fun hs => ?_⟩
  · obtain ⟨n, hn⟩ := List.getElem?_of_mem hd'
    have hnl : n < ds.length := (List.getElem?_eq_some_iff.mp hn).1
    obtain ⟨y, hy, hf⟩ := hall n _ (List.getElem?_eq_getElem (by omega))
    rw [hn] at hy
    injection hy with hy
    subst hy
    obtain ⟨idx, xs, m, p1, _, p3, p4⟩ := expandOne_inv hd ps h2 _ o h4 _ _ hf
    exact ⟨idx, xs, p1, p3, p4⟩
  · subst hs
    simp only [Option.getD_none] at hlen hall
    refine ⟨by simpa using hlen, fun idx xs hp => ?_⟩
    have hlt := rank_lt _ idx xs hp
    obtain ⟨y, hy, hf⟩ := hall (rank (partitionByEntities σ d o).1 idx) (rank (partitionByEntities σ d o).1 idx)
      (by simp [hlt])
    obtain ⟨idx', xs', m, p1, p2, _, p4⟩ := expandOne_inv hd ps h2 _ o h4 _ _ hf
    have hlt' := rank_lt _ idx' xs' p1
    have hm : m = 0 := by
      rcases Int.lt_trichotomy m 0 with h | h | h
      · have : m * (nChoices (partitionByEntities σ d o).1 : Int) ≤ (-1) * (nChoices (partitionByEntities σ d o).1 : Int) :=
          Int.mul_le_mul_of_nonneg_right (by omega) (by omega)
        omega
      · exact h
      · have : 1 * (nChoices (partitionByEntities σ d o).1 : Int) ≤ m * (nChoices (partitionByEntities σ d o).1 : Int) :=
          Int.mul_le_mul_of_nonneg_right (by omega) (by omega)
        omega
    rw [hm] at p2
    have hxs := ((C48_bijection _).2.2 idx idx' xs xs' hp p1 (by omega)).2
    rw [hy, p4, hxs]

theorem fill_length (ps : List Part) : ∀ vs : List Str, vs.length = (ps.filterMap Prod.snd).length →
    (fill ps vs).length = ps.length := by
  induction ps with
  | nil => intro vs _; cases vs <;> rfl
  | cons p ps ih =>
    intro vs hv
    obtain ⟨t, x⟩ := p
    cases x with
    | none => simp only [fill, List.length_cons, ih vs (by simpa using hv)]
    | some e =>
      cases vs with
      | nil => simp at hv
      | cons v vs => simp only [fill, List.length_cons, ih vs (by simpa using hv)]

theorem fill_values (ps : List Part) : ∀ (vs : List Str) (off : Nat), vs.length = (ps.filterMap Prod.snd).length →
    (placed off ps (fill ps vs)).map Entity.value = vs := by
  induction ps with
  | nil =>
    intro vs off hv
    have hv : vs = [] := by simpa using hv
    subst hv
    rfl
  | cons p ps ih =>
    intro vs off hv
    obtain ⟨t, x⟩ := p
    cases x with
    | none => exact ih vs _ (by simpa using hv)
    | some e =>
      cases vs with
      | nil => simp at hv
      | cons v vs => simp only [fill, placed, List.map_cons, ih vs _ (by simpa using hv)]

theorem allStandFor_length {o : Bool} {es : List Entity} {vs : List Str} (h : AllStandFor o es vs) :
    vs.length = es.length := (List.Forall₂.length_eq h).symm

theorem variant_of_fill {d : Datum} {ps : List Part} (h1 : (ps.map Prod.fst).flatten = d.utterance)
    (h2 : ps.filterMap Prod.snd = d.entities) (h3 : LaidOut 0 ps) {vs : List Str} (hv : vs.length = d.entities.length) :
    VariantBy vs d ⟨(fill ps vs).flatten, d.intents, placed 0 ps (fill ps vs)⟩ := by
  obtain ⟨w1, w2⟩ := fill_weave d.utterance ps 0 0 0 vs (Nat.le_refl _) h3 (by rw [List.drop_zero, h1]) (by rw [h2, hv])
    (Nat.zero_le _)
  rw [h2] at w1 w2
  refine ⟨hv, ?_, rfl, ?_⟩
  · rw [w1]; simp
  · rw [w2]

theorem variantBy_unique {vs : List Str} {d d1 d2 : Datum} (h1 : VariantBy vs d d1) (h2 : VariantBy vs d d2) : d1 = d2 := by
  obtain ⟨u1, i1, e1⟩ := d1
  obtain ⟨u2, i2, e2⟩ := d2
  have a := h1.utterance.trans h2.utterance.symm
  have b := h1.intents.trans h2.intents.symm
  have c := h1.entities.trans h2.entities.symm
  dsimp only at a b c
  rw [a, b, c]

theorem variant_self {d : Datum} (h : d.entities = []) : VariantBy [] d d := by
  refine ⟨by rw [h]; rfl, ?_, rfl, ?_⟩
  · rw [h]; simp [gaps, weave]
  · rw [h]; rfl

/-- C106: with any sampling method, every datum `expand_by_entities` returns is the given one with the entities replaced
by texts that may stand for them: the texts between, the intents and the labels of the entities are the same. -/
theorem C106_variants (σ : SetOrder) (d : Datum) (hd : Extensible d) (o : Bool) (sampling : Option (Nat → List Int))
    (ds : List Datum) (h : expandByEntities σ d sampling o = .ok ds) (d' : Datum) (hm : d' ∈ ds) :
    ∃ vs, AllStandFor o d.entities vs ∧ VariantBy vs d d' := by
  by_cases hne : d.entities = []
  · rw [C50_no_entities σ d sampling o hne] at h
    injection h with h
    rw [← h, List.mem_singleton] at hm
    subst hm
    exact ⟨[], by rw [hne]; exact .nil, variant_self hne⟩
  obtain ⟨ps, parts, h1, h2, h3, h4, h5, _⟩ := expand_inv σ hd hne o sampling ds h
  obtain ⟨idx, xs, p1, _, rfl⟩ := h5 d' hm
  obtain ⟨vs, v1, rfl⟩ := picks_fill h4 p1
  rw [h2] at v1
  exact ⟨vs, v1, variant_of_fill h1 h2 h3 (allStandFor_length v1)⟩

/-- C106: without a sampling method, these are all: each choice of such texts gives one of the results. -/
theorem C106_all (σ : SetOrder) (d : Datum) (hd : Extensible d) (o : Bool) (ds : List Datum)
    (h : expandByEntities σ d none o = .ok ds) (d' : Datum) :
    d' ∈ ds ↔ ∃ vs, AllStandFor o d.entities vs ∧ VariantBy vs d d' := by
  refine ⟨fun hm => C106_variants σ d hd o none ds h d' hm, ?_⟩
  rintro ⟨vs, v1, v2⟩
  by_cases hne : d.entities = []
  · rw [C50_no_entities σ d none o hne] at h
    injection h with h
    have hv : vs = [] := by simpa [hne] using v2.length
    subst hv
    rw [← h, List.mem_singleton]
    exact variantBy_unique v2 (variant_self hne)
  obtain ⟨ps, parts, h1, h2, h3, h4, _, h6⟩ := expand_inv σ hd hne o none ds h
  obtain ⟨idx, hi⟩ := fill_picks h4 (vs := vs) (by rw [h2]; exact v1)
  have := (h6 rfl).2 idx _ hi
  rw [variantBy_unique v2 (variant_of_fill h1 h2 h3 (allStandFor_length v1))]
  exact List.mem_of_getElem? this

/-! ### duplicates -/

theorem candidates_nodup {o : Bool} {e : Entity} {c : List Str} (h : Candidates o e c) :
    c.Nodup ↔ (o = true → e.value ∉ e.replacements) := by
  by_cases hr : e.replacements = []
  · rw [h.1 hr, hr]
    simp
  · obtain ⟨l, rfl, hp, hm⟩ := h.2 hr
    have hnl : l.Nodup := hp.imp fun {a b} hab (heq : a = b) => by
      subst heq
      exact strLt_irrefl a hab
    cases o with
    | false => simpa using hnl
    | true =>
      rw [if_pos rfl, List.nodup_append]
      constructor
      · intro hx _ hv
        exact hx.2.2 _ ((hm _).mpr hv) _ (List.mem_singleton.mpr rfl) rfl
      · intro hv
        refine ⟨hnl, List.nodup_cons.mpr ⟨List.not_mem_nil, List.nodup_nil⟩, fun a ha b hb hab => ?_⟩
        rw [List.mem_singleton.mp hb] at hab
        subst hab
        exact hv rfl ((hm _).mp ha)

theorem alternatives_nodup {o : Bool} {ps : List Part} {cs : List (List Str)} (h : Alternatives o ps cs) :
    (∀ c ∈ cs, c.Nodup) ↔ (o = true → ∀ e ∈ ps.filterMap Prod.snd, e.value ∉ e.replacements) := by
  induction ps generalizing cs with
  | nil =>
    cases cs with
    | nil => simp
    | cons c cs => exact absurd h (by simp [Alternatives])
  | cons p ps ih =>
    obtain ⟨t, x⟩ := p
    cases cs with
    | nil => cases x <;> exact absurd h (by simp [Alternatives])
    | cons c cs =>
      cases x with
      | none =>
        rw [List.forall_mem_cons, ih h.2, h.1]
        simp
      | some e =>
        rw [List.forall_mem_cons, ih h.2, candidates_nodup h.1]
        simp only [List.filterMap_cons, List.forall_mem_cons]
        exact ⟨fun ⟨a, b⟩ ho => ⟨a ho, b ho⟩, fun h => ⟨fun ho => (h ho).1, fun ho => (h ho).2⟩⟩

theorem picks_unique {α : Type} {ls : List (List α)} (h : ∀ c ∈ ls, c.Nodup) {idx idx' : List Nat} {xs : List α}
    (h1 : Picks ls idx xs) (h2 : Picks ls idx' xs) : idx = idx' := by
  induction ls generalizing idx idx' xs with
  | nil =>
    cases idx with
    | nil => cases idx' with
      | nil => rfl
      | cons => exact absurd h2 (by simp [Picks])
    | cons => exact absurd h1 (by simp [Picks])
  | cons l ls ih =>
    cases idx with
    | nil => exact absurd h1 (by simp [Picks])
    | cons i idx =>
      cases idx' with
      | nil => exact absurd h2 (by simp [Picks])
      | cons j idx' =>
        cases xs with
        | nil => exact absurd h1 (by simp [Picks])
        | cons x xs =>
          obtain ⟨a1, a2⟩ := h1
          obtain ⟨b1, b2⟩ := h2
          obtain ⟨ai, ae⟩ := List.getElem?_eq_some_iff.mp a1
          obtain ⟨bi, be⟩ := List.getElem?_eq_some_iff.mp b1
          have hl := List.pairwise_iff_getElem.mp (h l (by simp))
          have e1 : i = j := by
            rcases Nat.lt_trichotomy i j with hlt | he | hlt
            · exact absurd (ae.trans be.symm) (hl i j ai bi hlt)
            · exact he
            · exact absurd (be.trans ae.symm) (hl j i bi ai hlt)
          rw [e1, ih (fun c hc => h c (by simp [hc])) a2 b2]

theorem picks_twice {α : Type} {ls : List (List α)} (hpos : 0 < nChoices ls) (h : ¬ ∀ c ∈ ls, c.Nodup) :
    ∃ idx idx' xs, Picks ls idx xs ∧ Picks ls idx' xs ∧ idx ≠ idx' := by
  induction ls with
  | nil => exact absurd (fun c hc => by cases hc) h
  | cons l ls ih =>
    have hp : 0 < l.length ∧ 0 < nChoices ls := by
      rw [nChoices] at hpos
      exact ⟨Nat.pos_of_mul_pos_right hpos, Nat.pos_of_mul_pos_left hpos⟩
    by_cases hl : l.Nodup
    · obtain ⟨idx, idx', xs, a, b, c⟩ := ih hp.2 fun hc => h (List.forall_mem_cons.mpr ⟨hl, hc⟩)
      refine ⟨0 :: idx, 0 :: idx', l[0]'hp.1 :: xs, ⟨List.getElem?_eq_getElem hp.1, a⟩,
        ⟨List.getElem?_eq_getElem hp.1, b⟩, fun e => c ?_⟩
      injection e
    · obtain ⟨idx, xs, a, _⟩ := (C48_bijection ls).2.1 0 hp.2
      have : ∃ i j, ∃ (hi : i < l.length) (hj : j < l.length), i < j ∧ l[i] = l[j] := by
        by_contra hcon
        refine hl (List.pairwise_iff_getElem.mpr fun i j hi hj hij he => hcon ⟨i, j, hi, hj, hij, he⟩)
      obtain ⟨i, j, hi, hj, hij, he⟩ := this
      refine ⟨i :: idx, j :: idx, l[i] :: xs, ⟨List.getElem?_eq_getElem hi, a⟩,
        ⟨by rw [he]; exact List.getElem?_eq_getElem hj, a⟩, fun e => ?_⟩
      injection e with e
      omega

/-- C106: no datum is returned twice, unless the original values are included and one of them is among the replacements
of its entity: then some datum is returned twice. -/
theorem C106_distinct (σ : SetOrder) (d : Datum) (hd : Extensible d) (o : Bool) (ds : List Datum)
    (h : expandByEntities σ d none o = .ok ds) :
    ds.Nodup ↔ (o = true → ∀ e ∈ d.entities, e.value ∉ e.replacements) := by
  by_cases hne : d.entities = []
  · rw [C50_no_entities σ d none o hne] at h
    injection h with h
    rw [← h, hne]
    simp
  obtain ⟨ps, parts, h1, h2, h3, h4, h5, h6⟩ := expand_inv σ hd hne o none ds h
  obtain ⟨h6, h7⟩ := h6 rfl
  rw [← h2, ← alternatives_nodup h4]
  constructor
  · intro hn
    by_contra hcon
    obtain ⟨idx, idx', xs, a, b, c⟩ := picks_twice (alternatives_pos o ps _ h4) hcon
    have e1 := h7 idx xs a
    have e2 := h7 idx' xs b
    have hr : rank parts idx ≠ rank parts idx' := fun hr => c ((C48_bijection parts).2.2 idx idx' xs xs a b hr).1
    obtain ⟨l1, g1⟩ := List.getElem?_eq_some_iff.mp e1
    obtain ⟨l2, g2⟩ := List.getElem?_eq_some_iff.mp e2
    have hp := List.pairwise_iff_getElem.mp hn
    rcases Nat.lt_or_gt_of_ne hr with hlt | hlt
    · exact hp _ _ l1 l2 hlt (g1.trans g2.symm)
    · exact hp _ _ l2 l1 hlt (g2.trans g1.symm)
  · intro hn
    refine List.pairwise_iff_getElem.mpr fun i j hi hj hij he => ?_
    obtain ⟨idx, xs, a, ra⟩ := (C48_bijection parts).2.1 i (by omega)
    obtain ⟨idx', xs', b, rb⟩ := (C48_bijection parts).2.1 j (by omega)
    have e1 := h7 idx xs a
    have e2 := h7 idx' xs' b
    rw [ra, List.getElem?_eq_getElem hi] at e1
    rw [rb, List.getElem?_eq_getElem hj] at e2
    injection e1 with e1
    injection e2 with e2
    have e3 := e1.symm.trans (he.trans e2)
    obtain ⟨vs, v1, rfl⟩ := picks_fill h4 a
    obtain ⟨vs', v1', rfl⟩ := picks_fill h4 b
    have e4 := congrArg (fun x : Datum => x.entities.map Entity.value) e3
    dsimp only at e4
    rw [fill_values ps vs 0 (allStandFor_length v1), fill_values ps vs' 0 (allStandFor_length v1')] at e4
    subst e4
    have := picks_unique hn a b
    subst this
    omega

/-! ### labels -/

theorem paint_block (l : Int) (n : Nat) : ∀ (a b : List Int), paint l n (a.length : Int) (a ++ List.replicate n 0 ++ b) =
    .ok (a ++ List.replicate n l ++ b) := by
  induction n with
  | zero => intro a b; rfl
  | succ n ih =>
    intro a b
    unfold paint setLabel pyIndex?
    have hlt : (a.length : Int).toNat < (a ++ List.replicate (n + 1) 0 ++ b).length := by
      simp only [List.length_append, List.length_replicate]
      omega
    rw [if_pos (by omega), if_pos hlt]
    simp only [Except.bind_ok]
    have e : (a ++ List.replicate (n + 1) 0 ++ b).set (a.length : Int).toNat l = (a ++ [l]) ++ List.replicate n 0 ++ b := by
      rw [Int.toNat_natCast, List.append_assoc, List.set_append_right _ _ (Nat.le_refl _), Nat.sub_self, List.replicate_succ]
      simp
    rw [e]
    have := ih (a ++ [l]) b
    rw [List.length_append, List.length_singleton] at this
    rw [show ((a.length : Int) + 1) = ((a.length + 1 : Nat) : Int) by omega, this]
    rw [List.replicate_succ]
    simp

theorem paintAll_woven (gs : List Str) : ∀ (es : List Entity) (vs : List Str) (a : List Int), vs.length = es.length →
    gs.length = es.length + 1 →
    paintAll (woven a.length gs es vs) (a ++ List.replicate (weave gs vs).length 0) = .ok (a ++ wovenLabels gs es vs) := by
  induction gs with
  | nil => intro es vs a _ h; simp at h
  | cons g gs ih =>
    intro es vs a hv hg
    cases es with
    | nil =>
      have hv : vs = [] := by simpa using hv
      subst hv
      rfl
    | cons e es =>
      cases vs with
      | nil => simp at hv
      | cons v vs =>
        simp only [woven, weave, wovenLabels]
        unfold paintAll
        dsimp only
        have e1 : a ++ List.replicate (g ++ v ++ weave gs vs).length 0 =
            (a ++ List.replicate g.length 0) ++ List.replicate v.length 0 ++ List.replicate (weave gs vs).length 0 := by
          rw [List.length_append, List.length_append, List.replicate_add, List.replicate_add]
          simp only [List.append_assoc]
        have e2 : (((a.length + g.length + v.length : Nat) : Int) - ((a.length + g.length : Nat) : Int)).toNat = v.length := by
          omega
        have e3 : ((a.length + g.length : Nat) : Int) = ((a ++ List.replicate g.length (0 : Int)).length : Int) := by
          rw [List.length_append, List.length_replicate]
        rw [e1, e2, e3, paint_block]
        simp only [Except.bind_ok]
        have := ih es vs ((a ++ List.replicate g.length 0) ++ List.replicate v.length e.label) (by simpa using hv) (by simpa using hg)
        rw [List.length_append, List.length_append, List.length_replicate, List.length_replicate] at this
        rw [this]
        simp only [List.append_assoc]

theorem gaps_length (u : Str) (es : List Entity) : ∀ pos, (gaps u pos es).length = es.length + 1 := by
  induction es with
  | nil => intro pos; rfl
  | cons e es ih => intro pos; simp only [gaps, List.length_cons, ih]

/-- C106: the labels of a result: the label of the entity for every character of the text that stands for it, 0
elsewhere. -/
theorem C106_labels (d d' : Datum) (vs : List Str) (h : VariantBy vs d d') :
    unpackDatum d' = .ok (d'.utterance, d.intents.map (fun i => i.label),
      wovenLabels (gaps d.utterance 0 d.entities) d.entities vs) := by
  have := paintAll_woven (gaps d.utterance 0 d.entities) d.entities vs [] h.length (gaps_length _ _ _)
  unfold unpackDatum
  rw [h.entities, h.intents, h.utterance]
  simp only [List.nil_append, List.length_nil] at this
  rw [this]
  rfl

/-! ### expanding again -/

theorem alternatives_single {o : Bool} {ps : List Part} {cs : List (List Str)} (h : Alternatives o ps cs)
    (hr : ∀ e ∈ ps.filterMap Prod.snd, e.replacements = []) {off : Nat} (hl : LaidOut off ps) :
    cs = ps.map fun p => [p.1] := by
  induction ps generalizing cs off with
  | nil =>
    cases cs with
    | nil => rfl
    | cons c cs => exact absurd h (by simp [Alternatives])
  | cons p ps ih =>
    obtain ⟨t, x⟩ := p
    obtain ⟨l1, l2⟩ := hl
    cases cs with
    | nil => cases x <;> exact absurd h (by simp [Alternatives])
    | cons c cs =>
      cases x with
      | none =>
        rw [List.map_cons, ← ih h.2 (fun e he => hr e (by simpa using he)) l2, h.1]
      | some e =>
        rw [List.map_cons, ← ih h.2 (fun e' he' => hr e' (by rw [List.filterMap_cons]; exact List.mem_cons_of_mem _ he')) l2,
          h.1.1 (hr e (by simp)), l1.2.2]

theorem single_choices (ts : List Str) : nChoices (ts.map fun t => [t]) = 1 ∧
    ∀ idx xs, Picks (ts.map fun t => [t]) idx xs → xs = ts := by
  induction ts with
  | nil =>
    refine ⟨rfl, fun idx xs h => ?_⟩
    cases idx <;> cases xs <;> simp_all [Picks]
  | cons t ts ih =>
    refine ⟨by rw [List.map_cons, nChoices, ih.1]; rfl, fun idx xs h => ?_⟩
    cases idx with
    | nil => exact absurd h (by simp [Picks])
    | cons i idx =>
      cases xs with
      | nil => exact absurd h (by simp [Picks])
      | cons x xs =>
        obtain ⟨a, b⟩ := h
        rw [ih.2 idx xs b, List.mem_singleton.mp (List.mem_of_getElem? a)]

/-- Without replacements there is nothing to expand. -/
theorem expand_plain (σ : SetOrder) {d : Datum} (hd : Extensible d) (hr : ∀ e ∈ d.entities, e.replacements = [])
    (hu : d.utterance.length < 2 ^ 31) (o : Bool) : expandByEntities σ d none o = .ok [d] := by
  by_cases hne : d.entities = []
  · exact C50_no_entities σ d none o hne
  · obtain ⟨ps, parts, h1, h2, h3, h4, h5⟩ := C50_all σ d ⟨hd.isDatum, hd.within, hd.labels, hd.intents, hne⟩ o
    have hp := alternatives_single h4 (by rw [h2]; exact hr) h3
    have hp : parts = (ps.map Prod.fst).map fun t => [t] := by rw [hp, List.map_map]; rfl
    obtain ⟨n1, n2⟩ := single_choices (ps.map Prod.fst)
    rw [← hp] at n1 n2
    obtain ⟨ds, e1, e2, e3⟩ := h5 (by omega) fun idx xs hx => by rw [n2 idx xs hx, h1]; exact hu
    obtain ⟨idx, xs, q1, q2⟩ := (C48_bijection parts).2.1 0 (by omega)
    have e4 := e3 idx xs q1
    rw [n2 idx xs q1, q2, placed_original ps 0 h3, h1, h2] at e4
    have e5 : d.entities.map (fun e => { e with replacements := [] }) = d.entities := by
      conv => rhs; rw [← List.map_id d.entities]
      refine List.map_congr_left fun e he => ?_
      obtain ⟨l, v, a, b, r⟩ := e
      have := hr _ he
      dsimp only at this
      subst this
      rfl
    rw [e5] at e4
    rw [e1]
    match ds, e2, e4 with
    | [x], _, e4 =>
      injection e4 with e4
      rw [e4]
    | [], e2, _ => rw [n1] at e2; cases e2
    | _ :: _ :: _, e2, _ => rw [n1] at e2; simp at e2

theorem placed_plain (ps : List Part) : ∀ (off : Nat) (xs : List Str), ∀ e ∈ placed off ps xs,
    e.replacements = [] ∧ ∃ e' ∈ ps.filterMap Prod.snd, e'.label = e.label := by
  induction ps with
  | nil => intro off xs e he; cases xs <;> cases he
  | cons p ps ih =>
    intro off xs e he
    obtain ⟨t, x⟩ := p
    cases xs with
    | nil => cases x <;> cases he
    | cons y xs =>
      cases x with
      | none =>
        obtain ⟨a, e', b, c⟩ := ih _ xs e he
        exact ⟨a, e', by simpa using b, c⟩
      | some f =>
        rcases List.mem_cons.mp he with rfl | he
        · exact ⟨rfl, f, by simp, rfl⟩
        · obtain ⟨a, e', b, c⟩ := ih _ xs e he
          exact ⟨a, e', by rw [List.filterMap_cons]; exact List.mem_cons_of_mem _ b, c⟩

/-- C106: the results are data like the given one, and `expand_by_entities` returns each of them as it is. -/
theorem C106_again (σ : SetOrder) (d : Datum) (hd : Extensible d) (hne : d.entities ≠ []) (o : Bool)
    (sampling : Option (Nat → List Int)) (ds : List Datum) (h : expandByEntities σ d sampling o = .ok ds) (d' : Datum)
    (hm : d' ∈ ds) :
    Extensible d' ∧ d'.utterance.length < 2 ^ 31 ∧ ∀ o', expandByEntities σ d' none o' = .ok [d'] := by
  obtain ⟨ps, parts, h1, h2, h3, h4, h5, _⟩ := expand_inv σ hd hne o sampling ds h
  obtain ⟨idx, xs, p1, p2, rfl⟩ := h5 d' hm
  have hpw := placed_pairwise ps xs 0
  have hval := placed_values ps xs []
  simp only [List.nil_append, List.length_nil] at hval
  have hx : Extensible ⟨xs.flatten, d.intents, placed 0 ps xs⟩ := by
    refine ⟨⟨hval, hpw.imp fun h => h.1, hpw.imp fun h => h.2, hd.isDatum.intents⟩, fun e he => ?_, fun e he => ?_, hd.intents⟩
    · have := placed_mem ps xs 0 e he
      unfold WithinUtterance
      dsimp only
      omega
    · obtain ⟨_, e', he', hl⟩ := placed_plain ps 0 xs e he
      rw [← hl]
      exact hd.labels e' (by rw [← h2]; exact he')
  exact ⟨hx, p2, fun o' => expand_plain σ hx (fun e he => (placed_plain ps 0 xs e he).1) p2 o'⟩

/-! ### examples -/

/-- "I like b, x": two texts may stand for "b", none for "x". -/
def exVaried : Datum := ⟨"I like b, x".toList, [⟨4⟩], [⟨7, "b".toList, 7, 8, ["z".toList, "cc".toList]⟩,
  ⟨9, "x".toList, 10, 11, []⟩]⟩

theorem exVaried_extensible : Extensible exVaried := by
  refine ⟨⟨?_, ?_, ?_, ?_⟩, ?_, ?_, ?_⟩
  · intro e he
    rcases List.mem_cons.mp he with rfl | he
    · rfl
    · rw [List.mem_singleton.mp he]; rfl
  · exact .cons (fun e he => by rw [List.mem_singleton.mp he]; decide) (.cons (fun e he => by cases he) .nil)
  · exact .cons (fun e he => by rw [List.mem_singleton.mp he]; unfold Before; decide) (.cons (fun e he => by cases he) .nil)
  · exact .cons (fun e he => by cases he) .nil
  · intro e he
    rcases List.mem_cons.mp he with rfl | he
    · exact ⟨by decide, by decide, by decide⟩
    · rw [List.mem_singleton.mp he]; exact ⟨by decide, by decide, by decide⟩
  · intro e he
    rcases List.mem_cons.mp he with rfl | he
    · exact ⟨by decide, by decide⟩
    · rw [List.mem_singleton.mp he]; exact ⟨by decide, by decide⟩
  · intro i hi
    rw [List.mem_singleton.mp hi]
    exact ⟨by decide, by decide⟩

example : expandByEntities SetOrder.id exVaried none false = .ok
    [⟨"I like cc, x".toList, [⟨4⟩], [⟨7, "cc".toList, 7, 9, []⟩, ⟨9, "x".toList, 11, 12, []⟩]⟩,
      ⟨"I like z, x".toList, [⟨4⟩], [⟨7, "z".toList, 7, 8, []⟩, ⟨9, "x".toList, 10, 11, []⟩]⟩] := by rfl

example : AllStandFor false exVaried.entities ["cc".toList, "x".toList] ∧
    VariantBy ["cc".toList, "x".toList] exVaried
      ⟨"I like cc, x".toList, [⟨4⟩], [⟨7, "cc".toList, 7, 9, []⟩, ⟨9, "x".toList, 11, 12, []⟩]⟩ ∧
    gaps exVaried.utterance 0 exVaried.entities = ["I like ".toList, ", ".toList, []] :=
  ⟨.cons (.inl (by decide)) (.cons (.inr ⟨rfl, .inr rfl⟩) .nil), ⟨rfl, rfl, rfl, rfl⟩, rfl⟩

example : unpackDatum ⟨"I like cc, x".toList, [⟨4⟩], [⟨7, "cc".toList, 7, 9, []⟩, ⟨9, "x".toList, 11, 12, []⟩]⟩ =
    .ok ("I like cc, x".toList, [4], [0, 0, 0, 0, 0, 0, 0, 7, 7, 0, 0, 9]) := by rfl

/-- The value is among its replacements: with the original values one datum is returned twice. -/
example : expandByEntities SetOrder.id ⟨"a".toList, [], [⟨7, "a".toList, 0, 1, ["a".toList]⟩]⟩ none true = .ok
    [⟨"a".toList, [], [⟨7, "a".toList, 0, 1, []⟩]⟩, ⟨"a".toList, [], [⟨7, "a".toList, 0, 1, []⟩]⟩] := by rfl

example : expandByEntities SetOrder.id ⟨"I like cc, x".toList, [⟨4⟩], [⟨7, "cc".toList, 7, 9, []⟩,
      ⟨9, "x".toList, 11, 12, []⟩]⟩ none true = .ok
    [⟨"I like cc, x".toList, [⟨4⟩], [⟨7, "cc".toList, 7, 9, []⟩, ⟨9, "x".toList, 11, 12, []⟩]⟩] := by rfl

end Uttut
