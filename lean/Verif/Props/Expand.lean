import Verif.Lemmas.Honest
import Verif.Props.Data
import Verif.Props.Edit

/-! Properties C48-C50: combinations, partition and expansion by entities. -/

namespace Uttut

open Spec

/-! ### C48 get_kth_combination -/

theorem kthLoop_spec {α : Type} (ls : List (List α)) (idx : List Nat) (xs : List α) (h : Picks ls idx xs)
    (m : Int) : kthLoop ls ((rank ls idx : Int) + m * (nChoices ls : Int)) = .ok xs := by
  induction ls generalizing idx xs m with
  | nil =>
    cases idx <;> cases xs <;> first | rfl | exact absurd h (by simp [Picks])
  | cons l ls ih =>
    cases idx with
    | nil => simp [Picks] at h
    | cons i idx =>
      cases xs with
      | nil => simp [Picks] at h
      | cons x xs =>
        obtain ⟨h1, h2⟩ := h
        have hlt : i < l.length := (List.getElem?_eq_some_iff.mp h1).1
        have hk : ((rank (l :: ls) (i :: idx) : Nat) : Int) + m * ((nChoices (l :: ls) : Nat) : Int) =
            (i : Int) + (l.length : Int) * ((rank ls idx : Int) + m * (nChoices ls : Int)) := by
          simp only [rank, nChoices, Int.natCast_add, Int.natCast_mul]
          rw [Int.mul_add, ← Int.mul_assoc, ← Int.mul_assoc, Int.mul_comm m, Int.add_assoc]
        rw [hk]
        unfold kthLoop
        rw [if_neg (by omega)]
        have e1 : ((i : Int) + (l.length : Int) * ((rank ls idx : Int) + m * (nChoices ls : Int))) %
            (l.length : Int) = i := by
          rw [Int.add_mul_emod_self_left]
          exact Int.emod_eq_of_lt (by omega) (by omega)
        have e2 : ((i : Int) + (l.length : Int) * ((rank ls idx : Int) + m * (nChoices ls : Int))) /
            (l.length : Int) = (rank ls idx : Int) + m * (nChoices ls : Int) := by
          rw [Int.add_mul_ediv_left _ _ (by omega), Int.ediv_eq_zero_of_lt (by omega) (by omega), Int.zero_add]
        rw [e1, e2, Int.toNat_natCast, h1]
        dsimp only
        rw [ih idx xs h2 m]
        rfl

/-- C48: for a tuple of indices picking `xs`, `get_kth_combination(lists, k)` is `xs` for `k` the position
of the tuple (first index fastest), and for every `k` (a C `int`) that differs by a multiple of the number
of combinations. -/
theorem C48_kth {α : Type} (ls : List (List α)) (idx : List Nat) (xs : List α) (h : Picks ls idx xs)
    (k m : Int) (hk : k = (rank ls idx : Int) + m * (nChoices ls : Int)) (hi : IsInt32 k) :
    getKthCombination ls k = .ok xs := by
  unfold getKthCombination
  rw [toInt32_ok hi, hk]
  exact kthLoop_spec ls idx xs h m

theorem rank_lt {α : Type} (ls : List (List α)) (idx : List Nat) (xs : List α) (h : Picks ls idx xs) :
    rank ls idx < nChoices ls := by
  induction ls generalizing idx xs with
  | nil => simp [rank, nChoices]
  | cons l ls ih =>
    cases idx with
    | nil => simp [Picks] at h
    | cons i idx =>
      cases xs with
      | nil => simp [Picks] at h
      | cons x xs =>
        have h2 := ih idx xs h.2
        have hlt : i < l.length := (List.getElem?_eq_some_iff.mp h.1).1
        simp only [rank, nChoices]
        have h3 : l.length * rank ls idx + l.length ≤ l.length * nChoices ls := by
          rw [← Nat.mul_succ]
          exact Nat.mul_le_mul_left _ h2
        omega

/-- C48: the positions of the index tuples are exactly `0 ... number of combinations - 1`, each taken by
exactly one tuple; so every combination is produced by exactly one `k` in that range. -/
theorem C48_bijection {α : Type} (ls : List (List α)) :
    (∀ idx xs, Picks ls idx xs → rank ls idx < nChoices ls) ∧
      (∀ k, k < nChoices ls → ∃ idx xs, Picks ls idx xs ∧ rank ls idx = k) ∧
      (∀ idx idx' xs xs', Picks ls idx xs → Picks ls idx' xs' → rank ls idx = rank ls idx' →
        idx = idx' ∧ xs = xs') := by
  refine ⟨rank_lt ls, ?_, ?_⟩
  · induction ls with
    | nil => intro k hk; exact ⟨[], [], trivial, by simp [nChoices] at hk; simp [rank, hk]⟩
    | cons l ls ih =>
      intro k hk
      simp only [nChoices] at hk
      have hpos : 0 < l.length := by
        rcases Nat.eq_zero_or_pos l.length with h | h
        · rw [h, Nat.zero_mul] at hk; omega
        · exact h
      obtain ⟨idx, xs, h1, h2⟩ := ih (k / l.length) ((Nat.div_lt_iff_lt_mul hpos).mpr (by rw [Nat.mul_comm]; exact hk))
      have hm := Nat.mod_lt k hpos
      refine ⟨k % l.length :: idx, l[k % l.length] :: xs, ⟨List.getElem?_eq_getElem hm, h1⟩, ?_⟩
      simp only [rank, h2]
      exact Nat.mod_add_div k l.length
  · induction ls with
    | nil =>
      intro idx idx' xs xs' h h' _
      cases idx <;> cases idx' <;> cases xs <;> cases xs' <;> simp [Picks] at h h' ⊢
    | cons l ls ih =>
      intro idx idx' xs xs' h h' hr
      cases idx with
      | nil => simp [Picks] at h
      | cons i idx =>
        cases xs with
        | nil => simp [Picks] at h
        | cons x xs =>
          cases idx' with
          | nil => simp [Picks] at h'
          | cons j idx' =>
            cases xs' with
            | nil => simp [Picks] at h'
            | cons y xs' =>
              have hi : i < l.length := (List.getElem?_eq_some_iff.mp h.1).1
              have hj : j < l.length := (List.getElem?_eq_some_iff.mp h'.1).1
              simp only [rank] at hr
              have e1 : i = j := by
                have := congrArg (· % l.length) hr
                simpa [Nat.add_mul_mod_self_left, Nat.mod_eq_of_lt hi, Nat.mod_eq_of_lt hj] using this
              subst e1
              have e2 : rank ls idx = rank ls idx' := by
                have : l.length * rank ls idx = l.length * rank ls idx' := by omega
                exact Nat.eq_of_mul_eq_mul_left (by omega) this
              obtain ⟨e3, e4⟩ := ih idx idx' xs xs' h.2 h'.2 e2
              have e5 : x = y := by
                have := h.1.symm.trans h'.1
                injection this
              exact ⟨by rw [e3], by rw [e4, e5]⟩

/-- C48: the rejected calls: a `k` that is no C `int`, and an empty candidate list. -/
theorem C48_errors {α : Type} (ls : List (List α)) (k : Int) :
    (¬ IsInt32 k → getKthCombination ls k = .error .overflowError) ∧
      (IsInt32 k → [] ∈ ls → getKthCombination ls k = .error .zeroDivisionError) := by
  constructor
  · intro h
    unfold getKthCombination
    rw [toInt32_error h]
    rfl
  · intro h hm
    unfold getKthCombination
    rw [toInt32_ok h]
    show kthLoop ls k = _
    clear h
    induction ls generalizing k with
    | nil => cases hm
    | cons l ls ih =>
      unfold kthLoop
      by_cases h0 : l.length = 0
      · rw [if_pos h0]
      · rw [if_neg h0]
        have hlt : (k % (l.length : Int)).toNat < l.length := by
          have h1 := Int.emod_lt_of_pos k (b := (l.length : Int)) (by omega)
          have h2 := Int.emod_nonneg k (b := (l.length : Int)) (by omega)
          omega
        rw [List.getElem?_eq_getElem hlt]
        dsimp only
        rw [ih]
        · rfl
        · rcases List.mem_cons.mp hm with h | h
          · rw [← h] at h0; simp at h0
          · exact h

example : (List.range 6).map (fun k : Nat => getKthCombination [["a", "b"], ["x", "y", "z"]] k) =
    [.ok ["a", "x"], .ok ["b", "x"], .ok ["a", "y"], .ok ["b", "y"], .ok ["a", "z"], .ok ["b", "z"]] := by
  decide

example : Picks [["a", "b"], ["x", "y", "z"]] [1, 2] ["b", "z"] ∧ IsInt32 5 := by
  simp [Picks, IsInt32]

/-! ### C49 partition_by_entities -/

theorem strLe_total (a b : Str) : strLe a b = true ∨ strLe b a = true := by
  induction a generalizing b with
  | nil => exact .inl rfl
  | cons x a ih =>
    cases b with
    | nil => exact .inr rfl
    | cons y b =>
      unfold strLe
      rcases Nat.lt_trichotomy x.toNat y.toNat with h | h | h
      · exact .inl (by rw [if_pos h])
      · rw [if_neg (by omega), if_neg (by omega), if_neg (by omega), if_neg (by omega)]
        exact ih b
      · exact .inr (by rw [if_pos h])

/-- Strictly smaller in the order of code points. -/
def strLt (a b : Str) : Prop := List.Lex (fun a b : Char => a.toNat < b.toNat) a b

theorem char_eq_of_toNat {a b : Char} (h : a.toNat = b.toNat) : a = b :=
  Char.ext (UInt32.toNat_inj.mp h)

theorem strLt_of_strLe {a b : Str} (h : strLe a b = true) (hne : a ≠ b) : strLt a b := by
  induction a generalizing b with
  | nil =>
    cases b with
    | nil => exact absurd rfl hne
    | cons y b => exact List.Lex.nil
  | cons x a ih =>
    cases b with
    | nil => cases h
    | cons y b =>
      unfold strLe at h
      by_cases h1 : x.toNat < y.toNat
      · exact List.Lex.rel h1
      · rw [if_neg h1] at h
        by_cases h2 : y.toNat < x.toNat
        · rw [if_pos h2] at h; cases h
        · rw [if_neg h2] at h
          have := char_eq_of_toNat (a := x) (b := y) (by omega)
          subst this
          exact List.Lex.cons (ih h (fun he => hne (by rw [he])))

theorem strLt_trans {a b c : Str} (h1 : strLt a b) (h2 : strLt b c) : strLt a c := by
  unfold strLt at *
  induction h1 generalizing c with
  | nil => cases h2 <;> exact List.Lex.nil
  | cons _ ih =>
    cases h2 with
    | cons h2 => exact List.Lex.cons (ih h2)
    | rel h2 => exact List.Lex.rel h2
  | rel h =>
    cases h2 with
    | cons h2 => exact List.Lex.rel h
    | rel h2 => exact List.Lex.rel (Nat.lt_trans h h2)

theorem strLt_irrefl (a : Str) : ¬ strLt a a := by
  intro h
  unfold strLt at h
  induction a with
  | nil => cases h
  | cons x a ih =>
    cases h with
    | cons h => exact ih h
    | rel h => exact absurd h (Nat.lt_irrefl _)

theorem mem_insertStr {x y : Str} {l : List Str} : y ∈ insertStr x l ↔ y = x ∨ y ∈ l := by
  induction l with
  | nil => simp [insertStr]
  | cons z l ih =>
    unfold insertStr
    split
    · simp
    · simp only [List.mem_cons, ih]
      constructor
      · rintro (h | h | h)
        · exact .inr (.inl h)
        · exact .inl h
        · exact .inr (.inr h)
      · rintro (h | h | h)
        · exact .inr (.inl h)
        · exact .inl h
        · exact .inr (.inr h)

theorem mem_sortStrs {x : Str} {l : List Str} : x ∈ sortStrs l ↔ x ∈ l := by
  induction l with
  | nil => simp [sortStrs]
  | cons y l ih => simp [sortStrs, mem_insertStr, ih]

theorem insertStr_pairwise (x : Str) (l : List Str) (hl : l.Pairwise strLt) (hx : x ∉ l) :
    (insertStr x l).Pairwise strLt := by
  induction l with
  | nil => simp [insertStr]
  | cons y l ih =>
    have hxy : x ≠ y := fun h => hx (by simp [h])
    rw [List.pairwise_cons] at hl
    unfold insertStr
    split
    · rename_i h
      have hlt := strLt_of_strLe h hxy
      refine List.pairwise_cons.mpr ⟨fun z hz => ?_, List.pairwise_cons.mpr hl⟩
      rcases List.mem_cons.mp hz with rfl | hz
      · exact hlt
      · exact strLt_trans hlt (hl.1 z hz)
    · rename_i h
      have hlt : strLt y x := strLt_of_strLe ((strLe_total x y).resolve_left h) (Ne.symm hxy)
      refine List.pairwise_cons.mpr ⟨fun z hz => ?_, ih hl.2 (fun h => hx (by simp [h]))⟩
      rcases mem_insertStr.mp hz with rfl | hz
      · exact hlt
      · exact hl.1 z hz

theorem sortStrs_pairwise (l : List Str) (h : l.Nodup) : (sortStrs l).Pairwise strLt := by
  induction l with
  | nil => exact .nil
  | cons x l ih =>
    rw [List.nodup_cons] at h
    exact insertStr_pairwise x _ (ih h.2) (fun hm => h.1 (mem_sortStrs.mp hm))

/-- Two strictly increasing lists with the same members are equal. -/
theorem strLt_list_unique (l l' : List Str) (h : l.Pairwise strLt) (h' : l'.Pairwise strLt)
    (hm : ∀ x, x ∈ l ↔ x ∈ l') : l = l' := by
  induction l generalizing l' with
  | nil =>
    cases l' with
    | nil => rfl
    | cons y l' => have := (hm y).mpr (by simp); simp at this
  | cons x l ih =>
    cases l' with
    | nil => have := (hm x).mp (by simp); simp at this
    | cons y l' =>
      rw [List.pairwise_cons] at h h'
      have hxy : x = y := by
        rcases List.mem_cons.mp ((hm x).mp (by simp)) with e | e
        · exact e
        · rcases List.mem_cons.mp ((hm y).mpr (by simp)) with e' | e'
          · exact e'.symm
          · exact absurd (strLt_trans (h.1 y e') (h'.1 x e)) (strLt_irrefl x)
      subst hxy
      congr 1
      refine ih l' h.2 h'.2 fun z => ?_
      constructor
      · intro hz
        rcases List.mem_cons.mp ((hm z).mp (by simp [hz])) with e | e
        · exact absurd (e ▸ h.1 z hz) (strLt_irrefl x)
        · exact e
      · intro hz
        rcases List.mem_cons.mp ((hm z).mpr (by simp [hz])) with e | e
        · exact absurd (e ▸ h'.1 z hz) (strLt_irrefl x)
        · exact e

theorem partCandidates_spec (σ : SetOrder) (o : Bool) (e : Entity) : Candidates o e (partCandidates σ o e) := by
  unfold partCandidates Entity.noReplacements
  constructor
  · intro h
    rw [if_pos (by simp [h])]
  · intro h
    rw [if_neg (by simpa using h)]
    refine ⟨sortStrs (σ.listSet e.replacements), ?_, sortStrs_pairwise _ (nodup_listSet σ _), fun r => ?_⟩
    · cases o <;> simp
    · rw [mem_sortStrs, mem_listSet]

theorem candidates_unique {o : Bool} {e : Entity} {c c' : List Str} (h : Candidates o e c)
    (h' : Candidates o e c') : c = c' := by
  by_cases hr : e.replacements = []
  · rw [h.1 hr, h'.1 hr]
  · obtain ⟨l, h1, h2, h3⟩ := h.2 hr
    obtain ⟨l', h1', h2', h3'⟩ := h'.2 hr
    rw [h1, h1', strLt_list_unique l l' h2 h2' (fun x => (h3 x).trans (h3' x).symm)]

theorem candidates_ne_nil {o : Bool} {e : Entity} {c : List Str} (h : Candidates o e c) : c ≠ [] := by
  by_cases hr : e.replacements = []
  · rw [h.1 hr]; simp
  · obtain ⟨l, h1, _, h3⟩ := h.2 hr
    obtain ⟨x, xs, hx⟩ := List.exists_cons_of_ne_nil hr
    have := (h3 x).mpr (by rw [hx]; simp)
    intro hc
    rw [hc] at h1
    have hl : l = [] := by
      have := congrArg List.length h1
      simp at this
      exact List.eq_nil_of_length_eq_zero (by omega)
    rw [hl] at this
    cases this

theorem pySlice_nat (u : Str) (a b : Nat) (ha : a ≤ u.length) (hb : b ≤ u.length) :
    pySlice u (a : Int) (b : Int) = (u.take b).drop a := by
  unfold pySlice clampIdx slice
  rw [if_neg (by omega), if_neg (by omega)]
  simp [Nat.min_eq_left ha, Nat.min_eq_left hb]

theorem partitionLoop_spec (σ : SetOrder) (o : Bool) (u : Str) (es : List Entity) (off : Nat)
    (hoff : off ≤ u.length) (hv : ∀ e ∈ es, ValueAt u e) (hw : ∀ e ∈ es, WithinUtterance u e)
    (hb : es.Pairwise Before) (h0 : ∀ e ∈ es, (off : Int) ≤ e.start) :
    ∃ ps : List Part, (ps.map Prod.fst).flatten = u.drop off ∧ ps.filterMap Prod.snd = es ∧ LaidOut off ps ∧
      Alternatives o ps (partitionLoop σ o u off es).1 ∧
      (partitionLoop σ o u off es).2 = ps.map (fun p => p.2.map (fun e => e.label)) := by
  induction es generalizing off with
  | nil =>
    unfold partitionLoop
    by_cases h : (off : Int) ≠ u.length
    · rw [if_pos h]
      have hs : pySlice u (off : Int) (u.length : Int) = u.drop off := by
        rw [pySlice_nat u off u.length hoff (Nat.le_refl _)]; simp
      rw [hs]
      refine ⟨[(u.drop off, none)], by simp, rfl, ⟨?_, trivial⟩, ⟨rfl, trivial⟩, rfl⟩
      intro hn
      have := congrArg List.length hn
      simp at this
      omega
    · rw [if_neg h]
      have hd : u.drop off = [] := List.drop_of_length_le (by omega)
      exact ⟨[], by simp [hd], rfl, trivial, trivial, rfl⟩
  | cons e es ih =>
    have he := hw e (by simp)
    have hve := hv e (by simp)
    have h0e := h0 e (by simp)
    rw [List.pairwise_cons] at hb
    unfold WithinUtterance at he
    obtain ⟨a, ha⟩ : ∃ a : Nat, e.start = a := ⟨e.start.toNat, by omega⟩
    obtain ⟨b, hb'⟩ : ∃ b : Nat, e.stop = b := ⟨e.stop.toNat, by omega⟩
    have hval : e.value = (u.take b).drop a := by
      unfold ValueAt at hve
      rw [hve, ha, hb', pySlice_nat u a b (by omega) (by omega)]
    have hvl : e.value.length = b - a := by rw [hval]; simp; omega
    obtain ⟨ps, h1, h2, h3, h4, h5⟩ := ih b (by omega) (fun f hf => hv f (by simp [hf]))
      (fun f hf => hw f (by simp [hf])) hb.2 (fun f hf => by have := hb.1 f hf; unfold Before at this; omega)
    have hjoin : e.value ++ u.drop b = u.drop a := by
      rw [hval]
      have hab : a ≤ b := by omega
      rw [show u.drop b = (u.drop a).drop (b - a) by rw [List.drop_drop]; congr 1; omega,
        List.drop_take, List.take_append_drop]
    have hlay : LaidOut a ((e.value, some e) :: ps) := by
      refine ⟨⟨ha.symm, by rw [hb', hvl]; omega, rfl⟩, ?_⟩
      rw [hvl, show a + (b - a) = b by omega]
      exact h3
    have hcand := partCandidates_spec σ o e
    unfold partitionLoop
    rw [← hb'] at h4 h5
    by_cases hs : (off : Int) ≠ e.start
    · rw [if_pos hs]
      have hsl : pySlice u (off : Int) e.start = (u.drop off).take (a - off) := by
        rw [ha, pySlice_nat u off a (by omega) (by omega), List.drop_take]
      rw [hsl]
      have hlen : ((u.drop off).take (a - off)).length = a - off := by simp; omega
      refine ⟨((u.drop off).take (a - off), none) :: (e.value, some e) :: ps, ?_, ?_, ⟨?_, ?_⟩,
        ⟨rfl, hcand, h4⟩, ?_⟩
      · simp only [List.map_cons, List.flatten_cons, h1, hjoin]
        rw [show u.drop a = (u.drop off).drop (a - off) by rw [List.drop_drop]; congr 1; omega,
          List.take_append_drop]
      · simp [h2]
      · dsimp only
        intro hn
        rw [hn] at hlen
        simp at hlen
        omega
      · rw [hlen, show off + (a - off) = a by omega]
        exact hlay
      · dsimp only
        rw [h5]
        rfl
    · rw [if_neg hs]
      have hao : off = a := by omega
      subst hao
      refine ⟨(e.value, some e) :: ps, ?_, ?_, hlay, ⟨hcand, h4⟩, ?_⟩
      · simp only [List.map_cons, List.flatten_cons, h1, hjoin]
      · simp [h2]
      · dsimp only
        rw [h5]
        rfl

/-- The partition of a well-placed datum, described by its parts. -/
theorem partition_parts (σ : SetOrder) (o : Bool) {d : Datum} (hd : IsDatum d)
    (hw : ∀ e ∈ d.entities, WithinUtterance d.utterance e) :
    ∃ ps : List Part, (ps.map Prod.fst).flatten = d.utterance ∧ ps.filterMap Prod.snd = d.entities ∧
      LaidOut 0 ps ∧ Alternatives o ps (partitionByEntities σ d o).1 ∧
      (partitionByEntities σ d o).2 = ps.map (fun p => p.2.map (fun e => e.label)) := by
  have := partitionLoop_spec σ o d.utterance d.entities 0 (Nat.zero_le _) hd.values hw hd.before
    (fun e he => (hw e he).1)
  simpa [partitionByEntities] using this

theorem alternatives_length {o : Bool} {ps : List Part} {cs : List (List Str)} (h : Alternatives o ps cs) :
    cs.length = ps.length := by
  induction ps generalizing cs with
  | nil =>
    cases cs with
    | nil => rfl
    | cons c cs => exact absurd h (by simp [Alternatives])
  | cons p ps ih =>
    obtain ⟨t, x⟩ := p
    cases cs with
    | nil => cases x <;> exact absurd h (by simp [Alternatives])
    | cons c cs =>
      cases x with
      | none => simp [ih h.2]
      | some e => simp [ih h.2]

/-- C49: `partition_by_entities` of a constructed datum with well-placed entities cuts the utterance into
parts that concatenate to it; the parts with an entity are exactly the entities in order, each at its own
position; the returned alternatives are the text itself or the entity's candidates, and the returned
labels are those of the entities, `None` for plain text. -/
theorem C49_partition (σ : SetOrder) (o : Bool) (u : Str) (is : List Intent) (es : List Entity) (d : Datum)
    (h : Datum.new u (some is) (some es) = .ok d) (hw : ∀ e ∈ es, WithinUtterance u e) :
    ∃ ps : List Part, (ps.map Prod.fst).flatten = u ∧ ps.filterMap Prod.snd = d.entities ∧ LaidOut 0 ps ∧
      Alternatives o ps (partitionByEntities σ d o).1 ∧
      (partitionByEntities σ d o).2 = ps.map (fun p => p.2.map (fun e => e.label)) ∧
      (partitionByEntities σ d o).1.length = (partitionByEntities σ d o).2.length := by
  have hd := isDatum_of_new h
  obtain ⟨rfl, _, _⟩ := datum_new_cases u is es d h
  obtain ⟨ps, h1, h2, h3, h4, h5⟩ := partition_parts σ o hd (fun e he => hw e (mem_pySorted.mp he))
  exact ⟨ps, h1, h2, h3, h4, h5, by rw [h5, alternatives_length h4]; simp⟩

/-- C49: the result does not depend on the iteration order of the sets of replacements, for every datum. -/
theorem C49_order_irrelevant (σ τ : SetOrder) (o : Bool) (d : Datum) :
    partitionByEntities σ d o = partitionByEntities τ d o := by
  unfold partitionByEntities
  have key : ∀ (es : List Entity) (s : Int), partitionLoop σ o d.utterance s es =
      partitionLoop τ o d.utterance s es := by
    intro es
    induction es with
    | nil => intro s; rfl
    | cons e es ih =>
      intro s
      unfold partitionLoop
      rw [ih, candidates_unique (partCandidates_spec σ o e) (partCandidates_spec τ o e)]
  exact key _ _

example : partitionByEntities SetOrder.id ⟨"I like b, x".toList, [],
      [⟨7, "b".toList, 7, 8, ["z".toList, "cc".toList]⟩, ⟨9, "x".toList, 10, 11, []⟩]⟩ true =
    ([["I like ".toList], ["cc".toList, "z".toList, "b".toList], [", ".toList], ["x".toList]],
      [none, some 7, none, some 9]) := by decide

/-! ### C50 expand_by_entities -/

theorem picks_lengths {α : Type} {ls : List (List α)} {idx : List Nat} {xs : List α} (h : Picks ls idx xs) :
    xs.length = ls.length ∧ idx.length = ls.length := by
  induction ls generalizing idx xs with
  | nil => cases idx <;> cases xs <;> simp_all [Picks]
  | cons l ls ih =>
    cases idx with
    | nil => simp [Picks] at h
    | cons i idx =>
      cases xs with
      | nil => simp [Picks] at h
      | cons x xs => simp [ih h.2]

theorem aggregateEntities_spec (ps : List Part) (xs : List Str) (off : Nat)
    (hlen : xs.length = ps.length) (hl : ∀ p ∈ ps, ∀ e, p.2 = some e → IsInt32 e.label)
    (htot : ∀ n : Nat, n ≤ off + xs.flatten.length → IsInt32 (n : Int)) :
    aggregateEntities xs (ps.map (fun p => p.2.map (fun e => e.label))) off = .ok (placed off ps xs) := by
  induction ps generalizing xs off with
  | nil =>
    cases xs with
    | nil => rfl
    | cons x xs => simp at hlen
  | cons p ps ih =>
    obtain ⟨t, o⟩ := p
    cases xs with
    | nil => simp at hlen
    | cons x xs =>
      rw [List.flatten_cons, List.length_append] at htot
      have ih' := ih xs (off + x.length) (by simpa using hlen) (fun p hp => hl p (by simp [hp]))
        (fun n hn => htot n (by omega))
      have hto : toInt32 ((off : Int) + (x.length : Int)) = .ok ((off + x.length : Nat) : Int) := by
        rw [← Int.natCast_add, toInt32_ok (htot _ (by omega))]
      cases o with
      | none =>
        simp only [List.map_cons, Option.map_none, aggregateEntities, placed]
        rw [hto]
        simp only [Except.bind_ok]
        exact ih'
      | some e =>
        simp only [List.map_cons, Option.map_some, aggregateEntities, placed]
        refine (bind_of_ok (entity_new_ok _ _ (hl (t, some e) (by simp) e rfl) (htot _ (by omega))
          (by rw [← Int.natCast_add]; exact htot _ (by omega))) _).trans ?_
        refine (bind_of_ok hto _).trans ?_
        refine (bind_of_ok ih' _).trans ?_
        rw [Int.natCast_add, show pyDedup ((none : Option (List Str)).getD []) = [] from rfl]
        rfl

theorem placed_mem (ps : List Part) (xs : List Str) (off : Nat) (e : Entity) (h : e ∈ placed off ps xs) :
    (off : Int) ≤ e.start ∧ e.start ≤ e.stop ∧ e.stop ≤ ((off + xs.flatten.length : Nat) : Int) := by
  induction ps generalizing xs off with
  | nil => cases xs <;> cases h
  | cons p ps ih =>
    obtain ⟨t, o⟩ := p
    cases xs with
    | nil => cases o <;> cases h
    | cons x xs =>
      rw [List.flatten_cons, List.length_append]
      cases o with
      | none =>
        have := ih xs (off + x.length) h
        omega
      | some f =>
        rcases List.mem_cons.mp h with rfl | h
        · dsimp only; omega
        · have := ih xs (off + x.length) h
          omega

theorem placed_pairwise (ps : List Part) (xs : List Str) (off : Nat) :
    (placed off ps xs).Pairwise (fun a b => a.start ≤ b.start ∧ a.stop ≤ b.start) := by
  induction ps generalizing xs off with
  | nil => cases xs <;> exact .nil
  | cons p ps ih =>
    obtain ⟨t, o⟩ := p
    cases xs with
    | nil => cases o <;> exact .nil
    | cons x xs =>
      cases o with
      | none => exact ih xs _
      | some f =>
        refine List.pairwise_cons.mpr ⟨fun e he => ?_, ih xs _⟩
        have := placed_mem ps xs _ e he
        dsimp only
        omega

theorem placed_values (ps : List Part) (xs : List Str) (pre : Str) :
    ∀ e ∈ placed pre.length ps xs, ValueAt (pre ++ xs.flatten) e := by
  induction ps generalizing xs pre with
  | nil => intro e h; cases xs <;> cases h
  | cons p ps ih =>
    obtain ⟨t, o⟩ := p
    intro e h
    cases xs with
    | nil => cases o <;> cases h
    | cons x xs =>
      have ih' := ih xs (pre ++ x)
      rw [List.length_append, List.append_assoc] at ih'
      rw [List.flatten_cons]
      cases o with
      | none => exact ih' e h
      | some f =>
        rcases List.mem_cons.mp h with rfl | h
        · unfold ValueAt
          dsimp only
          rw [pySlice_nat _ _ _ (by simp) (by simp)]
          rw [← List.append_assoc, List.take_append_of_le_length (by simp)]
          rw [List.take_of_length_le (by simp), List.drop_left]
        · exact ih' e h

theorem copyIntents_self (d : Datum) (h : ∀ i ∈ d.intents, IsInt32 i.label) : d.copyIntents = .ok d.intents := by
  unfold Datum.copyIntents
  generalize d.intents = is at h
  induction is with
  | nil => rfl
  | cons i is ih =>
    rw [List.mapM_cons, ih (fun x hx => h x (by simp [hx]))]
    unfold Intent.new
    rw [toInt32_ok (h i (by simp))]
    rfl

/-- One iteration of the loop for the index of a given tuple. -/
theorem expandOne_spec {d : Datum} (hd : IsDatum d) (ps : List Part) (parts : List (List Str))
    (o : Bool) (halt : Alternatives o ps parts)
    (hl : ∀ p ∈ ps, ∀ e, p.2 = some e → IsInt32 e.label) (hi : ∀ i ∈ d.intents, IsInt32 i.label)
    (idx : List Nat) (xs : List Str) (hp : Picks parts idx xs) (hx : xs.flatten.length < 2 ^ 31)
    (k m : Int) (hk : k = (rank parts idx : Int) + m * (nChoices parts : Int)) (hk32 : IsInt32 k) :
    expandOne d parts (ps.map (fun p => p.2.map (fun e => e.label))) k =
      .ok ⟨xs.flatten, d.intents, placed 0 ps xs⟩ := by
  have hagg := aggregateEntities_spec ps xs 0 (by rw [(picks_lengths hp).1, alternatives_length halt]) hl
    (fun n hn => by unfold IsInt32; omega)
  have hpw := placed_pairwise ps xs 0
  have hsort := pySorted_of_pairwise Entity.start (placed 0 ps xs) (hpw.imp (fun h => h.1))
  have hsi := pySorted_of_pairwise Intent.hash d.intents hd.intents
  have hval := placed_values ps xs []
  simp only [List.nil_append, List.length_nil] at hval
  unfold expandOne
  rw [C48_kth parts idx xs hp k m hk hk32]
  simp only [Except.bind_ok]
  rw [show (0 : Int) = ((0 : Nat) : Int) from rfl, hagg]
  simp only [Except.bind_ok]
  rw [copyIntents_self d hi]
  simp only [Except.bind_ok]
  rw [datum_new_ok _ _ _ hval (by rw [hsort]; exact pairwise_neighbours (hpw.imp (fun h => h.2))), hsort, hsi]

theorem nChoices_eq_foldl (parts : List (List Str)) :
    (parts.map fun p => p.length).foldl (· * ·) 1 = nChoices parts := by
  have key : ∀ (parts : List (List Str)) (a : Nat),
      (parts.map fun p => p.length).foldl (· * ·) a = a * nChoices parts := by
    intro parts
    induction parts with
    | nil => intro a; simp [nChoices]
    | cons p parts ih =>
      intro a
      rw [List.map_cons, List.foldl_cons, ih, nChoices, Nat.mul_assoc]
  rw [key, Nat.one_mul]

theorem mapM_ok_of_forall {α β : Type} (f : α → Res β) (g : α → β) (l : List α) (h : ∀ x ∈ l, f x = .ok (g x)) :
    l.mapM f = .ok (l.map g) := by
  induction l with
  | nil => rfl
  | cons x l ih =>
    rw [List.mapM_cons, h x (by simp), ih (fun y hy => h y (by simp [hy]))]
    rfl

theorem mapM_ok_exists {α β : Type} (f : α → Res β) (l : List α) (P : α → β → Prop)
    (h : ∀ x ∈ l, ∃ y, f x = .ok y ∧ P x y) :
    ∃ r, l.mapM f = .ok r ∧ r.length = l.length ∧
      ∀ (n : Nat) (x : α) (y : β), l[n]? = some x → r[n]? = some y → P x y := by
  induction l with
  | nil => exact ⟨[], rfl, rfl, by simp⟩
  | cons x l ih =>
    obtain ⟨y, h1, h2⟩ := h x (by simp)
    obtain ⟨r, h3, h4, h5⟩ := ih (fun z hz => h z (by simp [hz]))
    refine ⟨y :: r, by rw [List.mapM_cons, h1, h3]; rfl, by simp [h4], fun n a b ha hb => ?_⟩
    cases n with
    | zero =>
      simp at ha hb
      subst ha hb
      exact h2
    | succ n =>
      simp at ha hb
      exact h5 n a b ha hb

/-- The hypotheses of C50: a constructed datum with C `int` labels and at least one entity, all entities
within the utterance. -/
structure Expandable (d : Datum) : Prop where
  isDatum : IsDatum d
  within : ∀ e ∈ d.entities, WithinUtterance d.utterance e
  labels : ∀ e ∈ d.entities, IsInt32 e.label
  intents : ∀ i ∈ d.intents, IsInt32 i.label
  nonempty : d.entities ≠ []

theorem alternatives_pos (o : Bool) (ps : List Part) (cs : List (List Str)) (h : Alternatives o ps cs) :
    0 < nChoices cs := by
  induction ps generalizing cs with
  | nil =>
    cases cs with
    | nil => simp [nChoices]
    | cons c cs => exact absurd h (by simp [Alternatives])
  | cons p ps ih =>
    obtain ⟨t, x⟩ := p
    cases cs with
    | nil => cases x <;> exact absurd h (by simp [Alternatives])
    | cons c cs =>
      cases x with
      | none =>
        rw [nChoices, h.1]
        have := ih cs h.2
        simpa using this
      | some e =>
        exact Nat.mul_pos (List.length_pos_iff.mpr (candidates_ne_nil h.1)) (ih cs h.2)

/-- C50: with any sampling method returning C `int`s, `expand_by_entities` yields one datum per returned
index. It comes from one choice of an alternative per part (the choice at that position modulo the number
of combinations): its utterance is the concatenation of the chosen texts, its intents are unchanged, and
its entities carry the labels in order at the places of the chosen texts. -/
theorem C50_sampling (σ : SetOrder) (d : Datum) (hd : Expandable d) (o : Bool)
    (sampling : Nat → List Int) :
    ∃ (ps : List Part) (parts : List (List Str)),
      (ps.map Prod.fst).flatten = d.utterance ∧ ps.filterMap Prod.snd = d.entities ∧ LaidOut 0 ps ∧
      Alternatives o ps parts ∧ 0 < nChoices parts ∧
      ((∀ k ∈ sampling (nChoices parts), IsInt32 k) →
        (∀ idx xs, Picks parts idx xs → xs.flatten.length < 2 ^ 31) →
        ∃ ds, expandByEntities σ d (some sampling) o = .ok ds ∧
          ds.length = (sampling (nChoices parts)).length ∧
          ∀ (n : Nat) (k : Int) (d' : Datum), (sampling (nChoices parts))[n]? = some k → ds[n]? = some d' →
            ∃ idx xs m, Picks parts idx xs ∧ k = (rank parts idx : Int) + m * (nChoices parts : Int) ∧
              d' = ⟨xs.flatten, d.intents, placed 0 ps xs⟩) := by
  obtain ⟨ps, h1, h2, h3, h4, h5⟩ := partition_parts σ o hd.isDatum hd.within
  have hpos : 0 < nChoices (partitionByEntities σ d o).1 := alternatives_pos o ps _ h4
  refine ⟨ps, (partitionByEntities σ d o).1, h1, h2, h3, h4, hpos, fun hs hx => ?_⟩
  unfold expandByEntities
  have hhas : ¬ d.hasEntities = false := by
    unfold Datum.hasEntities
    have := List.length_pos_iff.mpr hd.nonempty
    simp [this]
  rw [if_neg hhas]
  dsimp only [Option.getD_some]
  rw [nChoices_eq_foldl, h5]
  refine mapM_ok_exists _ _ (fun (k : Int) (d' : Datum) => ∃ idx xs m, Picks (partitionByEntities σ d o).1 idx xs ∧
    k = (rank (partitionByEntities σ d o).1 idx : Int) + m * (nChoices (partitionByEntities σ d o).1 : Int) ∧
      d' = ⟨xs.flatten, d.intents, placed 0 ps xs⟩) ?_
  intro k hk
  have hem := Int.emod_lt_of_pos k (b := (nChoices (partitionByEntities σ d o).1 : Int)) (by omega)
  have hen := Int.emod_nonneg k (b := (nChoices (partitionByEntities σ d o).1 : Int)) (by omega)
  obtain ⟨idx, xs, hp, hr⟩ := (C48_bijection (partitionByEntities σ d o).1).2.1
    (k % (nChoices (partitionByEntities σ d o).1 : Int)).toNat (by omega)
  have hk' : k = (rank (partitionByEntities σ d o).1 idx : Int) +
      (k / (nChoices (partitionByEntities σ d o).1 : Int)) * (nChoices (partitionByEntities σ d o).1 : Int) := by
    rw [hr, Int.toNat_of_nonneg hen, Int.mul_comm]
    exact (Int.emod_add_mul_ediv k _).symm
  refine ⟨_, expandOne_spec hd.isDatum ps _ o h4 ?_ hd.intents idx xs hp (hx idx xs hp) k _ hk' (hs k hk),
    idx, xs, _, hp, hk', rfl⟩
  intro p hp e he
  refine hd.labels e ?_
  rw [← h2, List.mem_filterMap]
  exact ⟨p, hp, he⟩

theorem mapM_some_error {α β : Type} (f : α → Res β) (e : Exc) (l : List α)
    (h : ∀ x ∈ l, (∃ y, f x = .ok y) ∨ f x = .error e) (hx : ∃ x ∈ l, f x = .error e) : l.mapM f = .error e := by
  induction l with
  | nil => obtain ⟨x, hx, _⟩ := hx; cases hx
  | cons x l ih =>
    rw [List.mapM_cons]
    rcases h x (by simp) with ⟨y, hy⟩ | he
    · rw [hy]
      obtain ⟨z, hz, hze⟩ := hx
      have hz' : z ∈ l := by
        rcases List.mem_cons.mp hz with rfl | h'
        · rw [hy] at hze; cases hze
        · exact h'
      rw [show (l.mapM f) = .error e from ih (fun w hw => h w (by simp [hw])) ⟨z, hz', hze⟩]
      rfl
    · rw [he]; rfl

/-- C50: an index that is no C `int`, from a sampling method or because there are more than 2^31 combinations, makes
`expand_by_entities` raise OverflowError (texts shorter than 2^31; memory exhaustion is not modelled). -/
theorem C50_too_many (σ : SetOrder) (d : Datum) (hd : Expandable d) (o : Bool) (sampling : Nat → List Int) :
    ∃ (ps : List Part) (parts : List (List Str)),
      (ps.map Prod.fst).flatten = d.utterance ∧ ps.filterMap Prod.snd = d.entities ∧ LaidOut 0 ps ∧
      Alternatives o ps parts ∧
      ((∀ idx xs, Picks parts idx xs → xs.flatten.length < 2 ^ 31) →
        ((∃ k ∈ sampling (nChoices parts), ¬ IsInt32 k) →
          expandByEntities σ d (some sampling) o = .error .overflowError) ∧
        (2 ^ 31 < nChoices parts → expandByEntities σ d none o = .error .overflowError)) := by
  -- the parts do not depend on the sampling method
  have key : ∀ sampling : Nat → List Int,
      (∀ idx xs, Picks (partitionByEntities σ d o).1 idx xs → xs.flatten.length < 2 ^ 31) →
      (∃ k ∈ sampling (nChoices (partitionByEntities σ d o).1), ¬ IsInt32 k) →
      expandByEntities σ d (some sampling) o = .error .overflowError := by
    intro sampling hx hk
    have hhas : ¬ d.hasEntities = false := by
      unfold Datum.hasEntities
      have := List.length_pos_iff.mpr hd.nonempty
      simp [this]
    have hbad : ∀ k : Int, ¬ IsInt32 k →
        expandOne d (partitionByEntities σ d o).1 (partitionByEntities σ d o).2 k = .error .overflowError := by
      intro k hk
      unfold expandOne
      rw [(C48_errors _ k).1 hk]
      rfl
    have hgood : ∀ k : Int, IsInt32 k →
        ∃ y, expandOne d (partitionByEntities σ d o).1 (partitionByEntities σ d o).2 k = .ok y := by
      intro k hk
      obtain ⟨ps, h1, h2, h3, h4, h5⟩ := partition_parts σ o hd.isDatum hd.within
      have hpos : 0 < nChoices (partitionByEntities σ d o).1 := by
        exact alternatives_pos o ps _ h4
      have hem := Int.emod_lt_of_pos k (b := (nChoices (partitionByEntities σ d o).1 : Int)) (by omega)
      have hen := Int.emod_nonneg k (b := (nChoices (partitionByEntities σ d o).1 : Int)) (by omega)
      obtain ⟨idx, xs, hp, hr⟩ := (C48_bijection (partitionByEntities σ d o).1).2.1
        (k % (nChoices (partitionByEntities σ d o).1 : Int)).toNat (by omega)
      have hk' : k = (rank (partitionByEntities σ d o).1 idx : Int) +
          (k / (nChoices (partitionByEntities σ d o).1 : Int)) * (nChoices (partitionByEntities σ d o).1 : Int) := by
        rw [hr, Int.toNat_of_nonneg hen, Int.mul_comm]
        exact (Int.emod_add_mul_ediv k _).symm
      rw [h5]
      refine ⟨_, expandOne_spec hd.isDatum ps _ o h4 ?_ hd.intents idx xs hp (hx idx xs hp) k _ hk' hk⟩
      intro p hp e he
      refine hd.labels e ?_
      rw [← h2, List.mem_filterMap]
      exact ⟨p, hp, he⟩
    unfold expandByEntities
    rw [if_neg hhas]
    dsimp only [Option.getD_some]
    rw [nChoices_eq_foldl]
    refine mapM_some_error _ _ _ (fun k _ => ?_) ?_
    · by_cases hk : IsInt32 k
      · exact .inl (hgood k hk)
      · exact .inr (hbad k hk)
    · obtain ⟨k, hk, hn⟩ := hk
      exact ⟨k, hk, hbad k hn⟩
  obtain ⟨ps, h1, h2, h3, h4, _⟩ := partition_parts σ o hd.isDatum hd.within
  refine ⟨ps, (partitionByEntities σ d o).1, h1, h2, h3, h4, fun hx => ⟨key sampling hx, fun hn => ?_⟩⟩
  refine key (fun n => (List.range n).map (fun i : Nat => (i : Int))) hx ⟨((2 ^ 31 : Nat) : Int), ?_, by unfold IsInt32; omega⟩
  exact List.mem_map.mpr ⟨2 ^ 31, List.mem_range.mpr hn, rfl⟩

/-- C50: a sampling method that returns a number that is no C `int`. -/
example : expandByEntities SetOrder.id ⟨"ab".toList, [], [⟨1, "a".toList, 0, 1, ["x".toList]⟩]⟩ (some fun _ => [0, 2 ^ 31])
    true = .error .overflowError := by decide

/-- C50: without a sampling method (and for at most 2^31 combinations) the result has one datum per choice
of alternatives: the `k`-th one is that of the choice at position `k`. Every choice occurs. -/
theorem C50_all (σ : SetOrder) (d : Datum) (hd : Expandable d) (o : Bool) :
    ∃ (ps : List Part) (parts : List (List Str)),
      (ps.map Prod.fst).flatten = d.utterance ∧ ps.filterMap Prod.snd = d.entities ∧ LaidOut 0 ps ∧
      Alternatives o ps parts ∧
      (nChoices parts ≤ 2 ^ 31 →
        (∀ idx xs, Picks parts idx xs → xs.flatten.length < 2 ^ 31) →
        ∃ ds, expandByEntities σ d none o = .ok ds ∧ ds.length = nChoices parts ∧
          ∀ idx xs, Picks parts idx xs →
            ds[rank parts idx]? = some ⟨xs.flatten, d.intents, placed 0 ps xs⟩) := by
  obtain ⟨ps, parts, h1, h2, h3, h4, h5, h6⟩ := C50_sampling σ d hd o
    (fun n => (List.range n).map (fun i : Nat => (i : Int)))
  refine ⟨ps, parts, h1, h2, h3, h4, fun hn hx => ?_⟩
  obtain ⟨ds, e1, e2, e3⟩ := h6 (by
    intro k hk
    simp only [List.mem_map, List.mem_range] at hk
    obtain ⟨i, hi, rfl⟩ := hk
    unfold IsInt32
    omega) hx
  refine ⟨ds, e1, by simpa using e2, fun idx xs hp => ?_⟩
  have hlt := rank_lt parts idx xs hp
  have hdl : rank parts idx < ds.length := by rw [e2]; simpa using hlt
  obtain ⟨idx', xs', m, hp', hk, hd'⟩ := e3 (rank parts idx) (rank parts idx) ds[rank parts idx]
    (by simp [hlt]) (List.getElem?_eq_getElem hdl)
  have hlt' := rank_lt parts idx' xs' hp'
  have hm : m = 0 := by
    rcases Int.lt_trichotomy m 0 with h | h | h
    · have : m * (nChoices parts : Int) ≤ (-1) * (nChoices parts : Int) :=
        Int.mul_le_mul_of_nonneg_right (by omega) (by omega)
      omega
    · exact h
    · have : 1 * (nChoices parts : Int) ≤ m * (nChoices parts : Int) :=
        Int.mul_le_mul_of_nonneg_right (by omega) (by omega)
      omega
  rw [hm] at hk
  have hxs := ((C48_bijection parts).2.2 idx idx' xs xs' hp hp' (by omega)).2
  rw [List.getElem?_eq_getElem hdl, hd', hxs]

/-- The number of texts that may stand for an entity. -/
theorem candidates_count {o : Bool} {e : Entity} {c : List Str} (hn : e.replacements.Nodup) (h : Candidates o e c) :
    c.length = if o || e.noReplacements then e.nReplacements else e.nReplacements - 1 := by
  by_cases hr : e.replacements = []
  · rw [h.1 hr]
    unfold Entity.noReplacements Entity.nReplacements
    rw [hr]
    simp
  · obtain ⟨l, rfl, hp, hm⟩ := h.2 hr
    have hl : l.length = e.replacements.length := by
      have hnl : l.Nodup := hp.imp fun {a b} hab heq => by
        subst heq
        clear hm hp
        induction a with
        | nil => cases hab
        | cons x a ih =>
          cases hab with
          | rel h => exact Nat.lt_irrefl _ h
          | cons h => exact ih h
      exact ((List.perm_ext_iff_of_nodup hnl hn).mpr hm).length_eq
    have hne : e.noReplacements = false := by
      unfold Entity.noReplacements
      simpa using hr
    rw [hne]
    unfold Entity.nReplacements
    cases o <;> simp [hl]

theorem mapM_length {α β : Type} (f : α → Res β) (l : List α) (r : List β) (h : l.mapM f = .ok r) : r.length = l.length := by
  induction l generalizing r with
  | nil => injection h with h; subst h; rfl
  | cons a l ih =>
    rw [List.mapM_cons] at h
    cases ha : f a with
    | error e => rw [ha] at h; cases h
    | ok b =>
      cases hl : l.mapM f with
      | error e => rw [ha, hl] at h; cases h
      | ok bs =>
        rw [ha, hl] at h
        injection h with h
        subst h
        simp [ih bs hl]

/-- C50: without a sampling method the number of results is the product of the numbers of texts that may stand for the
entities: `n_replacements` with `include_orig` or for an entity without replacements, one less otherwise. -/
theorem C50_count (σ : SetOrder) (d : Datum) (hd : IsDatum d) (hw : ∀ e ∈ d.entities, WithinUtterance d.utterance e)
    (hn : ∀ e ∈ d.entities, e.replacements.Nodup) (o : Bool) (ds : List Datum) (h : expandByEntities σ d none o = .ok ds) :
    ds.length = (d.entities.map fun e => if o || e.noReplacements then e.nReplacements else e.nReplacements - 1).foldr (· * ·) 1 := by
  unfold expandByEntities at h
  by_cases he : d.hasEntities = false
  · rw [if_pos he] at h
    injection h with h
    have : d.entities = [] := by
      unfold Datum.hasEntities at he
      simpa using he
    rw [← h, this]
    rfl
  · rw [if_neg he] at h
    dsimp only [Option.getD_none] at h
    rw [nChoices_eq_foldl] at h
    rw [mapM_length _ _ _ h, List.length_map, List.length_range]
    obtain ⟨ps, g1, h2, g2, h4, g3⟩ := partition_parts σ o hd hw
    clear g1 g2 g3
    rw [← h2] at hn ⊢
    generalize (partitionByEntities σ d o).1 = cs at h4
    clear h2 h he
    induction ps generalizing cs with
    | nil =>
      cases cs with
      | nil => rfl
      | cons c cs => exact absurd h4 (by simp [Alternatives])
    | cons p ps ih =>
      obtain ⟨t, x⟩ := p
      cases cs with
      | nil => cases x <;> exact absurd h4 (by simp [Alternatives])
      | cons c cs =>
        cases x with
        | none =>
          rw [nChoices, h4.1, ih (by simpa using hn) cs h4.2]
          simp
        | some e =>
          rw [nChoices, candidates_count (hn e (by simp)) h4.1,
            ih (fun e' he' => hn e' (by rw [List.filterMap_cons]; exact List.mem_cons_of_mem _ he')) cs h4.2]
          simp

/-- C50: entities made by the constructor have distinct replacements. -/
theorem C50_count_constructed (label : Int) (value : Str) (start stop : Int) (reps : Option (List Str)) (e : Entity)
    (h : Entity.new label value start stop reps = .ok e) :
    e.replacements.Nodup ∧ (e.noReplacements = true ↔ ∀ r, r ∉ reps.getD []) := by
  unfold Entity.new at h
  obtain ⟨_, _, h⟩ := bind_eq_ok h
  obtain ⟨_, _, h⟩ := bind_eq_ok h
  obtain ⟨_, _, h⟩ := bind_eq_ok h
  injection h with h
  subst h
  refine ⟨nodup_pyDedup _, ?_⟩
  unfold Entity.noReplacements
  simp only [beq_iff_eq, List.length_eq_zero_iff]
  rw [List.eq_nil_iff_forall_not_mem]
  simp only [mem_pyDedup]

theorem placed_original (ps : List Part) (off : Nat) (h : LaidOut off ps) :
    placed off ps (ps.map Prod.fst) = (ps.filterMap Prod.snd).map (fun e => { e with replacements := [] }) := by
  induction ps generalizing off with
  | nil => rfl
  | cons p ps ih =>
    obtain ⟨t, o⟩ := p
    obtain ⟨h1, h2⟩ := h
    cases o with
    | none => simpa [placed] using ih _ h2
    | some e =>
      obtain ⟨a, b, c⟩ := h1
      simp only [placed, List.map_cons, ih _ h2, List.filterMap_cons]
      rw [a, b, c]

theorem picks_original (ps : List Part) (parts : List (List Str)) (off : Nat) (hlay : LaidOut off ps)
    (h : Alternatives true ps parts) : ∃ idx, Picks parts idx (ps.map Prod.fst) := by
  induction ps generalizing parts off with
  | nil =>
    cases parts with
    | nil => exact ⟨[], trivial⟩
    | cons c cs => exact absurd h (by simp [Alternatives])
  | cons p ps ih =>
    obtain ⟨t, x⟩ := p
    obtain ⟨l1, l2⟩ := hlay
    cases parts with
    | nil => cases x <;> exact absurd h (by simp [Alternatives])
    | cons c cs =>
      cases x with
      | none =>
        obtain ⟨idx, hi⟩ := ih cs _ l2 h.2
        exact ⟨0 :: idx, by rw [h.1]; rfl, hi⟩
      | some e =>
        obtain ⟨idx, hi⟩ := ih cs _ l2 h.2
        have hm : t ∈ c := by
          rw [l1.2.2]
          by_cases hr : e.replacements = []
          · rw [h.1.1 hr]; simp
          · obtain ⟨l, hl, _⟩ := h.1.2 hr
            rw [hl]; simp
        obtain ⟨n, hn⟩ := List.mem_iff_getElem?.mp hm
        exact ⟨n :: idx, hn, hi⟩

/-- C50: with `include_orig` the original utterance with the same intents and entities (without their
replacements) is among the results. -/
theorem C50_original (σ : SetOrder) (d : Datum) (hd : Expandable d) :
    ∃ parts : List (List Str),
      (∃ ps, Alternatives true ps parts ∧ ps.filterMap Prod.snd = d.entities ∧ LaidOut 0 ps ∧
        (ps.map Prod.fst).flatten = d.utterance) ∧
      (nChoices parts ≤ 2 ^ 31 → (∀ idx xs, Picks parts idx xs → xs.flatten.length < 2 ^ 31) →
        ∃ ds, expandByEntities σ d none true = .ok ds ∧
          ⟨d.utterance, d.intents, d.entities.map (fun e => { e with replacements := [] })⟩ ∈ ds) := by
  obtain ⟨ps, parts, h1, h2, h3, h4, h5⟩ := C50_all σ d hd true
  refine ⟨parts, ⟨ps, h4, h2, h3, h1⟩, fun hn hx => ?_⟩
  obtain ⟨ds, e1, _, e3⟩ := h5 hn hx
  obtain ⟨idx, hp⟩ := picks_original ps parts 0 h3 h4
  refine ⟨ds, e1, ?_⟩
  have := e3 idx _ hp
  rw [placed_original ps 0 h3, h1, h2] at this
  exact List.mem_of_getElem? this

/-- C50: every result is a datum the constructor accepts, with the entity labels of the original in order. -/
theorem C50_valid (ps : List Part) (xs : List Str) (is : List Intent) (hlen : xs.length = ps.length) :
    (∃ d, Datum.new xs.flatten (some is) (some (placed 0 ps xs)) = .ok d ∧ d.entities = placed 0 ps xs) ∧
      (placed 0 ps xs).map (fun e => e.label) = (ps.filterMap Prod.snd).map (fun e => e.label) := by
  have hpw := placed_pairwise ps xs 0
  have hsort := pySorted_of_pairwise Entity.start (placed 0 ps xs) (hpw.imp (fun h => h.1))
  have hval := placed_values ps xs []
  simp only [List.nil_append, List.length_nil] at hval
  refine ⟨⟨_, datum_new_ok xs.flatten is _ hval
    (by rw [hsort]; exact pairwise_neighbours (hpw.imp (fun h => h.2))), hsort⟩, ?_⟩
  have key : ∀ (ps : List Part) (xs : List Str) (off : Nat), xs.length = ps.length →
      (placed off ps xs).map (fun e => e.label) = (ps.filterMap Prod.snd).map (fun e => e.label) := by
    intro ps
    induction ps with
    | nil => intro xs off _; cases xs <;> rfl
    | cons p ps ih =>
      intro xs off hl
      obtain ⟨t, o⟩ := p
      cases xs with
      | nil => simp at hl
      | cons x xs =>
        cases o with
        | none => simpa [placed] using ih xs _ (by simpa using hl)
        | some e => simp [placed, ih xs _ (by simpa using hl)]
  exact key ps xs 0 hlen

/-- C50: a datum without entities is returned as is. -/
theorem C50_no_entities (σ : SetOrder) (d : Datum) (sampling : Option (Nat → List Int)) (o : Bool)
    (h : d.entities = []) : expandByEntities σ d sampling o = .ok [d] := by
  unfold expandByEntities Datum.hasEntities
  rw [if_pos (by simp [h])]

example : expandByEntities SetOrder.id ⟨"I like b".toList, [⟨3⟩],
      [⟨7, "b".toList, 7, 8, ["z".toList, "cc".toList]⟩]⟩ none true =
    .ok [⟨"I like cc".toList, [⟨3⟩], [⟨7, "cc".toList, 7, 9, []⟩]⟩,
      ⟨"I like z".toList, [⟨3⟩], [⟨7, "z".toList, 7, 8, []⟩]⟩,
      ⟨"I like b".toList, [⟨3⟩], [⟨7, "b".toList, 7, 8, []⟩]⟩] := by decide

example : Expandable ⟨"I like b".toList, [⟨3⟩], [⟨7, "b".toList, 7, 8, ["z".toList, "cc".toList]⟩]⟩ := by
  refine ⟨isDatum_of_new (u := "I like b".toList) (is := [⟨3⟩])
    (es := [⟨7, "b".toList, 7, 8, ["z".toList, "cc".toList]⟩]) (by decide), ?_, ?_, ?_, by decide⟩
  · unfold WithinUtterance; decide
  · unfold IsInt32; decide
  · unfold IsInt32; decide

/-- Three texts for the entity above. -/
example : ([⟨7, "b".toList, 7, 8, ["z".toList, "cc".toList]⟩] : List Entity).map
    (fun e => if true || e.noReplacements then e.nReplacements else e.nReplacements - 1) = [3] := by decide

end Uttut
