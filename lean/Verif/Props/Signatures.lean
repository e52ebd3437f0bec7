import Verif.Spec.Signatures
import Verif.Props.Names
import Verif.Props.Serialize
import Verif.Props.Equality

/-!
C97: operators whose constructor has any signature.
-/

namespace Uttut

open Spec

/-! ### Python's binding -/

theorem key_mem {d : List (Str × PyVal)} {k : Str} {v : PyVal} (h : (k, v) ∈ d) : k ∈ d.map Prod.fst :=
  List.mem_map_of_mem (f := Prod.fst) h

/-- The plain class with the same parameters and defaults, to use what is known about them. -/
def InitSig.plain (g : InitSig) : OpClass where
  name := []
  inputType := .str
  outputType := .str
  params := g.params
  defaults := g.defaults
  ownInit := true
  init := fun _ => .error .typeError

theorem Spec.Writable.plain {g : InitSig} (h : Writable g) : Signature g.plain :=
  ⟨(List.nodup_append.mp h.nodup).1, h.defaults⟩

theorem known_iff (g : InitSig) (k : Str) : g.known k = true ↔ k ∈ g.params ∨ k ∈ g.kwOnly.map Prod.fst := by
  unfold InitSig.known
  rw [Bool.or_eq_true, List.contains_iff_mem, List.contains_iff_mem]

theorem notKnown_eq (g : InitSig) (k : Str) :
    (!g.known k) = decide (k ∉ g.params ∧ k ∉ g.kwOnly.map Prod.fst) := by
  rw [Bool.eq_iff_iff, decide_eq_true_iff, ← not_or, ← known_iff]
  cases g.known k <;> simp

theorem default_iff {g : InitSig} (h : Writable g) {i : Nat} {p : Str} (hp : g.params[i]? = some p) (v : PyVal) :
    dictGet (g.params.reverse.zip g.defaults.reverse) p = some v ↔ DefaultOf g i v := by
  have hi := (List.getElem?_eq_some_iff.mp hp).1
  have hnd := h.plain.nodup
  constructor
  · intro hd
    obtain ⟨j, hj1, hj2⟩ := dfltPairs_index h.plain (dictGet_mem _ _ _ hd)
    exact ⟨j, (List.getElem?_inj hi hnd).mp (hp.trans hj1.symm), hj2⟩
  · rintro ⟨j, hij, hj⟩
    have hjl := (List.getElem?_eq_some_iff.mp hj).1
    have hd := h.defaults
    refine dictGet_of_mem _ _ _ ?_ ?_
    · exact ((zip_fst_prefix g.params.reverse g.defaults.reverse).sublist).nodup
        ((List.reverse_perm g.params).nodup_iff.mpr hnd)
    · refine List.mem_of_getElem? (i := g.defaults.length - 1 - j) (List.getElem?_zip_eq_some.mpr ⟨?_, ?_⟩)
      · rw [List.getElem?_reverse (by omega), ← hp]
        congr 1
        omega
      · rw [List.getElem?_reverse (by omega), ← hj]
        congr 1
        omega

theorem bindParam_iff {g : InitSig} (h : Writable g) {kwargs : List (Str × PyVal)}
    (hk : (kwargs.map Prod.fst).Nodup) {i : Nat} {p : Str} (hp : g.params[i]? = some p) (v : PyVal) :
    g.bindParam kwargs p = .ok v ↔ (p, v) ∈ kwargs ∨ (p ∉ kwargs.map Prod.fst ∧ DefaultOf g i v) := by
  unfold InitSig.bindParam
  cases hg : dictGet kwargs p with
  | some w =>
    have hm := dictGet_mem _ _ _ hg
    constructor
    · intro e
      injection e with e
      exact .inl (e ▸ hm)
    · rintro (e | ⟨e, -⟩)
      · rw [dictGet_of_mem _ _ _ hk e] at hg
        injection hg with hg
        rw [hg]
      · exact absurd (List.mem_map_of_mem (f := Prod.fst) hm) e
  | none =>
    have hn := (dictGet_none _ _).mp hg
    rw [← default_iff h hp v]
    cases hd : dictGet (g.params.reverse.zip g.defaults.reverse) p with
    | none =>
      refine ⟨fun e => (by cases e), ?_⟩
      rintro (e | ⟨-, e⟩)
      · exact absurd (List.mem_map_of_mem (f := Prod.fst) e) hn
      · cases e
    | some w =>
      constructor
      · intro e
        injection e with e
        exact .inr ⟨hn, by rw [e]⟩
      · rintro (e | ⟨-, e⟩)
        · exact absurd (List.mem_map_of_mem (f := Prod.fst) e) hn
        · injection e with e
          rw [e]

theorem bindKwOnly_iff {kwargs : List (Str × PyVal)} (hk : (kwargs.map Prod.fst).Nodup) (p : Str × Option PyVal)
    (v : PyVal) : InitSig.bindKwOnly kwargs p = .ok v ↔
      (p.1, v) ∈ kwargs ∨ (p.1 ∉ kwargs.map Prod.fst ∧ p.2 = some v) := by
  unfold InitSig.bindKwOnly
  obtain ⟨k, d⟩ := p
  dsimp only
  cases hg : dictGet kwargs k with
  | some w =>
    have hm := dictGet_mem _ _ _ hg
    constructor
    · intro e
      injection e with e
      exact .inl (e ▸ hm)
    · rintro (e | ⟨e, -⟩)
      · rw [dictGet_of_mem _ _ _ hk e] at hg
        injection hg with hg
        rw [hg]
      · exact absurd (List.mem_map_of_mem (f := Prod.fst) hm) e
  | none =>
    have hn := (dictGet_none _ _).mp hg
    cases d with
    | none =>
      refine ⟨fun e => (by cases e), ?_⟩
      rintro (e | ⟨-, e⟩)
      · exact absurd (List.mem_map_of_mem (f := Prod.fst) e) hn
      · cases e
    | some w =>
      constructor
      · intro e
        injection e with e
        exact .inr ⟨hn, by rw [e]⟩
      · rintro (e | ⟨-, e⟩)
        · exact absurd (List.mem_map_of_mem (f := Prod.fst) e) hn
        · injection e with e
          rw [e]

theorem mapM_error_mem {α β : Type} (f : α → Res β) (l : List α) (e : Exc) (h : l.mapM f = .error e) :
    ∃ a ∈ l, f a = .error e := by
  induction l with
  | nil => cases h
  | cons a l ih =>
    rw [List.mapM_cons] at h
    cases h1 : f a with
    | error x =>
      rw [h1] at h
      injection h with h
      exact ⟨a, List.mem_cons_self .., by rw [h1, h]⟩
    | ok y =>
      rw [h1] at h
      cases h2 : l.mapM f with
      | error x =>
        rw [h2] at h
        injection h with h
        obtain ⟨b, hb, e2⟩ := ih (by rw [h2, h])
        exact ⟨b, List.mem_cons_of_mem _ hb, e2⟩
      | ok ys => rw [h2] at h; cases h

theorem mem_take_iff {l : List Str} {n : Nat} {p : Str} :
    p ∈ l.take n ↔ ∃ i, l[i]? = some p ∧ i < n := by
  rw [List.mem_iff_getElem?]
  constructor
  · rintro ⟨i, hi⟩
    rw [List.getElem?_take] at hi
    split at hi
    · next h => exact ⟨i, hi, h⟩
    · cases hi
  · rintro ⟨i, hi, hn⟩
    exact ⟨i, by rw [List.getElem?_take, if_pos hn]; exact hi⟩

theorem bind_ok_iff (g : InitSig) (args : List PyVal) (kwargs : List (Str × PyVal)) (b : InitArgs) :
    g.bind args kwargs = .ok b ↔
      "self".toList ∉ kwargs.map Prod.fst ∧ (g.varArgs = true ∨ args.length ≤ g.params.length) ∧
      (∀ k ∈ kwargs.map Prod.fst, k ∉ g.params.take args.length) ∧
      (g.varKw = true ∨ ∀ k ∈ kwargs.map Prod.fst, g.known k = true) ∧
      ∃ filled only, (g.params.drop args.length).mapM (g.bindParam kwargs) = .ok filled ∧
        g.kwOnly.mapM (InitSig.bindKwOnly kwargs) = .ok only ∧
        b = ⟨args.take g.params.length ++ filled, args.drop g.params.length, only,
             kwargs.filter fun kv => !g.known kv.1⟩ := by
  unfold InitSig.bind
  by_cases h1 : kwargs.any (fun kv => kv.1 == "self".toList) = true
  · rw [if_pos h1]
    refine ⟨fun e => (by cases e), fun ⟨h, _⟩ => ?_⟩
    obtain ⟨kv, hm, e⟩ := List.any_eq_true.mp h1
    exact absurd (List.mem_map.mpr ⟨kv, hm, eq_of_beq e⟩) h
  rw [if_neg h1]
  have h1' : "self".toList ∉ kwargs.map Prod.fst := by
    intro h
    obtain ⟨kv, hm, e⟩ := List.mem_map.mp h
    exact h1 (List.any_eq_true.mpr ⟨kv, hm, beq_iff_eq.mpr e⟩)
  by_cases h2 : (!g.varArgs && decide (args.length > g.params.length)) = true
  · rw [if_pos h2]
    rw [Bool.and_eq_true, Bool.not_eq_true', decide_eq_true_iff] at h2
    refine ⟨fun e => (by cases e), fun ⟨_, h, _⟩ => ?_⟩
    rcases h with h | h
    · rw [h2.1] at h; cases h
    · omega
  rw [if_neg h2]
  have h2' : g.varArgs = true ∨ args.length ≤ g.params.length := by
    rw [Bool.and_eq_true, Bool.not_eq_true', decide_eq_true_iff, not_and_or] at h2
    rcases h2 with h | h
    · left; simpa using h
    · right; omega
  by_cases h3 : kwargs.any (fun kv => (g.params.take args.length).contains kv.1) = true
  · rw [if_pos h3]
    refine ⟨fun e => (by cases e), fun ⟨_, _, h, _⟩ => ?_⟩
    obtain ⟨kv, hm, e⟩ := List.any_eq_true.mp h3
    exact absurd (List.contains_iff_mem.mp e) (h _ (List.mem_map_of_mem (f := Prod.fst) hm))
  rw [if_neg h3]
  have h3' : ∀ k ∈ kwargs.map Prod.fst, k ∉ g.params.take args.length := by
    intro k hk e
    obtain ⟨kv, hm, rfl⟩ := List.mem_map.mp hk
    exact h3 (List.any_eq_true.mpr ⟨kv, hm, List.contains_iff_mem.mpr e⟩)
  by_cases h4 : (!g.varKw && kwargs.any (fun kv => !g.known kv.1)) = true
  · rw [if_pos h4]
    rw [Bool.and_eq_true, Bool.not_eq_true'] at h4
    refine ⟨fun e => (by cases e), fun ⟨_, _, _, h, _⟩ => ?_⟩
    rcases h with h | h
    · rw [h4.1] at h; cases h
    · obtain ⟨kv, hm, e⟩ := List.any_eq_true.mp h4.2
      rw [h _ (List.mem_map_of_mem (f := Prod.fst) hm)] at e
      cases e
  rw [if_neg h4]
  have h4' : g.varKw = true ∨ ∀ k ∈ kwargs.map Prod.fst, g.known k = true := by
    rw [Bool.and_eq_true, Bool.not_eq_true', not_and_or] at h4
    rcases h4 with h | h
    · left; simpa using h
    · right
      intro k hk
      obtain ⟨kv, hm, rfl⟩ := List.mem_map.mp hk
      rw [Bool.not_eq_true, List.any_eq_false] at h
      simpa using h kv hm
  constructor
  · intro e
    refine ⟨h1', h2', h3', h4', ?_⟩
    obtain ⟨filled, e1, e⟩ := bind_eq_ok e
    obtain ⟨only, e2, e⟩ := bind_eq_ok e
    injection e with e
    exact ⟨filled, only, e1, e2, e.symm⟩
  · rintro ⟨-, -, -, -, filled, only, e1, e2, rfl⟩
    rw [e1, e2]
    rfl

theorem bind_error {g : InitSig} {args : List PyVal} {kwargs : List (Str × PyVal)} {e : Exc}
    (he : g.bind args kwargs = .error e) : e = .typeError := by
  unfold InitSig.bind at he
  have hp : ∀ (l : List Str) e, l.mapM (g.bindParam kwargs) = .error e → e = .typeError := by
    intro l e h
    obtain ⟨p, -, h⟩ := mapM_error_mem _ _ _ h
    unfold InitSig.bindParam at h
    split at h
    · cases h
    · split at h
      · cases h
      · injection h with h; exact h.symm
  have hko : ∀ (l : List (Str × Option PyVal)) e, l.mapM (InitSig.bindKwOnly kwargs) = .error e → e = .typeError := by
    intro l e h
    obtain ⟨p, -, h⟩ := mapM_error_mem _ _ _ h
    unfold InitSig.bindKwOnly at h
    split at h
    · cases h
    · split at h
      · cases h
      · injection h with h; exact h.symm
  split at he
  · injection he with he; exact he.symm
  split at he
  · injection he with he; exact he.symm
  split at he
  · injection he with he; exact he.symm
  split at he
  · injection he with he; exact he.symm
  cases e1 : (g.params.drop args.length).mapM (g.bindParam kwargs) with
  | error x => rw [e1] at he; injection he with he; rw [← he]; exact hp _ _ e1
  | ok filled =>
    rw [e1] at he
    cases e2 : g.kwOnly.mapM (InitSig.bindKwOnly kwargs) with
    | error x => rw [e2] at he; injection he with he; rw [← he]; exact hko _ _ e2
    | ok only => rw [e2] at he; cases he

theorem extra_nil_iff (g : InitSig) (kwargs : List (Str × PyVal)) :
    (kwargs.filter fun kv => !g.known kv.1) = [] ↔ ∀ k ∈ kwargs.map Prod.fst, g.known k = true := by
  rw [List.filter_eq_nil_iff]
  constructor
  · intro h k hk
    obtain ⟨kv, hm, rfl⟩ := List.mem_map.mp hk
    simpa using h kv hm
  · intro h kv hm
    rw [h _ (List.mem_map_of_mem (f := Prod.fst) hm)]
    decide

/-- C97: what the body of the constructor gets: every argument lands where Python's rules for calls put it, and the
call raises TypeError exactly if the rules leave no place for an argument or no value for a parameter. -/
theorem C97_gets (g : InitSig) (hg : Writable g) (args : List PyVal) (kwargs : List (Str × PyVal))
    (hk : (kwargs.map Prod.fst).Nodup) :
    (∀ b, g.bind args kwargs = .ok b ↔ Gets g args kwargs b) ∧
    (∀ e, g.bind args kwargs = .error e → e = .typeError) := by
  constructor
  · intro b
    rw [bind_ok_iff]
    have hext : (kwargs.filter fun kv => !g.known kv.1) =
        kwargs.filter fun kv => decide (kv.1 ∉ g.params ∧ kv.1 ∉ g.kwOnly.map Prod.fst) :=
      List.filter_congr fun kv _ => notKnown_eq g kv.1
    constructor
    · rintro ⟨h1, h2, h3, h4, filled, only, e1, e2, rfl⟩
      have hf := (mapM_ok_iff _ _ _).mp e1
      have hfl := hf.length_eq
      rw [List.length_drop] at hfl
      refine ⟨h1, ?_, ?_, ?_, ?_, ?_, ?_, rfl, hext⟩
      · intro i p hp hi hkp
        exact h3 p hkp (mem_take_iff.mpr ⟨i, hp, hi⟩)
      · exact h4.imp id fun h => (extra_nil_iff g kwargs).mpr h
      · exact h2.imp id fun h => List.drop_eq_nil_iff.mpr h
      · show (args.take g.params.length ++ filled).length = _
        rw [List.length_append, List.length_take]
        omega
      · intro i p v hp hv
        have hi := (List.getElem?_eq_some_iff.mp hp).1
        have hv : (args.take g.params.length ++ filled)[i]? = some v := hv
        by_cases hlt : i < args.length
        · left
          rw [List.getElem?_append_left (by rw [List.length_take]; omega), List.getElem?_take, if_pos hi] at hv
          exact hv
        · right
          rw [List.getElem?_append_right (by rw [List.length_take]; omega)] at hv
          have hj : i - (args.take g.params.length).length = i - args.length := by rw [List.length_take]; omega
          rw [hj] at hv
          have hp' : (g.params.drop args.length)[i - args.length]? = some p := by
            rw [List.getElem?_drop, show args.length + (i - args.length) = i by omega]
            exact hp
          have := (mapM_ok_getElem? _ _ _ e1 (i - args.length)).1 p hp'
          obtain ⟨w, hw, hb⟩ := this
          rw [hv] at hw
          injection hw with hw
          subst hw
          rcases (bindParam_iff hg hk hp v).mp hb with h | ⟨h, h'⟩
          · exact .inl ⟨by omega, h⟩
          · exact .inr ⟨by omega, h, h'⟩
      · exact ((mapM_ok_iff _ _ _).mp e2).imp fun p v h => (bindKwOnly_iff hk p v).mp h
    · intro h
      have hpl : g.varArgs = true ∨ args.length ≤ g.params.length :=
        h.places.imp id fun e => List.drop_eq_nil_iff.mp (h.surplus ▸ e)
      refine ⟨h.self, hpl, ?_, ?_, b.values.drop args.length, b.kwOnly, ?_, ?_, ?_⟩
      · intro k hkk hkt
        obtain ⟨i, hi, hl⟩ := mem_take_iff.mp hkt
        exact h.once i k hi hl hkk
      · refine h.names.imp id fun e => (extra_nil_iff g kwargs).mp ?_
        rw [hext, ← h.extra]
        exact e
      · rw [mapM_ok_iff, List.forall₂_iff_get]
        refine ⟨by rw [List.length_drop, List.length_drop, h.length], ?_⟩
        intro i hi1 hi2
        have hi1' : args.length + i < g.params.length := by rw [List.length_drop] at hi1; omega
        rw [List.get_eq_getElem, List.get_eq_getElem, List.getElem_drop, List.getElem_drop]
        have hp : g.params[args.length + i]? = some g.params[args.length + i] := List.getElem?_eq_getElem hi1'
        have hv : b.values[args.length + i]? = some (b.values[args.length + i]'(by rw [h.length]; exact hi1')) :=
          List.getElem?_eq_getElem _
        rw [bindParam_iff hg hk hp]
        rcases h.values _ _ _ hp hv with e | ⟨-, e⟩ | ⟨-, e, e'⟩
        · have := (List.getElem?_eq_some_iff.mp e).1
          omega
        · exact .inl e
        · exact .inr ⟨e, e'⟩
      · rw [mapM_ok_iff]
        exact h.kwOnly.imp fun p v e => (bindKwOnly_iff hk p v).mpr e
      · obtain ⟨vs, su, ko, ex⟩ := b
        have hex : ex = kwargs.filter fun kv => !g.known kv.1 := by rw [hext]; exact h.extra
        have hsu : su = args.drop g.params.length := h.surplus
        have hvs : vs = args.take g.params.length ++ vs.drop args.length := by
          have hlen : vs.length = g.params.length := h.length
          refine List.ext_getElem? fun i => ?_
          by_cases hi : i < g.params.length
          · by_cases hlt : i < args.length
            · rw [List.getElem?_append_left (by rw [List.length_take]; omega), List.getElem?_take, if_pos hi]
              have hp : g.params[i]? = some g.params[i] := List.getElem?_eq_getElem hi
              have hv : vs[i]? = some (vs[i]'(by omega)) := List.getElem?_eq_getElem _
              rcases h.values i _ _ hp hv with e | ⟨e, -⟩ | ⟨e, -⟩
              · rw [hv, e]
              · omega
              · omega
            · rw [List.getElem?_append_right (by rw [List.length_take]; omega), List.getElem?_drop, List.length_take]
              congr 1
              omega
          · rw [List.getElem?_eq_none (by omega), List.getElem?_eq_none]
            rw [List.length_append, List.length_take, List.length_drop]
            omega
        rw [hex, hsu]
        show InitArgs.mk vs _ _ _ = InitArgs.mk _ _ _ _
        congr 1
  · exact fun e he => bind_error he

/-- A constructor for the examples: `__init__(self, size, fill=0, *words, mode="left", **options)`. -/
def exSig : InitSig where
  params := ["size".toList, "fill".toList]
  defaults := [.int 0]
  varArgs := true
  kwOnly := [("mode".toList, some (.str "left".toList))]
  varKw := true

theorem exSig_writable : Writable exSig := ⟨by decide, by decide, by decide⟩

example : Gets exSig [.int 3, .int 7, .str "a".toList] [("depth".toList, .int 2)]
    ⟨[.int 3, .int 7], [.str "a".toList], [.str "left".toList], [("depth".toList, .int 2)]⟩ :=
  ((C97_gets exSig exSig_writable _ _ (by decide)).1 _).mp rfl
example : exSig.bind [.int 3] [("size".toList, .int 4)] = .error .typeError := rfl

/-! ### What is noted down -/

/-- The captured configs of a successful call, spelled out. -/
theorem sigCapture_eq {c : SigClass} (hg : Writable c.sig) (ho : c.ownInit = true) {args : List PyVal}
    {kwargs : List (Str × PyVal)} (hk : (kwargs.map Prod.fst).Nodup) {b : InitArgs}
    (h : Gets c.sig args kwargs b) :
    c.capture args kwargs = (c.sig.params.zip args ++ kwargs) ++
        c.sig.plain.dfltPairs.filter (fun kv => (dictGet (c.sig.params.zip args ++ kwargs) kv.1).isNone) ∧
      ((c.capture args kwargs).map Prod.fst).Nodup := by
  have hnd := hg.plain.nodup
  have hzip : ∀ p ∈ (c.sig.params.zip args).map Prod.fst, ∃ i, c.sig.params[i]? = some p ∧ i < args.length := by
    intro p hp
    obtain ⟨kv, hm, rfl⟩ := List.mem_map.mp hp
    obtain ⟨i, hi⟩ := List.getElem?_of_mem hm
    rw [List.getElem?_zip_eq_some] at hi
    exact ⟨i, hi.1, (List.getElem?_eq_some_iff.mp hi.2).1⟩
  have n0 : ((c.sig.params.zip args).map Prod.fst).Nodup := (zip_fst_prefix c.sig.params args).sublist.nodup hnd
  have n1 : ((c.sig.params.zip args ++ kwargs).map Prod.fst).Nodup := by
    rw [List.map_append, List.nodup_append]
    refine ⟨n0, hk, ?_⟩
    rintro a ha _ hb rfl
    obtain ⟨i, hi, hl⟩ := hzip a ha
    exact h.once i a hi hl hb
  have e0 : dictUpdate [] (c.sig.params.zip args) = c.sig.params.zip args := by
    rw [dictUpdate_nodup]
    · rfl
    · rw [List.nil_append]; exact n0
  have e1 : dictUpdate (c.sig.params.zip args) kwargs = c.sig.params.zip args ++ kwargs := dictUpdate_nodup _ _ n1
  have n2 : (((c.sig.params.zip args ++ kwargs) ++
      c.sig.plain.dfltPairs.filter (fun kv => (dictGet (c.sig.params.zip args ++ kwargs) kv.1).isNone)).map
        Prod.fst).Nodup := by
    rw [List.map_append, List.nodup_append]
    refine ⟨n1, ?_, ?_⟩
    · refine (List.filter_sublist.map _).nodup ?_
      exact ((zip_fst_prefix c.sig.params.reverse c.sig.defaults.reverse).sublist).nodup
        ((List.reverse_perm c.sig.params).nodup_iff.mpr hnd)
    · intro a ha b hb
      obtain ⟨kv, hkv, rfl⟩ := List.mem_map.mp hb
      have := (List.mem_filter.mp hkv).2
      rw [Option.isNone_iff_eq_none, dictGet_none] at this
      rintro rfl
      exact this ha
  have e2 : c.capture args kwargs = (c.sig.params.zip args ++ kwargs) ++
        c.sig.plain.dfltPairs.filter (fun kv => (dictGet (c.sig.params.zip args ++ kwargs) kv.1).isNone) := by
    unfold SigClass.capture SigClass.argspec
    rw [if_pos ho]
    dsimp only
    rw [e0, e1]
    by_cases hd : c.sig.defaults.isEmpty = true
    · rw [if_pos hd]
      have : c.sig.defaults = [] := by simpa using hd
      unfold OpClass.dfltPairs InitSig.plain
      dsimp only
      rw [this]
      simp
    · rw [if_neg hd, zip_append_short _ _ _ (by simpa using hg.defaults)]
      exact dictUpdate_nodup _ _ n2
  rw [e2]
  exact ⟨rfl, n2⟩

/-- What the configs hold, for a call whose arguments the constructor gets as `b`. -/
theorem sigCapture_mem {c : SigClass} (hg : Writable c.sig) (ho : c.ownInit = true) {args : List PyVal}
    {kwargs : List (Str × PyVal)} (hk : (kwargs.map Prod.fst).Nodup) {b : InitArgs}
    (h : Gets c.sig args kwargs b) (k : Str) (v : PyVal) :
    (k, v) ∈ c.capture args kwargs ↔ (∃ i : Nat, c.sig.params[i]? = some k ∧ b.values[i]? = some v) ∨
      (k ∉ c.sig.params ∧ (k, v) ∈ kwargs) := by
  obtain ⟨hcap, -⟩ := sigCapture_eq hg ho hk h
  have hnd := hg.plain.nodup
  have hval : ∀ {i : Nat}, c.sig.params[i]? = some k → ∃ w, b.values[i]? = some w := by
    intro i hi
    have := (List.getElem?_eq_some_iff.mp hi).1
    exact ⟨_, List.getElem?_eq_getElem (by rw [h.length]; exact this)⟩
  rw [hcap, List.mem_append, List.mem_append]
  constructor
  · rintro ((hm | hm) | hm)
    · obtain ⟨i, hi⟩ := List.getElem?_of_mem hm
      rw [List.getElem?_zip_eq_some] at hi
      dsimp only at hi
      obtain ⟨w, hw⟩ := hval hi.1
      have hl := (List.getElem?_eq_some_iff.mp hi.2).1
      refine .inl ⟨i, hi.1, ?_⟩
      rcases h.values i k w hi.1 hw with e | ⟨e, -⟩ | ⟨e, -⟩
      · rw [hw, ← e, hi.2]
      · omega
      · omega
    · by_cases hp : k ∈ c.sig.params
      · obtain ⟨i, hi⟩ := List.getElem?_of_mem hp
        obtain ⟨w, hw⟩ := hval hi
        refine .inl ⟨i, hi, ?_⟩
        have hkk : k ∈ kwargs.map Prod.fst := List.mem_map_of_mem (f := Prod.fst) hm
        rcases h.values i k w hi hw with e | ⟨-, e⟩ | ⟨-, e, -⟩
        · exact absurd hkk (h.once i k hi (List.getElem?_eq_some_iff.mp e).1)
        · have e1 := dictGet_of_mem _ _ _ hk e
          rw [dictGet_of_mem _ _ _ hk hm] at e1
          rw [hw, e1]
        · exact absurd hkk e
      · exact .inr ⟨hp, hm⟩
    · obtain ⟨hd, hf⟩ := List.mem_filter.mp hm
      rw [Option.isNone_iff_eq_none, dictGet_none, List.map_append, List.mem_append, not_or] at hf
      obtain ⟨j, hj1, hj2⟩ := dfltPairs_index hg.plain hd
      have hj1 : c.sig.params[c.sig.params.length - c.sig.defaults.length + j]? = some k := hj1
      have hj2 : c.sig.defaults[j]? = some v := hj2
      obtain ⟨w, hw⟩ := hval hj1
      refine .inl ⟨_, hj1, ?_⟩
      rcases h.values _ k w hj1 hw with e | ⟨-, e⟩ | ⟨-, -, j', e1, e2⟩
      · refine absurd ?_ hf.1
        refine List.mem_map.mpr ⟨(k, w), ?_, rfl⟩
        exact List.mem_of_getElem? (List.getElem?_zip_eq_some.mpr ⟨hj1, e⟩)
      · exact absurd (List.mem_map_of_mem (f := Prod.fst) e) hf.2
      · have : j' = j := by omega
        rw [this, hj2] at e2
        rw [hw, e2]
  · rintro (⟨i, hi, hv⟩ | ⟨-, hm⟩)
    · rcases h.values i k v hi hv with e | ⟨-, e⟩ | ⟨hl, e, e'⟩
      · exact .inl (.inl (List.mem_of_getElem? (List.getElem?_zip_eq_some.mpr ⟨hi, e⟩)))
      · exact .inl (.inr e)
      · refine .inr (List.mem_filter.mpr ⟨dictGet_mem _ _ _ ((default_iff hg hi v).mpr e'), ?_⟩)
        rw [Option.isNone_iff_eq_none, dictGet_none, List.map_append, List.mem_append]
        rintro (h1 | h1)
        · obtain ⟨⟨a, w⟩, hm, rfl⟩ := List.mem_map.mp h1
          obtain ⟨i', hi'⟩ := List.getElem?_of_mem hm
          rw [List.getElem?_zip_eq_some] at hi'
          have hl' := (List.getElem?_eq_some_iff.mp hi'.2).1
          have : i = i' := (List.getElem?_inj (List.getElem?_eq_some_iff.mp hi).1 hnd).mp (hi.trans hi'.1.symm)
          omega
        · exact e h1
    · exact .inl (.inr hm)

theorem sigCall_ok {c : SigClass} {args : List PyVal} {kwargs : List (Str × PyVal)} {op : SigOp}
    (h : c.call args kwargs = .ok op) : ∃ b run, c.sig.bind args kwargs = .ok b ∧ c.init b = .ok run ∧
      op = ⟨c, c.capture args kwargs, run⟩ := by
  unfold SigClass.call at h
  obtain ⟨b, h1, h⟩ := bind_eq_ok h
  obtain ⟨run, h2, h⟩ := bind_eq_ok h
  injection h with h
  exact ⟨b, run, h1, h2, h.symm⟩

/-- C97: `configs` of an operator holds the value of every parameter of the constructor, and those keyword arguments
of the call that name no such parameter (so keyword-only parameters as far as they were given, and what went into
`**kwargs`), and nothing else: no surplus positional argument and no default of a keyword-only parameter. -/
theorem C97_configs (c : SigClass) (hg : Writable c.sig) (ho : c.ownInit = true) (args : List PyVal)
    (kwargs : List (Str × PyVal)) (hk : (kwargs.map Prod.fst).Nodup) (op : SigOp)
    (h : c.call args kwargs = .ok op) :
    ∃ b, Gets c.sig args kwargs b ∧ c.init b = .ok op.run ∧ op.cls = c ∧ (op.configs.map Prod.fst).Nodup ∧
      ∀ k v, (k, v) ∈ op.configs ↔ (∃ i : Nat, c.sig.params[i]? = some k ∧ b.values[i]? = some v) ∨
        (k ∉ c.sig.params ∧ (k, v) ∈ kwargs) := by
  obtain ⟨b, run, h1, h2, rfl⟩ := sigCall_ok h
  have hb := ((C97_gets c.sig hg args kwargs hk).1 b).mp h1
  exact ⟨b, hb, h2, rfl, (sigCapture_eq hg ho hk hb).2, sigCapture_mem hg ho hk hb⟩

/-- A class for the examples: the number of surplus words is what its operators return. -/
def exSigClass : SigClass where
  name := "Counting".toList
  inputType := .str
  outputType := .list
  sig := exSig
  ownInit := true
  init := fun b => .ok fun s => .ok (.list (b.surplus.map fun _ => .str []), Aligner.null s.length b.surplus.length)

example : ∃ op, exSigClass.call [.int 3, .int 7, .str "a".toList] [("depth".toList, .int 2)] = .ok op ∧
    op.configs = [("size".toList, .int 3), ("fill".toList, .int 7), ("depth".toList, .int 2)] := ⟨_, rfl, rfl⟩

/-! ### Saved and loaded -/

theorem forall₂_imp_mem {α β : Type} {R S : α → β → Prop} : ∀ {l : List α} {r : List β}, List.Forall₂ R l r →
    (∀ a ∈ l, ∀ b, R a b → S a b) → List.Forall₂ S l r
  | _, _, .nil, _ => .nil
  | _, _, .cons h t, f => .cons (f _ (List.mem_cons_self ..) _ h)
      (forall₂_imp_mem t fun a ha => f a (List.mem_cons_of_mem _ ha))

/-- Called with the configs, the constructor gets what it got before, without the surplus positional arguments; and
the same configs are noted down. -/
theorem recall_gets {c : SigClass} (hg : Writable c.sig) (ho : c.ownInit = true) {args : List PyVal}
    {kwargs : List (Str × PyVal)} (hk : (kwargs.map Prod.fst).Nodup) {b : InitArgs}
    (h : Gets c.sig args kwargs b) :
    Gets c.sig [] (c.capture args kwargs) { b with surplus := [] } ∧
      c.capture [] (c.capture args kwargs) = c.capture args kwargs := by
  obtain ⟨hcap, hnd⟩ := sigCapture_eq hg ho hk h
  have hmem := sigCapture_mem hg ho hk h
  have hkeys : ∀ k ∈ (c.capture args kwargs).map Prod.fst, k ∈ c.sig.params ∨ k ∈ kwargs.map Prod.fst := by
    intro k hkk
    obtain ⟨⟨k', v⟩, hm, rfl⟩ := List.mem_map.mp hkk
    rcases (hmem k' v).mp hm with ⟨i, hi, -⟩ | ⟨-, hm'⟩
    · exact .inl (List.mem_of_getElem? hi)
    · exact .inr (List.mem_map_of_mem (f := Prod.fst) hm')
  have hap := List.nodup_append.mp hg.nodup
  have hgets : Gets c.sig [] (c.capture args kwargs) { b with surplus := [] } := by
    refine ⟨?_, fun i p _ hi => absurd hi (Nat.not_lt_zero _), h.names, .inr rfl, h.length, ?_, ?_, ?_, ?_⟩
    · intro hs
      rcases hkeys _ hs with e | e
      · exact hg.self (List.mem_append_left _ e)
      · exact h.self e
    · intro i p v hp hv
      exact .inr (.inl ⟨Nat.zero_le _, (hmem p v).mpr (.inl ⟨i, hp, hv⟩)⟩)
    · refine forall₂_imp_mem h.kwOnly fun p hp v hv => ?_
      have hpk : p.1 ∉ c.sig.params := fun e => hap.2.2 _ e _ (List.mem_map_of_mem (f := Prod.fst) hp) rfl
      rcases hv with e | ⟨e, e'⟩
      · exact .inl ((hmem p.1 v).mpr (.inr ⟨hpk, e⟩))
      · refine .inr ⟨fun hc => ?_, e'⟩
        rcases hkeys _ hc with e1 | e1
        · exact hpk e1
        · exact e e1
    · exact List.drop_nil.symm
    · show b.extra = _
      rw [h.extra, hcap, List.filter_append, List.filter_append]
      have f1 : ((c.sig.params.zip args).filter fun kv =>
          decide (kv.1 ∉ c.sig.params ∧ kv.1 ∉ c.sig.kwOnly.map Prod.fst)) = [] := by
        rw [List.filter_eq_nil_iff]
        intro kv hm hd
        exact (of_decide_eq_true hd).1 ((zip_fst_prefix c.sig.params args).subset
          (List.mem_map_of_mem (f := Prod.fst) hm))
      have f2 : ((c.sig.plain.dfltPairs.filter
            (fun kv => (dictGet (c.sig.params.zip args ++ kwargs) kv.1).isNone)).filter fun kv =>
          decide (kv.1 ∉ c.sig.params ∧ kv.1 ∉ c.sig.kwOnly.map Prod.fst)) = [] := by
        rw [List.filter_eq_nil_iff]
        intro kv hm hd
        obtain ⟨j, hj, -⟩ := dfltPairs_index hg.plain (p := kv.1) (v := kv.2) (List.mem_filter.mp hm).1
        exact (of_decide_eq_true hd).1 (List.mem_of_getElem? hj)
      rw [f1, f2, List.nil_append, List.append_nil]
  refine ⟨hgets, ?_⟩
  obtain ⟨hcap2, -⟩ := sigCapture_eq hg ho hnd hgets
  rw [hcap2]
  have hfil : c.sig.plain.dfltPairs.filter
      (fun kv => (dictGet (c.sig.params.zip [] ++ c.capture args kwargs) kv.1).isNone) = [] := by
    rw [List.filter_eq_nil_iff]
    intro kv hm hd
    obtain ⟨j, hj, -⟩ := dfltPairs_index hg.plain (p := kv.1) (v := kv.2) hm
    have hj : c.sig.params[c.sig.params.length - c.sig.defaults.length + j]? = some kv.1 := hj
    have hlt := (List.getElem?_eq_some_iff.mp hj).1
    rw [Option.isNone_iff_eq_none, dictGet_none, List.zip_nil_right, List.nil_append] at hd
    refine hd (List.mem_map.mpr ⟨(kv.1, b.values[c.sig.params.length - c.sig.defaults.length + j]'(by
      rw [h.length]; exact hlt)), ?_, rfl⟩)
    exact (hmem _ _).mpr (.inl ⟨_, hj, List.getElem?_eq_getElem _⟩)
  rw [hfil, List.zip_nil_right, List.nil_append, List.append_nil]

/-- C97: an operator that is saved and loaded runs its constructor again on everything it got the first time except
the surplus positional arguments (`*args`), which are gone; name and configs are the same, so the loaded operator
counts as equal. -/
theorem C97_reload (c : SigClass) (hg : Writable c.sig) (ho : c.ownInit = true) (args : List PyVal)
    (kwargs : List (Str × PyVal)) (hk : (kwargs.map Prod.fst).Nodup) (op : SigOp)
    (h : c.call args kwargs = .ok op) :
    ∃ b, Gets c.sig args kwargs b ∧ c.init b = .ok op.run ∧
      (∀ e, c.init { b with surplus := [] } = .error e → op.reload = .error e) ∧
      (∀ run, c.init { b with surplus := [] } = .ok run → op.reload = .ok { op with run := run }) := by
  obtain ⟨b, run, h1, h2, rfl⟩ := sigCall_ok h
  have hb := ((C97_gets c.sig hg args kwargs hk).1 b).mp h1
  obtain ⟨hr, hc⟩ := recall_gets hg ho hk hb
  have hbind := ((C97_gets c.sig hg [] _ (sigCapture_eq hg ho hk hb).2).1 _).mpr hr
  refine ⟨b, hb, h2, ?_, ?_⟩
  · intro e he
    show SigClass.call c [] (c.capture args kwargs) = _
    unfold SigClass.call
    rw [hbind]
    simp only [Except.bind_ok]
    rw [he]
    rfl
  · intro run' hrun
    show SigClass.call c [] (c.capture args kwargs) = _
    unfold SigClass.call
    rw [hbind]
    simp only [Except.bind_ok]
    rw [hrun]
    simp only [Except.bind_ok]
    rw [hc]
    rfl

/-- C97: without surplus positional arguments an operator survives saving and loading, whatever the signature of its
constructor. -/
theorem C97_kept (c : SigClass) (hg : Writable c.sig) (ho : c.ownInit = true) (args : List PyVal)
    (kwargs : List (Str × PyVal)) (hk : (kwargs.map Prod.fst).Nodup) (op : SigOp)
    (h : c.call args kwargs = .ok op) (hl : c.sig.varArgs = false ∨ args.length ≤ c.sig.params.length) :
    op.reload = .ok op := by
  obtain ⟨b, hb, h1, -, h2⟩ := C97_reload c hg ho args kwargs hk op h
  have hs : b.surplus = [] := by
    rcases hl with hl | hl
    · rcases hb.places with e | e
      · rw [hl] at e; cases e
      · exact e
    · rw [hb.surplus]
      exact List.drop_eq_nil_iff.mpr hl
  have : ({ b with surplus := [] } : InitArgs) = b := by rw [← hs]
  rw [h2 op.run (by rw [this]; exact h1)]

example : ∀ op, exSigClass.call [.int 3] [("depth".toList, .int 2), ("mode".toList, .str "right".toList)] = .ok op →
    op.reload = .ok op :=
  fun op h => C97_kept exSigClass exSig_writable rfl _ _ (by decide) op h (.inr (by decide))

/-- C97: surplus positional arguments are neither saved nor compared: operators that differ in them only have the same
configs, and become the same operator when saved and loaded. -/
theorem C97_blind (c : SigClass) (hg : Writable c.sig) (ho : c.ownInit = true) (args more more' : List PyVal)
    (hl : c.sig.params.length ≤ args.length) (kwargs : List (Str × PyVal)) (hk : (kwargs.map Prod.fst).Nodup)
    (op op' : SigOp) (h : c.call (args ++ more) kwargs = .ok op) (h' : c.call (args ++ more') kwargs = .ok op')
    (hw : ∀ kv ∈ op.configs, WellKeyed kv.2) :
    op.configs = op'.configs ∧ op.reload = op'.reload ∧ op.eq op' = true := by
  obtain ⟨b, run, h1, -, rfl⟩ := sigCall_ok h
  obtain ⟨b', run', h1', -, rfl⟩ := sigCall_ok h'
  have hb := ((C97_gets c.sig hg _ kwargs hk).1 b).mp h1
  have hb' := ((C97_gets c.sig hg _ kwargs hk).1 b').mp h1'
  have hz : ∀ m : List PyVal, c.sig.params.zip (args ++ m) = c.sig.params.zip args := by
    intro m
    have : ∀ (l : List Str) (r m : List PyVal), l.length ≤ r.length → l.zip (r ++ m) = l.zip r := by
      intro l
      induction l with
      | nil => intros; simp
      | cons a l ih =>
        intro r m hr
        cases r with
        | nil => simp at hr
        | cons x r =>
          rw [List.cons_append, List.zip_cons_cons, List.zip_cons_cons, ih r m (by simpa using hr)]
    exact this _ _ _ hl
  have e : c.capture (args ++ more) kwargs = c.capture (args ++ more') kwargs := by
    rw [(sigCapture_eq hg ho hk hb).1, (sigCapture_eq hg ho hk hb').1, hz, hz]
  refine ⟨e, ?_, ?_⟩
  · unfold SigOp.reload
    dsimp only
    rw [e]
  · unfold SigOp.eq
    dsimp only
    rw [← e, (WellKeyed.dict _ (sigCapture_eq hg ho hk hb).2 hw).eq_refl]
    simp

/-- The words given to `exSigClass` are lost: made with one word, the operator returns one token, loaded again it
returns none, and still the two count as equal. -/
example : ∃ op op', exSigClass.call [.int 3, .int 7, .str "a".toList] [] = .ok op ∧ op.reload = .ok op' ∧
    op.eq op' = true ∧ op.run (.str []) ≠ op'.run (.str []) :=
  ⟨_, _, rfl, rfl, rfl, by intro h; cases h⟩

/-! ### Equality -/

theorem getElem?_dictGet {c : SigClass} (hg : Writable c.sig) (ho : c.ownInit = true) {args : List PyVal}
    {kwargs : List (Str × PyVal)} (hk : (kwargs.map Prod.fst).Nodup) {b : InitArgs} (h : Gets c.sig args kwargs b)
    {k : Str} {v : PyVal} : dictGet (c.capture args kwargs) k = some v ↔
      (∃ i : Nat, c.sig.params[i]? = some k ∧ b.values[i]? = some v) ∨ (k ∉ c.sig.params ∧ (k, v) ∈ kwargs) := by
  rw [← sigCapture_mem hg ho hk h]
  exact ⟨dictGet_mem _ _ _, dictGet_of_mem _ _ _ (sigCapture_eq hg ho hk h).2⟩

/-- C97: two operators of one class are equal exactly if their constructors got equal values for the parameters, and
the other keyword arguments that were given in the calls are the same with equal values. -/
theorem C97_equal (c : SigClass) (hg : Writable c.sig) (ho : c.ownInit = true) (args args' : List PyVal)
    (kwargs kwargs' : List (Str × PyVal)) (hk : (kwargs.map Prod.fst).Nodup) (hk' : (kwargs'.map Prod.fst).Nodup)
    (op op' : SigOp) (h : c.call args kwargs = .ok op) (h' : c.call args' kwargs' = .ok op') :
    ∃ b b', Gets c.sig args kwargs b ∧ Gets c.sig args' kwargs' b' ∧
      (op.eq op' = true ↔
        List.Forall₂ (fun v w => v.eq w = true) b.values b'.values ∧
        (∀ k v, k ∉ c.sig.params → (k, v) ∈ kwargs → ∃ w, (k, w) ∈ kwargs' ∧ v.eq w = true) ∧
        (∀ k, k ∉ c.sig.params → k ∈ kwargs'.map Prod.fst → k ∈ kwargs.map Prod.fst)) := by
  obtain ⟨b, run, h1, -, rfl⟩ := sigCall_ok h
  obtain ⟨b', run', h1', -, rfl⟩ := sigCall_ok h'
  have hb := ((C97_gets c.sig hg _ kwargs hk).1 b).mp h1
  have hb' := ((C97_gets c.sig hg _ kwargs' hk').1 b').mp h1'
  refine ⟨b, b', hb, hb', ?_⟩
  have hnd := (sigCapture_eq hg ho hk hb).2
  have hnd' := (sigCapture_eq hg ho hk' hb').2
  have hm := sigCapture_mem hg ho hk hb
  have hm' := sigCapture_mem hg ho hk' hb'
  have hpn := hg.plain.nodup
  unfold SigOp.eq
  dsimp only
  have hdict : ∀ x y : List (Str × PyVal), PyVal.eq (.dict x) (.dict y) = (x.length == y.length && PyVal.eqDict x y) := by
    intro x y
    rw [PyVal.eq]
  rw [beq_self_eq_true, Bool.true_and, hdict, Bool.and_eq_true, beq_iff_eq, eqDict_iff]
  have hpar : ∀ {args kwargs b}, Gets c.sig args kwargs b → ∀ {k : Str} {i : Nat}, c.sig.params[i]? = some k →
      ∃ v, b.values[i]? = some v := by
    intro args kwargs b hb k i hi
    exact ⟨_, List.getElem?_eq_getElem (by rw [hb.length]; exact (List.getElem?_eq_some_iff.mp hi).1)⟩
  constructor
  · rintro ⟨hlen, hall⟩
    have hback : (c.capture args' kwargs').map Prod.fst ⊆ (c.capture args kwargs).map Prod.fst := by
      have hsub : (c.capture args kwargs).map Prod.fst ⊆ (c.capture args' kwargs').map Prod.fst := by
        intro k hkk
        obtain ⟨kv, hkv, rfl⟩ := List.mem_map.mp hkk
        obtain ⟨w, hw, -⟩ := hall kv hkv
        exact key_mem (dictGet_mem _ _ _ hw)
      exact ((List.subperm_of_subset hnd hsub).perm_of_length_le (by simp [hlen])).symm.subset
    refine ⟨?_, ?_, ?_⟩
    · rw [List.forall₂_iff_get]
      refine ⟨by rw [hb.length, hb'.length], ?_⟩
      intro i hi1 hi2
      have hip : i < c.sig.params.length := by rw [← hb.length]; exact hi1
      have hp : c.sig.params[i]? = some c.sig.params[i] := List.getElem?_eq_getElem hip
      obtain ⟨w, hw, he⟩ := hall (c.sig.params[i], b.values[i])
        ((hm _ _).mpr (.inl ⟨i, hp, List.getElem?_eq_getElem hi1⟩))
      rcases (hm' _ _).mp (dictGet_mem _ _ _ hw) with ⟨j, hj, hv⟩ | ⟨hn, -⟩
      · have : i = j := (List.getElem?_inj hip hpn).mp (hp.trans hj.symm)
        subst this
        rw [List.getElem?_eq_getElem hi2] at hv
        injection hv with hv
        rw [List.get_eq_getElem, List.get_eq_getElem, hv]
        exact he
      · exact absurd (List.mem_of_getElem? hp) hn
    · intro k v hn hkv
      obtain ⟨w, hw, he⟩ := hall (k, v) ((hm _ _).mpr (.inr ⟨hn, hkv⟩))
      rcases (hm' _ _).mp (dictGet_mem _ _ _ hw) with ⟨j, hj, hv⟩ | ⟨-, hw⟩
      · exact absurd (List.mem_of_getElem? hj) hn
      · exact ⟨w, hw, he⟩
    · intro k hn hkk
      obtain ⟨⟨k, w⟩, hkw, rfl⟩ := List.mem_map.mp hkk
      have := hback (key_mem ((hm' k w).mpr (.inr ⟨hn, hkw⟩)))
      obtain ⟨⟨k2, v⟩, hkv, e⟩ := List.mem_map.mp this
      dsimp only at e
      subst e
      rcases (hm _ _).mp hkv with ⟨j, hj, -⟩ | ⟨-, hv⟩
      · exact absurd (List.mem_of_getElem? hj) hn
      · exact List.mem_map.mpr ⟨_, hv, rfl⟩
  · rintro ⟨hv, hgo, hback⟩
    have hall : ∀ kv ∈ c.capture args kwargs, ∃ w, dictGet (c.capture args' kwargs') kv.1 = some w ∧
        kv.2.eq w = true := by
      rintro ⟨k, v⟩ hkv
      rcases (hm k v).mp hkv with ⟨i, hi, hvi⟩ | ⟨hn, hkv⟩
      · obtain ⟨w, hw⟩ := hpar hb' hi
        refine ⟨w, dictGet_of_mem _ _ _ hnd' ((hm' k w).mpr (.inl ⟨i, hi, hw⟩)), ?_⟩
        obtain ⟨hl1, e1⟩ := List.getElem?_eq_some_iff.mp hvi
        obtain ⟨hl2, e2⟩ := List.getElem?_eq_some_iff.mp hw
        have := (List.forall₂_iff_get.mp hv).2 i hl1 hl2
        rw [List.get_eq_getElem, List.get_eq_getElem, e1, e2] at this
        exact this
      · obtain ⟨w, hw, he⟩ := hgo k v hn hkv
        exact ⟨w, dictGet_of_mem _ _ _ hnd' ((hm' k w).mpr (.inr ⟨hn, hw⟩)), he⟩
    refine ⟨?_, hall⟩
    have hperm : ((c.capture args kwargs).map Prod.fst).Perm ((c.capture args' kwargs').map Prod.fst) := by
      refine (List.perm_ext_iff_of_nodup hnd hnd').mpr fun k => ⟨fun hkk => ?_, fun hkk => ?_⟩
      · obtain ⟨kv, hkv, rfl⟩ := List.mem_map.mp hkk
        obtain ⟨w, hw, -⟩ := hall kv hkv
        exact key_mem (dictGet_mem _ _ _ hw)
      · obtain ⟨⟨k, w⟩, hkw, rfl⟩ := List.mem_map.mp hkk
        rcases (hm' k w).mp hkw with ⟨i, hi, -⟩ | ⟨hn, hw⟩
        · obtain ⟨v, hvv⟩ := hpar hb hi
          exact key_mem ((hm k v).mpr (.inl ⟨i, hi, hvv⟩))
        · obtain ⟨⟨k2, v⟩, hkv, e⟩ := List.mem_map.mp (hback k hn (key_mem hw))
          dsimp only at e
          subst e
          exact key_mem ((hm _ _).mpr (.inr ⟨hn, hkv⟩))
    simpa using hperm.length_eq

example : ∃ op op', exSigClass.call [.int 3] [] = .ok op ∧
    exSigClass.call [.int 3] [("fill".toList, .int 0)] = .ok op' ∧ op.eq op' = true := ⟨_, _, rfl, rfl, rfl⟩

/-- C97: a keyword-only parameter given its default value makes another operator than leaving it out, though the
constructor gets the same arguments in both calls and the operators do the same. -/
theorem C97_unset (c : SigClass) (hg : Writable c.sig) (ho : c.ownInit = true) (args : List PyVal)
    (kwargs : List (Str × PyVal)) (hk : (kwargs.map Prod.fst).Nodup) (p : Str) (d : PyVal)
    (hp : (p, some d) ∈ c.sig.kwOnly) (hn : p ∉ kwargs.map Prod.fst) (op : SigOp) (h : c.call args kwargs = .ok op) :
    ∃ op', c.call args (kwargs ++ [(p, d)]) = .ok op' ∧ op'.run = op.run ∧ op.eq op' = false ∧ op'.eq op = false := by
  obtain ⟨b, run, h1, h2, rfl⟩ := sigCall_ok h
  have hb := ((C97_gets c.sig hg _ kwargs hk).1 b).mp h1
  have hap := List.nodup_append.mp hg.nodup
  have hpk : p ∈ c.sig.kwOnly.map Prod.fst := List.mem_map.mpr ⟨_, hp, rfl⟩
  have hpp : p ∉ c.sig.params := fun e => hap.2.2 _ e _ hpk rfl
  have hk' : ((kwargs ++ [(p, d)]).map Prod.fst).Nodup := by
    rw [List.map_append, List.nodup_append]
    refine ⟨hk, by simp, ?_⟩
    rintro a ha x hx rfl
    rw [List.map_singleton, List.mem_singleton] at hx
    exact hn ((show a = p from hx) ▸ ha)
  have hkeys : ∀ k, k ∈ (kwargs ++ [(p, d)]).map Prod.fst ↔ k ∈ kwargs.map Prod.fst ∨ k = p := by
    intro k
    rw [List.map_append, List.mem_append, List.map_singleton, List.mem_singleton]
  have hb' : Gets c.sig args (kwargs ++ [(p, d)]) b := by
    refine ⟨?_, ?_, hb.names, hb.places, hb.length, ?_, ?_, hb.surplus, ?_⟩
    · rw [hkeys]
      rintro (e | e)
      · exact hb.self e
      · exact hg.self (e ▸ List.mem_append_right _ hpk)
    · intro i q hq hi
      rw [hkeys]
      rintro (e | e)
      · exact hb.once i q hq hi e
      · exact hpp (e ▸ List.mem_of_getElem? hq)
    · intro i q v hq hv
      rcases hb.values i q v hq hv with e | ⟨e, e'⟩ | ⟨e, e1, e2⟩
      · exact .inl e
      · exact .inr (.inl ⟨e, List.mem_append_left _ e'⟩)
      · refine .inr (.inr ⟨e, ?_, e2⟩)
        rw [hkeys]
        rintro (x | x)
        · exact e1 x
        · exact hpp (x ▸ List.mem_of_getElem? hq)
    · refine forall₂_imp_mem hb.kwOnly ?_
      rintro ⟨q, dq⟩ hq v hv
      dsimp only at hv ⊢
      rcases hv with e | ⟨e, e'⟩
      · exact .inl (List.mem_append_left _ e)
      · by_cases hqp : q = p
        · subst hqp
          have : (q, dq) = (q, some d) := eq_of_nodup_map Prod.fst hap.2.1 hq hp rfl
          injection this with _ this
          rw [this] at e'
          injection e' with e'
          subst e'
          exact .inl (List.mem_append_right _ (List.mem_singleton.mpr rfl))
        · refine .inr ⟨?_, e'⟩
          rw [hkeys]
          rintro (x | x)
          · exact e x
          · exact hqp x
    · rw [hb.extra, List.filter_append]
      have : ([(p, d)].filter fun kv => decide (kv.1 ∉ c.sig.params ∧ kv.1 ∉ c.sig.kwOnly.map Prod.fst)) = [] := by
        rw [List.filter_eq_nil_iff]
        intro kv hm hd
        rw [List.mem_singleton] at hm
        subst hm
        exact (of_decide_eq_true hd).2 hpk
      rw [this, List.append_nil]
  have hc : c.call args (kwargs ++ [(p, d)]) = .ok ⟨c, c.capture args (kwargs ++ [(p, d)]), run⟩ := by
    unfold SigClass.call
    rw [((C97_gets c.sig hg _ _ hk').1 b).mpr hb']
    simp only [Except.bind_ok]
    rw [h2]
    rfl
  refine ⟨_, hc, rfl, ?_, ?_⟩
  · obtain ⟨_, _, -, -, e⟩ := C97_equal c hg ho args args kwargs _ hk hk' _ _ h hc
    rw [Bool.eq_false_iff]
    intro ht
    exact hn ((e.mp ht).2.2 p hpp ((hkeys p).mpr (.inr rfl)))
  · obtain ⟨_, _, -, -, e⟩ := C97_equal c hg ho args args _ kwargs hk' hk _ _ hc h
    rw [Bool.eq_false_iff]
    intro ht
    obtain ⟨w, hw, -⟩ := (e.mp ht).2.1 p d hpp (List.mem_append_right _ (List.mem_singleton.mpr rfl))
    exact hn (key_mem hw)

example : ∀ op, exSigClass.call [.int 3] [] = .ok op →
    ∃ op', exSigClass.call [.int 3] [("mode".toList, .str "left".toList)] = .ok op' ∧ op'.run = op.run ∧
      op.eq op' = false ∧ op'.eq op = false :=
  fun op h => C97_unset exSigClass exSig_writable rfl [.int 3] [] (by decide) _ _ (List.mem_singleton.mpr rfl) (by decide) op h

/-! ### Inherited constructors, plain constructors -/

/-- C97: of an operator whose class inherits its constructor, exactly the keyword arguments of the call are noted down;
it is loaded with these alone. -/
theorem C97_inherited (c : SigClass) (ho : c.ownInit = false) (args : List PyVal) (kwargs : List (Str × PyVal))
    (hk : (kwargs.map Prod.fst).Nodup) (op : SigOp) (h : c.call args kwargs = .ok op) :
    op.configs = kwargs ∧ op.reload = c.call [] kwargs := by
  obtain ⟨b, run, -, -, rfl⟩ := sigCall_ok h
  have e : c.capture args kwargs = kwargs := by
    unfold SigClass.capture SigClass.argspec
    rw [if_neg (by rw [ho]; decide)]
    dsimp only
    rw [List.zip_nil_left]
    have e0 : dictUpdate ([] : List (Str × PyVal)) [] = [] := rfl
    rw [e0, dictUpdate_nodup [] kwargs (by simpa using hk)]
    rfl
  refine ⟨e, ?_⟩
  unfold SigOp.reload
  dsimp only
  rw [e]

example : ∃ op, ({ exSigClass with ownInit := false }).call [.int 3] [("mode".toList, .str "right".toList)] = .ok op ∧
    op.configs = [("mode".toList, .str "right".toList)] ∧ op.reload = .error .typeError := ⟨_, rfl, rfl, rfl⟩

/-- C97: for a constructor with plain parameters only, calls do the same as in the model of C65. -/
theorem C97_plain (oc : OpClass) (hsig : Signature oc) (sc : SigClass) (hself : "self".toList ∉ oc.params)
    (hs : sc.sig = ⟨oc.params, oc.defaults, false, [], false⟩) (ho : sc.ownInit = oc.ownInit)
    (hi : ∀ b, sc.init b = oc.init b.values) (args : List PyVal) (kwargs : List (Str × PyVal)) :
    sc.call args kwargs = (oc.call args kwargs).map fun op => ⟨sc, op.configs, op.run⟩ := by
  have hcap : sc.capture args kwargs = oc.capture args kwargs := by
    unfold SigClass.capture OpClass.capture SigClass.argspec OpClass.argspec
    rw [ho, hs]
  have hpar : sc.sig.bindParam kwargs = oc.bindParam kwargs := by
    funext p
    unfold InitSig.bindParam OpClass.bindParam OpClass.default?
    rw [hs]
    rfl
  have hkn : ∀ k, sc.sig.known k = true ↔ k ∈ oc.params := by
    intro k
    rw [known_iff, hs]
    simp
  have hbind : ∀ b, sc.sig.bind args kwargs = .ok b ↔ ∃ vals, oc.bindArgs args kwargs = .ok vals ∧
      b = ⟨vals, [], [], []⟩ := by
    intro b
    rw [bind_ok_iff, hpar]
    have hp : sc.sig.params = oc.params := by rw [hs]
    have hv : sc.sig.varArgs = false := by rw [hs]
    have hkw : sc.sig.varKw = false := by rw [hs]
    have hko : sc.sig.kwOnly = [] := by rw [hs]
    rw [hp, hv, hkw, hko]
    constructor
    · rintro ⟨g1, g2, g3, g4, filled, only, e1, e2, rfl⟩
      have hlen : args.length ≤ oc.params.length := g2.resolve_left (by decide)
      have g4 := g4.resolve_left (by decide)
      refine ⟨args ++ filled, ?_, ?_⟩
      · unfold OpClass.bindArgs
        rw [if_neg (by omega), if_neg, e1]
        · rfl
        · rw [Bool.not_eq_true, List.any_eq_false]
          intro kv hkv
          have hm := List.mem_map_of_mem (f := Prod.fst) hkv
          have h1 := (hkn _).mp (g4 _ hm)
          rw [← List.take_append_drop args.length oc.params, List.mem_append] at h1
          simpa using h1.resolve_left (g3 _ hm)
      · have e2 : [] = only := Except.ok.inj e2
        rw [List.take_of_length_le hlen, List.drop_eq_nil_iff.mpr hlen, ← e2, (extra_nil_iff sc.sig kwargs).mpr g4]
    · rintro ⟨vals, h, rfl⟩
      obtain ⟨hlen, hk, rest, hm, rfl⟩ := bindArgs_ok h
      have hd : ∀ k ∈ kwargs.map Prod.fst, k ∈ oc.params.drop args.length := by
        intro k hkk
        obtain ⟨kv, hkv, rfl⟩ := List.mem_map.mp hkk
        exact hk kv hkv
      have hnd := hsig.nodup
      rw [← List.take_append_drop args.length oc.params, List.nodup_append] at hnd
      have hall : ∀ k ∈ kwargs.map Prod.fst, sc.sig.known k = true :=
        fun k hkk => (hkn k).mpr (List.mem_of_mem_drop (hd k hkk))
      refine ⟨fun e => hself (List.mem_of_mem_drop (hd _ e)), .inr hlen,
        fun k hkk e => hnd.2.2 _ e _ (hd k hkk) rfl, .inr hall, rest, [], hm, rfl, ?_⟩
      rw [List.take_of_length_le hlen, List.drop_eq_nil_iff.mpr hlen, (extra_nil_iff sc.sig kwargs).mpr hall]
  have hbad : ∀ {e}, oc.bindArgs args kwargs = .error e → e = .typeError := by
    intro e h
    unfold OpClass.bindArgs at h
    split at h
    · injection h with h; exact h.symm
    split at h
    · injection h with h; exact h.symm
    cases hm : (oc.params.drop args.length).mapM (oc.bindParam kwargs) with
    | ok r => rw [hm] at h; cases h
    | error x =>
      rw [hm] at h
      injection h with h
      obtain ⟨p, -, h'⟩ := mapM_error_mem _ _ _ hm
      unfold OpClass.bindParam at h'
      split at h'
      · cases h'
      · split at h'
        · cases h'
        · injection h' with h'
          rw [← h, h']
  unfold SigClass.call OpClass.call
  cases hb : oc.bindArgs args kwargs with
  | error e =>
    have hbe := hbad hb
    subst hbe
    cases hb' : sc.sig.bind args kwargs with
    | ok b =>
      obtain ⟨vals, h1, -⟩ := (hbind b).mp hb'
      rw [hb] at h1
      cases h1
    | error x =>
      have : x = .typeError := bind_error hb'
      subst this
      rfl
  | ok vals =>
    rw [(hbind _).mpr ⟨vals, hb, rfl⟩]
    simp only [Except.bind_ok]
    rw [hi, hcap]
    cases oc.init vals <;> rfl

/-- `exPad` as a class of the wider model. -/
def exPadSig : SigClass := ⟨exPad.name, .list, .list, ⟨exPad.params, exPad.defaults, false, [], false⟩, true,
  fun b => exPad.init b.values⟩

example : ∀ args kwargs, exPadSig.call args kwargs =
    (exPad.call args kwargs).map fun op => ⟨exPadSig, op.configs, op.run⟩ :=
  C97_plain exPad exPad_signature exPadSig (by decide) rfl rfl (fun _ => rfl)

end Uttut
