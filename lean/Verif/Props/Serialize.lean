import Verif.Lemmas.Pipe
import Verif.Lemmas.Json
import Verif.Spec.Operator
import Verif.Props.Ordinal

/-!
C65, C66, C67: capture of constructor arguments, serialization of operators and pipes, the operator registry.
-/

namespace Uttut

/-! ### Equality is reflexive -/

theorem WellKeyed.eq_refl {v : PyVal} (h : WellKeyed v) : v.eq v = true := by
  induction h with
  | none => rfl
  | bool b => cases b <;> rfl
  | int i => simp [PyVal.eq, PyVal.asInt?]
  | str s => simp [PyVal.eq]
  | list l h ih =>
    unfold PyVal.eq
    clear h
    induction l with
    | nil => rfl
    | cons v l ihl =>
      unfold PyVal.eqList
      rw [ih v (List.mem_cons_self ..), ihl (fun w hw => ih w (List.mem_cons_of_mem _ hw))]
      rfl
  | tuple l h ih =>
    unfold PyVal.eq
    clear h
    induction l with
    | nil => rfl
    | cons v l ihl =>
      unfold PyVal.eqList
      rw [ih v (List.mem_cons_self ..), ihl (fun w hw => ih w (List.mem_cons_of_mem _ hw))]
      rfl
  | dict d hk h ih =>
    unfold PyVal.eq
    have gen : ∀ e : List (Str × PyVal), (∀ kv ∈ e, kv ∈ d) → PyVal.eqDict e d = true := by
      intro e
      induction e with
      | nil => intro _; unfold PyVal.eqDict; rfl
      | cons kv e ihe =>
        intro hm
        obtain ⟨k, v⟩ := kv
        unfold PyVal.eqDict
        rw [dictGet_of_mem d k v hk (hm _ (List.mem_cons_self ..))]
        dsimp only
        rw [ih (k, v) (hm _ (List.mem_cons_self ..)), ihe (fun kv hkv => hm kv (List.mem_cons_of_mem _ hkv))]
        rfl
    simp [gen d (fun kv h => h)]

theorem Plain.wellKeyed {v : PyVal} (h : Plain v) : WellKeyed v := by
  induction h with
  | none => exact .none
  | bool b => exact .bool b
  | int i => exact .int i
  | str s => exact .str s
  | list l h ih => exact .list l ih
  | dict d hk h ih => exact .dict d hk ih

/-! ### C65 -/

theorem dictUpdate_nodup {κ ν : Type} [DecidableEq κ] (d e : List (κ × ν)) (h : ((d ++ e).map Prod.fst).Nodup) :
    dictUpdate d e = d ++ e := foldl_dictSet_nodup e d h

theorem zip_fst_prefix {α β : Type} (l : List α) (r : List β) : (l.zip r).map Prod.fst <+: l := by
  induction l generalizing r with
  | nil => simp
  | cons a l ih =>
    cases r with
    | nil => simp
    | cons b r => simpa using ih r

theorem zip_append_short {α β : Type} (l m : List α) (r : List β) (h : r.length ≤ l.length) :
    (l ++ m).zip r = l.zip r := by
  induction l generalizing r with
  | nil =>
    have : r = [] := List.length_eq_zero_iff.mp (by simpa using h)
    subst this
    simp
  | cons a l ih =>
    cases r with
    | nil => simp
    | cons b r =>
      rw [List.cons_append, List.zip_cons_cons, List.zip_cons_cons, ih r (by simpa using h)]

/-- What a successful binding tells. -/
theorem bindArgs_ok {c : OpClass} {args : List PyVal} {kwargs : List (Str × PyVal)} {vals : List PyVal}
    (h : c.bindArgs args kwargs = .ok vals) :
    args.length ≤ c.params.length ∧ (∀ kv ∈ kwargs, kv.1 ∈ c.params.drop args.length) ∧
      ∃ rest, (c.params.drop args.length).mapM (c.bindParam kwargs) = .ok rest ∧ vals = args ++ rest := by
  unfold OpClass.bindArgs at h
  split at h
  · cases h
  · next h1 =>
    split at h
    · cases h
    · next h2 =>
      refine ⟨by omega, ?_, ?_⟩
      · intro kv hkv
        rw [Bool.not_eq_true, List.any_eq_false] at h2
        have := h2 kv hkv
        simpa using this
      · cases hm : (c.params.drop args.length).mapM (c.bindParam kwargs) with
        | error e => rw [hm] at h; cases h
        | ok rest =>
          rw [hm] at h
          injection h with h
          exact ⟨rest, rfl, h.symm⟩

theorem mapM_ok_getElem? {α β : Type} (f : α → Res β) (l : List α) (r : List β) (h : l.mapM f = .ok r) (i : Nat) :
    (∀ a, l[i]? = some a → ∃ b, r[i]? = some b ∧ f a = .ok b) ∧ r.length = l.length := by
  induction l generalizing r i with
  | nil =>
    simp only [List.mapM_nil] at h
    injection h with h
    subst h
    exact ⟨fun a ha => (by simp at ha), rfl⟩
  | cons a l ih =>
    rw [List.mapM_cons] at h
    cases h1 : f a with
    | error e => rw [h1] at h; cases h
    | ok b =>
      rw [h1] at h
      cases h2 : l.mapM f with
      | error e => rw [h2] at h; cases h
      | ok bs =>
        rw [h2] at h
        injection h with h
        subst h
        refine ⟨?_, by simp [(ih bs h2 0).2]⟩
        intro x hx
        cases i with
        | zero => simp at hx; subst hx; exact ⟨b, rfl, h1⟩
        | succ i => exact (ih bs h2 i).1 x (by simpa using hx)

/-- The defaults that are captured. -/
def OpClass.dfltPairs (c : OpClass) : List (Str × PyVal) := c.params.reverse.zip c.defaults.reverse

theorem default?_mem {c : OpClass} {p : Str} {v : PyVal} (h : c.default? p = some v) : (p, v) ∈ c.dfltPairs :=
  dictGet_mem _ _ _ h

/-- The captured configs of a successful call, spelled out. -/
theorem capture_eq {c : OpClass} (hs : Signature c) (ho : c.ownInit = true) {args : List PyVal}
    {kwargs : List (Str × PyVal)} (hk : (kwargs.map Prod.fst).Nodup) {vals : List PyVal}
    (h : c.bindArgs args kwargs = .ok vals) :
    c.capture args kwargs = (c.params.zip args ++ kwargs) ++
        c.dfltPairs.filter (fun kv => (dictGet (c.params.zip args ++ kwargs) kv.1).isNone) ∧
      ((c.capture args kwargs).map Prod.fst).Nodup := by
  obtain ⟨hl, hkw, rest, hm, rfl⟩ := bindArgs_ok h
  have hzip : (c.params.zip args).map Prod.fst = c.params.take args.length := by
    have h1 := zip_fst_prefix c.params args
    have h2 : ((c.params.zip args).map Prod.fst).length = args.length := by
      rw [List.length_map, List.length_zip]; omega
    rw [← h2]
    exact List.prefix_iff_eq_take.mp h1
  have hsplit : c.params.take args.length ++ c.params.drop args.length = c.params := List.take_append_drop _ _
  have hnd := hs.nodup
  rw [← hsplit, List.nodup_append] at hnd
  have n1 : ((c.params.zip args ++ kwargs).map Prod.fst).Nodup := by
    rw [List.map_append, hzip, List.nodup_append]
    refine ⟨hnd.1, hk, ?_⟩
    intro a ha b hb
    obtain ⟨kv, hkv, rfl⟩ := List.mem_map.mp hb
    exact hnd.2.2 a ha _ (hkw kv hkv)
  have e0 : dictUpdate [] (c.params.zip args) = c.params.zip args := by
    rw [dictUpdate_nodup]
    · rfl
    · rw [List.nil_append, hzip]; exact hnd.1
  have e1 : dictUpdate (c.params.zip args) kwargs = c.params.zip args ++ kwargs := dictUpdate_nodup _ _ n1
  have n2 : (((c.params.zip args ++ kwargs) ++
      c.dfltPairs.filter (fun kv => (dictGet (c.params.zip args ++ kwargs) kv.1).isNone)).map Prod.fst).Nodup := by
    rw [List.map_append, List.nodup_append]
    refine ⟨n1, ?_, ?_⟩
    · refine (List.filter_sublist.map _).nodup ?_
      exact ((zip_fst_prefix c.params.reverse c.defaults.reverse).sublist).nodup
        ((List.reverse_perm c.params).nodup_iff.mpr hs.nodup)
    · intro a ha b hb
      obtain ⟨kv, hkv, rfl⟩ := List.mem_map.mp hb
      have := (List.mem_filter.mp hkv).2
      rw [Option.isNone_iff_eq_none, dictGet_none] at this
      rintro rfl
      exact this ha
  have e2 : c.capture args kwargs = (c.params.zip args ++ kwargs) ++
        c.dfltPairs.filter (fun kv => (dictGet (c.params.zip args ++ kwargs) kv.1).isNone) := by
    unfold OpClass.capture OpClass.argspec
    rw [if_pos ho]
    dsimp only
    rw [e0, e1]
    by_cases hd : c.defaults.isEmpty = true
    · rw [if_pos hd]
      have : c.defaults = [] := by simpa using hd
      unfold OpClass.dfltPairs
      rw [this]
      simp
    · rw [if_neg hd, zip_append_short _ _ _ (by simpa using hs.defaults)]
      exact dictUpdate_nodup _ _ n2
  rw [e2]
  exact ⟨rfl, n2⟩

theorem dfltPairs_index {c : OpClass} (hs : Signature c) {p : Str} {v : PyVal} (h : (p, v) ∈ c.dfltPairs) :
    ∃ j, c.params[c.params.length - c.defaults.length + j]? = some p ∧ c.defaults[j]? = some v := by
  unfold OpClass.dfltPairs at h
  obtain ⟨k, hk⟩ := List.getElem?_of_mem h
  rw [List.getElem?_zip_eq_some] at hk
  have hlt : k < c.defaults.length := by
    have := (List.getElem?_eq_some_iff.mp hk.2).1
    simpa using this
  have hd := hs.defaults
  rw [List.getElem?_reverse hlt] at hk
  rw [List.getElem?_reverse (by omega)] at hk
  refine ⟨c.defaults.length - 1 - k, ?_, hk.2⟩
  rw [← hk.1]
  congr 1
  omega

/-- C65: after a successful construction, with any mix of positional and keyword arguments, `configs` has exactly the
constructor's parameters as keys, each with the value that the call bound to it, and the constructor body ran on
these values. -/
theorem C65_capture (c : OpClass) (hs : Signature c) (ho : c.ownInit = true) (args : List PyVal)
    (kwargs : List (Str × PyVal)) (hk : (kwargs.map Prod.fst).Nodup) (op : Op) (h : c.call args kwargs = .ok op) :
    op.cls = c ∧ (op.configs.map Prod.fst).Nodup ∧ (∀ p, p ∈ op.configs.map Prod.fst ↔ p ∈ c.params) ∧
      ∃ vals, c.init vals = .ok op.run ∧ vals.length = c.params.length ∧
        ∀ (i : Nat) (p : Str), c.params[i]? = some p →
          ∃ v, vals[i]? = some v ∧ dictGet op.configs p = some v ∧ Bound c args kwargs i p v := by
  unfold OpClass.call at h
  cases hb : c.bindArgs args kwargs with
  | error e => rw [hb] at h; cases h
  | ok vals =>
    rw [hb] at h
    simp only [Except.bind_ok] at h
    cases hr : c.init vals with
    | error e => rw [hr] at h; cases h
    | ok run =>
      rw [hr] at h
      injection h with h
      subst h
      obtain ⟨hcap, hnd⟩ := capture_eq hs ho hk hb
      obtain ⟨hl, hkw, rest, hm, rfl⟩ := bindArgs_ok hb
      have hrest := fun i => mapM_ok_getElem? _ _ _ hm i
      have hrl : rest.length = c.params.length - args.length := by
        rw [(hrest 0).2, List.length_drop]
      have main : ∀ (i : Nat) (p : Str), c.params[i]? = some p →
          ∃ v, (args ++ rest)[i]? = some v ∧ dictGet (c.capture args kwargs) p = some v ∧
            Bound c args kwargs i p v := by
        intro i p hp
        have hi := (List.getElem?_eq_some_iff.mp hp).1
        by_cases hlt : i < args.length
        · obtain ⟨v, hv⟩ : ∃ v, args[i]? = some v := ⟨_, List.getElem?_eq_getElem hlt⟩
          refine ⟨v, by rw [List.getElem?_append_left hlt]; exact hv, ?_, .positional v hv⟩
          refine dictGet_of_mem _ _ _ hnd ?_
          rw [hcap]
          refine List.mem_append_left _ (List.mem_append_left _ ?_)
          exact List.mem_of_getElem? (i := i) (List.getElem?_zip_eq_some.mpr ⟨hp, hv⟩)
        · have hp' : (c.params.drop args.length)[i - args.length]? = some p := by
            rw [List.getElem?_drop]
            rw [show args.length + (i - args.length) = i by omega]
            exact hp
          obtain ⟨v, hv, hbp⟩ := (hrest (i - args.length)).1 p hp'
          have hvals : (args ++ rest)[i]? = some v := by
            rw [List.getElem?_append_right (by omega)]; exact hv
          unfold OpClass.bindParam at hbp
          cases hg : dictGet kwargs p with
          | some w =>
            rw [hg] at hbp
            injection hbp with hbp
            subst hbp
            have hmem := dictGet_mem _ _ _ hg
            refine ⟨w, hvals, ?_, .keyword w (by omega) hmem⟩
            refine dictGet_of_mem _ _ _ hnd ?_
            rw [hcap]
            exact List.mem_append_left _ (List.mem_append_right _ hmem)
          | none =>
            rw [hg] at hbp
            dsimp only at hbp
            cases hd : c.default? p with
            | none => rw [hd] at hbp; cases hbp
            | some w =>
              rw [hd] at hbp
              injection hbp with hbp
              subst hbp
              have hmem := default?_mem hd
              have hpk : p ∉ kwargs.map Prod.fst := (dictGet_none _ _).mp hg
              obtain ⟨j, hj1, hj2⟩ := dfltPairs_index hs hmem
              have hij : i = c.params.length - c.defaults.length + j :=
                (List.getElem?_inj hi hs.nodup).mp (hp.trans hj1.symm)
              refine ⟨w, hvals, ?_, .dflt w (by omega) hpk j hij hj2⟩
              refine dictGet_of_mem _ _ _ hnd ?_
              rw [hcap]
              refine List.mem_append_right _ (List.mem_filter.mpr ⟨hmem, ?_⟩)
              rw [Option.isNone_iff_eq_none, dictGet_none, List.map_append, List.mem_append]
              rintro (h1 | h1)
              · obtain ⟨kv, hkv, he⟩ := List.mem_map.mp h1
                obtain ⟨k, hk'⟩ := List.getElem?_of_mem hkv
                obtain ⟨a, b⟩ := kv
                rw [List.getElem?_zip_eq_some] at hk'
                dsimp only at he hk'
                subst he
                have hklt := (List.getElem?_eq_some_iff.mp hk'.2).1
                have : i = k := (List.getElem?_inj hi hs.nodup).mp (hp.trans hk'.1.symm)
                omega
              · exact hpk h1
      refine ⟨rfl, hnd, ?_, args ++ rest, hr, by rw [List.length_append]; omega, main⟩
      intro p
      show p ∈ (c.capture args kwargs).map Prod.fst ↔ _
      constructor
      · intro hp
        rw [hcap, List.map_append, List.map_append, List.mem_append, List.mem_append] at hp
        rcases hp with (h1 | h1) | h1
        · exact (zip_fst_prefix c.params args).subset h1
        · obtain ⟨kv, hkv, rfl⟩ := List.mem_map.mp h1
          exact List.mem_of_mem_drop (hkw kv hkv)
        · obtain ⟨kv, hkv, rfl⟩ := List.mem_map.mp h1
          obtain ⟨j, hj, _⟩ := dfltPairs_index hs (p := kv.1) (v := kv.2) (List.mem_filter.mp hkv).1
          exact List.mem_of_getElem? hj
      · intro hp
        obtain ⟨i, hi⟩ := List.getElem?_of_mem hp
        obtain ⟨v, _, hv, _⟩ := main i p hi
        exact List.mem_map_of_mem (f := Prod.fst) (dictGet_mem _ _ _ hv)

/-- A class for the examples, like `Pad`: `__init__(self, maxlen, pad_token="<pad>")`. -/
def exPad : OpClass where
  name := "Pad".toList
  inputType := .list
  outputType := .list
  params := ["maxlen".toList, "pad_token".toList]
  defaults := [.str "<pad>".toList]
  ownInit := true
  init := fun _ => .ok fun s => .ok (s, Aligner.null s.length s.length)

theorem exPad_signature : Signature exPad := ⟨by decide, by decide⟩

example : ∀ op, exPad.call [.int 3] [] = .ok op →
    ∃ vals, exPad.init vals = .ok op.run ∧ vals.length = 2 ∧
      ∀ (i : Nat) (p : Str), exPad.params[i]? = some p →
        ∃ v, vals[i]? = some v ∧ dictGet op.configs p = some v ∧ Bound exPad [.int 3] [] i p v :=
  fun op h => (C65_capture exPad exPad_signature rfl [.int 3] [] List.nodup_nil op h).2.2.2
example : (exPad.call [.int 3] []).map (fun op => op.configs.map Prod.fst) =
    .ok ["maxlen".toList, "pad_token".toList] := rfl

/-- C65: calling the class again with `configs` as keyword arguments gives the same operator. -/
theorem C65_rebuild (c : OpClass) (hs : Signature c) (ho : c.ownInit = true) (args : List PyVal)
    (kwargs : List (Str × PyVal)) (hk : (kwargs.map Prod.fst).Nodup) (op : Op) (h : c.call args kwargs = .ok op) :
    c.call [] op.configs = .ok op := by
  obtain ⟨hcls, hnd, hkeys, vals, hinit, hlen, hvals⟩ := C65_capture c hs ho args kwargs hk op h
  have hbind : c.bindArgs [] op.configs = .ok vals := by
    unfold OpClass.bindArgs
    rw [if_neg (by simp), if_neg]
    · simp only [List.length_nil, List.drop_zero]
      have : c.params.mapM (c.bindParam op.configs) = .ok vals := by
        have gen : ∀ (ps : List Str) (vs : List PyVal), vs.length = ps.length →
            (∀ (i : Nat) (p : Str), ps[i]? = some p → ∃ v, vs[i]? = some v ∧ c.bindParam op.configs p = .ok v) →
            ps.mapM (c.bindParam op.configs) = .ok vs := by
          intro ps
          induction ps with
          | nil =>
            intro vs hl _
            have : vs = [] := List.length_eq_zero_iff.mp hl
            subst this
            rfl
          | cons p ps ih =>
            intro vs hl hp
            cases vs with
            | nil => cases hl
            | cons v vs =>
              obtain ⟨w, h1, h2⟩ := hp 0 p rfl
              injection h1 with h1
              subst h1
              rw [List.mapM_cons, h2, ih vs (by simpa using hl) (fun i q hq => hp (i + 1) q hq)]
              rfl
        refine gen c.params vals hlen ?_
        intro i p hp
        obtain ⟨v, h1, h2, _⟩ := hvals i p hp
        refine ⟨v, h1, ?_⟩
        unfold OpClass.bindParam
        rw [h2]
      rw [this]
      rfl
    · rw [Bool.not_eq_true, List.any_eq_false]
      intro kv hkv
      have := (hkeys kv.1).mp (List.mem_map_of_mem (f := Prod.fst) hkv)
      simpa using this
  obtain ⟨hcap, _⟩ := capture_eq hs ho hnd hbind
  have hfil : c.dfltPairs.filter (fun kv => (dictGet (c.params.zip [] ++ op.configs) kv.1).isNone) = [] := by
    rw [List.filter_eq_nil_iff]
    intro kv hkv
    obtain ⟨j, hj, _⟩ := dfltPairs_index hs (p := kv.1) (v := kv.2) hkv
    obtain ⟨v, _, hv, _⟩ := hvals _ _ hj
    simp [hv]
  rw [hfil] at hcap
  unfold OpClass.call
  rw [hbind]
  simp only [Except.bind_ok]
  rw [hinit]
  simp only [Except.bind_ok]
  rw [hcap]
  simp only [List.zip_nil_right, List.nil_append, List.append_nil]
  cases op
  subst hcls
  rfl

example : ∀ op, exPad.call [.int 3] [] = .ok op → exPad.call [] op.configs = .ok op :=
  fun op h => C65_rebuild exPad exPad_signature rfl [.int 3] [] List.nodup_nil op h

/-- C65: so operators made from the same bound values are equal (`==`), however the arguments were passed. -/
theorem C65_equal (c : OpClass) (hs : Signature c) (ho : c.ownInit = true) (args args' : List PyVal)
    (kwargs kwargs' : List (Str × PyVal)) (hk : (kwargs.map Prod.fst).Nodup) (hk' : (kwargs'.map Prod.fst).Nodup)
    (op op' : Op) (h : c.call args kwargs = .ok op) (h' : c.call args' kwargs' = .ok op')
    (hw : ∀ kv ∈ op.configs, WellKeyed kv.2)
    (hb : ∀ i p v w, c.params[i]? = some p → Bound c args kwargs i p v → Bound c args' kwargs' i p w → v = w) :
    op.eq op' = true := by
  obtain ⟨h1, h2, h3, vals, _, _, h4⟩ := C65_capture c hs ho args kwargs hk op h
  obtain ⟨g1, g2, g3, vals', _, _, g4⟩ := C65_capture c hs ho args' kwargs' hk' op' h'
  have hlen : op.configs.length = op'.configs.length := by
    have hp : (op.configs.map Prod.fst).Perm (op'.configs.map Prod.fst) :=
      (List.perm_ext_iff_of_nodup h2 g2).mpr (fun p => (h3 p).trans (g3 p).symm)
    simpa using hp.length_eq
  have hsame : ∀ kv ∈ op.configs, dictGet op'.configs kv.1 = some kv.2 := by
    intro kv hkv
    have hp := (h3 kv.1).mp (List.mem_map_of_mem (f := Prod.fst) hkv)
    obtain ⟨i, hi⟩ := List.getElem?_of_mem hp
    obtain ⟨v, _, hv, hbv⟩ := h4 i _ hi
    obtain ⟨w, _, hw', hbw⟩ := g4 i _ hi
    rw [dictGet_of_mem _ _ _ h2 hkv] at hv
    injection hv with hv
    rw [hw', hv, hb i _ v w hi hbv hbw]
  unfold Op.eq
  rw [h1, g1]
  simp only [beq_self_eq_true, Bool.true_and]
  unfold PyVal.eq
  rw [hlen]
  simp only [beq_self_eq_true, Bool.true_and]
  have gen : ∀ e : List (Str × PyVal), (∀ kv ∈ e, kv ∈ op.configs) → PyVal.eqDict e op'.configs = true := by
    intro e
    induction e with
    | nil => intro _; unfold PyVal.eqDict; rfl
    | cons kv e ihe =>
      intro hm
      obtain ⟨k, v⟩ := kv
      unfold PyVal.eqDict
      have hmem := hm (k, v) (List.mem_cons_self ..)
      rw [hsame (k, v) hmem]
      dsimp only
      rw [(hw (k, v) hmem).eq_refl, ihe (fun kv hkv => hm kv (List.mem_cons_of_mem _ hkv))]
      rfl
  exact gen op.configs (fun kv h => h)

example : ∀ op op', exPad.call [.int 3] [] = .ok op →
    exPad.call [] [("pad_token".toList, .str "<pad>".toList), ("maxlen".toList, .int 3)] = .ok op' →
    op.eq op' = true := by
  intro op op' h h'
  injection h with h
  injection h' with h'
  subst h; subst h'
  rfl

/-- C65: a subclass that inherits its constructor loses positional arguments and defaults from `configs`, so that
rebuilding fails. (No operator of the library is such a class.) -/
theorem C65_inherited_init : ∃ (c : OpClass) (op : Op), Signature c ∧ c.ownInit = false ∧
    c.call [.int 3] [] = .ok op ∧ op.configs = [] ∧ c.call [] op.configs = .error .typeError :=
  ⟨{ exPad with ownInit := false }, _, ⟨by decide, by decide⟩, rfl, rfl, rfl, rfl⟩

/-! ### C66 -/

/-- An operator that can be stored and loaded: its class is registered under its name and has a constructor of its own
or none at all, and the constructor arguments are JSON values. -/
structure Storable (f : Factory) (op : Op) : Prop where
  registered : f.get op.cls.name = .ok op.cls
  signature : Signature op.cls
  init : op.cls.ownInit = true ∨ op.cls.params = []
  constructed : Constructed op
  plain : ∀ kv ∈ op.configs, Plain kv.2

theorem Signature.noDefaults {c : OpClass} (hs : Signature c) (hp : c.params = []) : c.defaults = [] := by
  have := hs.defaults
  rw [hp] at this
  exact List.length_eq_zero_iff.mp (by simpa using this)

/-- A constructor without parameters captures nothing, whether inherited or not. -/
theorem capture_noParams {c : OpClass} (hs : Signature c) (hp : c.params = []) (args : List PyVal)
    (kwargs : List (Str × PyVal)) : c.capture args kwargs = ({ c with ownInit := true }).capture args kwargs := by
  have hd := hs.noDefaults hp
  unfold OpClass.capture OpClass.argspec
  simp only [hp, hd]
  split <;> rfl

theorem Storable.rebuild {f : Factory} {op : Op} (h : Storable f op) :
    op.cls.call [] op.configs = .ok op ∧ (op.configs.map Prod.fst).Nodup := by
  obtain ⟨args, kwargs, hk, hc⟩ := h.constructed
  rcases h.init with ho | hp
  · exact ⟨C65_rebuild op.cls h.signature ho args kwargs hk op hc,
      (C65_capture op.cls h.signature ho args kwargs hk op hc).2.1⟩
  · have hcfg : op.configs = [] ∧ op.cls.init [] = .ok op.run := by
      unfold OpClass.call at hc
      cases hb : op.cls.bindArgs args kwargs with
      | error e => rw [hb] at hc; cases hc
      | ok vals =>
        obtain ⟨h1, h2, rest, h3, rfl⟩ := bindArgs_ok hb
        rw [hp] at h1 h2 h3
        have ha : args = [] := List.length_eq_zero_iff.mp (by simpa using h1)
        subst ha
        have hkw : kwargs = [] := by
          cases kwargs with
          | nil => rfl
          | cons kv _ => exact absurd (h2 kv (List.mem_cons_self ..)) (by simp)
        subst hkw
        injection h3 with h3
        subst h3
        rw [hb] at hc
        simp only [Except.bind_ok] at hc
        rw [List.reverse_nil, List.append_nil] at hc
        cases hr : op.cls.init [] with
        | error e => rw [hr] at hc; cases hc
        | ok run =>
          rw [hr] at hc
          injection hc with hc
          have h1 : op.configs = op.cls.capture [] [] := by rw [← hc]
          have h2 : op.run = run := by rw [← hc]
          have hd := h.signature.noDefaults hp
          refine ⟨?_, by rw [h2]⟩
          rw [h1]
          unfold OpClass.capture OpClass.argspec
          simp only [hp, hd]
          split <;> rfl
    refine ⟨?_, by rw [hcfg.1]; exact List.nodup_nil⟩
    have hd := h.signature.noDefaults hp
    have hb : op.cls.bindArgs [] [] = .ok [] := by
      unfold OpClass.bindArgs
      simp [hp]
      rfl
    have hcap : op.cls.capture [] [] = [] := by
      unfold OpClass.capture OpClass.argspec
      simp only [hp, hd]
      split <;> rfl
    rw [hcfg.1]
    unfold OpClass.call
    rw [hb]
    simp only [Except.bind_ok]
    rw [hcfg.2]
    simp only [Except.bind_ok]
    rw [hcap]
    show Except.ok _ = _
    congr 1
    cases op with
    | mk cls configs run =>
      obtain ⟨hx, _⟩ := hcfg
      dsimp only at hx
      subst hx
      rfl

theorem Storable.plainDict {f : Factory} {op : Op} (h : Storable f op) : Plain op.toDict := by
  unfold Op.toDict
  refine Plain.dict _ ?_ ?_
  · simp only [List.map_cons, List.map_nil]; decide
  · intro kv hkv
    simp only [List.mem_cons, List.not_mem_nil, or_false] at hkv
    rcases hkv with rfl | rfl
    · exact Plain.str _
    · exact Plain.dict _ h.rebuild.2 h.plain

theorem Storable.fromDict {f : Factory} {op : Op} (h : Storable f op) : Op.fromDict f op.toDict = .ok op := by
  unfold Op.fromDict Op.toDict
  have e1 : PyVal.getItem (.dict [("op_name".toList, .str op.cls.name), ("op_kwargs".toList, .dict op.configs)])
      "op_name".toList = .ok (.str op.cls.name) := by
    unfold PyVal.getItem
    simp [dictGet]
  have e2 : PyVal.getItem (.dict [("op_name".toList, .str op.cls.name), ("op_kwargs".toList, .dict op.configs)])
      "op_kwargs".toList = .ok (.dict op.configs) := by
    unfold PyVal.getItem
    have : ("op_name".toList : Str) ≠ "op_kwargs".toList := by decide
    simp [dictGet, this]
  rw [e1]
  simp only [Except.bind_ok]
  rw [e2]
  simp only [Except.bind_ok]
  unfold Factory.getVal
  dsimp only
  rw [h.registered]
  simp only [Except.bind_ok]
  exact h.rebuild.1

/-- C66: an operator is restored from its serialized text: same class, same configs, same behaviour. -/
theorem C66_operator (f : Factory) (op : Op) (h : Storable f op) : Op.deserialize f op.serialize = .ok op := by
  unfold Op.deserialize Op.serialize
  rw [Json.loads_dumps _ _ _ h.plainDict]
  exact h.fromDict

/-- C66: and the restored operator compares equal. -/
theorem C66_operator_eq (f : Factory) (op op' : Op) (h : Storable f op)
    (hd : Op.deserialize f op.serialize = .ok op') : op'.eq op = true ∧ op'.transform = op.transform := by
  rw [C66_operator f op h] at hd
  injection hd with hd
  subst hd
  refine ⟨?_, rfl⟩
  unfold Op.eq
  simp only [beq_self_eq_true, Bool.true_and]
  exact (WellKeyed.dict _ h.rebuild.2 (fun kv hkv => (h.plain kv hkv).wellKeyed)).eq_refl

/-- An operator for the examples. -/
def exPadOp : Op where
  cls := exPad
  configs := [("maxlen".toList, .int 3), ("pad_token".toList, .str "<pad>".toList)]
  run := fun s => .ok (s, Aligner.null s.length s.length)

theorem exPadOp_storable : Storable [("Pad".toList, exPad)] exPadOp where
  registered := rfl
  signature := exPad_signature
  init := Or.inl rfl
  constructed := ⟨[.int 3], [], List.nodup_nil, rfl⟩
  plain := by
    intro kv hkv
    simp only [exPadOp, List.mem_cons, List.not_mem_nil, or_false] at hkv
    rcases hkv with rfl | rfl
    · exact Plain.int _
    · exact Plain.str _

example : Op.deserialize [("Pad".toList, exPad)] exPadOp.serialize = .ok exPadOp :=
  C66_operator _ _ exPadOp_storable

/-- One stored step: the text written by the current version, or the dict written by old versions. -/
def StepText (op : Op) (v : PyVal) : Prop := v = .str op.serialize ∨ v = op.toDict

theorem restoreStep_ok {f : Factory} {op : Op} (h : Storable f op) {v : PyVal} (hv : StepText op v) :
    Pipe.restoreStep f v = .ok op := by
  rcases hv with rfl | rfl
  · exact C66_operator f op h
  · exact h.fromDict

theorem addOp_none_ok (p : Pipe) (op : Op) (ops : List Op) (h : WellTyped (p.steps ++ op :: ops)) :
    p.addOp op none = (⟨p.steps ++ [op], p.checkpoints⟩, .ok ()) := by
  unfold Pipe.addOp
  cases hl : p.steps.getLast? with
  | none => rfl
  | some last =>
    obtain ⟨init, hi⟩ := List.getLast?_eq_some_iff.mp hl
    have := h init.length last op (by rw [hi]; simp) (by
      rw [hi, List.getElem?_append_right (by simp)]; simp)
    dsimp only
    rw [if_neg (by simp [this])]
    rfl

theorem restoreSteps_ok (f : Factory) (ops : List Op) (vs : List PyVal) (p : Pipe)
    (hlen : vs.length = ops.length) (hv : ∀ (i : Nat) op v, ops[i]? = some op → vs[i]? = some v → StepText op v)
    (hs : ∀ op ∈ ops, Storable f op) (hw : WellTyped (p.steps ++ ops)) :
    Pipe.restoreSteps f vs p = .ok ⟨p.steps ++ ops, p.checkpoints⟩ := by
  induction ops generalizing vs p with
  | nil =>
    have : vs = [] := List.length_eq_zero_iff.mp (by simpa using hlen)
    subst this
    simp [Pipe.restoreSteps]
  | cons op ops ih =>
    cases vs with
    | nil => cases hlen
    | cons v vs =>
      unfold Pipe.restoreSteps
      rw [restoreStep_ok (hs op (List.mem_cons_self ..)) (hv 0 op v rfl rfl)]
      simp only [Except.bind_ok]
      rw [addOp_none_ok p op ops hw]
      dsimp only
      rw [ih vs _ (by simpa using hlen) (fun i o w ho hw => hv (i + 1) o w ho hw)
        (fun o ho => hs o (List.mem_cons_of_mem _ ho)) (by simpa using hw)]
      simp

theorem checkpointsOf_ok (cks : List (Str × Int)) :
    Pipe.checkpointsOf (.dict (cks.map fun kv => (kv.1, .int kv.2))) = .ok cks := by
  unfold Pipe.checkpointsOf
  dsimp only
  induction cks with
  | nil => rfl
  | cons kv cks ih =>
    rw [List.map_cons, List.mapM_cons, ih]
    rfl

/-- C66: a bundle whose steps are stored as texts or as dicts, in any mixture, is loaded as the pipe it stands
for. -/
theorem C66_bundle (f : Factory) (p : Pipe) (hw : WellTyped p.steps) (hs : ∀ op ∈ p.steps, Storable f op)
    (hk : (p.checkpoints.map Prod.fst).Nodup) (vs : List PyVal) (hlen : vs.length = p.steps.length)
    (hv : ∀ (i : Nat) op v, p.steps[i]? = some op → vs[i]? = some v → StepText op v) (a : Bool) (ind : Json.Layout) :
    Pipe.deserialize f (Json.dumps a ind (.dict [("steps".toList, .list vs),
      ("checkpoints".toList, .dict (p.checkpoints.map fun kv => (kv.1, .int kv.2)))])) = .ok p := by
  have hplain : Plain (.dict [("steps".toList, .list vs),
      ("checkpoints".toList, .dict (p.checkpoints.map fun kv => (kv.1, .int kv.2)))]) := by
    refine Plain.dict _ (by simp only [List.map_cons, List.map_nil]; decide) ?_
    intro kv hkv
    simp only [List.mem_cons, List.not_mem_nil, or_false] at hkv
    rcases hkv with rfl | rfl
    · refine Plain.list _ ?_
      intro v hm
      obtain ⟨i, hi⟩ := List.getElem?_of_mem hm
      have hlt : i < p.steps.length := by rw [← hlen]; exact (List.getElem?_eq_some_iff.mp hi).1
      have hop := List.getElem?_eq_getElem hlt
      rcases hv i _ v hop hi with rfl | rfl
      · exact Plain.str _
      · exact (hs _ (List.mem_of_getElem? hop)).plainDict
    · refine Plain.dict _ ?_ ?_
      · rw [List.map_map]; exact hk
      · intro kv hkv
        obtain ⟨kv', _, rfl⟩ := List.mem_map.mp hkv
        exact Plain.int _
  unfold Pipe.deserialize
  rw [Json.loads_dumps _ _ _ hplain]
  simp only [Except.bind_ok]
  have e1 : PyVal.getItem (.dict [("steps".toList, .list vs),
      ("checkpoints".toList, .dict (p.checkpoints.map fun kv => (kv.1, .int kv.2)))]) "steps".toList =
      .ok (.list vs) := by
    unfold PyVal.getItem
    simp [dictGet]
  have e2 : PyVal.getItem (.dict [("steps".toList, .list vs),
      ("checkpoints".toList, .dict (p.checkpoints.map fun kv => (kv.1, .int kv.2)))]) "checkpoints".toList =
      .ok (.dict (p.checkpoints.map fun kv => (kv.1, .int kv.2))) := by
    unfold PyVal.getItem
    have : ("steps".toList : Str) ≠ "checkpoints".toList := by decide
    simp [dictGet, this]
  rw [e1]
  simp only [Except.bind_ok, Pipe.iterate]
  rw [restoreSteps_ok f p.steps vs Pipe.empty hlen hv hs (by simpa [Pipe.empty] using hw)]
  simp only [Except.bind_ok]
  rw [e2]
  simp only [Except.bind_ok]
  rw [checkpointsOf_ok]
  simp [Pipe.empty]

/-- C66: a pipe is restored from its serialized text: same steps, same checkpoints. -/
theorem C66_pipe (f : Factory) (p : Pipe) (hw : WellTyped p.steps) (hs : ∀ op ∈ p.steps, Storable f op)
    (hk : (p.checkpoints.map Prod.fst).Nodup) : Pipe.deserialize f p.serialize = .ok p := by
  unfold Pipe.serialize Pipe.toDict
  refine C66_bundle f p hw hs hk _ (by simp) ?_ false (some 2)
  intro i op v ho hv
  rw [List.getElem?_map, ho] at hv
  injection hv with hv
  exact Or.inl hv.symm

/-- C66: the restored pipe compares equal and behaves the same. -/
theorem C66_pipe_eq (f : Factory) (p q : Pipe) (hw : WellTyped p.steps) (hs : ∀ op ∈ p.steps, Storable f op)
    (hk : (p.checkpoints.map Prod.fst).Nodup) (h : Pipe.deserialize f p.serialize = .ok q) :
    q.eq p = true ∧ q.transformSequence = p.transformSequence ∧ q.checkpoints = p.checkpoints := by
  rw [C66_pipe f p hw hs hk] at h
  injection h with h
  subst h
  refine ⟨?_, rfl, rfl⟩
  unfold Pipe.eq
  simp only [beq_self_eq_true, Bool.true_and, Bool.and_eq_true, List.all_eq_true]
  constructor
  · intro ab hab
    obtain ⟨i, hi⟩ := List.getElem?_of_mem hab
    obtain ⟨a, b⟩ := ab
    rw [List.getElem?_zip_eq_some] at hi
    have : a = b := by
      have h1 := hi.1
      have h2 := hi.2
      dsimp only at h1 h2
      rw [h1] at h2
      injection h2
    subst this
    have ha := hs a (List.mem_of_getElem? hi.1)
    exact (C66_operator_eq f a a ha (C66_operator f a ha)).1
  · intro kv hkv
    rw [dictGet_of_mem _ _ _ hk hkv]
    simp

example : Pipe.deserialize [("Pad".toList, exPad)] (Pipe.serialize ⟨[exPadOp, exPadOp], [("x".toList, 1)]⟩) =
    .ok ⟨[exPadOp, exPadOp], [("x".toList, 1)]⟩ := by
  refine C66_pipe _ _ ?_ ?_ (by decide)
  · intro i a b h1 h2
    have ha : a ∈ [exPadOp, exPadOp] := List.mem_of_getElem? h1
    have hb : b ∈ [exPadOp, exPadOp] := List.mem_of_getElem? h2
    simp at ha hb
    subst ha; subst hb
    rfl
  · intro op ho
    simp at ho
    subst ho
    exact exPadOp_storable

/-- C66: stored steps that name no registered operator raise KeyError. -/
theorem C66_unknown_name (f : Factory) (name : Str) (kw : PyVal) (h : f.get name = .error .keyError) :
    Op.fromDict f (.dict [("op_name".toList, .str name), ("op_kwargs".toList, kw)]) = .error .keyError := by
  have e1 : PyVal.getItem (.dict [("op_name".toList, .str name), ("op_kwargs".toList, kw)])
      "op_name".toList = .ok (.str name) := by
    unfold PyVal.getItem
    simp [dictGet]
  have e2 : PyVal.getItem (.dict [("op_name".toList, .str name), ("op_kwargs".toList, kw)])
      "op_kwargs".toList = .ok kw := by
    unfold PyVal.getItem
    have : ("op_name".toList : Str) ≠ "op_kwargs".toList := by decide
    simp [dictGet, this]
  unfold Op.fromDict
  rw [e1]
  simp only [Except.bind_ok]
  rw [e2]
  simp only [Except.bind_ok]
  unfold Factory.getVal
  dsimp only
  rw [h]
  rfl

example : (Op.fromDict [] (.dict [("op_name".toList, .str "X".toList), ("op_kwargs".toList, .dict [])])).map
    (fun op => op.configs.length) = .error .keyError := by
  rw [C66_unknown_name [] _ _ rfl]
  rfl

/-- C66: steps that are neither text nor dict raise TypeError, whatever follows them. -/
theorem C66_bad_step (f : Factory) (p : Pipe) (hw : WellTyped p.steps) (hs : ∀ op ∈ p.steps, Storable f op)
    (v : PyVal) (hv : ∀ s, v ≠ .str s) (hv' : ∀ d, v ≠ .dict d) (rest : List PyVal) :
    Pipe.restoreSteps f (p.steps.map (fun op => .str op.serialize) ++ v :: rest) Pipe.empty =
      .error .typeError := by
  have gen : ∀ (ops : List Op) (q : Pipe), WellTyped (q.steps ++ ops) → (∀ op ∈ ops, Storable f op) →
      Pipe.restoreSteps f (ops.map (fun op => .str op.serialize) ++ v :: rest) q = .error .typeError := by
    intro ops
    induction ops with
    | nil =>
      intro q _ _
      unfold Pipe.restoreSteps Pipe.restoreStep
      cases v <;> first | rfl | exact absurd rfl (hv _) | exact absurd rfl (hv' _)
    | cons op ops ih =>
      intro q hq ho
      rw [List.map_cons, List.cons_append]
      unfold Pipe.restoreSteps
      rw [restoreStep_ok (ho op (List.mem_cons_self ..)) (Or.inl rfl)]
      simp only [Except.bind_ok]
      rw [addOp_none_ok q op ops hq]
      exact ih _ (by simpa using hq) (fun o h => ho o (List.mem_cons_of_mem _ h))
  exact gen p.steps Pipe.empty (by simpa [Pipe.empty] using hw) hs

/-- C66: tuples do not survive serialization: they are loaded as lists. -/
theorem C66_tuple : ∃ (f : Factory) (op op' : Op), f.get op.cls.name = .ok op.cls ∧ Constructed op ∧
    Op.deserialize f op.serialize = .ok op' ∧ op'.eq op = false := by
  refine ⟨[("Pad".toList, exPad)],
    { exPadOp with configs := [("maxlen".toList, .tuple [.int 3]), ("pad_token".toList, .str "<pad>".toList)] },
    { exPadOp with configs := [("maxlen".toList, .list [.int 3]), ("pad_token".toList, .str "<pad>".toList)] },
    rfl, ⟨[.tuple [.int 3]], [], List.nodup_nil, rfl⟩, ?_, rfl⟩
  have : Op.serialize { exPadOp with
        configs := [("maxlen".toList, .tuple [.int 3]), ("pad_token".toList, .str "<pad>".toList)] } =
      Op.serialize { exPadOp with
        configs := [("maxlen".toList, .list [.int 3]), ("pad_token".toList, .str "<pad>".toList)] } := rfl
  rw [this]
  refine C66_operator _ _ ⟨rfl, exPad_signature, Or.inl rfl, ⟨[.list [.int 3]], [], List.nodup_nil, rfl⟩, ?_⟩
  intro kv hkv
  simp only [List.mem_cons, List.not_mem_nil, or_false] at hkv
  rcases hkv with rfl | rfl
  · exact Plain.list _ (fun v hv => by simp at hv; subst hv; exact Plain.int _)
  · exact Plain.str _

/-! ### C67 -/

/-- The registry after a history of `register` calls. -/
def registerAll (f : Factory) (regs : List (Str × OpClass)) : Factory :=
  regs.foldl (fun f r => (f.register r.1 r.2).1) f

/-- C67: lookup returns the class that was registered first under the name; names never registered raise
KeyError. -/
theorem C67_lookup (regs : List (Str × OpClass)) (name : Str) :
    (∀ c, (registerAll [] regs).get name = .ok c ↔
      ∃ pre post, regs = pre ++ (name, c) :: post ∧ name ∉ pre.map Prod.fst) ∧
    ((registerAll [] regs).get name = .error .keyError ↔ name ∉ regs.map Prod.fst) := by
  have gen : ∀ (regs : List (Str × OpClass)) (f : Factory),
      dictGet (registerAll f regs) name =
        match dictGet f name with
        | some c => some c
        | none => dictGet regs name := by
    intro regs
    induction regs with
    | nil =>
      intro f
      show dictGet f name = _
      cases dictGet f name <;> rfl
    | cons r regs ih =>
      intro f
      obtain ⟨k, c⟩ := r
      show dictGet (registerAll (f.register k c).1 regs) name = _
      rw [ih]
      unfold Factory.register
      cases hk : dictGet f k with
      | some d =>
        dsimp only
        cases hn : dictGet f name with
        | some e => rfl
        | none =>
          dsimp only
          have : k ≠ name := by rintro rfl; rw [hk] at hn; cases hn
          simp [dictGet, this]
      | none =>
        dsimp only
        rw [dictGet_dictSet]
        by_cases he : k = name
        · subst he
          rw [hk]
          simp [dictGet]
        · rw [if_neg he]
          cases dictGet f name with
          | some e => rfl
          | none => simp [dictGet, he]
  have hget : dictGet (registerAll [] regs) name = dictGet regs name := gen regs []
  have hsplit : ∀ (regs : List (Str × OpClass)) (c : OpClass), dictGet regs name = some c ↔
      ∃ pre post, regs = pre ++ (name, c) :: post ∧ name ∉ pre.map Prod.fst := by
    intro regs c
    induction regs with
    | nil =>
      constructor
      · intro h; cases h
      · rintro ⟨pre, post, h, _⟩; simp at h
    | cons r regs ih =>
      obtain ⟨k, d⟩ := r
      simp only [dictGet]
      by_cases he : k = name
      · subst he
        rw [if_pos rfl]
        constructor
        · intro h
          injection h with h
          subst h
          exact ⟨[], regs, rfl, by simp⟩
        · rintro ⟨pre, post, h, hn⟩
          cases pre with
          | nil => injection h with h _; injection h with _ h; rw [h]
          | cons x pre =>
            injection h with h _
            subst h
            exact absurd (by simp) hn
      · rw [if_neg he, ih]
        constructor
        · rintro ⟨pre, post, h, hn⟩
          exact ⟨(k, d) :: pre, post, by rw [h]; rfl, by
            rw [List.map_cons, List.mem_cons, not_or]; exact ⟨fun e => he e.symm, hn⟩⟩
        · rintro ⟨pre, post, h, hn⟩
          cases pre with
          | nil => injection h with h _; injection h with h _; exact absurd h he
          | cons x pre =>
            injection h with _ h
            exact ⟨pre, post, h, fun hm => hn (by rw [List.map_cons]; exact List.mem_cons_of_mem _ hm)⟩
  unfold Factory.get
  rw [hget]
  constructor
  · intro c
    rw [← hsplit]
    cases dictGet regs name with
    | none => constructor <;> (intro h; cases h)
    | some d => constructor <;> (intro h; injection h with h; rw [h])
  · rw [← dictGet_none]
    cases dictGet regs name with
    | none => constructor <;> (intro _; rfl)
    | some d => constructor <;> (intro h; cases h)

example : (registerAll [] [("A".toList, exPad), ("A".toList, { exPad with params := [] })]).get "A".toList =
    .ok exPad :=
  ((C67_lookup _ _).1 exPad).mpr ⟨[], _, rfl, by simp⟩

/-- C67: registering a name again raises KeyError and changes nothing; a new name is added. -/
theorem C67_register (f : Factory) (name : Str) (c : OpClass) :
    (name ∈ f.map Prod.fst → f.register name c = (f, .error .keyError)) ∧
      (name ∉ f.map Prod.fst → f.register name c = (f ++ [(name, c)], .ok ())) := by
  unfold Factory.register
  constructor
  · intro h
    cases hg : dictGet f name with
    | none => exact absurd h ((dictGet_none _ _).mp hg)
    | some d => rfl
  · intro h
    rw [(dictGet_none _ _).mpr h]
    dsimp only
    rw [dictSet_not_mem _ _ _ h]

example : (Factory.register [("A".toList, exPad)] "A".toList exPad).2 = .error .keyError :=
  congrArg Prod.snd ((C67_register [("A".toList, exPad)] "A".toList exPad).1 (by decide))

end Uttut
