import Verif.Spec.Loaded
import Verif.Props.Equality
import Verif.Props.Load
import Verif.Props.Stored
import Verif.Props.Ordinal

/-! C94: pipes loaded with anything as checkpoints. -/

namespace Uttut

open Spec Spec.JsonText

theorem asInt_noNumber {v : PyVal} (h : NoNumber v) : v.asInt = .error .typeError := by
  cases v with
  | int j => exact absurd (.int j) (h j)
  | bool b => cases b <;> exact absurd (by constructor) (h _)
  | _ => rfl

theorem number_or (v : PyVal) : (∃ i, IsNumber v i) ∨ NoNumber v := by
  by_cases h : ∃ i, IsNumber v i
  · exact .inl h
  · exact .inr fun i hi => h ⟨i, hi⟩

theorem str_eq_mem (l : List PyVal) (name : Str) : l.any (PyVal.eq (.str name)) = true ↔ .str name ∈ l := by
  rw [List.any_eq_true]
  constructor
  · rintro ⟨v, hv, h⟩
    cases v with
    | str s =>
      have : name = s := by simpa [PyVal.eq] using h
      rwa [this]
    | _ => simp [PyVal.eq] at h
  · intro h
    exact ⟨_, h, by simp [PyVal.eq]⟩

/-! ### Loading -/

/-- C94: a text loads exactly when it is JSON for an object with steps that describe operators fitting together, and with
the key `checkpoints`; whatever value is there becomes the checkpoints. -/
theorem C94_loads (f : Factory) (text : Str) (p : LPipe) :
    LPipe.deserialize f text = .ok p ↔ ∃ v steps infos, IsJson text v ∧ Entry v "steps" steps ∧
      Elements steps infos ∧ DescribesAll f infos p.steps ∧ WellTyped p.steps ∧ Entry v "checkpoints" p.checkpoints := by
  simp only [← C78_json]
  constructor
  · intro h
    unfold LPipe.deserialize at h
    obtain ⟨v, h1, h⟩ := bind_eq_ok h
    obtain ⟨steps, h2, h⟩ := bind_eq_ok h
    obtain ⟨infos, h3, h⟩ := bind_eq_ok h
    obtain ⟨q, h4, h⟩ := bind_eq_ok h
    obtain ⟨c, h5, h⟩ := bind_eq_ok h
    injection h with h
    subst h
    obtain ⟨ops, g1, rfl, g3⟩ := (restoreSteps_iff f infos _ q wellTyped_nil).mp h4
    exact ⟨v, steps, infos, h1, getItem_iff.mp h2, (iterate_iff _ _).mp h3, g1, g3, getItem_iff.mp h5⟩
  · rintro ⟨v, steps, infos, h1, h2, h3, h4, h5, h6⟩
    unfold LPipe.deserialize
    rw [h1, Except.bind_ok, getItem_iff.mpr h2, Except.bind_ok, (iterate_iff _ _).mpr h3, Except.bind_ok,
      (restoreSteps_iff f infos Pipe.empty ⟨p.steps, []⟩ wellTyped_nil).mpr ⟨p.steps, h4, rfl, h5⟩, Except.bind_ok,
      getItem_iff.mpr h6, Except.bind_ok]
    rfl

theorem checkpointsOf_dict (d : List (Str × PyVal)) :
    (∃ x, Pipe.checkpointsOf (.dict d) = .ok x) ∨ Pipe.checkpointsOf (.dict d) = .error .typeError := by
  unfold Pipe.checkpointsOf
  dsimp only
  induction d with
  | nil => exact .inl ⟨[], rfl⟩
  | cons kv d ih =>
    rw [List.mapM_cons]
    obtain ⟨k, w⟩ := kv
    cases w with
    | int i =>
      rcases ih with ⟨x, h⟩ | h
      · rw [h]; exact .inl ⟨_, rfl⟩
      · rw [h]; exact .inr rfl
    | _ => exact .inr rfl

/-- C94: loading as in C78 and loading with any checkpoints differ in nothing but the texts whose checkpoints are no dict
of ints: those load. In particular the exceptions are those of C78. -/
theorem C94_load_agrees (f : Factory) (text : Str) :
    (∃ p, Pipe.deserialize f text = .ok p ∧ LPipe.deserialize f text = .ok (loaded p)) ∨
    (∃ e, Pipe.deserialize f text = .error e ∧ LPipe.deserialize f text = .error e) ∨
    ∃ q, LPipe.deserialize f text = .ok q ∧ (∀ p, q ≠ loaded p) ∧ Pipe.deserialize f text = .error .typeError := by
  unfold Pipe.deserialize LPipe.deserialize
  cases Json.loads text with
  | error e => exact .inr (.inl ⟨e, rfl, rfl⟩)
  | ok v =>
    simp only [Except.bind_ok]
    cases v.getItem "steps".toList with
    | error e => exact .inr (.inl ⟨e, rfl, rfl⟩)
    | ok steps =>
      simp only [Except.bind_ok]
      cases Pipe.iterate steps with
      | error e => exact .inr (.inl ⟨e, rfl, rfl⟩)
      | ok infos =>
        simp only [Except.bind_ok]
        cases Pipe.restoreSteps f infos Pipe.empty with
        | error e => exact .inr (.inl ⟨e, rfl, rfl⟩)
        | ok q =>
          simp only [Except.bind_ok]
          cases v.getItem "checkpoints".toList with
          | error e => exact .inr (.inl ⟨e, rfl, rfl⟩)
          | ok c =>
            simp only [Except.bind_ok]
            cases hc : Pipe.checkpointsOf c with
            | ok cks =>
              refine .inl ⟨_, rfl, ?_⟩
              rw [(checkpointsOf_iff _ _).mp hc]
              rfl
            | error e =>
              refine .inr (.inr ⟨_, rfl, ?_, ?_⟩)
              · intro p hp
                injection hp with _ hp
                rw [(checkpointsOf_iff _ _).mpr hp] at hc
                cases hc
              · have : e = .typeError := by
                  cases c with
                  | dict d =>
                    rcases checkpointsOf_dict d with ⟨x, h⟩ | h
                    · rw [h] at hc; cases hc
                    · rw [h] at hc; injection hc with hc; exact hc.symm
                  | _ => injection hc with hc; exact hc.symm
                rw [this]
                rfl

theorem entry_plain {v w : PyVal} {key : String} (hv : Plain v) (h : Entry v key w) : Plain w := by
  obtain ⟨pre, post, rfl, _⟩ := h
  cases hv with
  | dict _ _ hd => exact hd (key.toList, w) (by simp)

theorem json_plain {text : Str} {v : PyVal} (h : IsJson text v) : Plain v := by
  obtain ⟨_, _, _, _, _, ht, _⟩ := h
  exact text_plain ht

theorem defaults_plain (env : Env) : ∀ c ∈ Builtin.all env, ∀ v ∈ c.defaults, Plain v := by
  intro c hc v hv
  simp only [Builtin.all, Builtin.concrete, List.cons_append, List.nil_append, List.mem_cons, List.not_mem_nil, or_false] at hc
  rcases hc with rfl | rfl | rfl | rfl | rfl | rfl | rfl | rfl | rfl | rfl | rfl | rfl | rfl | rfl | rfl | rfl | rfl | rfl | rfl |
    rfl | rfl | rfl | rfl | rfl | rfl | rfl | rfl | rfl | rfl | rfl | rfl <;>
  first
    | (change v ∈ [] at hv; cases hv)
    | (change v ∈ [_] at hv
       rw [List.mem_singleton] at hv
       subst hv
       constructor)
    | (change v ∈ [_, _] at hv
       simp only [List.mem_cons, List.not_mem_nil, or_false] at hv
       rcases hv with rfl | rfl <;> constructor)

/-- An operator described in JSON is a built-in operator with JSON arguments. -/
theorem described_plain {env : Env} {v : PyVal} {op : Op} (hv : Plain v) (h : Describes (Builtin.registry env) v op) :
    IsBuiltin env op ∧ ∀ kv ∈ op.configs, Plain kv.2 := by
  obtain ⟨name, kw, c, _, h2, h3, h4⟩ := h
  obtain ⟨hc, _⟩ := registry_get h3
  have hkw := entry_plain hv h2
  have hk : (kw.map Prod.fst).Nodup := by cases hkw with | dict _ h _ => exact h
  have hp : ∀ kv ∈ kw, Plain kv.2 := by cases hkw with | dict _ _ h => exact h
  refine ⟨⟨c, hc, [], kw, hk, h4⟩, ?_⟩
  obtain ⟨hs, hi⟩ := C66_signatures env c hc
  obtain ⟨vals, g1, h4⟩ := bind_eq_ok h4
  have h5 := bind_eq_ok h4
  clear h4
  obtain ⟨run, hrun, h5⟩ := h5
  injection h5 with h5
  subst h5
  clear hrun
  have hvals : ∀ v ∈ vals, Plain v := by
    unfold OpClass.bindArgs at g1
    split at g1
    · cases g1
    · split at g1
      · cases g1
      · have g5 := bind_eq_ok g1
        clear g1
        obtain ⟨rest, g2, g5⟩ := g5
        injection g5 with g5
        subst g5
        rw [List.nil_append]
        generalize c.params.drop ([] : List PyVal).length = ps at g2
        clear h2 h3 hkw hs hi
        induction ps generalizing rest with
        | nil => injection g2 with g2; subst g2; intro v hv; cases hv
        | cons x ps ih =>
          rw [List.mapM_cons] at g2
          obtain ⟨y, g3, g2⟩ := bind_eq_ok g2
          obtain ⟨ys, g4, g2⟩ := bind_eq_ok g2
          injection g2 with g2
          subst g2
          refine List.forall_mem_cons.mpr ⟨?_, ih ys g4⟩
          unfold OpClass.bindParam at g3
          split at g3
          · rename_i w hw
            injection g3 with g3
            subst g3
            exact hp _ (dictGet_mem _ _ _ hw)
          · split at g3
            · rename_i w hw
              injection g3 with g3
              subst g3
              have := List.of_mem_zip (dictGet_mem _ _ _ hw)
              exact defaults_plain env c hc _ (List.mem_reverse.mp this.2)
            · cases g3
  exact fun kv hkv => hvals _ (captured_mem c hs hi [] kw hk vals g1 kv hkv)

theorem elements_plain {v : PyVal} {l : List PyVal} (hv : Plain v) (h : Elements v l) : ∀ w ∈ l, Plain w := by
  cases h with
  | list l => cases hv with | list _ h => exact h
  | tuple l => cases hv
  | chars s => intro w hw; obtain ⟨c, _, rfl⟩ := List.mem_map.mp hw; exact .str _
  | keys d => intro w hw; obtain ⟨c, _, rfl⟩ := List.mem_map.mp hw; exact .str _

theorem describesAll_plain {env : Env} {l : List PyVal} {ops : List Op} (hl : ∀ w ∈ l, Plain w)
    (h : DescribesAll (Builtin.registry env) l ops) : ∀ op ∈ ops, IsBuiltin env op ∧ ∀ kv ∈ op.configs, Plain kv.2 := by
  induction h with
  | nil => intro op h; cases h
  | cons h h' _ ih =>
    refine List.forall_mem_cons.mpr ⟨?_, ih fun w hw => hl w (List.mem_cons_of_mem _ hw)⟩
    refine described_plain ?_ h'
    cases h with
    | object d => exact hl _ (List.mem_cons_self ..)
    | text t v h => exact json_plain h

/-- C94: a pipe of built-in operators with JSON arguments that fit together, with any JSON value as checkpoints, loads
back as the same pipe. -/
theorem C94_round_trip (env : Env) (p : LPipe) (hops : ∀ op ∈ p.steps, IsBuiltin env op ∧ ∀ kv ∈ op.configs, Plain kv.2)
    (h5 : WellTyped p.steps) (hplain : Plain p.checkpoints) :
    LPipe.deserialize (Builtin.registry env) p.serialize = .ok p := by
  have hw : Plain (.dict [("steps".toList, .list (p.steps.map fun op => .str op.serialize)),
      ("checkpoints".toList, p.checkpoints)]) := by
    refine .dict _ (by simp) fun kv hkv => ?_
    simp only [List.mem_cons, List.not_mem_nil, or_false] at hkv
    rcases hkv with rfl | rfl
    · refine .list _ fun v hv => ?_
      obtain ⟨op, _, rfl⟩ := List.mem_map.mp hv
      exact .str _
    · exact hplain
  have e1 : Entry (.dict [("steps".toList, .list (p.steps.map fun op => .str op.serialize)),
      ("checkpoints".toList, p.checkpoints)]) "steps" (.list (p.steps.map fun op => .str op.serialize)) :=
    ⟨[], _, rfl, by simp⟩
  have e2 : Entry (.dict [("steps".toList, .list (p.steps.map fun op => .str op.serialize)),
      ("checkpoints".toList, p.checkpoints)]) "checkpoints" p.checkpoints := ⟨[_], [], rfl, by simp⟩
  unfold LPipe.deserialize LPipe.serialize
  rw [Json.loads_dumps _ _ _ hw, Except.bind_ok, getItem_iff.mpr e1, Except.bind_ok,
    (iterate_iff _ _).mpr (.list _), Except.bind_ok]
  have := restoreSteps_ok (Builtin.registry env) p.steps (p.steps.map fun op => .str op.serialize) Pipe.empty (by simp)
    (by
      intro i op v ho hv
      rw [List.getElem?_map, ho] at hv
      injection hv with hv
      exact Or.inl hv.symm)
    (fun op ho => builtin_storable env op (hops op ho).1 (hops op ho).2) (by simpa [Pipe.empty] using h5)
  rw [this, Except.bind_ok, getItem_iff.mpr e2]
  rfl

/-- C94: every loaded pipe is one of built-in operators with JSON arguments that fit together; saved again, it loads as the
same pipe, with the same checkpoints, whatever they are. -/
theorem C94_saved_again (env : Env) (text : Str) (p : LPipe) (h : LPipe.deserialize (Builtin.registry env) text = .ok p) :
    (∀ op ∈ p.steps, IsBuiltin env op ∧ ∀ kv ∈ op.configs, Plain kv.2) ∧ WellTyped p.steps ∧ Plain p.checkpoints ∧
    LPipe.deserialize (Builtin.registry env) p.serialize = .ok p := by
  obtain ⟨v, steps, infos, h1, h2, h3, h4, h5, h6⟩ := (C94_loads _ _ _).mp h
  have hplain : Plain p.checkpoints := entry_plain (json_plain h1) h6
  have hops := describesAll_plain (elements_plain (entry_plain (json_plain h1) h2) h3) h4
  exact ⟨hops, h5, hplain, C94_round_trip env p hops h5 hplain⟩

/-! ### Using a loaded pipe -/

/-- C94: the checkpoints are of no importance for what a loaded pipe does with texts, lists and data: two texts that have
the same under `steps` load as pipes that do the same. -/
theorem C94_transform (f : Factory) (text text' : Str) (v v' steps : PyVal) (p q : LPipe) (hv : IsJson text v)
    (hv' : IsJson text' v') (hs : Entry v "steps" steps) (hs' : Entry v' "steps" steps)
    (hp : LPipe.deserialize f text = .ok p) (hq : LPipe.deserialize f text' = .ok q) :
    (∀ s, p.transformSequence s = q.transformSequence s) ∧ (∀ d, p.transform d = q.transform d) ∧
    p.inputType = q.inputType ∧ p.outputType = q.outputType := by
  have hsteps : p.steps = q.steps := by
    rw [← C78_json] at hv hv'
    unfold LPipe.deserialize at hp hq
    rw [hv, Except.bind_ok, getItem_iff.mpr hs, Except.bind_ok] at hp
    rw [hv', Except.bind_ok, getItem_iff.mpr hs', Except.bind_ok] at hq
    obtain ⟨infos, h1, hp⟩ := bind_eq_ok hp
    rw [h1, Except.bind_ok] at hq
    obtain ⟨r, h2, hp⟩ := bind_eq_ok hp
    rw [h2, Except.bind_ok] at hq
    obtain ⟨c, _, hp⟩ := bind_eq_ok hp
    obtain ⟨c', _, hq⟩ := bind_eq_ok hq
    injection hp with hp
    injection hq with hq
    subst hp hq
    rfl
  obtain ⟨ps, pc⟩ := p
  obtain ⟨qs, qc⟩ := q
  dsimp only at hsteps
  subst hsteps
  exact ⟨fun _ => rfl, fun _ => rfl, rfl, rfl⟩

/-- C94: asking for a checkpoint. In a dict, a missing name is a KeyError, a position is looked up (IndexError if there is
none), anything else is a TypeError. A list or a text knows no positions: TypeError if the name occurs in it, KeyError
otherwise. Other values raise TypeError. -/
theorem C94_get (v : PyVal) (coll : List Seq) (name : Str) :
    (∀ d, v = .dict d →
      (name ∉ d.map Prod.fst → LPipe.get v coll name = .error .keyError) ∧
      (∀ w, (d.map Prod.fst).Nodup → (name, w) ∈ d →
        (NoNumber w → LPipe.get v coll name = .error .typeError) ∧
        ∀ i, IsNumber w i →
          (∀ s (k : Nat), coll[k]? = some s → i = k ∨ i = (k : Int) - coll.length → LPipe.get v coll name = .ok s) ∧
          (i < -(coll.length : Int) ∨ coll.length ≤ i → LPipe.get v coll name = .error .indexError))) ∧
    (Container v → (Mentions v name → LPipe.get v coll name = .error .typeError) ∧
      (¬ Mentions v name → LPipe.get v coll name = .error .keyError)) ∧
    (¬ Container v → NotObject v → LPipe.get v coll name = .error .typeError) := by
  refine ⟨?_, ?_, ?_⟩
  · rintro d rfl
    refine ⟨fun h => ?_, fun w hd hw => ?_⟩
    · have : ((d.map Prod.fst).contains name) = false := by simpa using h
      unfold LPipe.get
      simp only [PyVal.has, Except.bind_ok, this, if_true]
    · have hc : ((d.map Prod.fst).contains name) = true := by
        rw [List.contains_iff_mem]
        exact List.mem_map_of_mem hw
      have hg : PyVal.getItem (.dict d) name = .ok w := by
        unfold PyVal.getItem
        simp only [dictGet_of_mem _ _ _ hd hw]
      have key : LPipe.get (.dict d) coll name = (do
          let i ← w.asInt
          match (pyIndex? coll.length i).bind fun j => coll[j]? with
          | some s => .ok s
          | none => .error .indexError) := by
        unfold LPipe.get
        simp only [PyVal.has, Except.bind_ok, hc, Bool.true_eq_false, if_false, hg]
        rfl
      rw [key]
      refine ⟨fun h => by rw [asInt_noNumber h]; rfl, fun i hi => ?_⟩
      rw [(asInt_iff w i).mpr hi, Except.bind_ok]
      refine ⟨fun s k hk hik => ?_, fun hik => ?_⟩
      · have hlt : k < coll.length := (List.getElem?_eq_some_iff.mp hk).1
        have : pyIndex? coll.length i = some k := by
          unfold pyIndex?
          rcases hik with rfl | rfl
          · split_ifs <;> first | omega | (congr 1)
          · split_ifs <;> first | omega | (congr 1; omega)
        rw [this, Option.bind_some, hk]
      · have : pyIndex? coll.length i = none := by
          unfold pyIndex?
          split_ifs <;> first | omega | rfl
        rw [this]
        rfl
  · intro hv
    cases hv with
    | list l =>
      by_cases h : l.any (PyVal.eq (.str name)) = true
      · have hm := (str_eq_mem l name).mp h
        refine ⟨fun _ => ?_, fun hn => absurd (.list l name hm) hn⟩
        unfold LPipe.get
        simp only [PyVal.has, Except.bind_ok, h, Bool.true_eq_false, if_false]
        rfl
      · refine ⟨fun hm => ?_, fun _ => ?_⟩
        · cases hm with | list _ _ hm => exact absurd ((str_eq_mem l name).mpr hm) h
        · unfold LPipe.get
          simp only [PyVal.has, Except.bind_ok, Bool.not_eq_true _ ▸ h, if_true]
    | tuple l =>
      by_cases h : l.any (PyVal.eq (.str name)) = true
      · have hm := (str_eq_mem l name).mp h
        refine ⟨fun _ => ?_, fun hn => absurd (.tuple l name hm) hn⟩
        unfold LPipe.get
        simp only [PyVal.has, Except.bind_ok, h, Bool.true_eq_false, if_false]
        rfl
      · refine ⟨fun hm => ?_, fun _ => ?_⟩
        · cases hm with | tuple _ _ hm => exact absurd ((str_eq_mem l name).mpr hm) h
        · unfold LPipe.get
          simp only [PyVal.has, Except.bind_ok, Bool.not_eq_true _ ▸ h, if_true]
    | text s =>
      by_cases h : name <:+: s
      · refine ⟨fun _ => ?_, fun hn => absurd (.text s name h) hn⟩
        unfold LPipe.get
        simp only [PyVal.has, Except.bind_ok, h, decide_true, Bool.true_eq_false, if_false]
        rfl
      · refine ⟨fun hm => ?_, fun _ => ?_⟩
        · cases hm with | text _ _ hm => exact absurd hm h
        · unfold LPipe.get
          simp only [PyVal.has, Except.bind_ok, h, decide_false, if_true]
  · intro hc hn
    cases v with
    | dict d => exact absurd rfl (hn d)
    | list l => exact absurd (.list l) hc
    | tuple l => exact absurd (.tuple l) hc
    | str s => exact absurd (.text s) hc
    | _ => rfl

/-- `op` can follow the steps of the pipe. -/
theorem addOp_fits {p : LPipe} {op : Op} (h : ∀ last, p.steps.getLast? = some last → op.cls.inputType = last.cls.outputType)
    (ck : Option Str) : p.addOp op ck = p.push op ck := by
  unfold LPipe.addOp
  cases hl : p.steps.getLast? with
  | none => rfl
  | some last =>
    dsimp only
    rw [if_neg (by rw [h last hl]; exact fun h => h rfl)]

theorem has_container {v : PyVal} (hv : Container v) (name : Str) :
    ∃ has, v.has = .ok has ∧ (has name = true ↔ Mentions v name) ∧ ∀ n, v.setItem name n = .error .typeError := by
  cases hv with
  | list l =>
    refine ⟨_, rfl, ?_, fun _ => rfl⟩
    rw [str_eq_mem]
    exact ⟨.list l name, fun h => by cases h with | list _ _ h => exact h⟩
  | tuple l =>
    refine ⟨_, rfl, ?_, fun _ => rfl⟩
    rw [str_eq_mem]
    exact ⟨.tuple l name, fun h => by cases h with | tuple _ _ h => exact h⟩
  | text s =>
    refine ⟨_, rfl, ?_, fun _ => rfl⟩
    rw [decide_eq_true_iff]
    exact ⟨.text s name, fun h => by cases h with | text _ _ h => exact h⟩

theorem has_neither {v : PyVal} (h : ¬ Container v) (hn : NotObject v) : v.has = .error .typeError := by
  cases v with
  | dict d => exact absurd rfl (hn d)
  | list l => exact absurd (.list l) h
  | tuple l => exact absurd (.tuple l) h
  | str s => exact absurd (.text s) h
  | _ => rfl

/-- C94: `add_op`. An operator that does not fit changes nothing. One that fits is added, in every case. Without a name
that is all. With a name, a dict takes a new one, with the number of steps as its position, and raises KeyError for a known
one; a list or a text raises KeyError if the name occurs in it; everything else raises TypeError; and the checkpoints stay
what they are. -/
theorem C94_add (p : LPipe) (op : Op) :
    (∀ last ck, p.steps.getLast? = some last → op.cls.inputType ≠ last.cls.outputType →
      p.addOp op ck = (p, .error .typeError)) ∧
    ((∀ last, p.steps.getLast? = some last → op.cls.inputType = last.cls.outputType) →
      p.addOp op none = (⟨p.steps ++ [op], p.checkpoints⟩, .ok ()) ∧
      ∀ name,
        (∀ d, p.checkpoints = .dict d → name ∉ d.map Prod.fst →
          p.addOp op (some name) = (⟨p.steps ++ [op], .dict (d ++ [(name, .int (p.steps.length + 1))])⟩, .ok ())) ∧
        (∀ d, p.checkpoints = .dict d → name ∈ d.map Prod.fst →
          p.addOp op (some name) = (⟨p.steps ++ [op], p.checkpoints⟩, .error .keyError)) ∧
        (Mentions p.checkpoints name → p.addOp op (some name) = (⟨p.steps ++ [op], p.checkpoints⟩, .error .keyError)) ∧
        (NotObject p.checkpoints → ¬ Mentions p.checkpoints name →
          p.addOp op (some name) = (⟨p.steps ++ [op], p.checkpoints⟩, .error .typeError))) := by
  refine ⟨fun last ck hl hne => ?_, fun hfit => ?_⟩
  · unfold LPipe.addOp
    rw [hl]
    dsimp only
    rw [if_pos hne]
  · simp only [addOp_fits hfit]
    refine ⟨rfl, fun name => ⟨fun d hd hn => ?_, fun d hd hn => ?_, fun hm => ?_, fun hno hm => ?_⟩⟩
    · have hc : ((d.map Prod.fst).contains name) = false := by simpa using hn
      unfold LPipe.push
      simp only [hd, PyVal.has, hc, Bool.false_eq_true, if_false, PyVal.setItem]
      rw [dictSet_not_mem _ _ _ hn]
      simp
    · have hc : ((d.map Prod.fst).contains name) = true := by simpa using hn
      unfold LPipe.push
      simp only [hd, PyVal.has, hc, if_true]
    · have hcont : Container p.checkpoints := by
        generalize p.checkpoints = v at hm
        cases hm <;> constructor
      obtain ⟨has, h1, h2, _⟩ := has_container hcont name
      unfold LPipe.push
      simp only [h1, h2.mpr hm, if_true]
    · by_cases hcont : Container p.checkpoints
      · obtain ⟨has, h1, h2, h3⟩ := has_container hcont name
        have : has name = false := by
          rw [← Bool.not_eq_true]
          exact fun h => hm (h2.mp h)
        unfold LPipe.push
        simp only [h1, this, Bool.false_eq_true, if_false, h3]
      · unfold LPipe.push
        simp only [has_neither hcont hno]

theorem items_notObject {v : PyVal} (h : NotObject v) : v.items = .error .attributeError := by
  cases v with
  | dict d => exact absurd rfl (h d)
  | _ => rfl

theorem shifted_ok (n : Nat) (d : List (Str × PyVal)) (e : List (Str × Int)) (h : d.length = e.length)
    (hn : ∀ (j : Nat) kv ki, d[j]? = some kv → e[j]? = some ki → kv.1 = ki.1 ∧ IsNumber kv.2 ki.2) :
    LPipe.shifted n d = .ok (e.map fun ki => (ki.1, .int (ki.2 + n))) := by
  induction d generalizing e with
  | nil =>
    cases e with
    | nil => rfl
    | cons => cases h
  | cons kv d ih =>
    cases e with
    | nil => cases h
    | cons ki e =>
      obtain ⟨h1, h2⟩ := hn 0 kv ki rfl rfl
      have := ih e (by simpa using h) fun j a b ha hb => hn (j + 1) a b ha hb
      unfold LPipe.shifted at this ⊢
      rw [List.mapM_cons, this, (asInt_iff _ _).mpr h2, h1]
      rfl

theorem shifted_error (n : Nat) (d : List (Str × PyVal)) (h : ∃ kv ∈ d, NoNumber kv.2) :
    LPipe.shifted n d = .error .typeError := by
  induction d with
  | nil => obtain ⟨kv, hkv, _⟩ := h; cases hkv
  | cons kv d ih =>
    unfold LPipe.shifted at ih ⊢
    rw [List.mapM_cons]
    rcases number_or kv.2 with ⟨i, hi⟩ | hno
    · rw [(asInt_iff _ _).mpr hi, Except.bind_ok]
      have : ∃ kv ∈ d, NoNumber kv.2 := by
        obtain ⟨x, hx, hn⟩ := h
        rcases List.mem_cons.mp hx with rfl | hx
        · exact absurd hi (hn i)
        · exact ⟨x, hx, hn⟩
      rw [ih this]
      rfl
    · rw [asInt_noNumber hno]
      rfl

/-- C94: `+=` of two pipes whose types fit. Checkpoints that are no dict on either side raise AttributeError, a name in both
KeyError, and nothing changes. If a position of the second pipe is no number, TypeError is raised after its steps have been
added: the first pipe keeps them. Otherwise the names of the second pipe are added, with the number of all steps added to
their positions. -/
theorem C94_iadd (p q : LPipe) (t : SeqType) (ho : p.outputType = .ok t) (hi : q.inputType = .ok t) :
    (NotObject p.checkpoints ∨ NotObject q.checkpoints → p.iadd q = (p, .error .attributeError)) ∧
    ∀ d e, p.checkpoints = .dict d → q.checkpoints = .dict e →
      ((∃ name, name ∈ d.map Prod.fst ∧ name ∈ e.map Prod.fst) → p.iadd q = (p, .error .keyError)) ∧
      ((¬ ∃ name, name ∈ d.map Prod.fst ∧ name ∈ e.map Prod.fst) →
        ((∃ kv ∈ e, NoNumber kv.2) → p.iadd q = (⟨p.steps ++ q.steps, p.checkpoints⟩, .error .typeError)) ∧
        ∀ m : List (Str × Int), (e.map Prod.fst).Nodup → e.length = m.length →
          (∀ (j : Nat) kv ki, e[j]? = some kv → m[j]? = some ki → kv.1 = ki.1 ∧ IsNumber kv.2 ki.2) →
          p.iadd q = (⟨p.steps ++ q.steps, .dict (d ++ m.map fun ki =>
            (ki.1, .int (ki.2 + (p.steps.length + q.steps.length))))⟩, .ok ())) := by
  refine ⟨fun h => ?_, fun d e hd he => ?_⟩
  · unfold LPipe.iadd
    rw [ho, hi]
    dsimp only
    rw [if_neg fun h => h rfl]
    rcases h with h | h
    · rw [items_notObject h]
    · rw [items_notObject h]
      generalize p.checkpoints = v
      cases v <;> rfl
  · have hany : (d.any fun kv => (dictGet e kv.1).isSome) = true ↔ ∃ name, name ∈ d.map Prod.fst ∧ name ∈ e.map Prod.fst := by
      rw [List.any_eq_true]
      constructor
      · rintro ⟨kv, h1, h2⟩
        refine ⟨kv.1, List.mem_map_of_mem h1, ?_⟩
        by_contra hn
        rw [(dictGet_none _ _).mpr hn] at h2
        cases h2
      · rintro ⟨name, h1, h2⟩
        obtain ⟨kv, h3, rfl⟩ := List.mem_map.mp h1
        refine ⟨kv, h3, ?_⟩
        cases h4 : dictGet e kv.1 with
        | some _ => rfl
        | none => exact absurd h2 ((dictGet_none _ _).mp h4)
    have hp : p = ⟨p.steps, .dict d⟩ := by rw [← hd]
    have key : p.iadd q = if (d.any fun kv => (dictGet e kv.1).isSome) = true then (p, .error .keyError) else
        match LPipe.shifted (p.steps ++ q.steps).length e with
        | .error e => (⟨p.steps ++ q.steps, .dict d⟩, .error e)
        | .ok s => (⟨p.steps ++ q.steps, .dict (dictUpdate d s)⟩, .ok ()) := by
      unfold LPipe.iadd
      rw [ho, hi]
      dsimp only
      rw [if_neg fun h => h rfl, hd, he]
      rfl
    refine ⟨fun h => ?_, fun h => ⟨fun hno => ?_, fun m hk hl hn => ?_⟩⟩
    · rw [key, if_pos (hany.mpr h)]
    · rw [key, if_neg fun h' => h (hany.mp h'), shifted_error _ _ hno, hd]
    · rw [key, if_neg fun h' => h (hany.mp h'), shifted_ok _ e m hl hn]
      dsimp only
      have hkeys : m.map Prod.fst = e.map Prod.fst := by
        refine List.ext_getElem? fun j => ?_
        rw [List.getElem?_map, List.getElem?_map]
        cases h1 : m[j]? with
        | none =>
          have : e[j]? = none := by
            rw [List.getElem?_eq_none_iff] at h1 ⊢
            omega
          rw [this]
          rfl
        | some ki =>
          have hlt := (List.getElem?_eq_some_iff.mp h1).1
          have h2 : e[j]? = some e[j] := List.getElem?_eq_getElem (by omega)
          rw [h2]
          simp [(hn j _ _ h2 h1).1]
      rw [dictUpdate_fresh]
      · simp
      · simpa [Function.comp_def, hkeys] using hk
      · intro kv hkv
        obtain ⟨ki, hki, rfl⟩ := List.mem_map.mp hkv
        have hk' : ki.1 ∈ e.map Prod.fst := hkeys ▸ List.mem_map_of_mem hki
        exact fun h' => h ⟨ki.1, h', hk'⟩

/-- C94: `copy.copy` works for dicts and lists and raises AttributeError otherwise; `+` raises what copying raises, and else
what `+=` on the copy raises. -/
theorem C94_copy (p q : LPipe) :
    ((∃ d, p.checkpoints = .dict d) ∨ (∃ l, p.checkpoints = .list l) → p.copy = .ok p ∧
      (∀ r, p.iadd q = (r, .ok ()) → p.concat q = .ok r) ∧ ∀ r e, p.iadd q = (r, .error e) → p.concat q = .error e) ∧
    ((∀ d, p.checkpoints ≠ .dict d) → (∀ l, p.checkpoints ≠ .list l) →
      p.copy = .error .attributeError ∧ p.concat q = .error .attributeError) := by
  refine ⟨fun h => ?_, fun h1 h2 => ?_⟩
  · have hc : p.copy = .ok p := by
      obtain ⟨steps, v⟩ := p
      rcases h with ⟨d, rfl⟩ | ⟨l, rfl⟩ <;> rfl
    refine ⟨hc, fun r hr => ?_, fun r e hr => ?_⟩
    · unfold LPipe.concat
      rw [hc, Except.bind_ok, hr]
    · unfold LPipe.concat
      rw [hc, Except.bind_ok, hr]
  · have hc : p.copy = .error .attributeError := by
      obtain ⟨steps, v⟩ := p
      cases v with
      | dict d => exact absurd rfl (h1 d)
      | list l => exact absurd rfl (h2 l)
      | _ => rfl
    refine ⟨hc, ?_⟩
    unfold LPipe.concat
    rw [hc]
    rfl

theorem sliceCheckpoints_ok (a : Int) (d : List (Str × PyVal)) (e : List (Str × Int)) (h : d.length = e.length)
    (hn : ∀ (j : Nat) kv ki, d[j]? = some kv → e[j]? = some ki → kv.1 = ki.1 ∧ IsNumber kv.2 ki.2) :
    LPipe.sliceCheckpoints (some a) d =
      .ok ((e.filter fun ki => decide (ki.2 > a)).map fun ki => (ki.1, .int (ki.2 - a))) := by
  induction d generalizing e with
  | nil =>
    cases e with
    | nil => rfl
    | cons => cases h
  | cons kv d ih =>
    cases e with
    | nil => cases h
    | cons ki e =>
      obtain ⟨k, v⟩ := kv
      obtain ⟨h1, h2⟩ := hn 0 _ ki rfl rfl
      unfold LPipe.sliceCheckpoints
      dsimp only at h1 h2
      rw [(asInt_iff _ _).mpr h2]
      dsimp only
      rw [ih e (by simpa using h) fun j a b ha hb => hn (j + 1) a b ha hb, Except.bind_ok, h1]
      by_cases hgt : ki.2 > a
      · rw [if_pos hgt, List.filter_cons_of_pos (by simpa using hgt)]
        rfl
      · rw [if_neg hgt, List.filter_cons_of_neg (by simpa using hgt)]
        rfl

theorem sliceCheckpoints_error (start : Option Int) (d : List (Str × PyVal))
    (h : (∃ kv ∈ d, NoNumber kv.2) ∨ start = none ∧ d ≠ []) :
    LPipe.sliceCheckpoints start d = .error .typeError := by
  induction d with
  | nil =>
    rcases h with ⟨kv, hkv, _⟩ | ⟨_, h⟩
    · cases hkv
    · exact absurd rfl h
  | cons kv d ih =>
    obtain ⟨k, v⟩ := kv
    unfold LPipe.sliceCheckpoints
    rcases number_or v with ⟨i, hi⟩ | hno
    · rw [(asInt_iff _ _).mpr hi]
      cases start with
      | none => rfl
      | some a =>
        dsimp only
        rw [ih]
        · rfl
        · rcases h with ⟨x, hx, hn⟩ | ⟨h, _⟩
          · rcases List.mem_cons.mp hx with rfl | hx
            · exact absurd hi (hn i)
            · exact .inl ⟨x, hx, hn⟩
          · cases h
    · rw [asInt_noNumber hno]

/-- C94: slices. Step 0 raises ValueError; checkpoints that are no dict raise AttributeError; a dict with a position that is
no number, or with any name while the slice has no start, TypeError. Otherwise the names after the start stay, with the
start subtracted. -/
theorem C94_slice (p : LPipe) (start stop step : Option Int) :
    (step = some 0 → p.getSlice start stop step = .error .valueError) ∧
    (step ≠ some 0 → ∃ steps, sliceStep p.steps start stop step = .ok steps ∧
      (NotObject p.checkpoints → p.getSlice start stop step = .error .attributeError) ∧
      ∀ d, p.checkpoints = .dict d →
        ((∃ kv ∈ d, NoNumber kv.2) ∨ start = none ∧ d ≠ [] → p.getSlice start stop step = .error .typeError) ∧
        (d = [] → p.getSlice start stop step = .ok ⟨steps, .dict []⟩) ∧
        ∀ (a : Int) (m : List (Str × Int)), start = some a → d.length = m.length →
          (∀ (j : Nat) kv ki, d[j]? = some kv → m[j]? = some ki → kv.1 = ki.1 ∧ IsNumber kv.2 ki.2) →
          p.getSlice start stop step =
            .ok ⟨steps, .dict ((m.filter fun ki => decide (ki.2 > a)).map fun ki => (ki.1, .int (ki.2 - a)))⟩) := by
  refine ⟨fun h => ?_, fun h => ?_⟩
  · subst h
    rfl
  · have hs : ∃ steps, sliceStep p.steps start stop step = .ok steps := by
      unfold sliceStep
      split
      · exact absurd rfl h
      · exact ⟨_, rfl⟩
    obtain ⟨steps, hs⟩ := hs
    refine ⟨steps, hs, fun hn => ?_, fun d hd => ⟨fun he => ?_, fun he => ?_, fun a m ha hl hm => ?_⟩⟩
    · unfold LPipe.getSlice
      rw [hs, Except.bind_ok, items_notObject hn]
      rfl
    · unfold LPipe.getSlice
      rw [hs, Except.bind_ok, hd]
      show (LPipe.sliceCheckpoints start d >>= _) = _
      rw [sliceCheckpoints_error start d he]
      rfl
    · unfold LPipe.getSlice
      rw [hs, Except.bind_ok, hd, he]
      rfl
    · unfold LPipe.getSlice
      rw [hs, Except.bind_ok, hd, ha]
      show (LPipe.sliceCheckpoints (some a) d >>= _) = _
      rw [sliceCheckpoints_ok a d m hl hm]
      rfl

/-- C94: `summary` prints the three lines of the head and then raises AttributeError if the checkpoints are no dict, and
TypeError if a position cannot be a key. A pipe without steps prints the number of operators and then raises TypeError if
the checkpoints have no length; otherwise it prints the length, be it that of a text, an array or an object. -/
theorem C94_summary (p : LPipe) (r : Reprs) :
    (p.steps ≠ [] → NotObject p.checkpoints →
      p.summary r = ([List.replicate 80 '_', "Type  Operator".toList, List.replicate 80 '='], .error .attributeError)) ∧
    (p.steps ≠ [] → (∃ d, p.checkpoints = .dict d ∧ ∃ kv ∈ d, Unhashable kv.2) →
      p.summary r = ([List.replicate 80 '_', "Type  Operator".toList, List.replicate 80 '='], .error .typeError)) ∧
    (p.steps = [] → NotObject p.checkpoints → ¬ Container p.checkpoints →
      p.summary r = ([List.replicate 80 '_', "Type  Operator".toList, List.replicate 80 '=', "Total operators: 0".toList],
        .error .typeError)) ∧
    (p.steps = [] → ∀ n, (∃ t, p.checkpoints = .str t ∧ n = t.length) ∨ (∃ l, p.checkpoints = .list l ∧ n = l.length) ∨
        (∃ l, p.checkpoints = .tuple l ∧ n = l.length) ∨ (∃ d, p.checkpoints = .dict d ∧ n = d.length) →
      p.summary r = ([List.replicate 80 '_', "Type  Operator".toList, List.replicate 80 '=', "Total operators: 0".toList,
        "Total checkpoints: ".toList ++ lengthStr n, List.replicate 80 '_'], .ok ())) := by
  refine ⟨fun hs hn => ?_, fun hs hd => ?_, fun hs hn hc => ?_, fun hs n hc => ?_⟩
  · have he : p.steps.isEmpty = false := by simpa using hs
    unfold LPipe.summary LPipe.inverseCheckpoint
    rw [he, items_notObject hn]
    rfl
  · have he : p.steps.isEmpty = false := by simpa using hs
    obtain ⟨d, hd, kv, hkv, hu⟩ := hd
    have hall : (d.all fun kv => kv.2.hashable) = false := by
      rw [List.all_eq_false]
      exact ⟨kv, hkv, by rw [(unhashable_iff _).mpr hu]; decide⟩
    have hinv : p.inverseCheckpoint = .error .typeError := by
      unfold LPipe.inverseCheckpoint
      rw [hd]
      show (if (d.all fun kv => kv.2.hashable) = true then _ else _) = _
      rw [hall]
      rfl
    unfold LPipe.summary
    rw [he, hinv]
    rfl
  · obtain ⟨steps, v⟩ := p
    dsimp only at hs hn hc
    subst hs
    have hl : v.len = .error .typeError := by
      cases v with
      | dict d => exact absurd rfl (hn d)
      | list l => exact absurd (.list l) hc
      | tuple l => exact absurd (.tuple l) hc
      | str s => exact absurd (.text s) hc
      | _ => rfl
    unfold LPipe.summary
    dsimp only
    rw [hl]
    rfl
  · obtain ⟨steps, v⟩ := p
    dsimp only at hs hc
    subst hs
    have hl : v.len = .ok n := by
      rcases hc with ⟨t, rfl, rfl⟩ | ⟨t, rfl, rfl⟩ | ⟨t, rfl, rfl⟩ | ⟨t, rfl, rfl⟩ <;> rfl
    have h0 : "Total operators: ".toList ++ lengthStr 0 = "Total operators: 0".toList := rfl
    unfold LPipe.summary
    dsimp only
    rw [hl]
    show (_ ++ [] ++ ["Total operators: ".toList ++ lengthStr 0] ++ _, _) = _
    rw [h0]
    rfl

/-! ### Dicts of ints -/

theorem dictGet_intDict (e : List (Str × Int)) (k : Str) :
    dictGet (e.map fun kv => (kv.1, PyVal.int kv.2)) k = (dictGet e k).map PyVal.int := by
  induction e with
  | nil => rfl
  | cons x e ih' =>
    rw [List.map_cons]
    unfold dictGet
    split
    · rfl
    · exact ih'

theorem intDict_eq (d e : List (Str × Int)) :
    PyVal.eqDict (d.map fun kv => (kv.1, .int kv.2)) (e.map fun kv => (kv.1, .int kv.2)) =
      d.all fun kv => dictGet e kv.1 == some kv.2 := by
  induction d with
  | nil => rfl
  | cons kv d ih =>
    rw [List.map_cons, List.all_cons]
    unfold PyVal.eqDict
    rw [ih]
    congr 1
    rw [dictGet_intDict]
    cases dictGet e kv.1 with
    | none => rfl
    | some j =>
      simp only [Option.map_some, PyVal.eq, PyVal.asInt?]

theorem dictUpdate_intDict (d e : List (Str × Int)) :
    dictUpdate (d.map fun kv => (kv.1, PyVal.int kv.2)) (e.map fun kv => (kv.1, PyVal.int kv.2)) =
      (dictUpdate d e).map fun kv => (kv.1, PyVal.int kv.2) := by
  induction e generalizing d with
  | nil => rfl
  | cons x e ih =>
    show dictUpdate (dictSet _ _ _) _ = (dictUpdate (dictSet d x.1 x.2) e).map _
    rw [← ih, dictSet_mapVal PyVal.int]

theorem intDict_numbers (e : List (Str × Int)) : ∀ (j : Nat) (kv : Str × PyVal) (ki : Str × Int),
    (e.map fun kv => (kv.1, PyVal.int kv.2))[j]? = some kv → e[j]? = some ki → kv.1 = ki.1 ∧ IsNumber kv.2 ki.2 := by
  intro j kv ki h1 h2
  rw [List.getElem?_map, h2] at h1
  injection h1 with h1
  subst h1
  exact ⟨rfl, .int _⟩

/-- C94: for pipes whose checkpoints are a dict of ints, as those made by `add_op`, every method does what the other
properties say: the two models agree. -/
theorem C94_agrees (p q : Pipe) :
    (∀ op ck, (loaded p).addOp op ck = (loaded (p.addOp op ck).1, (p.addOp op ck).2)) ∧
    (loaded p).iadd (loaded q) = (loaded (p.iadd q).1, (p.iadd q).2) ∧
    (loaded p).copy = .ok (loaded p) ∧ (loaded p).concat (loaded q) = (p.concat q).map loaded ∧
    (loaded p).eq (loaded q) = p.eq q ∧
    (∀ a b c, (loaded p).getSlice a b c = (p.getSlice a b c).map loaded) ∧
    (∀ coll name, LPipe.get (loaded p).checkpoints coll name = getFromCheckpoint p.checkpoints coll name) ∧
    (loaded p).serialize = p.serialize ∧
    (∀ s, (loaded p).transformSequence s = p.transformSequence s) ∧ (∀ d, (loaded p).transform d = p.transform d) ∧
    ∀ r lines, p.summary r = .ok lines → (loaded p).summary r = (lines, .ok ()) := by
  have hadd : ∀ op ck, (loaded p).addOp op ck = (loaded (p.addOp op ck).1, (p.addOp op ck).2) := by
    have hpush : ∀ op ck, (loaded p).push op ck = (loaded (p.push op ck).1, (p.push op ck).2) := by
      intro op ck
      cases ck with
      | none => rfl
      | some name =>
        unfold LPipe.push Pipe.push loaded
        dsimp only [PyVal.has, PyVal.setItem]
        have hkeys : (p.checkpoints.map fun kv => (kv.1, PyVal.int kv.2)).map Prod.fst = p.checkpoints.map Prod.fst := by
          simp [Function.comp_def]
        rw [hkeys]
        cases h : dictGet p.checkpoints name with
        | some i =>
          have : (p.checkpoints.map Prod.fst).contains name = true := by
            rw [List.contains_iff_mem]
            exact List.mem_map_of_mem (dictGet_mem _ _ _ h)
          rw [if_pos this]
        | none =>
          have : ¬ (p.checkpoints.map Prod.fst).contains name = true := by
            simpa using (dictGet_none _ _).mp h
          rw [if_neg this, dictSet_mapVal PyVal.int]
    intro op ck
    unfold LPipe.addOp Pipe.addOp
    show (match p.steps.getLast? with | none => _ | some last => _) = _
    cases p.steps.getLast? with
    | none => exact hpush op ck
    | some last =>
      dsimp only
      split
      · rfl
      · exact hpush op ck
  have hiadd : (loaded p).iadd (loaded q) = (loaded (p.iadd q).1, (p.iadd q).2) := by
    unfold LPipe.iadd Pipe.iadd
    show (match p.outputType, q.inputType with | .error e, _ => _ | _, .error e => _ | .ok a, .ok b => _) = _
    cases p.outputType with
    | error e => rfl
    | ok a =>
      cases q.inputType with
      | error e => rfl
      | ok b =>
        dsimp only
        split
        · rfl
        · dsimp only [loaded, PyVal.items]
          have hshare : ((p.checkpoints.map fun kv => (kv.1, PyVal.int kv.2)).any fun kv =>
              (dictGet (q.checkpoints.map fun kv => (kv.1, PyVal.int kv.2)) kv.1).isSome) = p.sharesName q := by
            unfold Pipe.sharesName
            rw [List.any_map]
            congr 1
            funext kv
            simp only [Function.comp, dictGet_intDict, Option.isSome_map]
          rw [hshare]
          cases p.sharesName q with
          | true => rfl
          | false =>
            simp only [Bool.false_eq_true, if_false]
            rw [shifted_ok _ _ q.checkpoints (by simp) (intDict_numbers _)]
            dsimp only
            have := dictUpdate_intDict p.checkpoints
              (q.checkpoints.map fun kv => (kv.1, kv.2 + ((p.steps ++ q.steps).length : Int)))
            rw [List.map_map] at this
            simp only [Function.comp_def] at this
            rw [this]
  refine ⟨hadd, hiadd, rfl, ?_, ?_, ?_, ?_, rfl, fun _ => rfl, fun _ => rfl, ?_⟩
  · show (match (loaded p).iadd (loaded q) with | (r, .ok _) => _ | (_, .error e) => _) = _
    unfold Pipe.concat
    rw [hiadd]
    obtain ⟨r, o⟩ := p.iadd q
    cases o <;> rfl
  · unfold LPipe.eq Pipe.eq loaded
    simp only [PyVal.eq, List.length_map, intDict_eq]
  · intro a b c
    have hsl : ∀ d : List (Str × Int), LPipe.sliceCheckpoints a (d.map fun kv => (kv.1, PyVal.int kv.2)) =
        (Pipe.sliceCheckpoints a d).map fun m => m.map fun kv => (kv.1, PyVal.int kv.2) := by
      intro d
      induction d with
      | nil => rfl
      | cons kv d ih =>
        rw [List.map_cons]
        unfold LPipe.sliceCheckpoints Pipe.sliceCheckpoints
        cases a with
        | none => rfl
        | some a =>
          dsimp only [PyVal.asInt]
          rw [ih]
          cases Pipe.sliceCheckpoints (some a) d with
          | error e => rfl
          | ok m =>
            show Except.ok _ = Except.ok _
            congr 1
            split <;> rfl
    unfold LPipe.getSlice Pipe.getSlice
    show (sliceStep p.steps a b c >>= _) = _
    cases sliceStep p.steps a b c with
    | error e => rfl
    | ok steps =>
      show (LPipe.sliceCheckpoints a (p.checkpoints.map fun kv => (kv.1, PyVal.int kv.2)) >>= _) = _
      rw [hsl]
      cases Pipe.sliceCheckpoints a p.checkpoints <;> rfl
  · intro coll name
    unfold LPipe.get getFromCheckpoint loaded
    dsimp only [PyVal.has, PyVal.getItem]
    rw [Except.bind_ok]
    have hkeys : (p.checkpoints.map fun kv => (kv.1, PyVal.int kv.2)).map Prod.fst = p.checkpoints.map Prod.fst := by
      simp [Function.comp_def]
    rw [hkeys, dictGet_intDict]
    cases h : dictGet p.checkpoints name with
    | some i =>
      have : (p.checkpoints.map Prod.fst).contains name = true := by
        rw [List.contains_iff_mem]
        exact List.mem_map_of_mem (dictGet_mem _ _ _ h)
      show (if (p.checkpoints.map Prod.fst).contains name = false then _ else _) = _
      rw [this]
      rfl
    | none =>
      have : (p.checkpoints.map Prod.fst).contains name = false := by
        simpa using (dictGet_none _ _).mp h
      show (if (p.checkpoints.map Prod.fst).contains name = false then _ else _) = _
      rw [this]
      rfl
  · intro r lines h
    have hinv : (loaded p).inverseCheckpoint = .ok p.inverseCheckpoint := by
      unfold LPipe.inverseCheckpoint Pipe.inverseCheckpoint loaded
      dsimp only [PyVal.items]
      rw [Except.bind_ok, if_pos]
      · rw [List.filterMap_map]
        congr 2
        simp [Function.comp_def, PyVal.asInt?, List.filterMap_eq_map]
      · rw [List.all_eq_true]
        intro kv hkv
        obtain ⟨x, _, rfl⟩ := List.mem_map.mp hkv
        rfl
    unfold LPipe.summary
    rw [hinv]
    unfold Pipe.summary at h
    have hlen : (loaded p).checkpoints.len = .ok p.checkpoints.length := by
      show Except.ok _ = _
      rw [List.length_map]
    rw [hlen]
    have hs : (loaded p).steps = p.steps := rfl
    have hi : (loaded p).inputType = p.inputType := rfl
    have ho : (loaded p).outputType = p.outputType := rfl
    rw [hs, hi, ho]
    by_cases he : p.steps.isEmpty = true
    · rw [if_pos he] at h ⊢
      injection h with h
      subst h
      rfl
    · rw [if_neg he] at h ⊢
      obtain ⟨i, h2, h⟩ := bind_eq_ok h
      obtain ⟨o, h3, h⟩ := bind_eq_ok h
      injection h with h
      subst h
      rw [h2, h3]
      simp [Bind.bind, Except.bind]

/-! ### Concrete cases -/

/-- A loaded pipe with a list of names as checkpoints. -/
def exListed : LPipe := ⟨[exPad3], .list [.str "a".toList]⟩

/-- A loaded pipe with a position that is a text. -/
def exTextPosition : LPipe := ⟨[exPad3], .dict [("a".toList, .str "1".toList)]⟩

/-- A concrete case of `C94_round_trip` (and so of the hypothesis of `C94_saved_again`): a list as checkpoints. -/
theorem exListed_back : LPipe.deserialize (Builtin.registry exEnv) exListed.serialize = .ok exListed := by
  have hw : WellTyped exListed.steps := by
    intro i a b ha hb
    have : i + 1 < 1 := (List.getElem?_eq_some_iff.mp hb).1
    omega
  refine C94_round_trip exEnv exListed (fun op h => ?_) hw (.list _ fun v h => ?_)
  · rw [List.mem_singleton.mp h]
    exact ⟨exPad3_builtin, exPad3_plain⟩
  · rw [List.mem_singleton.mp h]
    exact .str _

/-- A concrete case of `C94_load_agrees`: the checkpoints are no dict of ints, so the other model gives TypeError. -/
example : Pipe.deserialize (Builtin.registry exEnv) exListed.serialize = .error .typeError := by
  rcases C94_load_agrees (Builtin.registry exEnv) exListed.serialize with ⟨p, _, h⟩ | ⟨e, _, h⟩ | ⟨q, _, _, h⟩
  · rw [exListed_back] at h
    have h := congrArg LPipe.checkpoints (Except.ok.inj h)
    exact absurd h (by simp [exListed, loaded])
  · rw [exListed_back] at h
    exact absurd h (by simp)
  · exact h

/-- Concrete cases of `C94_get`: a list has the name, or not; a text as a position; `True` as a position; and `null`. -/
example : LPipe.get (.list [.str "a".toList]) [.str [], .str "x".toList] "a".toList = .error .typeError ∧
    LPipe.get (.list [.str "a".toList]) [.str [], .str "x".toList] "b".toList = .error .keyError ∧
    LPipe.get (.dict [("a".toList, .str "1".toList)]) [.str [], .str "x".toList] "a".toList = .error .typeError ∧
    LPipe.get (.dict [("a".toList, .bool true)]) [.str [], .str "x".toList] "a".toList = .ok (.str "x".toList) ∧
    LPipe.get .none [.str [], .str "x".toList] "a".toList = .error .typeError := by
  refine ⟨((C94_get _ _ _).2.1 (.list _)).1 (.list _ _ List.mem_cons_self), ((C94_get _ _ _).2.1 (.list _)).2 ?_, ?_, ?_,
    (C94_get _ _ _).2.2 (fun h => by cases h) (fun d h => by cases h)⟩
  · intro h
    cases h with | list _ _ h => simp at h
  · exact (((C94_get _ _ _).1 _ rfl).2 (.str "1".toList) (by simp) (by simp)).1 fun i h => by cases h
  · exact ((((C94_get _ _ _).1 _ rfl).2 (.bool true) (by simp) (by simp)).2 1 .true).1 _ 1 rfl (.inl rfl)

/-- A concrete case of `C94_add`: the name is in the list, so it is "duplicated"; another name cannot be set; and the
operator is added all the same. -/
example : exListed.addOp exPad3 (some "a".toList) = (⟨[exPad3, exPad3], exListed.checkpoints⟩, .error .keyError) ∧
    exListed.addOp exPad3 (some "b".toList) = (⟨[exPad3, exPad3], exListed.checkpoints⟩, .error .typeError) := by
  have hf : ∀ last, exListed.steps.getLast? = some last → exPad3.cls.inputType = last.cls.outputType := by
    intro last h
    injection h with h
    subst h
    rfl
  refine ⟨(((C94_add exListed exPad3).2 hf).2 _).2.2.1 (.list _ _ List.mem_cons_self),
    (((C94_add exListed exPad3).2 hf).2 _).2.2.2 (fun d h => by cases h) ?_⟩
  intro h
  cases h with | list _ _ h => simp at h

/-- A concrete case of `C94_iadd`: the position of the second pipe is a text: TypeError, but its steps are in the first. -/
example : LPipe.iadd ⟨[exPad3], .dict []⟩ exTextPosition = (⟨[exPad3, exPad3], .dict []⟩, .error .typeError) :=
  (((C94_iadd ⟨[exPad3], .dict []⟩ exTextPosition _ rfl rfl).2 [] _ rfl rfl).2 (by simp)).1
    ⟨_, List.mem_cons_self, fun i h => by cases h⟩

/-- Concrete cases of `C94_copy`, `C94_slice` and `C94_summary`. -/
example : exListed.copy = .ok exListed ∧ exListed.concat exListed = .error .attributeError ∧
    LPipe.copy ⟨[exPad3], .none⟩ = .error .attributeError ∧
    exListed.getSlice (some 0) none none = .error .attributeError ∧
    exTextPosition.getSlice (some 0) none none = .error .typeError ∧
    LPipe.getSlice ⟨[exPad3, exPad3], .dict [("a".toList, .bool true), ("b".toList, .int 2)]⟩ (some 1) none none =
      .ok ⟨[exPad3], .dict [("b".toList, .int 1)]⟩ ∧
    (exListed.summary ⟨fun _ => [], fun _ => []⟩).2 = .error .attributeError := by
  refine ⟨((C94_copy exListed exListed).1 (.inr ⟨_, rfl⟩)).1, ?_, ((C94_copy ⟨[exPad3], .none⟩ exListed).2
    (fun d h => by cases h) fun l h => by cases h).1, ?_, ?_, ?_, ?_⟩
  · exact ((C94_copy exListed exListed).1 (.inr ⟨_, rfl⟩)).2.2 _ _
      ((C94_iadd exListed exListed _ rfl rfl).1 (.inl fun d h => by cases h))
  · obtain ⟨_, _, h, _⟩ := (C94_slice exListed (some 0) none none).2 (fun h => by cases h)
    exact h fun d h => by cases h
  · obtain ⟨_, _, _, h⟩ := (C94_slice exTextPosition (some 0) none none).2 (fun h => by cases h)
    exact (h _ rfl).1 (.inl ⟨_, List.mem_cons_self, fun i h => by cases h⟩)
  · rfl
  · rw [(C94_summary exListed _).1 (by simp [exListed]) (fun d h => by cases h)]

end Uttut
