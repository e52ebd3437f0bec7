import Verif.Model.Extend
import Verif.Lemmas.Extend
import Verif.Props.Builtins
import Verif.Props.Serialize
import Verif.Props.Elementwise
import Verif.Props.SosPad

/-! Property C85: operators written by users. -/

namespace Uttut

open Spec Piece

/-! ### class statements -/

/-- Nothing is missing. -/
def Spec.Complete (st : ClassStmt) : Prop := st.hasInput = true ∧ st.hasOutput = true ∧ st.hasAligner = true

theorem registered_complete (st : ClassStmt) (h : Complete st) : st.registered = st.cls := by
  obtain ⟨h1, h2, h3⟩ := h
  have hr : ∀ run, st.runOf run = run := by
    intro run
    funext s
    unfold ClassStmt.runOf
    rw [h1, h2, h3]
    rfl
  have : (fun vals => (do
      let run ← st.cls.init vals
      return st.runOf run : Res (Seq → Res (Seq × Aligner)))) = st.cls.init := by
    funext vals
    cases h : st.cls.init vals with
    | error e => rfl
    | ok run =>
      show Except.ok (st.runOf run) = _
      rw [hr]
  unfold ClassStmt.registered
  rw [this]

theorem declare_cases (f : Factory) (st : ClassStmt) :
    (st.cls.name ∈ f.map Prod.fst → f.declare st = (f, .error .keyError)) ∧
    (st.cls.name ∉ f.map Prod.fst → Complete st → f.declare st = (f ++ [(st.cls.name, st.registered)], .ok ())) ∧
    (st.cls.name ∉ f.map Prod.fst → ¬ Complete st →
      f.declare st = (f ++ [(st.cls.name, st.registered)], .error .assertionError)) := by
  obtain ⟨h1, h2⟩ := C67_register f st.cls.name st.registered
  unfold Factory.declare
  refine ⟨fun h => ?_, fun h hc => ?_, fun h hc => ?_⟩
  · rw [h1 h]
  · rw [h2 h]
    obtain ⟨a, b, c⟩ := hc
    simp [a, b, c]
  · rw [h2 h]
    dsimp only
    unfold Complete at hc
    cases a : st.hasInput <;> cases b : st.hasOutput <;> cases c : st.hasAligner <;> simp_all

theorem factory_get (f : Factory) (name : Str) :
    f.get name = (dictGet f name).elim (.error .keyError) .ok := by
  unfold Factory.get
  cases dictGet f name <;> rfl

theorem get_append (f : Factory) (name k : Str) (c : OpClass) (hk : k ∉ f.map Prod.fst) :
    Factory.get (f ++ [(k, c)]) name = if name = k then .ok c else f.get name := by
  have : dictGet (f ++ [(k, c)]) name = if name = k then some c else dictGet f name := by
    rw [← dictSet_not_mem _ _ _ hk, dictGet_dictSet]
    by_cases h : k = name
    · rw [if_pos h, if_pos h.symm]
    · rw [if_neg h, if_neg fun e => h e.symm]
  rw [factory_get, this, factory_get]
  by_cases h : name = k
  · rw [if_pos h, if_pos h]; rfl
  · rw [if_neg h, if_neg h]

/-- C85: what a `class` statement does. If the name is taken it raises KeyError and nothing changes. Otherwise the name
is registered, whatever comes next: if nothing is missing the statement succeeds and the name stands for the class; if
a type or the aligner class is missing it raises AssertionError. Other names keep their meaning. -/
theorem C85_declare (f : Factory) (st : ClassStmt) :
    (st.cls.name ∈ f.map Prod.fst → f.declare st = (f, .error .keyError)) ∧
    (st.cls.name ∉ f.map Prod.fst →
      (Complete st → (f.declare st).2 = .ok () ∧ (f.declare st).1.get st.cls.name = .ok st.cls) ∧
      (¬ Complete st → (f.declare st).2 = .error .assertionError ∧ st.cls.name ∈ (f.declare st).1.map Prod.fst)) ∧
    ∀ name, name ≠ st.cls.name → (f.declare st).1.get name = f.get name := by
  obtain ⟨h1, h2, h3⟩ := declare_cases f st
  refine ⟨h1, fun h => ⟨fun hc => ?_, fun hc => ?_⟩, fun name hn => ?_⟩
  · rw [h2 h hc]
    exact ⟨rfl, by rw [get_append _ _ _ _ h, if_pos rfl, registered_complete st hc]⟩
  · rw [h3 h hc]
    exact ⟨rfl, by simp⟩
  · by_cases h : st.cls.name ∈ f.map Prod.fst
    · rw [h1 h]
    · by_cases hc : Complete st
      · rw [h2 h hc, get_append _ _ _ _ h, if_neg hn]
      · rw [h3 h hc, get_append _ _ _ _ h, if_neg hn]

/-- C85: what is left in the registry by a `class` statement that raised AssertionError: objects of it can be created
(with the arguments the class would take), but `transform` always raises an exception: TypeError, or the one raised by
the user's code before. -/
theorem C85_left_behind (f : Factory) (st : ClassStmt) (hn : st.cls.name ∉ f.map Prod.fst) (hc : ¬ Complete st) :
    ∃ c, (f.declare st).1.get st.cls.name = .ok c ∧ ∀ args kwargs,
      (∀ e, st.cls.call args kwargs = .error e → c.call args kwargs = .error e) ∧
      ∀ op0, st.cls.call args kwargs = .ok op0 → ∃ op, c.call args kwargs = .ok op ∧ op.configs = op0.configs ∧
        ∀ s, op.transform s = .error .typeError ∨
          ∃ e, op0.transform s = .error e ∧ op.transform s = .error e := by
  refine ⟨st.registered, ?_, fun args kwargs => ⟨fun e he => ?_, fun op0 h0 => ?_⟩⟩
  · rw [(declare_cases f st).2.2 hn hc, get_append _ _ _ _ hn, if_pos rfl]
  · unfold OpClass.call at he ⊢
    have hb : st.registered.bindArgs args kwargs = st.cls.bindArgs args kwargs := rfl
    rw [hb]
    cases hv : st.cls.bindArgs args kwargs with
    | error e' => rw [hv] at he; exact he
    | ok vals =>
      rw [hv] at he
      rw [Except.bind_ok] at he ⊢
      cases hi : st.cls.init vals with
      | error e' =>
        rw [hi] at he
        have : st.registered.init vals = .error e' := by
          show (st.cls.init vals >>= _) = _
          rw [hi]; rfl
        rw [this]
        exact he
      | ok run => rw [hi] at he; cases he
  · unfold OpClass.call at h0
    obtain ⟨vals, hv, h0⟩ := bind_eq_ok h0
    obtain ⟨run, hr, h0⟩ := bind_eq_ok h0
    injection h0 with h0
    subst h0
    have hb : st.registered.bindArgs args kwargs = .ok vals := hv
    have hi : st.registered.init vals = .ok (st.runOf run) := by
      show (st.cls.init vals >>= _) = _
      rw [hr]; rfl
    refine ⟨⟨st.registered, st.registered.capture args kwargs, st.runOf run⟩, ?_, rfl, fun s => ?_⟩
    · unfold OpClass.call
      rw [hb, Except.bind_ok, hi]
      rfl
    · unfold Op.transform
      dsimp only
      by_cases ht : s.type ≠ st.cls.inputType
      · left
        rw [if_pos (show s.type ≠ st.registered.inputType from ht)]
      · rw [if_neg (show ¬ s.type ≠ st.registered.inputType from ht), if_neg ht]
        unfold ClassStmt.runOf
        cases a : st.hasInput with
        | false => left; rfl
        | true =>
          have hbc : (!st.hasOutput || !st.hasAligner) = true := by
            unfold Complete at hc
            cases b : st.hasOutput <;> cases c : st.hasAligner <;> simp_all
          rw [hbc]
          simp only [Bool.not_true, Bool.false_eq_true, if_false, if_true]
          cases hs : run s with
          | error e => right; exact ⟨e, rfl, rfl⟩
          | ok r => left; rfl

theorem declareAll_cons (f : Factory) (st : ClassStmt) (sts : List ClassStmt) :
    f.declareAll (st :: sts) = (((f.declare st).1.declareAll sts).1,
      (f.declare st).2 :: ((f.declare st).1.declareAll sts).2) := rfl

theorem declare_names (f : Factory) (st : ClassStmt) (name : Str) :
    name ∈ (f.declare st).1.map Prod.fst ↔ name ∈ f.map Prod.fst ∨ name = st.cls.name := by
  obtain ⟨h1, h2, h3⟩ := declare_cases f st
  by_cases h : st.cls.name ∈ f.map Prod.fst
  · rw [h1 h]
    exact ⟨Or.inl, fun h' => h'.elim id fun e => e ▸ h⟩
  · by_cases hc : Complete st
    · rw [h2 h hc]; simp
    · rw [h3 h hc]; simp

theorem declareAll_known (sts : List ClassStmt) (f : Factory) (name : Str) (h : name ∈ f.map Prod.fst) :
    (f.declareAll sts).1.get name = f.get name := by
  induction sts generalizing f with
  | nil => rfl
  | cons st sts ih =>
    rw [declareAll_cons]
    dsimp only
    rw [ih _ ((declare_names f st name).mpr (Or.inl h))]
    by_cases e : name = st.cls.name
    · subst e
      rw [(declare_cases f st).1 h]
    · exact (C85_declare f st).2.2 name e

/-- C85: any number of `class` statements, in any order, failing or not. A name that was known keeps its meaning; any
other name belongs to the first statement that used it, even if that statement failed; names nobody used stay
unknown. -/
theorem C85_first_wins (f : Factory) (sts : List ClassStmt) (name : Str) :
    (name ∈ f.map Prod.fst → (f.declareAll sts).1.get name = f.get name) ∧
    (name ∉ f.map Prod.fst → ∀ pre st post, sts = pre ++ st :: post → st.cls.name = name →
      (∀ x ∈ pre, x.cls.name ≠ name) → (f.declareAll sts).1.get name = .ok st.registered) ∧
    (name ∉ f.map Prod.fst → (∀ x ∈ sts, x.cls.name ≠ name) →
      (f.declareAll sts).1.get name = .error .keyError) := by
  refine ⟨declareAll_known sts f name, ?_, ?_⟩
  · intro hn pre
    induction pre generalizing f sts with
    | nil =>
      rintro st post rfl rfl _
      rw [List.nil_append, declareAll_cons]
      dsimp only
      rw [declareAll_known post _ _ ((declare_names f st _).mpr (Or.inr rfl))]
      by_cases hc : Complete st
      · rw [(declare_cases f st).2.1 hn hc, get_append _ _ _ _ hn, if_pos rfl]
      · rw [(declare_cases f st).2.2 hn hc, get_append _ _ _ _ hn, if_pos rfl]
    | cons x pre ih =>
      rintro st post rfl hst hpre
      rw [List.cons_append, declareAll_cons]
      dsimp only
      refine ih _ _ (fun h => ?_) st post rfl hst fun y hy => hpre y (by simp [hy])
      rcases (declare_names f x name).mp h with h | h
      · exact hn h
      · exact hpre x (by simp) h.symm
  · intro hn hno
    induction sts generalizing f with
    | nil =>
      show f.get name = _
      rw [factory_get, (dictGet_none f name).mpr hn]; rfl
    | cons st sts ih =>
      rw [declareAll_cons]
      dsimp only
      refine ih _ (fun h => ?_) fun x hx => hno x (by simp [hx])
      rcases (declare_names f st name).mp h with h | h
      · exact hn h
      · exact hno st (by simp) h.symm

/-- C85: the outcome of each of these statements: KeyError iff the name was known or an earlier statement (failed or
not) used it; otherwise AssertionError iff something is missing. So the corrected version of a class statement that
raised AssertionError always raises KeyError. -/
theorem C85_outcomes (f : Factory) (pre : List ClassStmt) (st : ClassStmt) (post : List ClassStmt) :
    ∃ o, (f.declareAll (pre ++ st :: post)).2[pre.length]? = some o ∧
      (o = .error .keyError ↔ st.cls.name ∈ f.map Prod.fst ∨ ∃ x ∈ pre, x.cls.name = st.cls.name) ∧
      (o = .error .assertionError ↔
        ¬ (st.cls.name ∈ f.map Prod.fst ∨ ∃ x ∈ pre, x.cls.name = st.cls.name) ∧ ¬ Complete st) ∧
      (o = .ok () ↔ ¬ (st.cls.name ∈ f.map Prod.fst ∨ ∃ x ∈ pre, x.cls.name = st.cls.name) ∧ Complete st) := by
  induction pre generalizing f with
  | nil =>
    refine ⟨(f.declare st).2, rfl, ?_⟩
    obtain ⟨h1, h2, h3⟩ := declare_cases f st
    by_cases h : st.cls.name ∈ f.map Prod.fst
    · rw [h1 h]; simp [h]
    · by_cases hc : Complete st
      · rw [h2 h hc]; simp [h, hc]
      · rw [h3 h hc]; simp [h, hc]
  | cons x pre ih =>
    obtain ⟨o, h1, h2, h3, h4⟩ := ih (f.declare x).1
    refine ⟨o, h1, ?_⟩
    have e : (st.cls.name ∈ (f.declare x).1.map Prod.fst ∨ ∃ y ∈ pre, y.cls.name = st.cls.name) ↔
        (st.cls.name ∈ f.map Prod.fst ∨ ∃ y ∈ x :: pre, y.cls.name = st.cls.name) := by
      rw [declare_names]
      constructor
      · rintro ((h | h) | ⟨y, hy, h⟩)
        · exact Or.inl h
        · exact Or.inr ⟨x, by simp, h.symm⟩
        · exact Or.inr ⟨y, by simp [hy], h⟩
      · rintro (h | ⟨y, hy, h⟩)
        · exact Or.inl (Or.inl h)
        · rcases List.mem_cons.mp hy with rfl | hy
          · exact Or.inl (Or.inr h.symm)
          · exact Or.inr ⟨y, hy, h⟩
    rw [e] at h2 h3 h4
    exact ⟨h2, h3, h4⟩

/-! ### loading while classes are added -/

/-- `g` knows all that `f` knows. -/
def Keeps (f g : Factory) : Prop := ∀ name, name ∈ f.map Prod.fst → g.get name = f.get name

theorem keeps_get {f g : Factory} (h : Keeps f g) (name : Str) (hr : f.get name ≠ .error .keyError) :
    g.get name = f.get name := by
  refine h name (Classical.byContradiction fun hn => hr ?_)
  rw [factory_get, (dictGet_none f name).mpr hn]; rfl

theorem keeps_getVal {f g : Factory} (h : Keeps f g) (v : PyVal) (hr : f.getVal v ≠ .error .keyError) :
    g.getVal v = f.getVal v := by
  cases v with
  | str name => exact keeps_get h name hr
  | _ => rfl

theorem keeps_fromDict {f g : Factory} (h : Keeps f g) (v : PyVal) (hr : Op.fromDict f v ≠ .error .keyError) :
    Op.fromDict g v = Op.fromDict f v := by
  unfold Op.fromDict at hr ⊢
  cases h1 : v.getItem "op_name".toList with
  | error e => rfl
  | ok name =>
    cases h2 : v.getItem "op_kwargs".toList with
    | error e => rfl
    | ok kwargs =>
      rw [h1, h2] at hr
      simp only [Except.bind_ok] at hr ⊢
      have : f.getVal name ≠ .error .keyError := by
        intro e; rw [e] at hr; exact hr rfl
      rw [keeps_getVal h name this]

theorem keeps_deserialize {f g : Factory} (h : Keeps f g) (text : Str) (hr : Op.deserialize f text ≠ .error .keyError) :
    Op.deserialize g text = Op.deserialize f text := by
  unfold Op.deserialize at hr ⊢
  cases h1 : Json.loads text with
  | error e => rfl
  | ok v =>
    rw [h1] at hr
    simp only [Except.bind_ok] at hr ⊢
    exact keeps_fromDict h v hr

theorem keeps_restoreStep {f g : Factory} (h : Keeps f g) (v : PyVal)
    (hr : Pipe.restoreStep f v ≠ .error .keyError) : Pipe.restoreStep g v = Pipe.restoreStep f v := by
  cases v with
  | str text => exact keeps_deserialize h text hr
  | dict d => exact keeps_fromDict h _ hr
  | _ => rfl

theorem keeps_restoreSteps {f g : Factory} (h : Keeps f g) (vs : List PyVal) (p : Pipe)
    (hr : Pipe.restoreSteps f vs p ≠ .error .keyError) : Pipe.restoreSteps g vs p = Pipe.restoreSteps f vs p := by
  induction vs generalizing p with
  | nil => rfl
  | cons v vs ih =>
    unfold Pipe.restoreSteps at hr ⊢
    have : Pipe.restoreStep f v ≠ .error .keyError := by
      intro e; rw [e] at hr; exact hr rfl
    rw [keeps_restoreStep h v this]
    cases h1 : Pipe.restoreStep f v with
    | error e => rfl
    | ok op =>
      rw [h1] at hr
      simp only [Except.bind_ok] at hr ⊢
      split
      · rename_i q u hq
        rw [hq] at hr
        exact ih _ hr
      · rfl

theorem keeps_pipe {f g : Factory} (h : Keeps f g) (text : Str) (hr : Pipe.deserialize f text ≠ .error .keyError) :
    Pipe.deserialize g text = Pipe.deserialize f text := by
  unfold Pipe.deserialize at hr ⊢
  cases h1 : Json.loads text with
  | error e => rfl
  | ok v =>
    rw [h1] at hr
    simp only [Except.bind_ok] at hr ⊢
    cases h2 : v.getItem "steps".toList with
    | error e => rfl
    | ok steps =>
      rw [h2] at hr
      simp only [Except.bind_ok] at hr ⊢
      cases h3 : Pipe.iterate steps with
      | error e => rfl
      | ok infos =>
        rw [h3] at hr
        simp only [Except.bind_ok] at hr ⊢
        have : Pipe.restoreSteps f infos Pipe.empty ≠ .error .keyError := by
          intro e; rw [e] at hr; exact hr rfl
        rw [keeps_restoreSteps h infos _ this]

/-- C85: no `class` statements, of whatever classes, change what saved texts mean: a text of an operator or of a pipe
that could be loaded is loaded as the same thing afterwards, one that was refused is refused in the same way, unless
with KeyError (an unknown class); and adding a known operator to a pipe does what it did. -/
theorem C85_loading (f : Factory) (sts : List ClassStmt) :
    (∀ text, Op.deserialize f text ≠ .error .keyError →
      Op.deserialize (f.declareAll sts).1 text = Op.deserialize f text) ∧
    (∀ text, Pipe.deserialize f text ≠ .error .keyError →
      Pipe.deserialize (f.declareAll sts).1 text = Pipe.deserialize f text) ∧
    ∀ (p : Pipe) name kwargs ck, name ∈ f.map Prod.fst →
      p.add (f.declareAll sts).1 name kwargs ck = p.add f name kwargs ck := by
  have hk : Keeps f (f.declareAll sts).1 := fun name h => declareAll_known sts f name h
  refine ⟨fun t h => keeps_deserialize hk t h, fun t h => keeps_pipe hk t h, fun p name kwargs ck hn => ?_⟩
  unfold Pipe.add
  have : Op.fromDict (f.declareAll sts).1
      (.dict [("op_name".toList, .str name), ("op_kwargs".toList, .dict (kwargs.getD []))]) =
      Op.fromDict f (.dict [("op_name".toList, .str name), ("op_kwargs".toList, .dict (kwargs.getD []))]) := by
    unfold Op.fromDict
    have e1 : (PyVal.dict [("op_name".toList, .str name), ("op_kwargs".toList, .dict (kwargs.getD []))]).getItem
        "op_name".toList = .ok (.str name) := rfl
    have e2 : (PyVal.dict [("op_name".toList, .str name), ("op_kwargs".toList, .dict (kwargs.getD []))]).getItem
        "op_kwargs".toList = .ok (.dict (kwargs.getD [])) := rfl
    rw [e1, e2]
    simp only [Except.bind_ok]
    show ((f.declareAll sts).1.get name >>= _) = (f.get name >>= _)
    rw [hk name hn]
  rw [this]

/-! ### subclasses of concrete classes -/

theorem subclass_capture (c : OpClass) (name : Str) (args : List PyVal) (kwargs : List (Str × PyVal))
    (hk : (kwargs.map Prod.fst).Nodup) : (c.subclass name).capture args kwargs = kwargs := by
  show dictUpdate (dictUpdate [] (([] : List Str).zip args)) kwargs = kwargs
  rw [List.zip_nil_left]
  show dictUpdate [] kwargs = kwargs
  rw [dictUpdate_nodup _ _ (by simpa using hk)]
  rfl

/-- C85: `class name(C): pass` for a concrete class `C`. Its objects do what those of `C` do, and the constructor raises
the same exceptions, but `configs` holds the keyword arguments and nothing else: positional arguments and defaults are
forgotten. So two objects are equal iff their keyword arguments are, and what is loaded from a saved object is the object
made from the keyword arguments alone. -/
theorem C85_inherited (c : OpClass) (name : Str) (args : List PyVal) (kwargs : List (Str × PyVal))
    (hk : (kwargs.map Prod.fst).Nodup) :
    (∀ e, c.call args kwargs = .error e → (c.subclass name).call args kwargs = .error e) ∧
    ∀ op0, c.call args kwargs = .ok op0 → ∃ op, (c.subclass name).call args kwargs = .ok op ∧
      (∀ s, op.transform s = op0.transform s) ∧ op.configs = kwargs ∧
      (∀ f : Factory, f.get name = .ok (c.subclass name) →
        Op.fromDict f op.toDict = (c.subclass name).call [] kwargs) ∧
      ∀ args' kwargs' op', (kwargs'.map Prod.fst).Nodup → (c.subclass name).call args' kwargs' = .ok op' →
        (op.eq op' = true ↔ PyVal.eq (.dict kwargs) (.dict kwargs') = true) := by
  have hb : (c.subclass name).bindArgs args kwargs = c.bindArgs args kwargs := rfl
  constructor
  · intro e he
    unfold OpClass.call at he ⊢
    rw [hb]
    cases hv : c.bindArgs args kwargs with
    | error e' => rw [hv] at he; exact he
    | ok vals =>
      rw [hv] at he
      rw [Except.bind_ok] at he ⊢
      show (c.init vals >>= _) = _
      cases hi : c.init vals with
      | error e' => rw [hi] at he; exact he
      | ok run => rw [hi] at he; cases he
  · intro op0 h0
    unfold OpClass.call at h0
    obtain ⟨vals, hv, h0⟩ := bind_eq_ok h0
    obtain ⟨run, hr, h0⟩ := bind_eq_ok h0
    injection h0 with h0
    subst h0
    refine ⟨⟨c.subclass name, kwargs, run⟩, ?_, fun s => rfl, rfl, fun f hf => ?_, fun args' kwargs' op' hk' h' => ?_⟩
    · unfold OpClass.call
      rw [hb, hv, Except.bind_ok]
      show (c.init vals >>= _) = _
      rw [hr, Except.bind_ok, subclass_capture c name args kwargs hk]
      rfl
    · unfold Op.fromDict Op.toDict
      show (f.get name >>= _) = _
      rw [hf]
      rfl
    · unfold OpClass.call at h'
      obtain ⟨vals', _, h'⟩ := bind_eq_ok h'
      obtain ⟨run', _, h'⟩ := bind_eq_ok h'
      injection h' with h'
      subst h'
      unfold Op.eq
      dsimp only
      rw [subclass_capture c name args' kwargs' hk']
      simp

/-- C85: a saved object of such a class can be loaded as what it was if it was made with keyword arguments only; if a
parameter without default was given by position, loading raises TypeError. -/
theorem C85_inherited_reload (c : OpClass) (hs : Signature c) (name : Str) (args : List PyVal)
    (kwargs : List (Str × PyVal)) (hk : (kwargs.map Prod.fst).Nodup) (f : Factory)
    (hf : f.get name = .ok (c.subclass name)) (op : Op) (h : (c.subclass name).call args kwargs = .ok op) :
    (args = [] → Op.fromDict f op.toDict = .ok op) ∧
    ((∃ i, i < args.length ∧ i + c.defaults.length < c.params.length) →
      Op.fromDict f op.toDict = .error .typeError) := by
  have hload : Op.fromDict f op.toDict = (c.subclass name).call [] kwargs := by
    have h' := h
    unfold OpClass.call at h
    obtain ⟨vals, hv, h⟩ := bind_eq_ok h
    obtain ⟨run, hr, h⟩ := bind_eq_ok h
    have h0 : c.call args kwargs = .ok ⟨c, c.capture args kwargs, run⟩ := by
      unfold OpClass.call
      rw [show c.bindArgs args kwargs = .ok vals from hv, Except.bind_ok, show c.init vals = .ok run from hr]
      rfl
    obtain ⟨op1, h1, _, _, h2, _⟩ := (C85_inherited c name args kwargs hk).2 _ h0
    rw [h'] at h1
    injection h1 with h1
    subst h1
    exact h2 f hf
  rw [hload]
  constructor
  · rintro rfl
    exact h
  · rintro ⟨i, hi, hd⟩
    unfold OpClass.call at h ⊢
    obtain ⟨vals, hv, _⟩ := bind_eq_ok h
    have hb0 : (c.subclass name).bindArgs [] kwargs = .error .typeError := by
      have hb : c.bindArgs args kwargs = .ok vals := hv
      obtain ⟨hl, hkw, _⟩ := bindArgs_ok hb
      show c.bindArgs [] kwargs = .error .typeError
      unfold OpClass.bindArgs
      rw [if_neg (by simp)]
      split
      · rfl
      · rw [show c.params.drop ([] : List PyVal).length = c.params from rfl]
        cases hm : c.params.mapM (c.bindParam kwargs) with
        | ok rest =>
          exfalso
          have hlt : i < c.params.length := by omega
          obtain ⟨v, _, hv⟩ := (mapM_ok_getElem? _ _ _ hm i).1 c.params[i] (by simp [hlt])
          have hnk : dictGet kwargs c.params[i] = none := by
            rw [dictGet_none]
            intro hmem
            obtain ⟨kv, hkv, e⟩ := List.mem_map.mp hmem
            have := hkw kv hkv
            rw [e] at this
            obtain ⟨j, hj, e2⟩ := List.mem_iff_getElem.mp this
            rw [List.getElem_drop] at e2
            have := (List.getElem_inj hs.nodup).mp e2
            omega
          unfold OpClass.bindParam at hv
          rw [hnk] at hv
          dsimp only at hv
          cases hdf : c.default? c.params[i] with
          | none => rw [hdf] at hv; cases hv
          | some w =>
            obtain ⟨j, h1, h2⟩ := dfltPairs_index hs (default?_mem hdf)
            obtain ⟨hj1, hj2⟩ := List.getElem?_eq_some_iff.mp h1
            have := (List.getElem_inj hs.nodup).mp hj2
            have := hs.defaults
            omega
        | error e =>
          have : ∀ (l : List Str) e, l.mapM (c.bindParam kwargs) = .error e → e = .typeError := by
            intro l
            induction l with
            | nil => intro e h; cases h
            | cons p l ih =>
              intro e h
              rw [List.mapM_cons] at h
              cases hp : c.bindParam kwargs p with
              | error e' =>
                rw [hp] at h
                injection h with h
                subst h
                unfold OpClass.bindParam at hp
                split at hp
                · cases hp
                · split at hp
                  · cases hp
                  · injection hp with hp; exact hp.symm
              | ok v =>
                rw [hp, Except.bind_ok] at h
                cases hm : l.mapM (c.bindParam kwargs) with
                | error e' =>
                  rw [hm] at h
                  injection h with h
                  subst h
                  exact ih _ hm
                | ok r => rw [hm] at h; cases h
          rw [this _ e hm]
          rfl
    rw [hb0]
    rfl

/-- C85: the case of `Pad`. After `class MyPad(Pad): pass`, `MyPad(2)` and `MyPad(3)` are equal, though they pad
differently, and neither can be loaded again; made as `MyPad(maxlen=2)` it can. -/
theorem C85_inherited_pad (env : Env) (name : Str) (f : Factory)
    (hf : f.get name = .ok ((Builtin.pad env).subclass name)) :
    ∃ op2 op3 op4, ((Builtin.pad env).subclass name).call [.int 2] [] = .ok op2 ∧
      ((Builtin.pad env).subclass name).call [.int 3] [] = .ok op3 ∧
      ((Builtin.pad env).subclass name).call [] [("maxlen".toList, .int 2)] = .ok op4 ∧
      op2.eq op3 = true ∧
      (∃ a, op2.transform (.list []) = .ok (.list (List.replicate 2 (.str padToken)), a)) ∧
      (∃ a, op3.transform (.list []) = .ok (.list (List.replicate 3 (.str padToken)), a)) ∧
      Op.fromDict f op2.toDict = .error .typeError ∧ Op.fromDict f op3.toDict = .error .typeError ∧
      Op.fromDict f op4.toDict = .ok op4 := by
  have hs : Signature (Builtin.pad env) := by
    constructor
    · show (["maxlen".toList, "pad_token".toList] : List Str).Nodup
      decide
    · exact Nat.le_succ 1
  have heq : ∀ r r', Op.eq ⟨(Builtin.pad env).subclass name, [], r⟩ ⟨(Builtin.pad env).subclass name, [], r'⟩ = true := by
    intro r r'
    unfold Op.eq
    rw [Bool.and_eq_true]
    exact ⟨by simp, by rfl⟩
  have hpad : ∀ n : Nat, ∃ a, (lstOp fun l => do
      let n ← (PyVal.int n).asInt
      Pad.transform env.σ n (.str padToken) l) (.list []) =
        .ok (.list (List.replicate n (.str padToken)), a) := by
    intro n
    obtain ⟨a, h, _⟩ := C30_pad env.σ n (.str padToken) [] (Or.inr (by simp))
    refine ⟨a, ?_⟩
    show (Pad.transform env.σ n (.str padToken) [] >>= _) = _
    rw [h, Except.bind_ok]
    simp
    rfl
  refine ⟨_, _, _, rfl, rfl, rfl, heq _ _, ?_, ?_, ?_, ?_, ?_⟩
  · obtain ⟨a, h⟩ := hpad 2
    refine ⟨a, ?_⟩
    unfold Op.transform
    rw [if_neg (by intro e; exact e rfl)]
    exact (congrArg (· >>= _) h).trans rfl
  · obtain ⟨a, h⟩ := hpad 3
    refine ⟨a, ?_⟩
    unfold Op.transform
    rw [if_neg (by intro e; exact e rfl)]
    exact (congrArg (· >>= _) h).trans rfl
  · exact (C85_inherited_reload _ hs name [.int 2] [] (by simp) f hf _ rfl).2 ⟨0, by simp, Nat.lt_succ_self 1⟩
  · exact (C85_inherited_reload _ hs name [.int 3] [] (by simp) f hf _ rfl).2 ⟨0, by simp, Nat.lt_succ_self 1⟩
  · exact (C85_inherited_reload _ hs name [] [("maxlen".toList, .int 2)] (by simp) f hf _ rfl).1 rfl

/-! ### classes derived from the base classes -/

/-- A label function as the library calls it. -/
def labelFunction (F : List Int → Nat → List Int) : Transducer := fun x n => .ok (F x n)

theorem user_call {α : Type} {c : UserClass α} {i o : SeqType} {run : α → Seq → Res (Seq × Aligner)}
    {args : List PyVal} {kwargs : List (Str × PyVal)} {op : Op} (h : (c.toClass i o run).call args kwargs = .ok op) :
    ∃ vals x, (c.toClass i o run).bindArgs args kwargs = .ok vals ∧ c.init vals = .ok x ∧
      op.cls = c.toClass i o run ∧ op.run = run x := by
  unfold OpClass.call at h
  obtain ⟨vals, hv, h⟩ := bind_eq_ok h
  obtain ⟨r, hr, h⟩ := bind_eq_ok h
  obtain ⟨x, hx, hr⟩ := bind_eq_ok (show (c.init vals >>= fun x => pure (run x)) = .ok r from hr)
  injection h with h
  injection hr with hr
  subst h
  exact ⟨vals, x, hv, hx, rfl, hr.symm⟩

theorem transform_tokOp {c : OpClass} {op : Op} {f : Str → Res (List Str × Aligner)} (hc : op.cls = c)
    (hi : c.inputType = .str) (ho : c.outputType = .list) (hr : op.run = tokOp f) (s : Str) :
    op.transform (.str s) = (do
      let r ← f s
      return (.list (r.1.map Tok.str), r.2)) := by
  unfold Op.transform
  rw [hc, hi, ho, hr, if_neg (by intro e; exact e rfl)]
  show ((f s >>= _) >>= _) = _
  cases f s with
  | error e => rfl
  | ok r => rfl

theorem transform_strOp {c : OpClass} {op : Op} {f : Str → Res (Str × Aligner)} (hc : op.cls = c)
    (hi : c.inputType = .str) (ho : c.outputType = .str) (hr : op.run = strOp f) (s : Str) :
    op.transform (.str s) = (do
      let r ← f s
      return (.str r.1, r.2)) := by
  unfold Op.transform
  rw [hc, hi, ho, hr, if_neg (by intro e; exact e rfl)]
  show ((f s >>= _) >>= _) = _
  cases f s with
  | error e => rfl
  | ok r => rfl

/-- The labels that an aligner of placed tokens gives: `fill n` are the labels of `n` dropped characters. -/
structure PlacedLabels (a : Aligner) (fill : Nat → List Int) (ps : List (Str × Str)) (tail : Str) : Prop where
  aligned : Aligned a (layout ps tail).length ps.length uintLabels
  forward : ∀ ls, ls.length = (layout ps tail).length → a.transform ls = .ok ((tokenSegs ps ls).map tokenLabel)
  backward : ∀ ys, ys.length = ps.length → uintLabels ys → a.inverseTransform ys = .ok (charLabelsBy fill ps tail ys)
  overflow : ∀ ys, ys.length = ps.length → ¬ uintLabels ys → a.inverseTransform ys = .error .overflowError
  roundTrip : (∀ p ∈ ps, p.2 ≠ []) → ∀ ys, ys.length = ps.length → uintLabels ys →
    ∃ ls, a.inverseTransform ys = .ok ls ∧ a.transform ls = .ok ys

theorem own_tokenizer (σ : SetOrder) (F B : List Int → Nat → List Int) (hF : Sized F) (hB : Sized B) (s : Str)
    (toks : List Str) :
    (¬ OccursInOrder s toks →
      tokenizerTransform σ (labelFunction F) (labelFunction B) s toks = .error .valueError) ∧
    (OccursInOrder s toks → ∃ a ps tail,
      tokenizerTransform σ (labelFunction F) (labelFunction B) s toks = .ok (toks, a) ∧
      s = layout ps tail ∧ ps.map Prod.snd = toks ∧ Leftmost ps tail ∧ PlacedLabels a (B []) ps tail) := by
  constructor
  · intro h
    unfold tokenizerTransform
    rw [(genReplacementGroup_complete σ s toks).2 h]
    rfl
  · intro h
    obtain ⟨ps, tail, rfl, rfl, hl⟩ := exists_leftmost s toks h
    have hF0 : ∀ x, labelFunction F x 0 = .ok [] := by
      intro x
      show Except.ok (F x 0) = _
      rw [List.length_eq_zero_iff.mp (hF x 0)]
    obtain ⟨a, h1, h2, h3, h4, h5⟩ := tokenizer_placed σ (labelFunction F) (labelFunction B) (B []) (hB []) ps tail
      (genReplacementGroup_leftmost σ ps tail hl) (solid_of_leftmost hl) (Or.inr ⟨hF0, fun n => rfl⟩)
    refine ⟨a, ps, tail, h1, rfl, rfl, hl, h2, h3, h4, h5, fun hne ys hy hu => ⟨_, h4 ys hy hu, ?_⟩⟩
    rw [h3 _ (charLabelsBy_length _ (hB []) ps tail ys hy), map_tokenLabel_charLabelsBy _ (hB []) ps tail ys hy hne hu]

/-- C85: a tokenizer with a `_tokenize` of one's own and label functions that return as many labels as they are asked
for. What `_tokenize` raises is raised; tokens that do not occur in the text in this order are refused with
ValueError; otherwise they are the output, and labels are moved as if each token stood where it first occurs behind the
one before: a token gets the most frequent label of its characters there, and gives its label back to these characters,
while dropped characters get what the backward label function returns. If no token is empty the way back and forth
changes nothing. -/
theorem C85_tokenizer (env : Env) (F B : List Int → Nat → List Int) (hF : Sized F) (hB : Sized B)
    (c : UserClass (Str → Res (List Str))) (args : List PyVal) (kwargs : List (Str × PyVal)) (op : Op)
    (h : (c.tokenizer env (labelFunction F) (labelFunction B)).call args kwargs = .ok op) :
    ∃ vals tokenize, (c.tokenizer env (labelFunction F) (labelFunction B)).bindArgs args kwargs = .ok vals ∧
      c.init vals = .ok tokenize ∧ ∀ s,
      (∀ e, tokenize s = .error e → op.transform (.str s) = .error e) ∧
      ∀ toks, tokenize s = .ok toks →
        (¬ OccursInOrder s toks → op.transform (.str s) = .error .valueError) ∧
        (OccursInOrder s toks → ∃ a ps tail, op.transform (.str s) = .ok (.list (toks.map Tok.str), a) ∧
          s = layout ps tail ∧ ps.map Prod.snd = toks ∧ Leftmost ps tail ∧ PlacedLabels a (B []) ps tail) := by
  obtain ⟨vals, tokenize, h1, h2, h3, h4⟩ := user_call h
  refine ⟨vals, tokenize, h1, h2, fun s => ?_⟩
  have ht := transform_tokOp h3 rfl rfl h4 s
  refine ⟨fun e he => ?_, fun toks htoks => ?_⟩
  · rw [ht, he]; rfl
  · obtain ⟨o1, o2⟩ := own_tokenizer env.σ F B hF hB s toks
    rw [htoks, Except.bind_ok] at ht
    refine ⟨fun ho => ?_, fun ho => ?_⟩
    · rw [ht, o1 ho]; rfl
    · obtain ⟨a, ps, tail, e1, e2⟩ := o2 ho
      refine ⟨a, ps, tail, ?_, e2⟩
      rw [ht, e1]; rfl

/-- C85: where the tokens are placed. A leftmost placement exists iff the tokens occur in order, and there is only one;
a placement in which no dropped text before a token contains the first character of this token is the leftmost one. So
labels go where the author of the tokenizer expects them if the dropped text has that form, for instance if it is
whitespace and tokens begin with something else. -/
theorem C85_placement (s : Str) (toks : List Str) :
    (OccursInOrder s toks ↔ ∃ ps tail, s = layout ps tail ∧ ps.map Prod.snd = toks ∧ Leftmost ps tail) ∧
    (∀ ps tail ps' tail', s = layout ps tail → ps.map Prod.snd = toks → Leftmost ps tail →
      s = layout ps' tail' → ps'.map Prod.snd = toks → Leftmost ps' tail' → ps = ps' ∧ tail = tail') ∧
    (∀ ps tail, s = layout ps tail → ps.map Prod.snd = toks →
      (∀ p ∈ ps, p.1 = [] ∨ ∃ ch t, p.2 = ch :: t ∧ ch ∉ p.1) → Leftmost ps tail) := by
  refine ⟨⟨exists_leftmost s toks, ?_⟩, ?_, fun ps tail _ _ h => leftmost_of_firstFit h⟩
  · rintro ⟨ps, tail, rfl, rfl, _⟩
    exact occurs_of_layout ps tail
  · intro ps tail ps' tail' h1 h2 h3 h4 h5 h6
    exact leftmost_unique h3 h6 (h1.symm.trans h4) (h2.trans h5.symm)

/-- A tokenizer that keeps the last two characters. -/
def exLastTwo : UserClass (Str → Res (List Str)) :=
  ⟨"LastTwo".toList, [], [], false, fun _ => .ok fun s => .ok [s.drop (s.length - 2)]⟩

/-- C85: otherwise labels go astray without any exception: a tokenizer that returns the last word of `"ab ab"` gets, for
this word, the label of the first one. -/
theorem C85_misplaced (env : Env) : ∃ op a,
    (exLastTwo.tokenizer env (labelFunction fun _ n => List.replicate n 0)
      (labelFunction fun _ n => List.replicate n 0)).call [] [] = .ok op ∧
    op.transform (.str "ab ab".toList) = .ok (.list [.str "ab".toList], a) ∧
    a.transform [1, 1, 0, 2, 2] = .ok [1] ∧ a.inverseTransform [2] = .ok [2, 2, 0, 0, 0] := by
  have hz : Sized fun (_ : List Int) n => List.replicate n (0 : Int) := fun _ n => by simp
  have hcall : (exLastTwo.tokenizer env (labelFunction fun _ n => List.replicate n 0)
      (labelFunction fun _ n => List.replicate n 0)).call [] [] = .ok ⟨_, [], _⟩ := rfl
  obtain ⟨vals, tokenize, h1, h2, h3⟩ := C85_tokenizer env _ _ hz hz exLastTwo [] [] _ hcall
  injection h2 with h2
  subst h2
  obtain ⟨a, ps, tail, e1, e2, e3, e4, e5⟩ := ((h3 "ab ab".toList).2 ["ab".toList] (by decide)).2
    ⟨[], " ab".toList, by decide, trivial⟩
  have hl : Leftmost [([], "ab".toList)] " ab".toList := leftmost_of_firstFit (by simp)
  obtain ⟨rfl, rfl⟩ := leftmost_unique e4 hl (e2.symm.trans (by decide)) e3
  refine ⟨_, a, hcall, e1, ?_, ?_⟩
  · rw [e5.forward _ (by decide)]; rfl
  · rw [e5.backward [2] rfl (by intro x hx; simp at hx; subst hx; decide)]; rfl

/-- C85: a pattern recognizer with a pattern, a token and label functions of one's own (returning as many labels as they
are asked for). `ms` being the successive matches, they are replaced by the token and labels by what the forward function
makes of them. The way back works if the token is not empty; for an empty token, if no deleted text occurs twice in a run
of touching matches and the backward function returns equal labels; if a deleted text does occur twice, AssertionError is
raised. -/
theorem C85_recognizer (env : Env) (F B : List Int → Nat → List Int) (hF : Sized F) (hB : Sized B)
    (c : UserClass (Matcher × Str)) (args : List PyVal) (kwargs : List (Str × PyVal)) (op : Op)
    (h : (c.recognizer env (labelFunction F) (labelFunction B)).call args kwargs = .ok op) :
    ∃ vals m token, (c.recognizer env (labelFunction F) (labelFunction B)).bindArgs args kwargs = .ok vals ∧
      c.init vals = .ok (m, token) ∧ ∀ s, SoundMatcher m s →
      (∀ ms, Scan m s 0 ms → ∃ a, op.transform (.str s) = .ok (.str (replaceMatches s token 0 ms), a) ∧
        a.inputLength = s.length ∧ a.outputLength = (replaceMatches s token 0 ms).length ∧
        (∀ ls, ls.length = s.length → a.transform ls = .ok (replaceLabelsBy F ls token.length 0 ms)) ∧
        (token ≠ [] ∨ DistinctMatches s ms ∧ (∃ z, ∀ n, B [] n = List.replicate n z) →
          ∀ ys, ys.length = (replaceMatches s token 0 ms).length →
            a.inverseTransform ys = .ok (restoreLabelsBy B token.length 0 ms ys)) ∧
        (token = [] → ¬ DistinctMatches s ms → ∀ ys, ys.length = (replaceMatches s token 0 ms).length →
            a.inverseTransform ys = .error .assertionError)) ∧
      ((∀ ms, ¬ Scan m s 0 ms) → op.transform (.str s) = .error .nonTermination) := by
  obtain ⟨vals, ⟨m, token⟩, h1, h2, h3, h4⟩ := user_call h
  refine ⟨vals, m, token, h1, h2, fun s hs => ⟨fun ms hscan => ?_, fun hno => ?_⟩⟩
  · obtain ⟨a, e1, e2⟩ := recognizer_op env.σ m token F B hF hB s hs ms hscan
    refine ⟨a, ?_, e2⟩
    rw [transform_strOp h3 rfl rfl h4 s]
    show (patternTransform env.σ m token (fun x n => .ok (F x n)) (fun x n => .ok (B x n)) s >>= _) = _
    rw [e1]
    rfl
  · rw [transform_strOp h3 rfl rfl h4 s]
    show (patternTransform env.σ m token (labelFunction F) (labelFunction B) s >>= _) = _
    have : patternTransform env.σ m token (labelFunction F) (labelFunction B) s = .error .nonTermination := by
      by_cases hst : ∃ p, Reached m s p ∧ p < s.length ∧ m s p = some (p, p)
      · exact ((C24_fuel env.σ m token _ _ s hs).2 hst).2
      · exfalso
        obtain ⟨ms, hms⟩ := scan_exists hs (fun p hr hp hm => hst ⟨p, hr, hp, hm⟩) s.length 0 (by omega) (by omega) .start
        exact hno ms hms
    rw [this]
    rfl

theorem ownAdd_congr {α V : Type} (nv nv' : α → Res (Option V)) (xs : List α) (h : ∀ x ∈ xs, nv x = nv' x) (i : Nat)
    (g : ReplacementGroup V) : enumAdd nv xs i g = enumAdd nv' xs i g := by
  induction xs generalizing i g with
  | nil => rfl
  | cons x xs ih =>
    unfold enumAdd
    rw [h x (by simp)]
    cases nv' x with
    | error e => rfl
    | ok r =>
      cases r with
      | none => exact ih (fun y hy => h y (by simp [hy])) _ _
      | some v => exact ih (fun y hy => h y (by simp [hy])) _ _

theorem ownAdd_error {α V : Type} (nv : α → Res (Option V)) (pre : List α) (x : α) (post : List α)
    (hpre : ∀ y ∈ pre, ∃ r, nv y = .ok r) (e : Exc) (hx : nv x = .error e) (i : Nat) (g : ReplacementGroup V) :
    enumAdd nv (pre ++ x :: post) i g = .error e := by
  induction pre generalizing i g with
  | nil =>
    rw [List.nil_append]
    unfold enumAdd
    rw [hx]
    rfl
  | cons y pre ih =>
    rw [List.cons_append]
    unfold enumAdd
    obtain ⟨r, hr⟩ := hpre y (by simp)
    rw [hr]
    cases r with
    | none => exact ih (fun z hz => hpre z (by simp [hz])) _ _
    | some v => exact ih (fun z hz => hpre z (by simp [hz])) _ _

/-- C85: a class with an `_is_valid_char` of one's own. It is asked about the characters from left to right, and what it
raises first is raised; otherwise a space is put on both sides of each valid character, and labels are as for the
built-in classes: 0 for the new spaces, and the way back restores all labels. -/
theorem C85_around (env : Env) (c : UserClass (Char → Res Bool)) (args : List PyVal) (kwargs : List (Str × PyVal))
    (op : Op) (h : (c.around env).call args kwargs = .ok op) :
    ∃ vals valid, (c.around env).bindArgs args kwargs = .ok vals ∧ c.init vals = .ok valid ∧
      (∀ pre ch post e, (∀ x ∈ pre, ∃ r, valid x = .ok r) → valid ch = .error e →
        op.transform (.str (pre ++ ch :: post)) = .error e) ∧
      ∀ s (v : Char → Bool), (∀ ch ∈ s, valid ch = .ok (v ch)) →
        ∃ a, op.transform (.str s) = .ok (.str (s.flatMap fun ch => if v ch then [' ', ch, ' '] else [ch]), a) ∧
          Aligned a s.length (s.flatMap fun ch => if v ch then [' ', ch, ' '] else [ch]).length anyLabels ∧
          (∀ ls : List Int, ls.length = s.length → a.transform ls =
            .ok ((s.zip ls).flatMap fun p => if v p.1 then [0, p.2, 0] else [p.2])) ∧
          (∀ ls y : List Int, a.transform ls = .ok y → a.inverseTransform y = .ok ls) := by
  obtain ⟨vals, valid, h1, h2, h3, h4⟩ := user_call h
  refine ⟨vals, valid, h1, h2, fun pre ch post e hpre hch => ?_, fun s v hv => ?_⟩
  · rw [transform_strOp h3 rfl rfl h4]
    unfold charwiseTransform
    rw [ownAdd_error _ pre ch post (fun y hy => ?_) e (by rw [hch]; rfl)]
    · rfl
    · obtain ⟨r, hr⟩ := hpre y hy
      exact ⟨_, by rw [hr]; rfl⟩
  · obtain ⟨a, e1, e2, e3, _, e5⟩ := C17_around env.σ v s
    refine ⟨a, ?_, e2, e3, e5⟩
    rw [transform_strOp h3 rfl rfl h4]
    unfold charwiseTransform
    unfold AddWhitespaceAroundChar.transform charwiseTransform at e1
    rw [ownAdd_congr _ (AddWhitespaceAroundChar.newValue v) s (fun ch hch => by rw [hv ch hch]; rfl), e1]
    rfl

/-! ### pipes with operators of one's own -/

/-- `op` is an object of a class derived from one of the base classes whose label functions return as many labels as
they are asked for and invent none; `s` is a text it can be used on without precaution. -/
inductive Own (env : Env) (op : Op) : Seq → Prop
  | tokenizer (F B : List Int → Nat → List Int) (hF : Sized F) (hB : Sized B) (mF : Modest F) (mB : Modest B)
      (c : UserClass (Str → Res (List Str))) (args : List PyVal) (kwargs : List (Str × PyVal))
      (h : (c.tokenizer env (labelFunction F) (labelFunction B)).call args kwargs = .ok op) (s : Seq) : Own env op s
  | recognizer (F B : List Int → Nat → List Int) (hF : Sized F) (hB : Sized B) (mF : Modest F) (mB : Modest B)
      (c : UserClass (Matcher × Str)) (args : List PyVal) (kwargs : List (Str × PyVal))
      (h : (c.recognizer env (labelFunction F) (labelFunction B)).call args kwargs = .ok op) (s : Seq)
      (hs : ∀ vals m token t, c.init vals = .ok (m, token) → s = .str t → SoundMatcher m t ∧
        (token ≠ [] ∨ (∀ ms, Scan m t 0 ms → DistinctMatches t ms) ∧ ∃ z, ∀ n, B [] n = List.replicate n z)) :
      Own env op s
  | around (c : UserClass (Char → Res Bool)) (args : List PyVal) (kwargs : List (Str × PyVal))
      (h : (c.around env).call args kwargs = .ok op) (s : Seq) : Own env op s

theorem transform_str_of_ok {op : Op} (hi : op.cls.inputType = .str) {s t : Seq} {a : Aligner}
    (h : op.transform s = .ok (t, a)) : ∃ u, s = .str u := by
  cases s with
  | str u => exact ⟨u, rfl⟩
  | list l =>
    exfalso
    unfold Op.transform at h
    rw [hi, if_pos (by intro e; cases e)] at h
    cases h

theorem first_raise {α β : Type} (f : α → Res β) (l : List α) (h : ¬ ∀ x ∈ l, ∃ r, f x = .ok r) :
    ∃ pre x post e, l = pre ++ x :: post ∧ (∀ y ∈ pre, ∃ r, f y = .ok r) ∧ f x = .error e := by
  induction l with
  | nil => exact absurd (fun x hx => by cases hx) h
  | cons a l ih =>
    cases ha : f a with
    | error e => exact ⟨[], a, l, e, rfl, fun y hy => (by cases hy), ha⟩
    | ok r =>
      obtain ⟨pre, x, post, e, rfl, h1, h2⟩ := ih fun h' => h fun x hx => by
        rcases List.mem_cons.mp hx with rfl | hx
        · exact ⟨r, ha⟩
        · exact h' x hx
      refine ⟨a :: pre, x, post, e, rfl, fun y hy => ?_, h2⟩
      rcases List.mem_cons.mp hy with rfl | hy
      · exact ⟨r, ha⟩
      · exact h1 y hy

/-- C85: labels and sequence stay aligned both ways through such an operator. -/
theorem C85_aligned (env : Env) (op : Op) (s t : Seq) (a : Aligner) (hop : Own env op s)
    (h : op.transform s = .ok (t, a)) : Faithful a s.length t.length := by
  cases hop with
  | tokenizer F B hF hB mF mB c args kwargs hc =>
    obtain ⟨_, tokenize, _, _, h3, h4⟩ := user_call hc
    obtain ⟨u, rfl⟩ := transform_str_of_ok (by rw [h3]; rfl) h
    rw [transform_tokOp h3 rfl rfl h4 u] at h
    obtain ⟨⟨out, a'⟩, h5, h6⟩ := bind_eq_ok h
    obtain ⟨toks, h7, h5⟩ := bind_eq_ok h5
    injection h6 with h6
    injection h6 with e1 e2
    subst e1; subst e2
    have hh := honest_tokenizer (frugal_modest mF) (frugal_modest mB) h5
    obtain ⟨o1, o2⟩ := own_tokenizer env.σ F B hF hB u toks
    by_cases ho : OccursInOrder u toks
    · obtain ⟨a2, ps, tail, e1, e2, e3, _, e5⟩ := o2 ho
      rw [e1] at h5
      injection h5 with h5
      injection h5 with e6 e7
      subst e6; subst e7
      have := faithful_of e5.aligned hh
      rw [← e2] at this
      have hl : ps.length = (Seq.list (toks.map Tok.str)).length := by
        show ps.length = (toks.map Tok.str).length
        rw [← e3]; simp
      rw [hl] at this
      exact this
    · rw [o1 ho] at h5; cases h5
  | recognizer F B hF hB mF mB c args kwargs hc _ hs =>
    obtain ⟨vals, ⟨m, token⟩, _, h2, h3, h4⟩ := user_call hc
    obtain ⟨u, rfl⟩ := transform_str_of_ok (by rw [h3]; rfl) h
    obtain ⟨hsm, hsafe⟩ := hs vals m token u h2 rfl
    rw [transform_strOp h3 rfl rfl h4 u] at h
    obtain ⟨⟨out, a'⟩, h5, h6⟩ := bind_eq_ok h
    injection h6 with h6
    injection h6 with e1 e2
    subst e1; subst e2
    dsimp only at h5
    have hh := honest_pattern (frugal_modest mF) (frugal_modest mB) h5
    obtain ⟨ms, hscan⟩ := patternTransform_scan h5
    obtain ⟨a2, e1, e2, e3, e4, e5, _⟩ := recognizer_op env.σ m token F B hF hB u hsm ms hscan
    have h5 : patternTransform env.σ m token (fun x n => .ok (F x n)) (fun x n => .ok (B x n)) u = .ok (out, a') := h5
    rw [e1] at h5
    injection h5 with h5
    injection h5 with e6 e7
    subst e6; subst e7
    refine faithful_of ⟨e2, e3, fun ls hl => ⟨_, e4 ls hl, transform_length (e4 ls hl) |>.trans e3⟩,
      fun ys hy _ => ?_⟩ hh
    have := e5 (hsafe.imp id fun x => ⟨x.1 ms hscan, x.2⟩) ys hy
    exact ⟨_, this, (inverse_length this).trans e2⟩
  | around c args kwargs hc =>
    obtain ⟨vals, valid, _, h2, h3, h4⟩ := user_call hc
    obtain ⟨u, rfl⟩ := transform_str_of_ok (by rw [h3]; rfl) h
    have hok : ∀ ch ∈ u, ∃ r, valid ch = .ok r := by
      refine Classical.byContradiction fun hno => ?_
      obtain ⟨pre, ch, post, e, rfl, hpre, he⟩ := first_raise valid u hno
      obtain ⟨_, valid', _, h2', hA, _⟩ := C85_around env c args kwargs op hc
      rw [transform_strOp h3 rfl rfl h4] at h
      unfold charwiseTransform at h
      rw [ownAdd_error _ pre ch post (fun y hy => ?_) e (by rw [he]; rfl)] at h
      · cases h
      · obtain ⟨r, hr⟩ := hpre y hy
        exact ⟨_, by rw [hr]; rfl⟩
    let v : Char → Bool := fun ch => match valid ch with
      | .ok r => r
      | .error _ => false
    have hv : ∀ ch ∈ u, valid ch = .ok (v ch) := by
      intro ch hch
      obtain ⟨r, hr⟩ := hok ch hch
      show valid ch = .ok (match valid ch with
        | .ok r => r
        | .error _ => false)
      rw [hr]
    rw [transform_strOp h3 rfl rfl h4] at h
    obtain ⟨⟨out, a'⟩, h5, h6⟩ := bind_eq_ok h
    injection h6 with h6
    injection h6 with e1 e2
    subst e1; subst e2
    have hh := honest_charwise (fun g n => honest_ofStrEdit env.σ u g n aroundChar_frugal getMostCommonExcept_frugal) h5
    obtain ⟨a2, e1, e2, _⟩ := C17_around env.σ v u
    unfold charwiseTransform at h5
    unfold AddWhitespaceAroundChar.transform charwiseTransform at e1
    rw [ownAdd_congr _ (AddWhitespaceAroundChar.newValue v) u (fun ch hch => by rw [hv ch hch]; rfl), e1] at h5
    injection h5 with h5
    injection h5 with e6 e7
    subst e6; subst e7
    exact faithful_of_any e2 hh

/-- C85: a pipe made of built-in operators and of operators of one's own, in any mixture, keeps labels aligned with its
output. -/
theorem C85_pipe (env : Env) (he : env.Sane) (p : Pipe) (s o : Seq) (as : List Aligner) (coll : List Seq)
    (h : p.transformSequence s = .ok (o, as, coll))
    (hs : ∀ (i : Nat) op t, p.steps[i]? = some op → coll[i]? = some t →
      IsBuiltin env op ∧ Safe env op t ∨ Own env op t) : FaithfulAll as s.length o.length :=
  C59_aligned p s o as coll h fun i op t u a hop ht hu => by
    rcases hs i op t hop ht with ⟨h1, h2⟩ | h1
    · exact C14_aligned env he op h1 t u a hu h2
    · exact C85_aligned env op t u a h1 hu

/-! ### examples -/

/-- A class whose author forgot `_output_type`. -/
def exForgotten : ClassStmt := ⟨exPad, true, false, true⟩

/-- The corrected class. -/
def exCorrected : ClassStmt := ⟨exPad, true, true, true⟩

example : ¬ Complete exForgotten ∧ Complete exCorrected := ⟨(fun h => by cases h.2.1), rfl, rfl, rfl⟩

/-- The corrected class is refused; the forgotten attribute cannot be supplied any more. -/
example : ∃ o o', (Factory.declareAll [] [exForgotten, exCorrected]).2[0]? = some o ∧ o = .error .assertionError ∧
    (Factory.declareAll [] [exForgotten, exCorrected]).2[1]? = some o' ∧ o' = .error .keyError := by
  obtain ⟨o, h1, _, h2, _⟩ := C85_outcomes [] [] exForgotten [exCorrected]
  obtain ⟨o', h3, h4, _⟩ := C85_outcomes [] [exForgotten] exCorrected []
  exact ⟨o, o', h1, h2.mpr ⟨by simp, fun h => by cases h.2.1⟩, h3, h4.mpr (Or.inr ⟨exForgotten, by simp, rfl⟩)⟩

/-- And what the name then stands for never works. -/
example : ∃ c, (Factory.declare [] exForgotten).1.get "Pad".toList = .ok c ∧
    ∃ op, c.call [.int 3] [] = .ok op ∧ op.transform (.list []) = .error .typeError := by
  obtain ⟨c, h1, h2⟩ := C85_left_behind [] exForgotten (by simp) (fun h => by cases h.2.1)
  obtain ⟨op, h3, _, h4⟩ := (h2 [.int 3] []).2 _ rfl
  refine ⟨c, h1, op, h3, ?_⟩
  rcases h4 (.list []) with h | ⟨e, h, _⟩
  · exact h
  · cases h

/-- Saved texts keep their meaning. -/
example (sts : List ClassStmt) :
    Op.deserialize (Factory.declareAll [("Pad".toList, exPad)] sts).1 exPadOp.serialize = .ok exPadOp := by
  have h := C66_operator _ _ exPadOp_storable
  rw [(C85_loading _ sts).1 _ (by rw [h]; intro e; cases e), h]

/-- Recognizer of a dash, replaced by two. -/
def exDash : UserClass (Matcher × Str) :=
  ⟨"Dash".toList, [], [], false, fun _ => .ok ((Re.lit "-".toList).search, "--".toList)⟩

example : ∃ op a, (exDash.recognizer exEnv (labelFunction fun _ n => List.replicate n 7)
      (labelFunction fun x n => List.replicate n (x.headD 0))).call [] [] = .ok op ∧
    op.transform (.str "a-b".toList) = .ok (.str "a--b".toList, a) ∧
    a.transform [1, 2, 3] = .ok [1, 7, 7, 3] ∧ a.inverseTransform [4, 5, 6, 7] = .ok [4, 5, 7] := by
  have h : (exDash.recognizer exEnv (labelFunction fun _ n => List.replicate n 7)
      (labelFunction fun x n => List.replicate n (x.headD 0))).call [] [] = .ok ⟨_, [], _⟩ := rfl
  obtain ⟨vals, m, token, _, h2, h3⟩ := C85_recognizer exEnv _ _ (fun _ n => by simp) (fun _ n => by simp) exDash [] []
    _ h
  injection h2 with h2
  injection h2 with e1 e2
  subst e1; subst e2
  obtain ⟨a, h4, _, _, h5, h6, _⟩ := (h3 "a-b".toList (C24_regex_sound _ _)).1 [(1, 2)]
    (.match_ 0 1 2 _ (by decide) (by decide) (.noMatch 2 (by decide) (by decide)))
  refine ⟨_, a, h, h4, ?_, ?_⟩
  · rw [h5 _ (by decide)]; rfl
  · rw [h6 (Or.inl (by decide)) [4, 5, 6, 7] (by decide)]; rfl

/-- Spaces around `+`; `!` raises. -/
def exPlus : UserClass (Char → Res Bool) :=
  ⟨"Plus".toList, [], [], false, fun _ => .ok fun c => if c = '!' then .error .valueError else .ok (c == '+')⟩

example : ∃ op a, (exPlus.around exEnv).call [] [] = .ok op ∧
    op.transform (.str "1+!2".toList) = .error .valueError ∧
    op.transform (.str "1+2".toList) = .ok (.str "1 + 2".toList, a) ∧ a.transform [1, 2, 3] = .ok [1, 0, 2, 0, 3] := by
  have h : (exPlus.around exEnv).call [] [] = .ok ⟨_, [], _⟩ := rfl
  obtain ⟨vals, valid, _, h2, h3, h4⟩ := C85_around exEnv exPlus [] [] _ h
  injection h2 with h2
  subst h2
  obtain ⟨a, h5, _, h6, _⟩ := h4 "1+2".toList (fun c => c == '+') (by decide)
  refine ⟨_, a, h, h3 "1+".toList '!' "2".toList .valueError (by
    intro x hx
    refine ⟨x == '+', if_neg ?_⟩
    rintro rfl
    exact absurd hx (by decide)) rfl, h5, ?_⟩
  rw [h6 _ (by decide)]; rfl

example : ∃ op s t a, Own exEnv op s ∧ op.transform s = .ok (t, a) ∧ Faithful a s.length t.length := by
  obtain ⟨op, a, h1, h2, _⟩ := C85_misplaced exEnv
  have ho : Own exEnv op (.str "ab ab".toList) :=
    .tokenizer _ _ (fun _ n => by simp) (fun _ n => by simp)
      (fun _ n y hy => Or.inl (List.eq_of_mem_replicate hy)) (fun _ n y hy => Or.inl (List.eq_of_mem_replicate hy))
      exLastTwo [] [] h1 _
  exact ⟨op, _, _, a, ho, h2, C85_aligned exEnv op _ _ a ho h2⟩

/-- `C85_pipe` applies to a pipe with such a tokenizer. -/
example : ∃ (p : Pipe) (s o : Seq) (as : List Aligner) (coll : List Seq), p.transformSequence s = .ok (o, as, coll) ∧
    as ≠ [] ∧ FaithfulAll as s.length o.length := by
  obtain ⟨op, a, h1, h2, _⟩ := C85_misplaced exEnv
  have hrun : (⟨[op], []⟩ : Pipe).transformSequence (.str "ab ab".toList) =
      .ok (.list [.str "ab".toList], [a], [.str "ab ab".toList, .list [.str "ab".toList]]) :=
    (C58_composition _ _ _ _ _).mpr ⟨_, .cons h2 (.nil _), rfl, rfl, rfl⟩
  refine ⟨_, _, _, _, _, hrun, by simp, C85_pipe exEnv exEnv_sane _ _ _ _ _ hrun fun i op' t hop ht => Or.inr ?_⟩
  cases i with
  | zero =>
    injection hop with hop
    subst hop
    exact .tokenizer _ _ (fun _ n => by simp) (fun _ n => by simp)
      (fun _ n y hy => Or.inl (List.eq_of_mem_replicate hy)) (fun _ n y hy => Or.inl (List.eq_of_mem_replicate hy))
      exLastTwo [] [] h1 _
  | succ i => cases hop

end Uttut
