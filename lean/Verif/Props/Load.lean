import Verif.Spec.Load
import Verif.Props.JsonText
import Verif.Props.Serialize
import Verif.Lemmas.Honest

/-! C78: which texts load as an operator or a pipe, and what they load as. -/

namespace Uttut
open Spec Spec.JsonText

theorem dictGet_entry {d : List (Str × PyVal)} {key : String} {w : PyVal} :
    dictGet d key.toList = some w ↔ Entry (.dict d) key w := by
  unfold Entry
  induction d with
  | nil =>
    constructor
    · intro h; cases h
    · rintro ⟨pre, post, h, _⟩
      injection h with h
      simp at h
  | cons kv d ih =>
    obtain ⟨k, x⟩ := kv
    unfold dictGet
    by_cases hk : k = key.toList
    · rw [if_pos hk]
      constructor
      · intro h
        injection h with h
        exact ⟨[], d, by rw [hk, h]; rfl, by simp⟩
      · rintro ⟨pre, post, h, hp⟩
        injection h with h
        cases pre with
        | nil =>
          injection h with h _
          injection h with _ h
          rw [h]
        | cons q pre =>
          injection h with h _
          exact absurd (by rw [← h]; exact hk) (hp q List.mem_cons_self)
    · rw [if_neg hk, ih]
      constructor
      · rintro ⟨pre, post, h, hp⟩
        injection h with h
        refine ⟨(k, x) :: pre, post, by rw [h]; rfl, fun kv hkv => ?_⟩
        rcases List.mem_cons.mp hkv with rfl | hkv
        · exact hk
        · exact hp kv hkv
      · rintro ⟨pre, post, h, hp⟩
        injection h with h
        cases pre with
        | nil =>
          injection h with h _
          injection h with h _
          exact absurd h hk
        | cons q pre =>
          injection h with _ h
          exact ⟨pre, post, by rw [h]; rfl, fun kv hkv => hp kv (List.mem_cons_of_mem _ hkv)⟩

theorem dictGet_lacks {d : List (Str × PyVal)} {key : String} : dictGet d key.toList = none ↔ Lacks (.dict d) key := by
  have : dictGet d key.toList = none ↔ ∀ kv ∈ d, kv.1 ≠ key.toList := by
    induction d with
    | nil => simp [dictGet]
    | cons kv d ih =>
      obtain ⟨k, x⟩ := kv
      unfold dictGet
      by_cases hk : k = key.toList
      · rw [if_pos hk]
        simp [hk]
      · rw [if_neg hk, ih]
        simp [hk]
  rw [this]
  constructor
  · exact fun h => ⟨d, rfl, h⟩
  · rintro ⟨d', h, h'⟩
    injection h with h
    rwa [h]

/-- `v[key]`: one of three things. -/
theorem getItem_cases (v : PyVal) (key : String) :
    (∃ w, Entry v key w ∧ v.getItem key.toList = .ok w) ∨ (Lacks v key ∧ v.getItem key.toList = .error .keyError) ∨
    (NotObject v ∧ v.getItem key.toList = .error .typeError) := by
  cases v with
  | dict d =>
    cases h : dictGet d key.toList with
    | some w => exact Or.inl ⟨w, dictGet_entry.mp h, by unfold PyVal.getItem; simp only [h]⟩
    | none => exact Or.inr (Or.inl ⟨dictGet_lacks.mp h, by unfold PyVal.getItem; simp only [h]⟩)
  | _ => exact Or.inr (Or.inr ⟨fun d h => (by cases h), rfl⟩)

theorem getItem_entry {v w : PyVal} {key : String} (h : Entry v key w) : v.getItem key.toList = .ok w := by
  obtain ⟨pre, post, rfl, hp⟩ := h
  unfold PyVal.getItem
  simp only [dictGet_entry.mpr ⟨pre, post, rfl, hp⟩]

theorem getItem_iff {v w : PyVal} {key : String} : v.getItem key.toList = .ok w ↔ Entry v key w := by
  refine ⟨fun h => ?_, getItem_entry⟩
  rcases getItem_cases v key with ⟨w', h1, h2⟩ | ⟨_, h2⟩ | ⟨_, h2⟩
  · rw [h2] at h
    injection h with h
    rwa [← h]
  · rw [h2] at h; cases h
  · rw [h2] at h; cases h

theorem getItem_lacks {v : PyVal} {key : String} (h : Lacks v key) : v.getItem key.toList = .error .keyError := by
  obtain ⟨d, rfl, hd⟩ := h
  unfold PyVal.getItem
  simp only [dictGet_lacks.mpr ⟨d, rfl, hd⟩]

theorem getItem_notObject {v : PyVal} {key : Str} (h : NotObject v) : v.getItem key = .error .typeError := by
  cases v with
  | dict d => exact absurd rfl (h d)
  | _ => rfl

theorem getVal_iff {f : Factory} {v : PyVal} {c : OpClass} : f.getVal v = .ok c ↔ ∃ name, v = .str name ∧ f.get name = .ok c := by
  cases v with
  | str name => exact ⟨fun h => ⟨name, rfl, h⟩, fun ⟨n, h, h'⟩ => by injection h with h; rwa [← h] at h'⟩
  | _ => exact ⟨fun h => (by cases h), fun ⟨n, h, _⟩ => (by cases h)⟩

theorem fromDict_iff (f : Factory) (v : PyVal) (op : Op) : Op.fromDict f v = .ok op ↔ Describes f v op := by
  constructor
  · intro h
    unfold Op.fromDict at h
    obtain ⟨name, h1, g⟩ := bind_eq_ok h
    obtain ⟨kw, h2, g'⟩ := bind_eq_ok g
    obtain ⟨c, h3, g''⟩ := bind_eq_ok g'
    obtain ⟨n, hn, h4⟩ := getVal_iff.mp h3
    clear h g g'
    cases kw with
    | dict kw => exact ⟨n, kw, c, hn ▸ getItem_iff.mp h1, getItem_iff.mp h2, h4, g''⟩
    | _ => cases g''
  · rintro ⟨name, kw, c, h1, h2, h3, h4⟩
    unfold Op.fromDict
    rw [getItem_iff.mpr h1, Except.bind_ok, getItem_iff.mpr h2, Except.bind_ok, getVal_iff.mpr ⟨name, rfl, h3⟩, Except.bind_ok]
    exact h4

/-- C78: a text loads as an operator exactly when it is JSON for an object that names a registered class and arguments
this class accepts; the result is what calling the class with these arguments gives. -/
theorem C78_operator (f : Factory) (text : Str) (op : Op) :
    Op.deserialize f text = .ok op ↔ ∃ v, IsJson text v ∧ Describes f v op := by
  simp only [← C78_json]
  constructor
  · intro h
    obtain ⟨v, h1, h2⟩ := bind_eq_ok h
    exact ⟨v, h1, (fromDict_iff f v op).mp h2⟩
  · rintro ⟨v, h1, h2⟩
    unfold Op.deserialize
    rw [h1, Except.bind_ok]
    exact (fromDict_iff f v op).mpr h2

/-- C78: the exceptions of loading an operator. -/
theorem C78_operator_errors (f : Factory) (text : Str) :
    ((¬ ∃ v, IsJson text v) → Op.deserialize f text = .error .valueError) ∧
    ∀ v, IsJson text v →
      (NotObject v → Op.deserialize f text = .error .typeError) ∧
      (Lacks v "op_name" → Op.deserialize f text = .error .keyError) ∧
      ∀ n, Entry v "op_name" n →
        (Lacks v "op_kwargs" → Op.deserialize f text = .error .keyError) ∧
        ∀ k, Entry v "op_kwargs" k →
          (∀ name, n = .str name → f.get name = .error .keyError → Op.deserialize f text = .error .keyError) ∧
          ((∃ l, n = .list l) ∨ (∃ d, n = .dict d) → Op.deserialize f text = .error .typeError) ∧
          (n = .none ∨ (∃ b, n = .bool b) ∨ (∃ i, n = .int i) → Op.deserialize f text = .error .keyError) ∧
          (∀ name c, n = .str name → f.get name = .ok c → NotObject k → Op.deserialize f text = .error .typeError) ∧
          (∀ name c kw e, n = .str name → f.get name = .ok c → k = .dict kw → c.call [] kw = .error e →
            Op.deserialize f text = .error e) := by
  refine ⟨fun h => ?_, fun v hv => ?_⟩
  · unfold Op.deserialize
    rw [(C78_not_json text).mpr h]
    rfl
  · have hd : Op.deserialize f text = Op.fromDict f v := by
      unfold Op.deserialize
      rw [(C78_json text v).mpr hv]
      rfl
    rw [hd]
    unfold Op.fromDict
    refine ⟨fun h => ?_, fun h => ?_, fun n hn => ⟨fun h => ?_, fun k hk => ⟨?_, ?_, ?_, ?_, ?_⟩⟩⟩
    · rw [getItem_notObject h]; rfl
    · rw [getItem_lacks h]; rfl
    · rw [getItem_entry hn, Except.bind_ok, getItem_lacks h]; rfl
    · rintro name rfl h
      rw [getItem_entry hn, Except.bind_ok, getItem_entry hk, Except.bind_ok]
      show (f.get name >>= _) = _
      rw [h]; rfl
    · rintro (⟨l, rfl⟩ | ⟨d, rfl⟩) <;> (rw [getItem_entry hn, Except.bind_ok, getItem_entry hk, Except.bind_ok]; rfl)
    · rintro (rfl | ⟨b, rfl⟩ | ⟨i, rfl⟩) <;> (rw [getItem_entry hn, Except.bind_ok, getItem_entry hk, Except.bind_ok]; rfl)
    · rintro name c rfl h h'
      rw [getItem_entry hn, Except.bind_ok, getItem_entry hk, Except.bind_ok]
      show (f.get name >>= _) = _
      rw [h]
      cases k with
      | dict d => exact absurd rfl (h' d)
      | _ => rfl
    · rintro name c kw e rfl h rfl h'
      rw [getItem_entry hn, Except.bind_ok, getItem_entry hk, Except.bind_ok]
      show (f.get name >>= _) = _
      rw [h]
      exact h'

/-- C66: any operator that was written loads as what its registered class makes of its arguments, with lists for tuples. -/
theorem C66_reload (f : Factory) (op op' : Op) (hk : (op.configs.map Prod.fst).Nodup)
    (hw : ∀ kv ∈ op.configs, WellKeyed kv.2) :
    Op.deserialize f op.serialize = .ok op' ↔ ∃ c, f.get op.cls.name = .ok c ∧
      c.call [] (op.configs.map fun kv => (kv.1, asLists kv.2)) = .ok op' := by
  have hj := (C78_json _ _).mpr (C78_operator_written op hk hw)
  unfold Op.deserialize
  rw [hj, Except.bind_ok]
  show (f.get op.cls.name >>= fun c => c.call [] _) = _ ↔ _
  cases f.get op.cls.name with
  | error e =>
    constructor
    · intro h; cases h
    · rintro ⟨c, h, _⟩; cases h
  | ok c =>
    constructor
    · intro h; exact ⟨c, rfl, h⟩
    · rintro ⟨_, h, h'⟩
      injection h with h
      subst h
      exact h'

theorem restoreStep_iff (f : Factory) (i : PyVal) (op : Op) :
    Pipe.restoreStep f i = .ok op ↔ ∃ v, Stored i v ∧ Describes f v op := by
  cases i with
  | str t =>
    rw [show Pipe.restoreStep f (.str t) = Op.deserialize f t from rfl, C78_operator]
    constructor
    · rintro ⟨v, h, h'⟩; exact ⟨v, .text t v h, h'⟩
    · rintro ⟨v, h, h'⟩; cases h with | text _ _ h => exact ⟨v, h, h'⟩
  | dict d =>
    rw [show Pipe.restoreStep f (.dict d) = Op.fromDict f (.dict d) from rfl, fromDict_iff]
    constructor
    · intro h; exact ⟨_, .object d, h⟩
    · rintro ⟨v, h, h'⟩; cases h; exact h'
  | _ =>
    constructor
    · intro h; cases h
    · rintro ⟨v, h, _⟩; cases h

theorem iterate_iff (v : PyVal) (l : List PyVal) : Pipe.iterate v = .ok l ↔ Elements v l := by
  constructor
  · intro h
    cases v <;> first | (injection h with h; subst h; constructor) | cases h
  · intro h; cases h <;> rfl

theorem addOp_ok {p q : Pipe} {op : Op} (h : p.addOp op none = (q, .ok ())) (hw : WellTyped p.steps) :
    q = ⟨p.steps ++ [op], p.checkpoints⟩ ∧ WellTyped (p.steps ++ [op]) := by
  have hw' := addOp_wellTyped p op none hw
  unfold Pipe.addOp at h hw'
  cases hl : p.steps.getLast? with
  | none =>
    rw [hl] at h hw'
    injection h with h _
    exact ⟨h.symm, hw'⟩
  | some last =>
    rw [hl] at h hw'
    dsimp only at h hw'
    split at h
    · injection h with _ h; cases h
    next hn =>
      rw [if_neg hn] at hw'
      injection h with h _
      exact ⟨h.symm, hw'⟩

theorem restoreSteps_iff (f : Factory) (is : List PyVal) (p q : Pipe) (hw : WellTyped p.steps) :
    Pipe.restoreSteps f is p = .ok q ↔
      ∃ ops, DescribesAll f is ops ∧ q = ⟨p.steps ++ ops, p.checkpoints⟩ ∧ WellTyped (p.steps ++ ops) := by
  induction is generalizing p with
  | nil =>
    constructor
    · intro h
      injection h with h
      exact ⟨[], .nil, by simp [← h], by simpa using hw⟩
    · rintro ⟨ops, h, rfl, _⟩
      cases h
      simp [Pipe.restoreSteps]
  | cons i is ih =>
    constructor
    · intro h
      unfold Pipe.restoreSteps at h
      obtain ⟨op, h1, h⟩ := bind_eq_ok h
      obtain ⟨v, hs, hd⟩ := (restoreStep_iff f i op).mp h1
      cases ha : p.addOp op none with
      | mk q' r =>
        rw [ha] at h
        cases r with
        | error e => cases h
        | ok u =>
          obtain ⟨rfl, hw'⟩ := addOp_ok ha hw
          obtain ⟨ops, g1, g2, g3⟩ := (ih _ hw').mp h
          exact ⟨op :: ops, .cons hs hd g1, by simpa using g2, by simpa using g3⟩
    · rintro ⟨ops, h, rfl, hw'⟩
      cases h with
      | cons hs hd hrest =>
        next op ops =>
        unfold Pipe.restoreSteps
        rw [(restoreStep_iff f i op).mpr ⟨_, hs, hd⟩, Except.bind_ok, addOp_none_ok p op ops hw']
        dsimp only
        have hw1 : WellTyped (p.steps ++ [op]) := by
          have := hw'.take (p.steps.length + 1)
          rwa [List.take_append, List.take_of_length_le (by omega), Nat.add_sub_cancel_left, List.take_succ_cons,
            List.take_zero] at this
        exact (ih ⟨p.steps ++ [op], p.checkpoints⟩ hw1).mpr ⟨ops, hrest, by simp, by simpa using hw'⟩

theorem checkpointsOf_iff (v : PyVal) (cks : List (Str × Int)) :
    Pipe.checkpointsOf v = .ok cks ↔ v = .dict (cks.map fun kv => (kv.1, .int kv.2)) := by
  refine ⟨fun h => ?_, fun h => h ▸ checkpointsOf_ok cks⟩
  cases v with
  | dict d =>
    congr 1
    unfold Pipe.checkpointsOf at h
    dsimp only at h
    induction d generalizing cks with
    | nil => injection h with h; subst h; rfl
    | cons kv d ih =>
      rw [List.mapM_cons] at h
      obtain ⟨k, w⟩ := kv
      obtain ⟨x, h1, h⟩ := bind_eq_ok h
      obtain ⟨xs, h2, h⟩ := bind_eq_ok h
      injection h with h
      subst h
      cases w with
      | int i =>
        injection h1 with h1
        subst h1
        rw [ih xs h2]
        rfl
      | _ => cases h1
  | _ => cases h

/-- C78: a text loads as a pipe exactly when it is JSON for an object with steps, each describing an operator directly or
as text, that fit together, and checkpoints. The steps of the pipe are these operators; the checkpoints are taken over as
they are. -/
theorem C78_pipe (f : Factory) (text : Str) (p : Pipe) :
    Pipe.deserialize f text = .ok p ↔ ∃ v steps infos, IsJson text v ∧ Entry v "steps" steps ∧
      Elements steps infos ∧ DescribesAll f infos p.steps ∧ WellTyped p.steps ∧
      Entry v "checkpoints" (.dict (p.checkpoints.map fun kv => (kv.1, .int kv.2))) := by
  simp only [← C78_json]
  constructor
  · intro h
    unfold Pipe.deserialize at h
    obtain ⟨v, h1, h⟩ := bind_eq_ok h
    obtain ⟨steps, h2, h⟩ := bind_eq_ok h
    obtain ⟨infos, h3, h⟩ := bind_eq_ok h
    obtain ⟨q, h4, h⟩ := bind_eq_ok h
    obtain ⟨c, h5, h⟩ := bind_eq_ok h
    obtain ⟨cks, h6, h⟩ := bind_eq_ok h
    injection h with h
    subst h
    obtain ⟨ops, g1, rfl, g3⟩ := (restoreSteps_iff f infos _ q wellTyped_nil).mp h4
    exact ⟨v, steps, infos, h1, getItem_iff.mp h2, (iterate_iff _ _).mp h3, g1, g3,
      (checkpointsOf_iff _ _).mp h6 ▸ getItem_iff.mp h5⟩
  · rintro ⟨v, steps, infos, h1, h2, h3, h4, h5, h6⟩
    unfold Pipe.deserialize
    rw [h1, Except.bind_ok, getItem_iff.mpr h2, Except.bind_ok, (iterate_iff _ _).mpr h3, Except.bind_ok,
      (restoreSteps_iff f infos Pipe.empty ⟨p.steps, []⟩ wellTyped_nil).mpr ⟨p.steps, h4, rfl, h5⟩, Except.bind_ok,
      getItem_iff.mpr h6, Except.bind_ok, checkpointsOf_ok]
    rfl

theorem describes_add {f : Factory} {v : PyVal} {op : Op} (h : Describes f v op) :
    ∃ name kw, ∀ p ck, Pipe.add p f name (some kw) ck = p.addOp op ck := by
  obtain ⟨name, kw, c, _, _, h3, h4⟩ := h
  refine ⟨name, kw, fun p ck => ?_⟩
  have : Op.fromDict f (.dict [("op_name".toList, .str name), ("op_kwargs".toList, .dict ((some kw).getD []))]) = .ok op :=
    (fromDict_iff f _ op).mpr ⟨name, kw, c, ⟨[], _, rfl, by simp⟩, ⟨[_], [], rfl, by simp⟩, h3, h4⟩
  unfold Pipe.add
  rw [this]

/-- C78: a loaded pipe can be made by hand, with one call of `add` for each step; none of them raises. -/
theorem C78_by_hand (f : Factory) (text : Str) (p : Pipe) (h : Pipe.deserialize f text = .ok p) :
    ∃ calls : List (Str × List (Str × PyVal)), calls.length = p.steps.length ∧
      ∀ i, i ≤ calls.length → ∃ q, q.steps = p.steps.take i ∧ q.checkpoints = [] ∧
        (calls.take i).foldl (fun q c => (Pipe.add q f c.1 (some c.2) none).1) Pipe.empty = q ∧
        ∀ c, calls[i]? = some c → (Pipe.add q f c.1 (some c.2) none).2 = .ok () := by
  obtain ⟨_, _, infos, _, _, he, h4, h5, _⟩ := (C78_pipe f text p).mp h
  have hcalls : ∃ calls : List (Str × List (Str × PyVal)), calls.length = p.steps.length ∧
      ∀ (i : Nat) c op, calls[i]? = some c → p.steps[i]? = some op → ∀ q ck, Pipe.add q f c.1 (some c.2) ck = q.addOp op ck := by
    clear h5 h he
    generalize p.steps = ops at h4
    induction h4 with
    | nil => exact ⟨[], rfl, fun i c op hc => by simp at hc⟩
    | cons hs hd _ ih =>
      obtain ⟨calls, h1, h2⟩ := ih
      obtain ⟨name, kw, h3⟩ := describes_add hd
      refine ⟨(name, kw) :: calls, by simp [h1], fun i c op hc ho => ?_⟩
      cases i with
      | zero =>
        simp only [List.getElem?_cons_zero, Option.some.injEq] at hc ho
        subst hc ho
        exact h3
      | succ i => exact h2 i c op (by simpa using hc) (by simpa using ho)
  obtain ⟨calls, hlen, hadd⟩ := hcalls
  refine ⟨calls, hlen, fun i hi => ?_⟩
  have step : ∀ i (op : Op), p.steps[i]? = some op → ∀ q : Pipe, q.steps = p.steps.take i → q.checkpoints = [] →
      q.addOp op none = (⟨p.steps.take (i + 1), []⟩, .ok ()) := by
    intro i op ho q hq hc
    have ht : p.steps.take (i + 1) = p.steps.take i ++ [op] := by
      rw [List.take_add_one, ho]
      rfl
    have := addOp_none_ok q op [] (by
      rw [hq, ← ht]
      exact h5.take _)
    rw [this, hq, hc, ht]
  have key : ∃ q, q.steps = p.steps.take i ∧ q.checkpoints = [] ∧
      (calls.take i).foldl (fun q c => (Pipe.add q f c.1 (some c.2) none).1) Pipe.empty = q := by
    induction i with
    | zero => exact ⟨Pipe.empty, rfl, rfl, rfl⟩
    | succ i ih =>
      obtain ⟨q, h1, h2, h3⟩ := ih (by omega)
      have hc : calls[i]? = some calls[i] := List.getElem?_eq_getElem (by omega)
      have ho : p.steps[i]? = some (p.steps[i]'(by omega)) := List.getElem?_eq_getElem (by omega)
      refine ⟨⟨p.steps.take (i + 1), []⟩, rfl, rfl, ?_⟩
      rw [List.take_add_one, hc, Option.toList_some, List.foldl_append, h3]
      show (Pipe.add q f _ _ none).1 = _
      rw [hadd i _ _ hc ho, step i _ ho q h1 h2]
  obtain ⟨q, h1, h2, h3⟩ := key
  refine ⟨q, h1, h2, h3, fun c hc => ?_⟩
  have hi' : i < p.steps.length := by
    have := (List.getElem?_eq_some_iff.mp hc).1
    omega
  have ho : p.steps[i]? = some p.steps[i] := List.getElem?_eq_getElem hi'
  rw [hadd i c _ hc ho, step i _ ho q h1 h2]

/-- C78: the exceptions of loading a pipe, in the order in which they are found: the checkpoints are only looked at after
all the steps are restored. -/
theorem C78_pipe_errors (f : Factory) (text : Str) :
    ((¬ ∃ v, IsJson text v) → Pipe.deserialize f text = .error .valueError) ∧
    ∀ v, IsJson text v →
      (NotObject v → Pipe.deserialize f text = .error .typeError) ∧
      (Lacks v "steps" → Pipe.deserialize f text = .error .keyError) ∧
      ∀ steps, Entry v "steps" steps →
        ((∀ l, ¬ Elements steps l) → Pipe.deserialize f text = .error .typeError) ∧
        ∀ infos, Elements steps infos →
          (∀ pre i post ops, infos = pre ++ i :: post → DescribesAll f pre ops → WellTyped ops →
            (∀ t e, i = .str t → Op.deserialize f t = .error e → Pipe.deserialize f text = .error e) ∧
            (∀ d e, i = .dict d → Op.fromDict f (.dict d) = .error e → Pipe.deserialize f text = .error e) ∧
            ((∀ t, i ≠ .str t) → NotObject i → Pipe.deserialize f text = .error .typeError)) ∧
          (∀ pre i v post ops op, infos = pre ++ i :: post → DescribesAll f pre ops → WellTyped ops → Stored i v →
            Describes f v op → ¬ WellTyped (ops ++ [op]) → Pipe.deserialize f text = .error .typeError) ∧
          (∀ ops, DescribesAll f infos ops → WellTyped ops → Lacks v "checkpoints" →
            Pipe.deserialize f text = .error .keyError) := by
  refine ⟨fun h => ?_, fun v hv => ?_⟩
  · unfold Pipe.deserialize
    rw [(C78_not_json text).mpr h]; rfl
  · unfold Pipe.deserialize
    rw [(C78_json text v).mpr hv, Except.bind_ok]
    have pref : ∀ pre post ops, DescribesAll f pre ops → WellTyped ops → ∀ p : Pipe, p.steps = [] →
        Pipe.restoreSteps f (pre ++ post) p = Pipe.restoreSteps f post ⟨ops, p.checkpoints⟩ := by
      intro pre post ops hd hw p hp
      have gen : ∀ (p : Pipe), WellTyped (p.steps ++ ops) →
          Pipe.restoreSteps f (pre ++ post) p = Pipe.restoreSteps f post ⟨p.steps ++ ops, p.checkpoints⟩ := by
        clear hp p hw
        induction hd with
        | nil => intro p _; simp
        | cons hs hd _ ih =>
          next i v op is ops _ =>
          intro p hw
          rw [List.cons_append]
          show (Pipe.restoreStep f i >>= _) = _
          rw [(restoreStep_iff f i op).mpr ⟨_, hs, hd⟩, Except.bind_ok, addOp_none_ok p op ops hw]
          dsimp only
          rw [ih ⟨p.steps ++ [op], p.checkpoints⟩ (by simpa using hw)]
          simp
      rw [gen p (by rw [hp]; exact hw), hp]
      rfl
    refine ⟨fun h => ?_, fun h => ?_, fun steps hs => ?_⟩
    · rw [getItem_notObject h]; rfl
    · rw [getItem_lacks h]; rfl
    · rw [getItem_entry hs, Except.bind_ok]
      refine ⟨fun h => ?_, fun infos hi => ⟨?_, ?_, ?_⟩⟩
      · have : Pipe.iterate steps = .error .typeError := by
          cases steps with
          | list l => exact absurd (.list l) (h _)
          | tuple l => exact absurd (.tuple l) (h _)
          | str l => exact absurd (.chars l) (h _)
          | dict l => exact absurd (.keys l) (h _)
          | _ => rfl
        rw [this]; rfl
      · rintro pre i post ops rfl hd hw
        rw [(iterate_iff _ _).mpr hi, Except.bind_ok, pref pre _ ops hd hw Pipe.empty rfl]
        unfold Pipe.restoreSteps
        refine ⟨?_, ?_, ?_⟩
        · rintro t e rfl he
          rw [show Pipe.restoreStep f (.str t) = .error e from he]; rfl
        · rintro d e rfl he
          rw [show Pipe.restoreStep f (.dict d) = .error e from he]; rfl
        · intro h1 h2
          have : Pipe.restoreStep f i = .error .typeError := by
            cases i with
            | str t => exact absurd rfl (h1 t)
            | dict d => exact absurd rfl (h2 d)
            | _ => rfl
          rw [this]; rfl
      · rintro pre i v post ops op rfl hd hw hst hde hnw
        rw [(iterate_iff _ _).mpr hi, Except.bind_ok, pref pre _ ops hd hw Pipe.empty rfl]
        unfold Pipe.restoreSteps
        rw [(restoreStep_iff f i op).mpr ⟨_, hst, hde⟩, Except.bind_ok]
        have : ∃ q, (⟨ops, Pipe.empty.checkpoints⟩ : Pipe).addOp op none = (q, .error .typeError) := by
          cases ha : (⟨ops, Pipe.empty.checkpoints⟩ : Pipe).addOp op none with
          | mk q r =>
            cases r with
            | ok u => exact absurd (addOp_ok ha hw).2 hnw
            | error e =>
              unfold Pipe.addOp at ha
              split at ha
              · injection ha with _ ha; cases ha
              · split at ha
                · injection ha with h1 h2
                  exact ⟨q, by rw [h2]⟩
                · injection ha with _ ha; cases ha
        obtain ⟨q, hq⟩ := this
        rw [hq]; rfl
      · intro ops hd hw hl
        rw [(iterate_iff _ _).mpr hi, Except.bind_ok,
          (restoreSteps_iff f infos Pipe.empty ⟨ops, []⟩ wellTyped_nil).mpr ⟨ops, hd, rfl, hw⟩, Except.bind_ok, getItem_lacks hl]
        rfl

/-- C78 (what goes wrong): checkpoints are not checked on loading. A pipe without steps loads with a checkpoint after
the seventh step; asking for it raises IndexError. -/
theorem C78_unchecked_checkpoints (f : Factory) (s : Seq) : ∃ text p coll, Pipe.deserialize f text = .ok p ∧ p.steps = [] ∧
    p.transformSequence s = .ok (s, [], coll) ∧ getFromCheckpoint p.checkpoints coll "a".toList = .error .indexError := by
  refine ⟨_, ⟨[], [("a".toList, 7)]⟩, [s], C66_pipe f ⟨[], [("a".toList, 7)]⟩ wellTyped_nil (by simp) (by simp), rfl, rfl, ?_⟩
  rfl

/-- A stored operator for the examples: keys in another order, another key, a default left out. -/
def exStored : PyVal := .dict [("op_kwargs".toList, .dict [("maxlen".toList, .int 3)]), ("comment".toList, .int 1),
  ("op_name".toList, .str "Pad".toList)]

/-- Its text on one line. -/
def exText : Str := Json.dumps false none exStored

theorem exText_loads : IsJson exText exStored :=
  C78_dumps _ _ _ (.dict _ (by decide) (by
    simp only [List.forall_mem_cons, List.not_mem_nil, false_implies, implies_true, and_true]
    exact ⟨.dict _ (by decide) (by
      simp only [List.forall_mem_cons, List.not_mem_nil, false_implies, implies_true, and_true]
      exact .int _), .int _, .str _⟩))

theorem exText_describes : Describes [("Pad".toList, exPad)] exStored exPadOp :=
  ⟨"Pad".toList, [("maxlen".toList, .int 3)], exPad, ⟨[_, _], [], rfl, by decide⟩, ⟨[], _, rfl, by simp⟩, rfl, rfl⟩

example : Op.deserialize [("Pad".toList, exPad)] exText = .ok exPadOp :=
  (C78_operator _ _ _).mpr ⟨_, exText_loads, exText_describes⟩

/-- An operator with a tuple argument comes back with a list. -/
example : Op.deserialize [("Pad".toList, exPad)]
    (Op.serialize { exPadOp with configs := [("maxlen".toList, .tuple [.int 3]), ("pad_token".toList, .str "<pad>".toList)] }) =
    .ok { exPadOp with configs := [("maxlen".toList, .list [.int 3]), ("pad_token".toList, .str "<pad>".toList)] } := by
  refine (C66_reload _ _ _ (by decide) ?_).mpr ⟨exPad, rfl, rfl⟩
  intro kv hkv
  simp only [List.mem_cons, List.not_mem_nil, or_false] at hkv
  rcases hkv with rfl | rfl
  · exact .tuple _ (by intro v hv; rw [List.mem_singleton.mp hv]; exact .int 3)
  · exact .str _

/-- An object without the arguments. -/
example (text : Str) (h : IsJson text (.dict [("op_name".toList, .str "Pad".toList)])) :
    Op.deserialize [("Pad".toList, exPad)] text = .error .keyError :=
  (((C78_operator_errors _ _).2 _ h).2.2 _ ⟨[], [], rfl, by simp⟩).1 ⟨_, rfl, by decide⟩

/-- A stored pipe with one step, stored as text. -/
def exBundle : PyVal := .dict [("steps".toList, .list [.str exText]), ("checkpoints".toList, .dict [("a".toList, .int 1)])]

theorem exBundle_pipe : Pipe.deserialize [("Pad".toList, exPad)] (Json.dumps true (some 4) exBundle) =
    .ok ⟨[exPadOp], [("a".toList, 1)]⟩ := by
  refine (C78_pipe _ _ _).mpr ⟨exBundle, _, _, C78_dumps _ _ _ (.dict _ (by decide) ?_), ⟨[], _, rfl, by simp⟩,
    .list _, .cons (.text _ _ exText_loads) exText_describes .nil, ?_, ⟨[_], [], rfl, by decide⟩⟩
  · simp only [List.forall_mem_cons, List.not_mem_nil, false_implies, implies_true, and_true]
    exact ⟨.list _ (by simpa using Plain.str _), .dict _ (by decide) (by simpa using Plain.int _)⟩
  · intro i a b _ h2
    simp at h2

example := C78_by_hand _ _ _ exBundle_pipe

/-- A pipe without checkpoints is refused only after its steps are restored. -/
example (text : Str) (h : IsJson text (.dict [("steps".toList, .list [])])) :
    Pipe.deserialize [("Pad".toList, exPad)] text = .error .keyError :=
  (((C78_pipe_errors _ _).2 _ h).2.2 _ ⟨[], [], rfl, by simp⟩).2 [] (.list [])
    |>.2.2 [] .nil wellTyped_nil ⟨_, rfl, by decide⟩

/-- Steps that do not fit together: the type error comes before the missing checkpoints. -/
example (f : Factory) (c : OpClass) (op : Op) (hc : f.get "X".toList = .ok c) (ho : c.call [] [] = .ok op)
    (hne : op.cls.outputType ≠ op.cls.inputType) (text : Str)
    (h : IsJson text (.dict [("steps".toList, .list [
      .dict [("op_name".toList, .str "X".toList), ("op_kwargs".toList, .dict [])],
      .dict [("op_name".toList, .str "X".toList), ("op_kwargs".toList, .dict [])]])])) :
    Pipe.deserialize f text = .error .typeError := by
  have hd : Describes f (.dict [("op_name".toList, .str "X".toList), ("op_kwargs".toList, .dict [])]) op :=
    ⟨_, _, c, ⟨[], _, rfl, by simp⟩, ⟨[_], [], rfl, by decide⟩, hc, ho⟩
  refine (((C78_pipe_errors f _).2 _ h).2.2 _ ⟨[], [], rfl, by simp⟩).2 _ (.list _) |>.2.1 [_] _ _ [] [op] op rfl
    (.cons (.object _) hd .nil) ?_ (.object _) hd ?_
  · intro i a b _ h2
    simp at h2
  · intro h
    exact hne (h 0 op op rfl rfl)

end Uttut
