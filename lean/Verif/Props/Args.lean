import Verif.Model.Args
import Verif.Props.Construct
import Verif.Props.Stored
import Verif.Props.Ordinal
import Verif.Props.Load

/-! C83: operators keep the lists and dicts they are made with. -/

namespace Uttut

open Spec

/-! ### reading arguments -/

theorem readAll_keys (objs : List PyVal) (kwargs : List (Str × Arg)) :
    (readAll objs kwargs).map Prod.fst = kwargs.map Prod.fst := by
  unfold readAll
  rw [List.map_map]
  rfl

theorem dictGet_readAll (objs : List PyVal) (kwargs : List (Str × Arg)) (p : Str) :
    dictGet (readAll objs kwargs) p = (dictGet kwargs p).map (Arg.read objs) := by
  unfold readAll
  induction kwargs with
  | nil => rfl
  | cons kv kwargs ih =>
    simp only [List.map_cons, dictGet]
    split
    · rfl
    · exact ih

theorem dictUpdate_readAll (objs : List PyVal) (d e : List (Str × Arg)) :
    dictUpdate (readAll objs d) (readAll objs e) = readAll objs (dictUpdate d e) := by
  unfold dictUpdate readAll
  induction e generalizing d with
  | nil => rfl
  | cons kv e ih =>
    rw [List.map_cons, List.foldl_cons, List.foldl_cons, dictSet_mapVal (Arg.read objs)]
    exact ih _

theorem bindRef_read (c : OpClass) (objs : List PyVal) (kwargs : List (Str × Arg)) (p : Str) :
    c.bindParam (readAll objs kwargs) p = (c.bindRef kwargs p).map (Arg.read objs) := by
  unfold OpClass.bindParam OpClass.bindRef
  rw [dictGet_readAll]
  cases dictGet kwargs p with
  | some a => rfl
  | none => cases c.default? p <;> rfl

/-- Binding objects and reading them is binding what they are. -/
theorem bindRefs_read (c : OpClass) (objs : List PyVal) (args : List Arg) (kwargs : List (Str × Arg)) :
    c.bindArgs (args.map (Arg.read objs)) (readAll objs kwargs) =
      (c.bindRefs args kwargs).map (List.map (Arg.read objs)) := by
  unfold OpClass.bindArgs OpClass.bindRefs
  rw [List.length_map]
  split
  · rfl
  · have e : (readAll objs kwargs).any (fun kv => !(c.params.drop args.length).contains kv.1) =
        kwargs.any (fun kv => !(c.params.drop args.length).contains kv.1) := by
      unfold readAll
      rw [List.any_map]
      rfl
    rw [e]
    split
    · rfl
    · have : ∀ ps : List Str, ps.mapM (c.bindParam (readAll objs kwargs)) =
          (ps.mapM (c.bindRef kwargs)).map (List.map (Arg.read objs)) := by
        intro ps
        induction ps with
        | nil => rfl
        | cons p ps ih =>
          rw [List.mapM_cons, List.mapM_cons, bindRef_read, ih]
          cases c.bindRef kwargs p with
          | error e => rfl
          | ok a => cases ps.mapM (c.bindRef kwargs) <;> rfl
      rw [this]
      cases (c.params.drop args.length).mapM (c.bindRef kwargs) with
      | error e => rfl
      | ok rest =>
        show Except.ok _ = Except.ok _
        rw [List.map_append]

theorem captureRefs_read (c : OpClass) (objs : List PyVal) (args : List Arg) (kwargs : List (Str × Arg)) :
    readAll objs (c.captureRefs args kwargs) = c.capture (args.map (Arg.read objs)) (readAll objs kwargs) := by
  unfold OpClass.captureRefs OpClass.capture
  obtain ⟨params, defaults⟩ := c.argspec
  dsimp only
  have e1 : params.zip (args.map (Arg.read objs)) = readAll objs (params.zip args) := by
    unfold readAll
    rw [List.zip_map_right]
    rfl
  have e2 : (params.reverse ++ ["self".toList]).zip defaults.reverse =
      readAll objs ((params.reverse ++ ["self".toList]).zip (defaults.reverse.map Arg.val)) := by
    unfold readAll
    rw [List.zip_map_right, List.map_map]
    exact (List.map_id _).symm
  have e0 : ([] : List (Str × PyVal)) = readAll objs [] := rfl
  rw [e1, e0, dictUpdate_readAll, dictUpdate_readAll, e2]
  split
  · rfl
  · rw [← dictUpdate_readAll]
    congr 1
    unfold readAll
    rw [List.filter_map]
    congr 1
    refine List.filter_congr fun kv _ => ?_
    show (dictGet _ kv.1).isNone = (dictGet _ kv.1).isNone
    have := dictGet_readAll objs (dictUpdate (dictUpdate [] (params.zip args)) kwargs) kv.1
    unfold readAll at this
    rw [this]
    cases dictGet (dictUpdate (dictUpdate [] (params.zip args)) kwargs) kv.1 <;> rfl

/-! ### making again from `configs` -/

/-- Calling a class with what an earlier call captured does what that call does. -/
theorem call_captured (c : OpClass) (hs : Signature c) (hi : c.ownInit = true ∨ c.params = []) (args : List PyVal)
    (kwargs : List (Str × PyVal)) (hk : (kwargs.map Prod.fst).Nodup) (vals : List PyVal)
    (hb : c.bindArgs args kwargs = .ok vals) :
    c.call [] (c.capture args kwargs) = c.call args kwargs ∧ ((c.capture args kwargs).map Prod.fst).Nodup := by
  classical
  -- the same signature with a constructor that accepts everything and shows its arguments
  let c' : OpClass := { c with
    ownInit := true
    init := fun vs => .ok fun _ => if vs = vals then .error .typeError else .error .keyError }
  have hs' : Signature c' := ⟨hs.nodup, hs.defaults⟩
  have hcap : ∀ a k, c.capture a k = c'.capture a k := by
    intro a k
    rcases hi with ho | hp
    · unfold OpClass.capture OpClass.argspec
      rw [if_pos ho, if_pos (show c'.ownInit = true from rfl)]
    · rw [capture_noParams hs hp]
      rfl
  have hb' : c'.bindArgs args kwargs = .ok vals := hb
  have hcall : c'.call args kwargs = .ok ⟨c', c'.capture args kwargs, fun _ => .error .typeError⟩ := by
    unfold OpClass.call
    rw [hb']
    show Except.ok _ = _
    simp only [if_pos]
  have hre := C65_rebuild c' hs' rfl args kwargs hk _ hcall
  have hnd := (C65_capture c' hs' rfl args kwargs hk _ hcall).2.1
  dsimp only at hre hnd
  rw [hcap]
  refine ⟨?_, hnd⟩
  unfold OpClass.call at hre
  obtain ⟨vals', h1, hre⟩ := bind_eq_ok hre
  have h2 : (Except.ok ⟨c', c'.capture [] (c'.capture args kwargs),
      fun _ => if vals' = vals then .error .typeError else .error .keyError⟩ : Res Op) =
        .ok ⟨c', c'.capture args kwargs, fun _ => .error .typeError⟩ := hre
  injection h2 with h2
  injection h2 with _ h3 h4
  have hv : vals' = vals := by
    have := congrFun h4 (.str [])
    split at this
    · assumption
    · cases this
  subst hv
  have h1' : c.bindArgs [] (c'.capture args kwargs) = .ok vals' := h1
  unfold OpClass.call
  rw [h1', hb]
  simp only [Except.bind_ok]
  rw [hcap, h3, hcap]

/-- What a call captures are the values that it binds. -/
theorem captured_mem (c : OpClass) (hs : Signature c) (hi : c.ownInit = true ∨ c.params = []) (args : List PyVal)
    (kwargs : List (Str × PyVal)) (hk : (kwargs.map Prod.fst).Nodup) (vals : List PyVal)
    (hb : c.bindArgs args kwargs = .ok vals) : ∀ kv ∈ c.capture args kwargs, kv.2 ∈ vals := by
  classical
  let c' : OpClass := { c with
    ownInit := true
    init := fun vs => .ok fun _ => if vs = vals then .error .typeError else .error .keyError }
  have hcap : c.capture args kwargs = c'.capture args kwargs := by
    rcases hi with ho | hp
    · unfold OpClass.capture OpClass.argspec
      rw [if_pos ho, if_pos (show c'.ownInit = true from rfl)]
    · rw [capture_noParams hs hp]
      rfl
  have hcall : c'.call args kwargs = .ok ⟨c', c'.capture args kwargs, fun _ => .error .typeError⟩ := by
    unfold OpClass.call
    rw [show c'.bindArgs args kwargs = .ok vals from hb]
    show Except.ok _ = _
    simp only [if_pos]
  obtain ⟨_, k1, k2, vals', k4, _, k3⟩ := C65_capture c' ⟨hs.nodup, hs.defaults⟩ rfl args kwargs hk _ hcall
  have hv : vals' = vals := by
    have h2 : (Except.ok (fun _ => if vals' = vals then .error .typeError else .error .keyError) :
      Res (Seq → Res (Seq × Aligner))) = .ok fun _ => .error .typeError := k4
    injection h2 with h2
    have := congrFun h2 (.str [])
    split at this
    · assumption
    · cases this
  subst hv
  intro kv hkv
  rw [hcap] at hkv
  obtain ⟨i, hi⟩ := List.getElem?_of_mem ((k2 kv.1).mp (List.mem_map_of_mem (f := Prod.fst) hkv))
  obtain ⟨v, hv, hg, _⟩ := k3 i _ hi
  have := dictGet_of_mem _ _ _ k1 hkv
  rw [this] at hg
  injection hg with hg
  rw [hg]
  exact List.mem_of_getElem? hv

theorem fromDict_toDict (f : Factory) (op : Op) (c : OpClass) (hc : f.get op.cls.name = .ok c) :
    Op.fromDict f op.toDict = c.call [] op.configs := by
  unfold Op.fromDict Op.toDict
  have e1 : PyVal.getItem (.dict [("op_name".toList, .str op.cls.name), ("op_kwargs".toList, .dict op.configs)])
      "op_name".toList = .ok (.str op.cls.name) := by
    unfold PyVal.getItem
    simp [dictGet]
  have e2 : PyVal.getItem (.dict [("op_name".toList, .str op.cls.name), ("op_kwargs".toList, .dict op.configs)])
      "op_kwargs".toList = .ok (.dict op.configs) := by
    unfold PyVal.getItem
    simp [dictGet]
  rw [e1, Except.bind_ok, e2, Except.bind_ok]
  show (f.get op.cls.name >>= _) = _
  rw [hc]
  rfl

/-! ### operators of a program -/

theorem registry_get {env : Env} {name : Str} {c : OpClass} (h : (Builtin.registry env).get name = .ok c) :
    c ∈ Builtin.all env ∧ c.name = name := by
  unfold Factory.get at h
  cases hg : dictGet (Builtin.registry env) name with
  | none => rw [hg] at h; cases h
  | some c' =>
    rw [hg] at h
    injection h with h
    subst h
    have := dictGet_mem _ _ _ hg
    unfold Builtin.registry at this
    obtain ⟨x, hx, e⟩ := List.mem_map.mp this
    injection e with e1 e2
    subst e2
    exact ⟨hx, e1⟩

/-- Operators stay where they are. -/
theorem run_ops (env : Env) (cmds : List ArgCmd) (s : ArgStore) (i : Nat) (o : OpObject) (h : s.ops[i]? = some o) :
    (s.run env cmds).ops[i]? = some o := by
  induction cmds generalizing s with
  | nil => exact h
  | cons cmd cmds ih =>
    refine ih (s.step env cmd) ?_
    have hlt := (List.getElem?_eq_some_iff.mp h).1
    cases cmd with
    | new v => exact h
    | change r v => exact h
    | make name args kwargs =>
      show (s.make env name args kwargs).1.ops[i]? = some o
      unfold ArgStore.make
      split
      · split
        · show (s.ops ++ [_])[i]? = _
          rw [List.getElem?_append_left hlt]
          exact h
        · exact h
      · exact h
    | load text =>
      show (s.load env text).1.ops[i]? = some o
      unfold ArgStore.load
      split
      · show (s.ops ++ [_])[i]? = _
        rw [List.getElem?_append_left hlt]
        exact h
      · exact h

/-- The arguments are values or existing objects. -/
def AllKnown (objs : List PyVal) (args : List Arg) (kwargs : List (Str × Arg)) : Prop :=
  (∀ r, Arg.obj r ∈ args → r < objs.length) ∧ ∀ k r, (k, Arg.obj r) ∈ kwargs → r < objs.length

theorem allKnown_iff (objs : List PyVal) (args : List Arg) (kwargs : List (Str × Arg)) :
    AllKnown objs args kwargs ↔
      (args.all (Arg.known objs) && kwargs.all (fun kv => kv.2.known objs)) = true := by
  rw [Bool.and_eq_true, List.all_eq_true, List.all_eq_true]
  constructor
  · intro h
    refine ⟨fun a ha => ?_, fun kv hkv => ?_⟩
    · cases a with
      | val v => rfl
      | obj r => exact decide_eq_true (h.1 r ha)
    · obtain ⟨k, a⟩ := kv
      cases a with
      | val v => rfl
      | obj r => exact decide_eq_true (h.2 k r hkv)
  · intro h
    exact ⟨fun r hr => of_decide_eq_true (h.1 _ hr), fun k r hr => of_decide_eq_true (h.2 _ hr)⟩

theorem make_eq {env : Env} {s : ArgStore} {name : Str} {args : List Arg} {kwargs : List (Str × Arg)}
    (hk : AllKnown s.objs args kwargs) : s.make env name args kwargs =
      match (do
        let c ← (Builtin.registry env).get name
        let op ← c.call (args.map (Arg.read s.objs)) (readAll s.objs kwargs)
        let attrs ← c.bindRefs args kwargs
        return (⟨c, attrs, c.captureRefs args kwargs, op.run⟩ : OpObject)) with
      | .ok o => ({ s with ops := s.ops ++ [o] }, .ok ())
      | .error e => (s, .error e) := by
  unfold ArgStore.make
  have : (args.all (Arg.known s.objs) && kwargs.all (fun kv => kv.2.known s.objs)) = true :=
    (allKnown_iff _ _ _).mp hk
  rw [if_pos this]
  rfl

theorem call_parts {c : OpClass} {args : List PyVal} {kwargs : List (Str × PyVal)} {op : Op}
    (h : c.call args kwargs = .ok op) : ∃ vals, c.bindArgs args kwargs = .ok vals ∧ c.init vals = .ok op.run ∧
      op.cls = c ∧ op.configs = c.capture args kwargs := by
  unfold OpClass.call at h
  obtain ⟨vals, h1, h⟩ := bind_eq_ok h
  obtain ⟨run, h2, h⟩ := bind_eq_ok h
  injection h with h
  subst h
  exact ⟨vals, h1, h2, rfl, rfl⟩

/-- What a successful call leaves behind. -/
theorem make_ok {env : Env} {s : ArgStore} {name : String} {args : List Arg} {kwargs : List (Str × Arg)} {op : Op}
    (hk : AllKnown s.objs args kwargs)
    (h : create env name (args.map (Arg.read s.objs)) (readAll s.objs kwargs) = .ok op) :
    ∃ c attrs, (Builtin.registry env).get name.toList = .ok c ∧ c.bindRefs args kwargs = .ok attrs ∧
      c.call (args.map (Arg.read s.objs)) (readAll s.objs kwargs) = .ok op ∧
      s.make env name.toList args kwargs =
        ({ s with ops := s.ops ++ [⟨c, attrs, c.captureRefs args kwargs, op.run⟩] }, .ok ()) := by
  unfold create at h
  obtain ⟨c, hc, h⟩ := bind_eq_ok h
  obtain ⟨vals, h1, _⟩ := call_parts h
  rw [bindRefs_read] at h1
  cases hb : c.bindRefs args kwargs with
  | error e => rw [hb] at h1; cases h1
  | ok attrs =>
    refine ⟨c, attrs, hc, hb, h, ?_⟩
    rw [make_eq hk, hc, Except.bind_ok, h, Except.bind_ok, hb]
    rfl

theorem make_error {env : Env} {s : ArgStore} {name : String} {args : List Arg} {kwargs : List (Str × Arg)} {e : Exc}
    (hk : AllKnown s.objs args kwargs)
    (h : create env name (args.map (Arg.read s.objs)) (readAll s.objs kwargs) = .error e) :
    s.make env name.toList args kwargs = (s, .error e) := by
  rw [make_eq hk]
  unfold create at h
  cases hc : (Builtin.registry env).get name.toList with
  | error e' =>
    rw [hc] at h
    injection h with h
    subst h
    rfl
  | ok c =>
    rw [hc, Except.bind_ok] at h
    rw [Except.bind_ok, h]
    rfl

/-- The classes whose operators look into their arguments at every call. -/
def liveNames : List String := ["Token2Index", "Token2IndexwithHash", "SpanSubwords"]

theorem atCall_none {env : Env} {name : String} (h : name ∉ liveNames) : Builtin.atCall env name.toList = none := by
  unfold Builtin.atCall
  have : ∀ x ∈ liveNames, name.toList ≠ x.toList := fun x hx e => h (String.toList_injective e ▸ hx)
  rw [if_neg (this _ (by decide)), if_neg (this _ (by decide)), if_neg (this _ (by decide))]

theorem atCall_init {env : Env} {name : String} (h : name ∈ liveNames) {c : OpClass}
    (hc : (Builtin.registry env).get name.toList = .ok c) : ∃ f, Builtin.atCall env name.toList = some f ∧
      ∀ vals run, c.init vals = .ok run → f vals = run := by
  unfold liveNames at h
  rcases List.mem_cons.mp h with rfl | h
  · have e : c = Builtin.token2index env := by injection hc with hc; exact hc.symm
    subst e
    refine ⟨_, rfl, fun vals run hr => ?_⟩
    show _ = run
    unfold Builtin.token2index Builtin.token2indexInit at hr
    dsimp only at hr
    split at hr
    · obtain ⟨d', h1, hr⟩ := bind_eq_ok hr
      split at hr
      · obtain ⟨_, h3, hr⟩ := bind_eq_ok hr
        injection hr with hr
        subst hr
        funext s
        dsimp only
        rw [h1]
        rfl
      · obtain ⟨_, _, hr⟩ := bind_eq_ok hr
        split at hr <;> cases hr
    · cases hr
  rcases List.mem_cons.mp h with rfl | h
  · have e : c = Builtin.token2indexHash env := by injection hc with hc; exact hc.symm
    subst e
    refine ⟨_, rfl, fun vals run hr => ?_⟩
    unfold Builtin.token2indexHash Builtin.token2indexHashInit at hr
    dsimp only at hr
    split at hr
    · obtain ⟨d', h1, hr⟩ := bind_eq_ok hr
      obtain ⟨_, h3, hr⟩ := bind_eq_ok hr
      injection hr with hr
      subst hr
      funext s
      dsimp only
      rw [h1]
      rfl
    · cases hr
  rcases List.mem_cons.mp h with rfl | h
  · have e : c = Builtin.spanSubwords env := by injection hc with hc; exact hc.symm
    subst e
    refine ⟨_, rfl, fun vals run hr => ?_⟩
    unfold Builtin.spanSubwords Builtin.spanSubwordsInit at hr
    dsimp only at hr
    split at hr
    · obtain ⟨u', h1, hr⟩ := bind_eq_ok hr
      injection hr with hr
      subst hr
      funext s
      dsimp only
      rw [h1]
      rfl
    · cases hr
  · cases h

/-- The operator as a later moment shows it. -/
theorem opNow_made {env : Env} {s : ArgStore} {name : String} {args : List Arg} {kwargs : List (Str × Arg)} {op : Op}
    (hk : AllKnown s.objs args kwargs)
    (h : create env name (args.map (Arg.read s.objs)) (readAll s.objs kwargs) = .ok op) (cmds : List ArgCmd) :
    ∃ c attrs, (Builtin.registry env).get name.toList = .ok c ∧ c.bindRefs args kwargs = .ok attrs ∧
      c.call (args.map (Arg.read s.objs)) (readAll s.objs kwargs) = .ok op ∧
      ((s.make env name.toList args kwargs).1.run env cmds).opNow env s.ops.length = some
        { cls := c
          configs := c.capture (args.map (Arg.read ((s.make env name.toList args kwargs).1.run env cmds).objs))
            (readAll ((s.make env name.toList args kwargs).1.run env cmds).objs kwargs)
          run := match Builtin.atCall env name.toList with
            | some f => f (attrs.map (Arg.read ((s.make env name.toList args kwargs).1.run env cmds).objs))
            | none => op.run } := by
  obtain ⟨c, attrs, h1, h2, h3, h4⟩ := make_ok hk h
  refine ⟨c, attrs, h1, h2, h3, ?_⟩
  have hi : ((s.make env name.toList args kwargs).1.run env cmds).ops[s.ops.length]? =
      some ⟨c, attrs, c.captureRefs args kwargs, op.run⟩ := by
    refine run_ops env cmds _ _ _ ?_
    rw [h4]
    simp
  unfold ArgStore.opNow
  rw [hi]
  show some _ = some _
  dsimp only
  rw [captureRefs_read, (registry_get h1).2]
  rfl

/-! ### the theorems -/

/-- C83: making an operator from the program's lists and dicts is making it from what they contain at that moment:
same outcome, and the new operator is the one of that call. Other operators are not touched. -/
theorem C83_make (env : Env) (s : ArgStore) (name : String) (args : List Arg) (kwargs : List (Str × Arg))
    (hk : AllKnown s.objs args kwargs) :
    (∀ op, create env name (args.map (Arg.read s.objs)) (readAll s.objs kwargs) = .ok op →
      (s.make env name.toList args kwargs).2 = .ok () ∧
      (s.make env name.toList args kwargs).1.objs = s.objs ∧
      (s.make env name.toList args kwargs).1.opNow env s.ops.length = some op ∧
      ∀ i, i < s.ops.length → (s.make env name.toList args kwargs).1.opNow env i = s.opNow env i) ∧
    ∀ e, create env name (args.map (Arg.read s.objs)) (readAll s.objs kwargs) = .error e →
      s.make env name.toList args kwargs = (s, .error e) := by
  refine ⟨fun op h => ?_, fun e h => make_error hk h⟩
  obtain ⟨c, attrs, h1, h2, h3, h4⟩ := make_ok hk h
  obtain ⟨vals, g1, g2, g3, g4⟩ := call_parts h3
  have hobj : (s.make env name.toList args kwargs).1.objs = s.objs := by rw [h4]
  refine ⟨by rw [h4], hobj, ?_, fun i hi => ?_⟩
  · obtain ⟨c', attrs', h1', h2', _, h5⟩ := opNow_made hk h []
    have ec : c' = c := by rw [h1] at h1'; injection h1' with e; exact e.symm
    subst ec
    have ea : attrs' = attrs := by rw [h2] at h2'; injection h2' with e; exact e.symm
    subst ea
    have : (s.make env name.toList args kwargs).1.run env [] = (s.make env name.toList args kwargs).1 := rfl
    rw [this] at h5
    rw [h5, hobj, ← g4]
    have hr : (match Builtin.atCall env name.toList with
        | some f => f (attrs'.map (Arg.read s.objs))
        | none => op.run) = op.run := by
      rw [bindRefs_read, h2] at g1
      injection g1 with g1
      by_cases hl : name ∈ liveNames
      · obtain ⟨f, e1, e2⟩ := atCall_init hl h1
        rw [e1]
        dsimp only
        rw [g1]
        exact e2 _ _ g2
      · rw [atCall_none hl]
    rw [hr, ← g3]
  · rw [h4]
    unfold ArgStore.opNow
    dsimp only
    rw [List.getElem?_append_left hi]

/-- C83: with a name that is bound to no object nothing is made. -/
theorem C83_unbound (env : Env) (s : ArgStore) (name : String) (args : List Arg) (kwargs : List (Str × Arg))
    (hk : ¬ AllKnown s.objs args kwargs) : s.make env name.toList args kwargs = (s, .error .nameError) := by
  unfold ArgStore.make
  rw [if_neg]
  intro h
  exact hk ((allKnown_iff _ _ _).mpr h)

example : ¬ AllKnown [] [.obj 0] [] := fun h => by have := h.1 0 (List.mem_cons_self ..); cases this

/-- C83: what an operator is at any later moment of any program. Its class is the same. `configs` shows the arguments
as they are now. The operators that number tokens and those that cut words into pieces work with the dict as it is
now; all other operators work as they were made. -/
theorem C83_now (env : Env) (s : ArgStore) (name : String) (args : List Arg) (kwargs : List (Str × Arg))
    (hk : AllKnown s.objs args kwargs) (hn : (kwargs.map Prod.fst).Nodup) (op : Op)
    (h : create env name (args.map (Arg.read s.objs)) (readAll s.objs kwargs) = .ok op) (cmds : List ArgCmd) :
    let t := (s.make env name.toList args kwargs).1.run env cmds
    ∃ now, t.opNow env s.ops.length = some now ∧ now.cls = op.cls ∧
      (now.configs.map Prod.fst).Nodup ∧ (∀ p, p ∈ now.configs.map Prod.fst ↔ p ∈ op.cls.params) ∧
      (∀ kv ∈ now.configs, ∃ i, op.cls.params[i]? = some kv.1 ∧
        Bound op.cls (args.map (Arg.read t.objs)) (readAll t.objs kwargs) i kv.1 kv.2) ∧
      (name ∈ liveNames → ∀ op', create env name (args.map (Arg.read t.objs)) (readAll t.objs kwargs) = .ok op' →
        now = op') ∧
      (name ∉ liveNames → now.transform = op.transform) := by
  intro t
  obtain ⟨c, attrs, h1, h2, h3, h4⟩ := opNow_made hk h cmds
  obtain ⟨_, _, _, g3, _⟩ := call_parts h3
  refine ⟨_, h4, g3.symm, ?_⟩
  rw [g3]
  dsimp only
  have hb : c.bindArgs (args.map (Arg.read t.objs)) (readAll t.objs kwargs) = .ok (attrs.map (Arg.read t.objs)) := by
    rw [bindRefs_read, h2]
    rfl
  obtain ⟨hs, hi⟩ := C66_signatures env c (registry_get h1).1
  have hn' : ((readAll t.objs kwargs).map Prod.fst).Nodup := by rw [readAll_keys]; exact hn
  obtain ⟨_, hnd⟩ := call_captured c hs hi _ _ hn' _ hb
  have hcap : (∀ p, p ∈ (c.capture (args.map (Arg.read t.objs)) (readAll t.objs kwargs)).map Prod.fst ↔ p ∈ c.params) ∧
      ∀ kv ∈ c.capture (args.map (Arg.read t.objs)) (readAll t.objs kwargs), ∃ i, c.params[i]? = some kv.1 ∧
        Bound c (args.map (Arg.read t.objs)) (readAll t.objs kwargs) i kv.1 kv.2 := by
    let c' : OpClass := { c with ownInit := true, init := fun _ => .ok fun _ => .error .typeError }
    have hcall : c'.call (args.map (Arg.read t.objs)) (readAll t.objs kwargs) =
        .ok ⟨c', c'.capture (args.map (Arg.read t.objs)) (readAll t.objs kwargs), fun _ => .error .typeError⟩ := by
      unfold OpClass.call
      rw [show c'.bindArgs (args.map (Arg.read t.objs)) (readAll t.objs kwargs) = _ from hb]
      rfl
    have e : c.capture (args.map (Arg.read t.objs)) (readAll t.objs kwargs) =
        c'.capture (args.map (Arg.read t.objs)) (readAll t.objs kwargs) := by
      rcases hi with ho | hp
      · unfold OpClass.capture OpClass.argspec
        rw [if_pos ho, if_pos (show c'.ownInit = true from rfl)]
      · rw [capture_noParams hs hp]
        rfl
    obtain ⟨_, k1, k2, _, _, _, k3⟩ := C65_capture c' ⟨hs.nodup, hs.defaults⟩ rfl _ _ hn' _ hcall
    rw [e]
    refine ⟨k2, fun kv hkv => ?_⟩
    have hp := (k2 kv.1).mp (List.mem_map_of_mem (f := Prod.fst) hkv)
    obtain ⟨i, hi⟩ := List.getElem?_of_mem hp
    obtain ⟨v, _, hv, hbv⟩ := k3 i _ hi
    have := dictGet_of_mem _ _ _ k1 hkv
    rw [this] at hv
    injection hv with hv
    subst hv
    refine ⟨i, hi, ?_⟩
    cases hbv with
    | positional h => exact .positional _ h
    | keyword hi h => exact .keyword _ hi h
    | dflt h1 h2 j h3 h4 => exact .dflt _ h1 h2 j h3 h4
  refine ⟨hnd, hcap.1, hcap.2, fun hl op' ho => ?_, fun hl => ?_⟩
  · unfold create at ho
    rw [h1, Except.bind_ok] at ho
    obtain ⟨vals, k1, k2, k3, k4⟩ := call_parts ho
    rw [hb] at k1
    injection k1 with k1
    obtain ⟨f, e1, e2⟩ := atCall_init hl h1
    have e3 : f (attrs.map (Arg.read t.objs)) = op'.run := by rw [k1]; exact e2 _ _ k2
    rw [e1]
    show Op.mk c (c.capture (args.map (Arg.read t.objs)) (readAll t.objs kwargs)) (f (attrs.map (Arg.read t.objs))) = op'
    rw [← k4, ← k3, e3]
  · have : op.cls = c := g3
    unfold Op.transform
    rw [atCall_none hl, this]

/-- C83: as long as the lists and dicts that it was made with keep their contents, an operator stays what it is,
whatever else the program does. -/
theorem C83_kept (env : Env) (s : ArgStore) (name : String) (args : List Arg) (kwargs : List (Str × Arg))
    (hk : AllKnown s.objs args kwargs) (op : Op)
    (h : create env name (args.map (Arg.read s.objs)) (readAll s.objs kwargs) = .ok op) (cmds : List ArgCmd)
    (hu : ∀ r, .obj r ∈ args ∨ .obj r ∈ kwargs.map Prod.snd →
      ((s.make env name.toList args kwargs).1.run env cmds).objs[r]? = s.objs[r]?) :
    ((s.make env name.toList args kwargs).1.run env cmds).opNow env s.ops.length = some op := by
  have hread : ∀ a : Arg, a ∈ args ∨ a ∈ kwargs.map Prod.snd →
      a.read ((s.make env name.toList args kwargs).1.run env cmds).objs = a.read s.objs := by
    intro a ha
    cases a with
    | val v => rfl
    | obj r =>
      show (_ : Option PyVal).getD _ = (_ : Option PyVal).getD _
      rw [hu r ha]
  obtain ⟨c, attrs, h1, h2, h3, h4⟩ := opNow_made hk h cmds
  have e1 : args.map (Arg.read ((s.make env name.toList args kwargs).1.run env cmds).objs) =
      args.map (Arg.read s.objs) := List.map_congr_left fun a ha => hread a (Or.inl ha)
  have e2 : readAll ((s.make env name.toList args kwargs).1.run env cmds).objs kwargs = readAll s.objs kwargs :=
    List.map_congr_left fun kv hkv => by rw [hread kv.2 (Or.inr (List.mem_map_of_mem hkv))]
  obtain ⟨vals, g1, g2, g3, g4⟩ := call_parts h3
  rw [h4, e1, e2, ← g4, ← g3]
  have hr : (match Builtin.atCall env name.toList with
      | some f => f (attrs.map (Arg.read ((s.make env name.toList args kwargs).1.run env cmds).objs))
      | none => op.run) = op.run := by
    have k1 := bindRefs_read c ((s.make env name.toList args kwargs).1.run env cmds).objs args kwargs
    rw [e1, e2, g1, h2] at k1
    injection k1 with k1
    by_cases hl : name ∈ liveNames
    · obtain ⟨f, e1, e2⟩ := atCall_init hl h1
      rw [e1]
      dsimp only
      rw [← k1]
      exact e2 _ _ g2
    · rw [atCall_none hl]
  rw [hr]

/-- C83: saving an operator and loading it again does what making it anew from the present contents does: the loaded
operator is `==` to the saved one, and if the present contents are refused, so is the text. -/
theorem C83_saved (env : Env) (s : ArgStore) (name : String) (args : List Arg) (kwargs : List (Str × Arg))
    (hk : AllKnown s.objs args kwargs) (hn : (kwargs.map Prod.fst).Nodup) (op : Op)
    (h : create env name (args.map (Arg.read s.objs)) (readAll s.objs kwargs) = .ok op) (cmds : List ArgCmd) (now : Op) :
    let t := (s.make env name.toList args kwargs).1.run env cmds
    t.opNow env s.ops.length = some now → (∀ kv ∈ now.configs, Plain kv.2) →
      Op.deserialize (Builtin.registry env) now.serialize =
        create env name (args.map (Arg.read t.objs)) (readAll t.objs kwargs) ∧
      ∀ op', create env name (args.map (Arg.read t.objs)) (readAll t.objs kwargs) = .ok op' → now.eq op' = true := by
  intro t hnow hp
  obtain ⟨c, attrs, h1, h2, h3, h4⟩ := opNow_made hk h cmds
  rw [show t.opNow env s.ops.length = _ from h4] at hnow
  injection hnow with hnow
  have hb : c.bindArgs (args.map (Arg.read t.objs)) (readAll t.objs kwargs) = .ok (attrs.map (Arg.read t.objs)) := by
    rw [bindRefs_read, h2]
    rfl
  obtain ⟨hc, hname⟩ := registry_get h1
  obtain ⟨hs, hi⟩ := C66_signatures env c hc
  have hn' : ((readAll t.objs kwargs).map Prod.fst).Nodup := by rw [readAll_keys]; exact hn
  obtain ⟨hcall, hnd⟩ := call_captured c hs hi _ _ hn' _ hb
  have e1 : now.configs = c.capture (args.map (Arg.read t.objs)) (readAll t.objs kwargs) := by rw [← hnow]
  have e2 : now.cls = c := by rw [← hnow]
  have hkeys : (now.configs.map Prod.fst).Nodup := by rw [e1]; exact hnd
  have hplain : Plain now.toDict := by
    unfold Op.toDict
    refine Plain.dict _ (by simp only [List.map_cons, List.map_nil]; decide) ?_
    intro kv hkv
    simp only [List.mem_cons, List.not_mem_nil, or_false] at hkv
    rcases hkv with rfl | rfl
    · exact Plain.str _
    · exact Plain.dict _ hkeys hp
  constructor
  · unfold Op.deserialize Op.serialize
    rw [Json.loads_dumps _ _ _ hplain, Except.bind_ok,
      fromDict_toDict _ _ c (by rw [e2, hname]; exact h1), e1, hcall]
    unfold create
    rw [h1, Except.bind_ok]
  · intro op' ho
    unfold create at ho
    rw [h1, Except.bind_ok] at ho
    obtain ⟨_, _, _, k3, k4⟩ := call_parts ho
    unfold Op.eq
    rw [k3, k4, e2, ← e1]
    simp only [beq_self_eq_true, Bool.true_and]
    exact (WellKeyed.dict _ hkeys (fun kv hkv => (hp kv hkv).wellKeyed)).eq_refl

theorem distinct_nodup (l : List Str) : (JsonText.distinct l).Nodup := by
  induction l with
  | nil => exact List.nodup_nil
  | cons k l ih =>
    unfold JsonText.distinct
    refine List.nodup_cons.mpr ⟨?_, ih.filter _⟩
    simp

/-- The values inside of a piece of JSON are plain. -/
def PlainNode : JsonText.Node → Prop
  | .value v => Plain v
  | .items l => ∀ v ∈ l, Plain v
  | .pairs l => ∀ kv ∈ l, Plain kv.2

theorem text_plain {t : Str} {n : JsonText.Node} (h : JsonText.Text t n) : PlainNode n := by
  induction h with
  | null => exact Plain.none
  | true => exact Plain.bool _
  | false => exact Plain.bool _
  | int _ => exact Plain.int _
  | str _ => exact Plain.str _
  | emptyList _ => exact Plain.list _ (by simp)
  | list _ _ ih => exact Plain.list _ ih
  | emptyDict _ => exact Plain.dict _ List.nodup_nil (by simp)
  | dict _ _ hd ih =>
    refine Plain.dict _ (hd.keys ▸ distinct_nodup _) fun kv hkv => ?_
    obtain ⟨pre, post, e, _⟩ := (hd.value kv.1 kv.2).mp hkv
    exact ih kv (by rw [e]; simp)
  | lastItem _ _ ih =>
    intro v hv
    rw [List.mem_singleton] at hv
    exact hv ▸ ih
  | item _ _ _ _ ih ih' =>
    intro v hv
    rcases List.mem_cons.mp hv with rfl | hv
    · exact ih
    · exact ih' v hv
  | lastPair _ _ _ _ _ ih =>
    intro v hv
    rw [List.mem_singleton] at hv
    exact hv ▸ ih
  | pair _ _ _ _ _ _ _ ih ih' =>
    intro v hv
    rcases List.mem_cons.mp hv with rfl | hv
    · exact ih
    · exact ih' v hv

/-- C78: what is loaded can be written, and what is written loads as the same value again. -/
theorem C78_loaded_again (text : Str) (v : PyVal) (h : Json.loads text = .ok v) (a : Bool) (ind : Json.Layout) :
    Json.loads (Json.dumps a ind v) = .ok v := by
  obtain ⟨_, _, _, _, _, ht, _⟩ := (C78_json text v).mp h
  exact Json.loads_dumps _ _ _ (text_plain ht)

/-- C83: an operator loaded from a text stays what it is under every program. -/
theorem C83_loaded (env : Env) (s : ArgStore) (text : Str) :
    (∀ op, Op.deserialize (Builtin.registry env) text = .ok op →
      (s.load env text).2 = .ok () ∧
      ∀ cmds, ((s.load env text).1.run env cmds).opNow env s.ops.length = some op) ∧
    ∀ e, Op.deserialize (Builtin.registry env) text = .error e → s.load env text = (s, .error e) := by
  refine ⟨fun op h => ?_, fun e h => by unfold ArgStore.load; rw [h]; rfl⟩
  obtain ⟨v, hv, hd⟩ := bind_eq_ok h
  obtain ⟨name, _, hd⟩ := bind_eq_ok hd
  obtain ⟨kw, hkw, hd⟩ := bind_eq_ok hd
  obtain ⟨c, hc, hd⟩ := bind_eq_ok hd
  have hplain : Plain kw := by
    obtain ⟨_, _, _, _, _, ht, _⟩ := (C78_json text v).mp hv
    have hp : Plain v := text_plain ht
    cases hp with
    | dict d _ hall =>
      unfold PyVal.getItem at hkw
      dsimp only at hkw
      cases hg : dictGet d "op_kwargs".toList with
      | none => rw [hg] at hkw; cases hkw
      | some w =>
        rw [hg] at hkw
        injection hkw with hkw
        subst hkw
        exact hall _ (dictGet_mem _ _ _ hg)
    | _ => cases hkw
  have hcall : ∃ d, (d.map Prod.fst).Nodup ∧ c.call [] d = .ok op := by
    cases hplain with
    | dict d hn _ => exact ⟨d, hn, hd⟩
    | _ => cases hd
  obtain ⟨d, hn, hcall⟩ := hcall
  obtain ⟨nm, hc⟩ : ∃ nm, (Builtin.registry env).get nm = .ok c := by
    cases name <;> first | exact ⟨_, hc⟩ | cases hc
  obtain ⟨hmem, hnm⟩ := registry_get hc
  obtain ⟨hs, hi⟩ := C66_signatures env c hmem
  obtain ⟨vals, g1, g2, g3, g4⟩ := call_parts hcall
  obtain ⟨hag, _⟩ := call_captured c hs hi [] d hn vals g1
  rw [← g4, hcall] at hag
  obtain ⟨vals', k1, k2, _, _⟩ := call_parts hag
  have hload : s.load env text = ({ s with ops := s.ops ++ [(⟨op.cls, vals'.map Arg.val,
      op.configs.map (fun kv : Str × PyVal => (kv.1, Arg.val kv.2)), op.run⟩ : OpObject)] }, .ok ()) := by
    unfold ArgStore.load
    rw [h, Except.bind_ok, g3, k1]
    rfl
  refine ⟨by rw [hload], fun cmds => ?_⟩
  have ho : ((s.load env text).1.run env cmds).ops[s.ops.length]? = some ⟨op.cls, vals'.map Arg.val,
      op.configs.map (fun kv : Str × PyVal => (kv.1, Arg.val kv.2)), op.run⟩ := by
    refine run_ops env cmds _ _ _ ?_
    rw [hload]
    simp
  unfold ArgStore.opNow
  rw [ho]
  show some _ = some _
  dsimp only
  have e1 : ∀ objs, readAll objs (op.configs.map (fun kv : Str × PyVal => (kv.1, Arg.val kv.2))) = op.configs := by
    intro objs
    unfold readAll
    rw [List.map_map]
    exact List.map_id _
  have e2 : ∀ objs, (vals'.map Arg.val).map (Arg.read objs) = vals' := by
    intro objs
    rw [List.map_map]
    exact List.map_id _
  rw [e1, e2, g3]
  have hr : (match Builtin.atCall env c.name with
      | some f => f vals'
      | none => op.run) = op.run := by
    rw [hnm, ← String.toList_ofList (l := nm)]
    by_cases hl : String.ofList nm ∈ liveNames
    · obtain ⟨f, e1, e2⟩ := atCall_init hl (c := c) (by rw [String.toList_ofList]; exact hc)
      rw [e1]
      exact e2 _ _ k2
    · rw [atCall_none hl]
  refine (congrArg (fun r => some (Op.mk c op.configs r)) hr).trans (congrArg some ?_)
  rw [← g3]

/-! ### the operators that look into their dict -/

theorem unknown_error (σ : SetOrder) (d : List (Str × Int)) (unk : Str) (hu : unk ∉ d.map Prod.fst) (l : List Tok)
    (h : ∃ x ∈ l, ∀ s, x = .str s → s ∉ d.map Prod.fst) :
    Token2Index.transform σ d unk l = .error .keyError := by
  have hnv : ∀ x : Tok, (∀ s, x = .str s → s ∉ d.map Prod.fst) → Token2Index.newValue d unk x = .error .keyError := by
    intro x hx
    unfold Token2Index.newValue
    cases x with
    | int i => simp only [(dictGet_none d unk).mpr hu]
    | str s => simp only [(dictGet_none d s).mpr (hx s rfl), (dictGet_none d unk).mpr hu]
  unfold Token2Index.transform tokenwiseTransform
  rw [enumAdd_error _ _ .keyError]
  · rfl
  · obtain ⟨x, hx, hs⟩ := h
    exact ⟨x, hx, hnv x hs⟩
  · intro x _ e' he
    unfold Token2Index.newValue at he
    dsimp only at he
    split at he
    · cases he
    · split at he
      · cases he
      · injection he with he; exact he.symm

theorem index_transform (σ : SetOrder) (d : List (Str × Int)) (unk : Str) (hkeys : (d.map Prod.fst).Nodup)
    (l : List Tok) (out : List Int) (hl : out.length = l.length) (ho : ∀ p ∈ l.zip out, IndexOf d unk p.1 p.2) :
    ∃ a, Token2Index.transform σ d unk l = .ok (out.map Tok.int, a) := by
  let idx : Tok → Int := fun t => (match t with
    | .str s => (dictGet d s).getD ((dictGet d unk).getD 0)
    | .int _ => (dictGet d unk).getD 0)
  have hidx : ∀ t i, IndexOf d unk t i → Token2Index.newValue d unk t = .ok (some [Tok.int i]) ∧ idx t = i := by
    intro t i hi
    unfold Token2Index.newValue
    cases t with
    | int j =>
      have := dictGet_of_mem d unk i hkeys hi
      simp only [this, idx]
      exact ⟨trivial, rfl⟩
    | str s =>
      rcases hi with hi | ⟨h1, h2⟩
      · have := dictGet_of_mem d s i hkeys hi
        simp only [this, idx]
        exact ⟨trivial, rfl⟩
      · have h2 := dictGet_of_mem d unk i hkeys h2
        have h1 := (dictGet_none d s).mpr h1
        simp only [h1, h2, idx]
        exact ⟨trivial, rfl⟩
  have hex : ∀ x ∈ l, ∃ i, IndexOf d unk x i := by
    intro x hx
    obtain ⟨k, hk⟩ := List.getElem?_of_mem hx
    have hlt : k < out.length := by rw [hl]; exact (List.getElem?_eq_some_iff.mp hk).1
    exact ⟨out[k], ho (x, out[k])
      (List.mem_of_getElem? (i := k) (List.getElem?_zip_eq_some.mpr ⟨hk, List.getElem?_eq_getElem hlt⟩))⟩
  have ht := tokenwiseTransform_congr σ (Token2Index.newValue d unk) (fun t => some [Tok.int (idx t)]) l
    (fun x hx => by
      obtain ⟨i, hi⟩ := hex x hx
      obtain ⟨h1, h2⟩ := hidx x i hi
      rw [h1, h2]) (fun _ n => Aligner.null l.length n)
  have hout : (l.flatMap fun x => (some [Tok.int (idx x)]).getD [x]) = (l.map idx).map Tok.int := by
    rw [List.map_map, ← List.flatMap_singleton' (List.map _ l), List.flatMap_map]; rfl
  have he : l.map idx = out := by
    refine List.ext_getElem (by simp [hl]) fun i h1 h2 => ?_
    have h3 : i < l.length := by simpa using h1
    have := (hidx l[i] out[i] (ho (l[i], out[i]) (List.mem_of_getElem? (i := i)
      (List.getElem?_zip_eq_some.mpr ⟨List.getElem?_eq_getElem h3, List.getElem?_eq_getElem h2⟩)))).2
    simpa using this
  unfold Token2Index.transform
  rw [ht, hout, he]
  exact ⟨_, rfl⟩

/-- An operator of one of the classes that look into their arguments, at a later moment. -/
theorem live_now {env : Env} {s : ArgStore} {name : String} {args : List Arg} {kwargs : List (Str × Arg)} {op : Op}
    (hk : AllKnown s.objs args kwargs)
    (h : create env name (args.map (Arg.read s.objs)) (readAll s.objs kwargs) = .ok op) (cmds : List ArgCmd)
    {c : OpClass} (hc : (Builtin.registry env).get name.toList = .ok c) (sig : List Param)
    (hp : c.params = sig.map fun p => p.1.toList) (hd : (sig.map fun p => c.default? p.1.toList) = sig.map Prod.snd)
    (hn : (sig.map fun p => p.1.toList).Nodup) {f : List PyVal → Seq → Res (Seq × Aligner)}
    (hf : Builtin.atCall env name.toList = some f) :
    ∃ now, ((s.make env name.toList args kwargs).1.run env cmds).opNow env s.ops.length = some now ∧ now.cls = c ∧
      ∀ vals, bound sig (args.map (Arg.read ((s.make env name.toList args kwargs).1.run env cmds).objs))
        (readAll ((s.make env name.toList args kwargs).1.run env cmds).objs kwargs) = some vals → now.run = f vals := by
  obtain ⟨c', attrs, h1, h2, h3, h4⟩ := opNow_made hk h cmds
  rw [hc] at h1
  injection h1 with h1
  subst h1
  refine ⟨_, h4, rfl, fun vals hb => ?_⟩
  have k := bindRefs_read c ((s.make env name.toList args kwargs).1.run env cmds).objs args kwargs
  rw [bindArgs_bound c sig hp (hp ▸ hn) (List.map_inj_left.mp hd), hb, h2] at k
  injection k with k
  dsimp only
  rw [hf]
  dsimp only
  rw [k]

theorem run_gives {op : Op} {f : List Tok → Res (List Tok × Aligner)} {l out : List Tok} {a : Aligner}
    (hi : op.cls.inputType = .list) (ho : op.cls.outputType = .list) (hr : op.run (.list l) = lstOp f (.list l))
    (h : f l = .ok (out, a)) : Gives op (.list l) (.list out) := by
  refine ⟨a, ?_⟩
  unfold Op.transform
  rw [hi, ho, hr]
  unfold lstOp
  dsimp only
  rw [h]
  rfl

theorem run_fails {op : Op} {f : List Tok → Res (List Tok × Aligner)} {l : List Tok} {e : Exc}
    (hi : op.cls.inputType = .list) (hr : op.run (.list l) = lstOp f (.list l))
    (h : f l = .error e) : op.transform (.list l) = .error e := by
  unfold Op.transform
  rw [hi, hr]
  unfold lstOp
  dsimp only
  rw [h]
  rfl

/-- C83: `Token2Index` numbers by the dict as it is now, without any check: also if its numbers are not continuous, and
if `unk_token` is no longer in it, unknown tokens raise KeyError. -/
theorem C83_index (env : Env) (s : ArgStore) (args : List Arg) (kwargs : List (Str × Arg))
    (hk : AllKnown s.objs args kwargs) (op : Op)
    (h : create env "Token2Index" (args.map (Arg.read s.objs)) (readAll s.objs kwargs) = .ok op) (cmds : List ArgCmd) :
    let t := (s.make env "Token2Index".toList args kwargs).1.run env cmds
    ∀ (d : List (Str × Int)) unk, (d.map Prod.fst).Nodup →
      bound token2indexParams (args.map (Arg.read t.objs)) (readAll t.objs kwargs) =
        some [.dict (d.map fun kv => (kv.1, .int kv.2)), .str unk] →
      ∃ now, t.opNow env s.ops.length = some now ∧
        (∀ (l : List Tok) (out : List Int), out.length = l.length → (∀ p ∈ l.zip out, IndexOf d unk p.1 p.2) →
          Gives now (.list l) (.list (out.map Tok.int))) ∧
        (unk ∉ d.map Prod.fst → ∀ l : List Tok, (∃ x ∈ l, ∀ s, x = .str s → s ∉ d.map Prod.fst) →
          now.transform (.list l) = .error .keyError) := by
  intro t d unk hd hb
  obtain ⟨now, h1, h2, h3⟩ := live_now hk h cmds (c := Builtin.token2index env) rfl token2indexParams rfl rfl
    (by decide) rfl
  have hrun : ∀ l, now.run (.list l) = lstOp (Token2Index.transform env.σ d unk) (.list l) := by
    intro l
    rw [h3 _ hb]
    show ((PyVal.dict _).asIndex >>= _) = _
    rw [asIndex_ok, Except.bind_ok]
    rfl
  refine ⟨now, h1, fun l out hl ho => ?_, fun hu l hx => ?_⟩
  · obtain ⟨a, ha⟩ := index_transform env.σ d unk hd l out hl ho
    exact run_gives (by rw [h2]; rfl) (by rw [h2]; rfl) (hrun l) ha
  · exact run_fails (by rw [h2]; rfl) (hrun l) (unknown_error env.σ d unk hu l hx)

/-- C83: `Token2IndexwithHash` numbers by the dict as it is now: the hash of an unknown token is taken modulo the
present number of entries (0 if there are none left). -/
theorem C83_hash (env : Env) (s : ArgStore) (args : List Arg) (kwargs : List (Str × Arg))
    (hk : AllKnown s.objs args kwargs) (op : Op)
    (h : create env "Token2IndexwithHash" (args.map (Arg.read s.objs)) (readAll s.objs kwargs) = .ok op)
    (cmds : List ArgCmd) :
    let t := (s.make env "Token2IndexwithHash".toList args kwargs).1.run env cmds
    ∀ d : List (Str × Int), (d.map Prod.fst).Nodup →
      bound token2indexHashParams (args.map (Arg.read t.objs)) (readAll t.objs kwargs) =
        some [.dict (d.map fun kv => (kv.1, .int kv.2))] →
      ∃ now, t.opNow env s.ops.length = some now ∧ ∃ idx : Str → Int,
        (∀ l : List Str, Gives now (.list (l.map Tok.str)) (.list (l.map fun s => .int (idx s)))) ∧
        (∀ s i, (s, i) ∈ d → idx s = i) ∧
        ∀ s, s ∉ d.map Prod.fst → idx s = if d = [] then 0 else
          ((Murmur.x86_32 (s.flatMap String.utf8EncodeChar) 0#32).toNat % d.length : Nat) := by
  intro t d hd hb
  obtain ⟨now, h1, h2, h3⟩ := live_now hk h cmds (c := Builtin.token2indexHash env) rfl token2indexHashParams rfl rfl
    (by decide) rfl
  have hrun : ∀ l, now.run (.list l) = lstOp (Token2IndexwithHash.transform env.σ d) (.list l) := by
    intro l
    rw [h3 _ hb]
    show ((PyVal.dict _).asIndex >>= _) = _
    rw [asIndex_ok, Except.bind_ok]
  let idx : Str → Int := fun s => (dictGet d s).getD (consistentHash s d.length)
  refine ⟨now, h1, idx, fun l => ?_, fun s i hi => ?_, fun s hs => ?_⟩
  · have hnv : ∀ x ∈ l.map Tok.str, Token2IndexwithHash.newValue d x =
        .ok ((fun t : Tok => match t with | .str s => some [Tok.int (idx s)] | .int _ => none) x) := by
      intro x hx
      obtain ⟨w, _, rfl⟩ := List.mem_map.mp hx
      simp only [Token2IndexwithHash.newValue, idx]
      cases dictGet d w <;> rfl
    have ht := tokenwiseTransform_congr env.σ _ _ _ hnv (fun _ n => Aligner.null (l.map Tok.str).length n)
    have hout : ((l.map Tok.str).flatMap fun x => ((match x with
        | .str s => some [Tok.int (idx s)] | .int _ => none) : Option (List Tok)).getD [x]) =
        l.map fun s => Tok.int (idx s) := by
      rw [List.flatMap_map, ← List.flatMap_singleton' (List.map _ l), List.flatMap_map]
      rfl
    exact run_gives (by rw [h2]; rfl) (by rw [h2]; rfl) (hrun _) (ht.trans (by rw [hout]))
  · have := dictGet_of_mem d s i hd hi
    simp only [idx, this, Option.getD_some]
  · have := (dictGet_none d s).mpr hs
    simp only [idx, this, Option.getD_none]
    unfold consistentHash
    by_cases hn : d = []
    · rw [if_pos hn, if_pos (by rw [hn]; rfl)]
    · rw [if_neg hn, if_neg (by simpa using hn), C32_utf8]

/-! ### the operators that made a trie of their words -/

theorem words_plain (ws : List Str) : Plain (.list (ws.map PyVal.str)) :=
  Plain.list _ fun v hv => by
    obtain ⟨w, _, rfl⟩ := List.mem_map.mp hv
    exact Plain.str _

/-- An operator made with words, at a later moment. -/
theorem words_now {env : Env} {s : ArgStore} {name : String} {args : List Arg} {kwargs : List (Str × Arg)} {op : Op}
    (hk : AllKnown s.objs args kwargs) (hn : (kwargs.map Prod.fst).Nodup)
    (h : create env name (args.map (Arg.read s.objs)) (readAll s.objs kwargs) = .ok op) (cmds : List ArgCmd)
    {c : OpClass} (hc : (Builtin.registry env).get name.toList = .ok c)
    (hp : c.params = wordParams.map fun p => p.1.toList)
    (hd : (wordParams.map fun p => c.default? p.1.toList) = wordParams.map Prod.snd) (hl : name ∉ liveNames)
    (ws : List Str) (sh : Bool) :
    let t := (s.make env name.toList args kwargs).1.run env cmds
    bound wordParams (args.map (Arg.read t.objs)) (readAll t.objs kwargs) =
        some [.list (ws.map PyVal.str), .bool sh] →
    ∃ now, t.opNow env s.ops.length = some now ∧ now.transform = op.transform ∧
      Op.deserialize (Builtin.registry env) now.serialize =
        create env name (args.map (Arg.read t.objs)) (readAll t.objs kwargs) ∧
      ∀ op', create env name (args.map (Arg.read t.objs)) (readAll t.objs kwargs) = .ok op' → now.eq op' = true := by
  intro t hb
  obtain ⟨now, h1, h2, h3, h4, h5, h6, h7⟩ := C83_now env s name args kwargs hk hn op h cmds
  refine ⟨now, h1, h7 hl, ?_⟩
  refine C83_saved env s name args kwargs hk hn op h cmds now h1 fun kv hkv => ?_
  obtain ⟨c', attrs, k1, k2, _, k4⟩ := opNow_made hk h cmds
  rw [hc] at k1
  injection k1 with k1
  subst k1
  rw [show t.opNow env s.ops.length = _ from k4] at h1
  injection h1 with h1
  have hcfg : now.configs = c.capture (args.map (Arg.read t.objs)) (readAll t.objs kwargs) := by rw [← h1]
  rw [hcfg] at hkv
  obtain ⟨hs, hi⟩ := C66_signatures env c (registry_get hc).1
  have hbind := bindArgs_bound c wordParams hp (hp ▸ (by decide)) (List.map_inj_left.mp hd)
    (args.map (Arg.read t.objs)) (readAll t.objs kwargs)
  rw [hb] at hbind
  have := captured_mem c hs hi _ _ (by rw [readAll_keys]; exact hn) _ hbind kv hkv
  simp only [List.mem_cons, List.not_mem_nil, or_false] at this
  rcases this with e | e
  · rw [e]; exact words_plain ws
  · rw [e]; exact Plain.bool _

/-- C83: `CustomWordTokenizer` goes on with the words it was made with, whatever becomes of the list, while its saved
text has the words of the present list: the operator loaded from it is `==` to the saved one and works with the present
words, and if no words are left, the text cannot be loaded. -/
theorem C83_tokenizer_words (env : Env) (s : ArgStore) (args : List Arg) (kwargs : List (Str × Arg))
    (hk : AllKnown s.objs args kwargs) (hn : (kwargs.map Prod.fst).Nodup) (ws : List Str) (sh : Bool)
    (hw : GoodWords ws) (hb : bound wordParams (args.map (Arg.read s.objs)) (readAll s.objs kwargs) =
      some [.list (ws.map PyVal.str), .bool sh]) (cmds : List ArgCmd) :
    let t := (s.make env "CustomWordTokenizer".toList args kwargs).1.run env cmds
    ∀ ws' sh', bound wordParams (args.map (Arg.read t.objs)) (readAll t.objs kwargs) =
        some [.list (ws'.map PyVal.str), .bool sh'] →
      ∃ now, t.opNow env s.ops.length = some now ∧
        (∀ x segs, WordSegs ws sh x segs → Gives now (.str x) (.list (segs.map Tok.str))) ∧
        (GoodWords ws' → ∃ op', Op.deserialize (Builtin.registry env) now.serialize = .ok op' ∧ now.eq op' = true ∧
          ∀ x segs, WordSegs ws' sh' x segs → Gives op' (.str x) (.list (segs.map Tok.str))) ∧
        (ws' = [] → Op.deserialize (Builtin.registry env) now.serialize = .error .valueError) := by
  intro t ws' sh' hb'
  obtain ⟨op, h, hg⟩ := ((C74_custom_tokenizer env _ _).1 ws sh hb).1 hw
  obtain ⟨now, h1, h2, h3, h4⟩ := words_now (name := "CustomWordTokenizer") hk hn h cmds (c := Builtin.customTok env)
    rfl rfl rfl (by decide) ws' sh' hb'
  obtain ⟨k1, k2⟩ := (C74_custom_tokenizer env _ _).1 ws' sh' hb'
  refine ⟨now, h1, fun x segs hx => ?_, fun hw' => ?_, fun he => ?_⟩
  · obtain ⟨a, ha⟩ := hg x segs hx
    exact ⟨a, by rw [h2]; exact ha⟩
  · obtain ⟨op', ho, hg'⟩ := k1 hw'
    exact ⟨op', by rw [h3]; exact ho, h4 op' ho, hg'⟩
  · rw [h3]; exact k2 he

/-- C83: the same for `AddWhitespaceAroundWordnZhChar`. -/
theorem C83_around_words (env : Env) (s : ArgStore) (args : List Arg) (kwargs : List (Str × Arg))
    (hk : AllKnown s.objs args kwargs) (hn : (kwargs.map Prod.fst).Nodup) (ws : List Str) (sh : Bool)
    (hw : GoodWords ws) (hb : bound wordParams (args.map (Arg.read s.objs)) (readAll s.objs kwargs) =
      some [.list (ws.map PyVal.str), .bool sh]) (cmds : List ArgCmd) :
    let t := (s.make env "AddWhitespaceAroundWordnZhChar".toList args kwargs).1.run env cmds
    ∀ ws' sh', bound wordParams (args.map (Arg.read t.objs)) (readAll t.objs kwargs) =
        some [.list (ws'.map PyVal.str), .bool sh'] →
      ∃ now, t.opNow env s.ops.length = some now ∧
        (∀ x segs, WordSegs ws sh x segs → Gives now (.str x) (.str (segs.flatMap (spaced ws)))) ∧
        (GoodWords ws' → ∃ op', Op.deserialize (Builtin.registry env) now.serialize = .ok op' ∧ now.eq op' = true ∧
          ∀ x segs, WordSegs ws' sh' x segs → Gives op' (.str x) (.str (segs.flatMap (spaced ws')))) ∧
        (ws' = [] → Op.deserialize (Builtin.registry env) now.serialize = .error .valueError) := by
  intro t ws' sh' hb'
  obtain ⟨op, h, hg⟩ := ((C74_around_words env _ _).1 ws sh hb).1 hw
  obtain ⟨now, h1, h2, h3, h4⟩ := words_now (name := "AddWhitespaceAroundWordnZhChar") hk hn h cmds
    (c := Builtin.aroundWord env) rfl rfl rfl (by decide) ws' sh' hb'
  obtain ⟨k1, k2⟩ := (C74_around_words env _ _).1 ws' sh' hb'
  refine ⟨now, h1, fun x segs hx => ?_, fun hw' => ?_, fun he => ?_⟩
  · obtain ⟨a, ha⟩ := hg x segs hx
    exact ⟨a, by rw [h2]; exact ha⟩
  · obtain ⟨op', ho, hg'⟩ := k1 hw'
    exact ⟨op', by rw [h3]; exact ho, h4 op' ho, hg'⟩
  · rw [h3]; exact k2 he

/-- C83: `SpanSubwords` cuts by the vocabulary as it is now. -/
theorem C83_subwords (env : Env) (s : ArgStore) (args : List Arg) (kwargs : List (Str × Arg))
    (hk : AllKnown s.objs args kwargs) (hn : (kwargs.map Prod.fst).Nodup) (op : Op)
    (h : create env "SpanSubwords" (args.map (Arg.read s.objs)) (readAll s.objs kwargs) = .ok op) (cmds : List ArgCmd) :
    let t := (s.make env "SpanSubwords".toList args kwargs).1.run env cmds
    ∀ (d : List (Str × PyVal)) unk n, bound subwordParams (args.map (Arg.read t.objs)) (readAll t.objs kwargs) =
        some [.dict d, .str unk, .int n] →
      ∃ now, t.opNow env s.ops.length = some now ∧
        ∀ (l : List Str) (subs : Str → List Str), (∀ w ∈ l, PiecesOf (d.map Prod.fst) unk n w (subs w)) →
          Gives now (.list (l.map Tok.str)) (.list (l.flatMap fun w => (subs w).map Tok.str)) := by
  intro t d unk n hb
  obtain ⟨op', ho, hg⟩ := (C74_subwords env _ _).1 d unk n hb
  obtain ⟨now, h1, _, _, _, _, h6, _⟩ := C83_now env s "SpanSubwords" args kwargs hk hn op h cmds
  exact ⟨now, h1, (h6 (by decide) op' ho) ▸ hg⟩

/-! ### a program -/

/-- A program with a list of words and a dict. -/
def exArgs : ArgStore :=
  { objs := [.list [.str "ab".toList], .dict [("<unk>".toList, .int 0), ("a".toList, .int 1)]], ops := [] }

/-- It makes two tokenizers from the list and a numbering operator from the dict, and then changes the list and the
dict. -/
def exArgsCmds : List ArgCmd :=
  [.make "Token2Index".toList [.obj 1] [], .change 0 (.list [.str "a".toList]), .change 1 (.dict [("a".toList, .int 7)])]

def exArgsAfter : ArgStore := (exArgs.make exEnv "CustomWordTokenizer".toList [.obj 0] []).1.run exEnv exArgsCmds

example : ∃ now, exArgsAfter.opNow exEnv 0 = some now ∧
    (∀ x segs, WordSegs ["ab".toList] false x segs → Gives now (.str x) (.list (segs.map Tok.str))) ∧
    ∃ op', Op.deserialize (Builtin.registry exEnv) now.serialize = .ok op' ∧ now.eq op' = true ∧
      ∀ x segs, WordSegs ["a".toList] false x segs → Gives op' (.str x) (.list (segs.map Tok.str)) := by
  obtain ⟨now, h1, h2, h3, _⟩ := C83_tokenizer_words exEnv exArgs [.obj 0] [] ((allKnown_iff _ _ _).mpr rfl) (by decide)
    ["ab".toList] false ⟨by decide, by decide⟩ rfl exArgsCmds ["a".toList] false rfl
  exact ⟨now, h1, h2, h3 ⟨by decide, by decide⟩⟩

example : (exArgsAfter.opNow exEnv 0).map (fun op => (op.transform (.str "ab".toList)).map Prod.fst) =
    some (.ok (.list [.str "ab".toList])) := by decide
example : (exArgsAfter.opNow exEnv 0).map (fun op => (op.cls.call [] op.configs >>= fun op' =>
    op'.transform (.str "ab".toList)).map Prod.fst) = some (.ok (.list [.str "a".toList, .str "b".toList])) := by decide
example : (exArgsAfter.opNow exEnv 1).map (fun op => (op.transform (.list [.str "a".toList])).map Prod.fst) =
    some (.ok (.list [.int 7])) := by decide
example : (exArgsAfter.opNow exEnv 1).map (fun op => (op.transform (.list [.str "b".toList])).map Prod.fst) =
    some (.error .keyError) := by decide

/-- C83: so an operator and the one loaded from its text can be `==` and still give different results. -/
theorem C83_words_drift : ∃ (s : ArgStore) (cmds : List ArgCmd) (now op' : Op) (x : Str),
    ((s.make exEnv "CustomWordTokenizer".toList [.obj 0] []).1.run exEnv cmds).opNow exEnv s.ops.length = some now ∧
    Op.deserialize (Builtin.registry exEnv) now.serialize = .ok op' ∧ now.eq op' = true ∧
    (now.transform (.str x)).map Prod.fst ≠ (op'.transform (.str x)).map Prod.fst := by
  obtain ⟨op, h, _⟩ := ((C74_custom_tokenizer exEnv ([.obj 0].map (Arg.read exArgs.objs)) []).1 ["ab".toList] false
    rfl).1 ⟨by decide, by decide⟩
  obtain ⟨now, h1, h2, h3, h4⟩ := words_now (env := exEnv) (s := exArgs) (name := "CustomWordTokenizer")
    (args := [.obj 0]) (kwargs := []) ((allKnown_iff _ _ _).mpr rfl) (by decide) h exArgsCmds (c := Builtin.customTok exEnv)
    rfl rfl rfl (by decide) ["a".toList] false rfl
  obtain ⟨op', ho, _⟩ := ((C74_custom_tokenizer exEnv ([.obj 0].map (Arg.read exArgsAfter.objs)) []).1 ["a".toList] false
    rfl).1 ⟨by decide, by decide⟩
  refine ⟨exArgs, exArgsCmds, now, op', "ab".toList, h1, h3.trans ho, h4 op' ho, ?_⟩
  have e1 : (create exEnv "CustomWordTokenizer" ([.obj 0].map (Arg.read exArgs.objs)) []).map
      (fun op => (op.transform (.str "ab".toList)).map Prod.fst) = .ok (.ok (.list [.str "ab".toList])) := by decide
  have e2 : (create exEnv "CustomWordTokenizer" ([.obj 0].map (Arg.read exArgsAfter.objs)) []).map
      (fun op => (op.transform (.str "ab".toList)).map Prod.fst) =
        .ok (.ok (.list [.str "a".toList, .str "b".toList])) := by decide
  rw [h] at e1
  rw [ho] at e2
  injection e1 with e1
  injection e2 with e2
  dsimp only at e1 e2
  rw [h2, e1, e2]
  decide

/-- The dict is changed so that it would be refused: the operator goes on, but its text cannot be loaded. -/
example : ∃ now, exArgsAfter.opNow exEnv 1 = some now ∧ Gives now (.list [.str "a".toList]) (.list [.int 7]) ∧
    now.transform (.list [.str "b".toList]) = .error .keyError ∧
    Op.deserialize (Builtin.registry exEnv) now.serialize = .error .valueError := by
  let s : ArgStore := (exArgs.make exEnv "CustomWordTokenizer".toList [.obj 0] []).1
  have hkn : AllKnown s.objs [.obj 1] [] := (allKnown_iff _ _ _).mpr rfl
  obtain ⟨op, h, _⟩ := ((C74_token2index exEnv ([.obj 1].map (Arg.read s.objs)) []).1
    [("<unk>".toList, 0), ("a".toList, 1)] "<unk>".toList (by decide) rfl).1
      ((C31_continuity _).mp (by decide)) (by decide)
  let rest : List ArgCmd := [.change 0 (.list [.str "a".toList]), .change 1 (.dict [("a".toList, .int 7)])]
  obtain ⟨now, h1, h2, h3⟩ := C83_index exEnv s [.obj 1] [] hkn op h rest [("a".toList, 7)] "<unk>".toList (by decide) rfl
  refine ⟨now, h1, h2 [.str "a".toList] [7] rfl ?_, h3 (by decide) _ ⟨.str "b".toList, by simp, ?_⟩, ?_⟩
  · intro p hp
    simp only [List.zip_cons_cons, List.zip_nil_right, List.mem_singleton] at hp
    subst hp
    exact Or.inl (by simp)
  · intro s hs
    injection hs with hs
    subst hs
    decide
  · have hcfg : now.configs = [("token2index".toList, .dict [("a".toList, .int 7)]), ("unk_token".toList, .str "<unk>".toList)] := by
      have : (exArgsAfter.opNow exEnv 1).map Op.configs = some [("token2index".toList, .dict [("a".toList, .int 7)]),
        ("unk_token".toList, .str "<unk>".toList)] := rfl
      rw [show exArgsAfter.opNow exEnv 1 = some now from h1] at this
      injection this
    refine (C83_saved exEnv s "Token2Index" [.obj 1] [] hkn (by decide) op h rest now h1 ?_).1.trans ?_
    · rw [hcfg]
      intro kv hkv
      simp only [List.mem_cons, List.not_mem_nil, or_false] at hkv
      rcases hkv with rfl | rfl
      · exact Plain.dict _ (by decide) (by simp; exact Plain.int 7)
      · exact Plain.str _
    · exact ((C74_token2index exEnv _ _).1 [("a".toList, 7)] "<unk>".toList (by decide) rfl).2.1
        fun hc => absurd ((C31_continuity _).mpr hc) (by decide)

/-- Other steps do not matter: the tokenizer is the same after the dict was changed. -/
example (op : Op) (h : create exEnv "CustomWordTokenizer" [.list [.str "ab".toList]] [] = .ok op) :
    ((exArgs.make exEnv "CustomWordTokenizer".toList [.obj 0] []).1.run exEnv
      [.change 1 (.dict []), .new (.list [])]).opNow exEnv 0 = some op :=
  C83_kept exEnv exArgs "CustomWordTokenizer" [.obj 0] [] ((allKnown_iff _ _ _).mpr rfl) op h _ (by
    intro r hr
    rcases hr with hr | hr
    · rw [List.mem_singleton] at hr
      injection hr with hr
      subst hr
      rfl
    · cases hr)

end Uttut
