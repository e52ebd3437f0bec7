import Verif.Props.Builtins
import Verif.Props.Serialize

/-! The built-in operators and pipes of them survive serialization (C66). -/

namespace Uttut

/-- Every operator class is found in the registry under its own name: no two of them share a name. -/
theorem C66_registered (env : Env) (c : OpClass) (hc : c ∈ Builtin.all env) :
    (Builtin.registry env).get c.name = .ok c := by
  have hn := builtin_names_nodup
  rw [← builtin_names env] at hn
  unfold Builtin.registry Factory.get
  rw [dictGet_of_mem _ _ c]
  · rw [List.map_map]; exact hn
  · exact List.mem_map.mpr ⟨c, hc, rfl⟩

example : (Builtin.registry exEnv).get "Pad".toList = .ok (Builtin.pad exEnv) :=
  C66_registered exEnv _ (List.mem_of_getElem? (i := 25) rfl)

/-- A built-in operator with JSON values as arguments satisfies the conditions of the round trip. -/
theorem builtin_storable (env : Env) (op : Op) (hop : IsBuiltin env op) (hp : ∀ kv ∈ op.configs, Plain kv.2) :
    Storable (Builtin.registry env) op := by
  obtain ⟨c, hc, args, kwargs, hk, h⟩ := hop
  have hcls : op.cls = c := by
    obtain ⟨_, _, h⟩ := bind_eq_ok h
    obtain ⟨_, _, h⟩ := bind_eq_ok h
    injection h with h
    rw [← h]
  obtain ⟨h1, h2⟩ := C66_signatures env c hc
  refine ⟨?_, ?_, ?_, ⟨args, kwargs, hk, ?_⟩, hp⟩
  · rw [hcls]; exact C66_registered env c hc
  · rw [hcls]; exact h1
  · rw [hcls]; exact h2
  · rw [hcls]; exact h

/-- C66: a built-in operator with JSON values as arguments is restored from its serialization, equal to the
original and with the same behaviour. -/
theorem C66_builtin (env : Env) (op : Op) (hop : IsBuiltin env op) (hp : ∀ kv ∈ op.configs, Plain kv.2) :
    Op.deserialize (Builtin.registry env) op.serialize = .ok op :=
  C66_operator _ op (builtin_storable env op hop hp)

/-- C66: a type-consistent pipe of built-in operators is restored from its serialization: equal to the original,
with the same behaviour and the same checkpoints. -/
theorem C66_builtin_pipe (env : Env) (p : Pipe) (hw : WellTyped p.steps) (hs : ∀ op ∈ p.steps, IsBuiltin env op)
    (hp : ∀ op ∈ p.steps, ∀ kv ∈ op.configs, Plain kv.2) (hk : (p.checkpoints.map Prod.fst).Nodup) :
    ∃ q, Pipe.deserialize (Builtin.registry env) p.serialize = .ok q ∧ q.eq p = true ∧
      q.transformSequence = p.transformSequence ∧ q.checkpoints = p.checkpoints := by
  have hst : ∀ op ∈ p.steps, Storable (Builtin.registry env) op :=
    fun op ho => builtin_storable env op (hs op ho) (hp op ho)
  have h := C66_pipe _ p hw hst hk
  exact ⟨p, h, C66_pipe_eq _ p p hw hst hk h⟩

/-- `Pad(3)`. -/
def exPad3 : Op :=
  ⟨Builtin.pad exEnv, [("maxlen".toList, .int 3), ("pad_token".toList, .str padToken)],
    lstOp (Pad.transform exEnv.σ 3 (.str padToken))⟩

theorem exPad3_builtin : IsBuiltin exEnv exPad3 :=
  ⟨Builtin.pad exEnv, List.mem_of_getElem? (i := 25) rfl, [.int 3], [], List.nodup_nil, rfl⟩

theorem exPad3_plain : ∀ kv ∈ exPad3.configs, Plain kv.2 := by
  intro kv h
  have e : kv = ("maxlen".toList, .int 3) ∨ kv = ("pad_token".toList, .str padToken) := by
    simpa [exPad3] using h
  rcases e with rfl | rfl
  · exact .int 3
  · exact .str _

example : Op.deserialize (Builtin.registry exEnv) exPad3.serialize = .ok exPad3 :=
  C66_builtin exEnv _ exPad3_builtin exPad3_plain

example : ∃ q, Pipe.deserialize (Builtin.registry exEnv)
      (Pipe.serialize ⟨[exPad3, exPad3], [("a".toList, 1)]⟩) = .ok q ∧ q.eq ⟨[exPad3, exPad3], [("a".toList, 1)]⟩ = true ∧
      q.transformSequence = Pipe.transformSequence ⟨[exPad3, exPad3], [("a".toList, 1)]⟩ ∧
      q.checkpoints = [("a".toList, 1)] := by
  refine C66_builtin_pipe exEnv ⟨[exPad3, exPad3], [("a".toList, 1)]⟩ ?_ ?_ ?_ (by simp)
  · intro i a b ha hb
    have h1 : a = exPad3 := by simpa using List.mem_of_getElem? ha
    have h2 : b = exPad3 := by simpa using List.mem_of_getElem? hb
    rw [h1, h2]
    rfl
  · intro op h
    have : op = exPad3 := by simpa using h
    rw [this]
    exact exPad3_builtin
  · intro op h
    have : op = exPad3 := by simpa using h
    rw [this]
    exact exPad3_plain

end Uttut
