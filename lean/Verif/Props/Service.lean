import Verif.Spec.Service
import Verif.Props.Seeds
import Verif.Props.Stored
import Verif.Props.Names

/-! C93: a pipe and a transformer saved in one process and loaded in another do the same there. -/

namespace Uttut

open Spec

theorem new_plain {l a b : Int} {v : Str} {e : Entity} (h : Entity.new l v a b none = .ok e) : e.replacements = [] := by
  unfold Entity.new at h
  generalize toInt32 l = x at h
  generalize toInt32 a = y at h
  generalize toInt32 b = z at h
  obtain ⟨_, _, h⟩ := bind_eq_ok h
  obtain ⟨_, _, h⟩ := bind_eq_ok h
  obtain ⟨_, _, h⟩ := bind_eq_ok h
  have h := Except.ok.inj h
  rw [← h]
  rfl

theorem packEntities_plain {u : Str} {labels : List Int} {ps : List (Nat × Nat)} {es : List Entity}
    (h : packEntities u labels ps = .ok es) : ∀ e ∈ es, e.replacements = [] := by
  induction ps generalizing es with
  | nil => injection h with h; subst h; intro e he; cases he
  | cons x ps ih =>
    obtain ⟨a, b⟩ := x
    unfold packEntities at h
    dsimp only at h
    split at h
    · cases h
    · obtain ⟨e0, h0, h⟩ := bind_eq_ok h
      obtain ⟨es', h1, h⟩ := bind_eq_ok h
      injection h with h
      subst h
      refine List.forall_mem_cons.mpr ⟨?_, ih h1⟩
      exact new_plain h0

theorem pack_plain {u : Str} {intents labels : List Int} {d : Datum} (h : packToDatum u intents labels = .ok d) :
    ∀ e ∈ d.entities, e.replacements = [] := by
  unfold packToDatum at h
  split at h
  · cases h
  · obtain ⟨is, _, h⟩ := bind_eq_ok h
    obtain ⟨_, _, h⟩ := bind_eq_ok h
    obtain ⟨_, _, h⟩ := bind_eq_ok h
    obtain ⟨es, h1, h⟩ := bind_eq_ok h
    obtain ⟨rfl, _, _⟩ := datum_new_cases _ _ _ _ h
    intro e he
    exact packEntities_plain h1 e (mem_pySorted.mp he)

theorem humanize_plain (σ σ' : SetOrder) (t : OrdinalLabel) (d : Datum) (h : ∀ e ∈ d.entities, e.replacements = []) :
    t.humanize σ d = t.humanize σ' d := by
  have hm : ∀ es : List Entity, (∀ e ∈ es, e.replacements = []) →
      es.mapM (t.humanizeEntity σ) = es.mapM (t.humanizeEntity σ') := by
    intro es
    induction es with
    | nil => intro _; rfl
    | cons e es ih =>
      intro h
      rw [List.mapM_cons, List.mapM_cons, ih fun e he => h e (List.mem_cons_of_mem _ he)]
      have : t.humanizeEntity σ e = t.humanizeEntity σ' e := by
        unfold OrdinalLabel.humanizeEntity
        have hn : e.noReplacements = true := by
          unfold Entity.noReplacements
          rw [h e (List.mem_cons_self ..)]
          rfl
        rw [if_pos hn, if_pos hn]
      rw [this]
  unfold OrdinalLabel.humanize
  rw [hm d.entities h]

theorem same_serialize {p q : Pipe} (h : SamePipe p q) : p.serialize = q.serialize := by
  have hs : ∀ l m : List Op, Pairwise₂ SameOp l m →
      (l.map fun op => PyVal.str op.serialize) = m.map fun op => PyVal.str op.serialize := by
    intro l m hlm
    induction hlm with
    | nil => rfl
    | cons x y xs ys hxy _ ih =>
      rw [List.map_cons, List.map_cons, ih]
      congr 1
      unfold Op.serialize Op.toDict
      rw [hxy.name, hxy.configs]
  unfold Pipe.serialize Pipe.toDict
  rw [hs _ _ h.steps, h.checkpoints]

theorem same_decode {σ σ' : SetOrder} {p q : Pipe} (h : SamePipe p q) (t : OrdinalLabel) (u : Str)
    (hs : SeedFreeRun p.steps (.str u)) (intents labels : List Int) :
    encode p u = encode q u ∧ decode σ p t u intents labels = decode σ' q t u intents labels := by
  have hr := C72_transform_sequence p q h (.str u) hs
  unfold encode decode
  generalize p.transformSequence (.str u) = x at hr
  generalize q.transformSequence (.str u) = y at hr
  cases hr with
  | error e => exact ⟨rfl, rfl⟩
  | ok out as bs coll _ _ hb =>
    refine ⟨rfl, ?_⟩
    simp only [Except.bind_ok]
    rw [hb]
    cases realignAll bs labels with
    | error e => rfl
    | ok ls =>
      simp only [Except.bind_ok]
      cases hd : packToDatum u intents ls with
      | error e => rfl
      | ok d => exact humanize_plain σ σ' t d (pack_plain hd)

theorem same_prepare {p q : Pipe} (h : SamePipe p q) (t : OrdinalLabel) (ht : IsTransformer t) (r : RawDatum)
    (hs : SeedFreeRun p.steps (.str r.utterance)) : prepare p t r = prepare q t r := by
  unfold prepare
  cases hd : t.machanize r with
  | error e => rfl
  | ok d =>
    simp only [Except.bind_ok]
    have hut := (machanize_facts ht hd).1
    have hr := C72_transform p q h d fun u i e hu => by
      unfold unpackDatum at hu
      obtain ⟨_, _, hu⟩ := bind_eq_ok hu
      injection hu with hu
      injection hu with hu
      rw [← hu, hut]
      exact hs
    generalize p.transform d = x at hr
    generalize q.transform d = y at hr
    cases hr with
    | error e => rfl
    | ok a b h1 h2 h3 _ _ _ _ =>
      simp only [Except.bind_ok]
      rw [h1, h2, h3]

/-- C93: a pipe of built-in operators with JSON arguments and a transformer of names, saved as text in one process and
loaded in another with any hash seed: both load; every example is prepared for training alike; every text is encoded
alike; and every prediction for it is named alike, exceptions included, unless an empty list reaches `AddSosEos`. Saving
again writes the same texts. -/
theorem C93_restored (env : Env) (he : env.Sane) (σ' : SetOrder) (p : Pipe) (hw : WellTyped p.steps)
    (hs : ∀ op ∈ p.steps, IsBuiltin env op) (hp : ∀ op ∈ p.steps, ∀ kv ∈ op.configs, Plain kv.2)
    (hk : (p.checkpoints.map Prod.fst).Nodup) (t : OrdinalLabel) (ht : IsTransformer t) :
    ∃ q t', Pipe.deserialize (Builtin.registry { env with σ := σ' }) p.serialize = .ok q ∧
      OrdinalLabel.deserialize t.serialize = .ok t' ∧
      (∀ r, SeedFreeRun p.steps (.str r.utterance) → prepare q t' r = prepare p t r) ∧
      (∀ u intents labels, SeedFreeRun p.steps (.str u) →
        encode q u = encode p u ∧ decode σ' q t' u intents labels = decode env.σ p t u intents labels) ∧
      q.checkpoints = p.checkpoints ∧ q.serialize = p.serialize ∧ t'.serialize = t.serialize := by
  have hst : ∀ op ∈ p.steps, Storable (Builtin.registry env) op :=
    fun op ho => builtin_storable env op (hs op ho) (hp op ho)
  have h0 := C66_pipe _ p hw hst hk
  have hlab := C56_round_trip _ _ _ ht.intents ht.entities t ht.constructed
  rcases C72_deserialize_pipe env he σ' p.serialize with ⟨e, h1, _⟩ | ⟨q0, q, h1, h2, h3⟩
  · rw [h1] at h0; cases h0
  · rw [h0] at h1
    injection h1 with h1
    subst h1
    refine ⟨q, t, h2, hlab, fun r hr => (same_prepare h3 t ht r hr).symm, fun u intents labels hu => ?_, h3.checkpoints.symm,
      (same_serialize h3).symm, rfl⟩
    obtain ⟨g1, g2⟩ := same_decode (σ := env.σ) (σ' := σ') h3 t u hu intents labels
    exact ⟨g1.symm, g2.symm⟩

/-- C93: for a pipe without `AddSosEos` there is no exception. -/
theorem C93_restored_always (env : Env) (he : env.Sane) (σ' : SetOrder) (p : Pipe) (hw : WellTyped p.steps)
    (hs : ∀ op ∈ p.steps, IsBuiltin env op) (hp : ∀ op ∈ p.steps, ∀ kv ∈ op.configs, Plain kv.2)
    (hn : ∀ op ∈ p.steps, op.cls.name ≠ "AddSosEos".toList)
    (hk : (p.checkpoints.map Prod.fst).Nodup) (t : OrdinalLabel) (ht : IsTransformer t) :
    ∃ q t', Pipe.deserialize (Builtin.registry { env with σ := σ' }) p.serialize = .ok q ∧
      OrdinalLabel.deserialize t.serialize = .ok t' ∧ (∀ r, prepare q t' r = prepare p t r) ∧
      (∀ u, encode q u = encode p u) ∧
      ∀ u intents labels, decode σ' q t' u intents labels = decode env.σ p t u intents labels := by
  obtain ⟨q, t', h1, h2, h3, h4, _⟩ := C93_restored env he σ' p hw hs hp hk t ht
  have hr := fun u => seedFreeRun_of_names p.steps hn (.str u)
  exact ⟨q, t', h1, h2, fun r => h3 r (hr _), fun u => (h4 u [] [] (hr u)).1, fun u i l => (h4 u i l (hr u)).2⟩

/-- The pipe of `Lowercase` and `CharTokenizer`, with one checkpoint. -/
def exService : Pipe :=
  ⟨[⟨Builtin.lowercase exEnv, [], strOp (Lowercase.transform exEnv.σ)⟩,
    ⟨Builtin.charTok exEnv, [], tokOp (CharTokenizer.transform exEnv.σ)⟩], [("lower".toList, 0)]⟩

theorem exService_builtin : ∀ op ∈ exService.steps, IsBuiltin exEnv op := by
  intro op h
  simp only [exService, List.mem_cons, List.not_mem_nil, or_false] at h
  rcases h with rfl | rfl
  · exact ⟨_, List.mem_of_getElem? (i := 4) rfl, [], [], List.nodup_nil, rfl⟩
  · exact ⟨_, List.mem_of_getElem? (i := 19) rfl, [], [], List.nodup_nil, rfl⟩

/-- Loaded in a process with the opposite order of sets, it prepares and decodes as before. -/
example : ∃ q t', Pipe.deserialize (Builtin.registry { exEnv with σ := SetOrder.rev }) exService.serialize = .ok q ∧
    OrdinalLabel.deserialize exNames.serialize = .ok t' ∧
    prepare q t' exRaw = .ok (.list ("早安，我想喝珍奶".toList.map fun c => .str [c]), [0], [0, 0, 0, 0, 0, 0, 1, 1]) ∧
    decode SetOrder.rev q t' exRaw.utterance [0] [0, 0, 0, 0, 0, 0, 1, 1] = .ok exRaw := by
  obtain ⟨q, t', h1, h2, h3, _, h5⟩ := C93_restored_always exEnv exEnv_sane SetOrder.rev exService
    (by
      intro i a b ha hb
      match i with
      | 0 => cases ha; cases hb; rfl
      | n + 1 => simp [exService] at hb)
    exService_builtin
    (by
      intro op h kv hkv
      simp only [exService, List.mem_cons, List.not_mem_nil, or_false] at h
      rcases h with rfl | rfl <;> cases hkv)
    (by decide) (by decide) exNames exNames_transformer
  exact ⟨q, t', h1, h2, (h3 _).trans rfl, (h5 ..).trans rfl⟩

end Uttut
