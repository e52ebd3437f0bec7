import Verif.Spec.Data
import Mathlib.Data.List.Forall2

/-! What `expand_by_entities` makes of a datum, without its partition and numbering. -/

namespace Uttut.Spec

/-- The texts before, between and after the entities, from position `pos` on. -/
def gaps (u : Str) : (pos : Nat) → List Entity → List Str
  | pos, [] => [u.drop pos]
  | pos, e :: es => (u.take e.start.toNat).drop pos :: gaps u e.stop.toNat es

/-- The texts `gs` with the texts `vs` between them. -/
def weave : List Str → List Str → Str
  | g :: gs, v :: vs => g ++ v ++ weave gs vs
  | g :: _, [] => g
  | [], _ => []

/-- The entities where the texts `vs` lie in `weave gs vs`, which begins at `off`. -/
def woven : (off : Nat) → List Str → List Entity → List Str → List Entity
  | off, g :: gs, e :: es, v :: vs =>
    ⟨e.label, v, ((off + g.length : Nat) : Int), ((off + g.length + v.length : Nat) : Int), []⟩ ::
      woven (off + g.length + v.length) gs es vs
  | _, _, _, _ => []

/-- The labels of the characters of `weave gs vs`. -/
def wovenLabels : List Str → List Entity → List Str → List Int
  | g :: gs, e :: es, v :: vs => List.replicate g.length 0 ++ List.replicate v.length e.label ++ wovenLabels gs es vs
  | g :: _, _, _ => List.replicate g.length 0
  | [], _, _ => []

/-- The texts that may stand for an entity. -/
def StandsFor (includeOrig : Bool) (e : Entity) (v : Str) : Prop :=
  v ∈ e.replacements ∨ (v = e.value ∧ (includeOrig = true ∨ e.replacements = []))

/-- `d'` is `d` with the texts `vs` in place of its entities: everything else is as before, the entities have their
labels, lie where these texts lie and have no replacements. -/
structure VariantBy (vs : List Str) (d d' : Datum) : Prop where
  length : vs.length = d.entities.length
  utterance : d'.utterance = weave (gaps d.utterance 0 d.entities) vs
  intents : d'.intents = d.intents
  entities : d'.entities = woven 0 (gaps d.utterance 0 d.entities) d.entities vs

/-- Every entity has a text that may stand for it. -/
def AllStandFor (includeOrig : Bool) (es : List Entity) (vs : List Str) : Prop := List.Forall₂ (StandsFor includeOrig) es vs

end Uttut.Spec
