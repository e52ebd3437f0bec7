import Verif.Model.Builtins
import Verif.Spec.Ops
import Verif.Spec.Pipe

/-! Specification vocabulary for the built-in operators. -/

namespace Uttut

/-- What is assumed of the outside: the dot is no decimal digit, and a match that `re` finds lies where it was
searched. -/
structure Env.Sane (env : Env) : Prop where
  dot : env.u.isDecimal '.' = false
  sound : ∀ p m, env.compile p = some m → ∀ s, Spec.SoundMatcher m s

/-- An object of one of the operator classes of the library, made with any arguments the class accepts. -/
def IsBuiltin (env : Env) (op : Op) : Prop :=
  ∃ c ∈ Builtin.all env, ∃ args kwargs, (kwargs.map Prod.fst).Nodup ∧ c.call args kwargs = .ok op

/-- Not one of the two uses the label aligner cannot undo: `ReplaceAwithB` deleting the same text twice in one run of
touching matches, and `SpanSubwords` on neighbouring empty tokens. -/
structure Safe (env : Env) (op : Op) (s : Seq) : Prop where
  replace : op.cls.name = "ReplaceAwithB".toList → dictGet op.configs "b".toList = some (.str []) →
    ∀ p m t ms, dictGet op.configs "a".toList = some (.str p) → env.compile p = some m → s = .str t →
      Spec.Scan m t 0 ms → Spec.DistinctMatches t ms
  subwords : op.cls.name = "SpanSubwords".toList →
    ∀ v n, dictGet op.configs "maxlen_per_token".toList = some v → v.asInt = .ok n → 0 ≤ n →
    ∀ l : List Str, s = .list (l.map Tok.str) → Spec.NoTwoEmpty l

end Uttut
