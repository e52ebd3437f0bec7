import Verif.Spec.Objects

/-! Specification vocabulary for C80: the objects a command names. -/

namespace Uttut.Objects

/-- The objects that a command names. -/
def named : Cmd → List Obj
  | .intent _ => []
  | .entity .. => []
  | .intentList refs => refs.map .intent
  | .entityList refs => refs.map .entity
  | .datum _ is es => (is.map Obj.intentList).toList ++ (es.map Obj.entityList).toList
  | .copyIntents d => [.datum d]
  | .expand _ d _ _ => [.datum d]
  | .pack .. => []
  | .setLabel i _ => [.intent i]
  | .setEntity e _ => [.entity e]
  | .setIntentList l refs => .intentList l :: refs.map .intent
  | .setEntityList l refs => .entityList l :: refs.map .entity
  | .setUtterance d _ => [.datum d]
  | .setIntents d l => [.datum d, .intentList l]
  | .setEntities d l => [.datum d, .entityList l]

end Uttut.Objects
