import Verif.Model.Json

/-! Specification vocabulary for serialized values. -/

namespace Uttut

/-- Values that JSON can represent faithfully: no tuples, and dicts (whose keys are distinct) of such
values. -/
inductive Plain : PyVal → Prop
  | none : Plain .none
  | bool (b : Bool) : Plain (.bool b)
  | int (i : Int) : Plain (.int i)
  | str (s : Str) : Plain (.str s)
  | list (l : List PyVal) (h : ∀ v ∈ l, Plain v) : Plain (.list l)
  | dict (d : List (Str × PyVal)) (hk : (d.map Prod.fst).Nodup) (h : ∀ kv ∈ d, Plain kv.2) :
      Plain (.dict d)

/-- Values whose dicts have distinct keys (every Python value). -/
inductive WellKeyed : PyVal → Prop
  | none : WellKeyed .none
  | bool (b : Bool) : WellKeyed (.bool b)
  | int (i : Int) : WellKeyed (.int i)
  | str (s : Str) : WellKeyed (.str s)
  | list (l : List PyVal) (h : ∀ v ∈ l, WellKeyed v) : WellKeyed (.list l)
  | tuple (l : List PyVal) (h : ∀ v ∈ l, WellKeyed v) : WellKeyed (.tuple l)
  | dict (d : List (Str × PyVal)) (hk : (d.map Prod.fst).Nodup) (h : ∀ kv ∈ d, WellKeyed kv.2) :
      WellKeyed (.dict d)

end Uttut
