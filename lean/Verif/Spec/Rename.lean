import Verif.Spec.Order
import Verif.Model.Elements

/-! Other numbers for the entity classes. -/

namespace Uttut.Spec

/-- A renumbering of the entity classes: no two classes get the same number, 0 (no entity) stays 0, and numbers that fit
into a C `int` (or `unsigned int`) are exchanged with numbers that fit. -/
structure Renumbering (f : Int → Int) : Prop where
  injective : ∀ x y, f x = f y → x = y
  zero : f 0 = 0
  signed : ∀ x, (-2 ^ 31 ≤ f x ∧ f x < 2 ^ 31) ↔ (-2 ^ 31 ≤ x ∧ x < 2 ^ 31)
  unsigned : ∀ x, (0 ≤ f x ∧ f x < 2 ^ 32) ↔ (0 ≤ x ∧ x < 2 ^ 32)

/-- The same entity in another class. -/
def renumberEntity (f : Int → Int) (e : Entity) : Entity := { e with label := f e.label }

/-- The same datum with other numbers for the classes of its entities. -/
def renumberDatum (f : Int → Int) (d : Datum) : Datum := { d with entities := d.entities.map (renumberEntity f) }

/-- The two classes `a` and `b` exchanged. -/
def exchange (a b : Int) (x : Int) : Int := if x = a then b else if x = b then a else x

end Uttut.Spec
