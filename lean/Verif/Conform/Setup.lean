import Verif.Props.Edit
import Verif.Spec.Construct
import Verif.Conform.Edit

/-!
What the operators' unit tests need: the part of the Unicode tables they use and the checks the test
template of `/repo/uttut/pipeline/ops/tests/common_tests.py` makes, on the model.
-/

namespace Uttut
namespace Conform
open Spec

/-- The entries of the Unicode tables for the characters of the tests. -/
def confUnicode : Unicode where
  isDecimal c := ('0'.toNat ≤ c.toNat && c.toNat ≤ '9'.toNat) || [0xff10, 0xff11, 0xff12, 0xff13, 0xff14, 0xff15, 0xff16, 0xff17, 0xff18, 0xff19].contains c.toNat
  isCatP c := [0x21, 0x23, 0x27, 0x2c, 0x2e, 0x3f, 0x5b, 0x5c, 0x5d, 0x5f, 0x85e, 0x203b, 0x2047, 0x2055, 0xff0c, 0xff1f].contains c.toNat
  isMn c := [0x301].contains c.toNat
  nfd s := s.flatMap fun c => if c.toNat = 0xe9 then [Char.ofNat 0x65, Char.ofNat 0x301] else [c]

/-- `[\.]+` is the pattern of `test_replace_a_with_b.py`. -/
def env : Env := ⟨rev, confUnicode, fun p => if p = "[\\.]+".toList then some (Re.plus (· = '.')).search else none⟩

/-- `op.transform(s)[0] == out` -/
def outIs (r : Res Op) (s out : Seq) : Bool :=
  match r >>= fun op => op.transform s with
  | .ok (o, _) => decide (o = out)
  | .error _ => false

/-- `op.transform(s)[1].transform(l) == m` -/
def fwdIs (r : Res Op) (s : Seq) (l m : List Int) : Bool :=
  match r >>= fun op => op.transform s >>= fun oa => oa.2.transform l with
  | .ok o => decide (o = m)
  | .error _ => false

/-- `op.transform(s)[1].inverse_transform(l) == m` -/
def bwdIs (r : Res Op) (s : Seq) (l m : List Int) : Bool :=
  match r >>= fun op => op.transform s >>= fun oa => oa.2.inverseTransform l with
  | .ok o => decide (o = m)
  | .error _ => false

/-- `aligner.inverse_transform(aligner.transform(l)) == m` -/
def thereAndBack (r : Res Op) (s : Seq) (l m : List Int) : Bool :=
  match r >>= fun op => op.transform s >>= fun oa => oa.2.transform l >>= oa.2.inverseTransform with
  | .ok o => decide (o = m)
  | .error _ => false

/-- `op.configs == d` -/
def configsAre (r : Res Op) (d : PyVal) : Bool :=
  match r with
  | .ok op => PyVal.eq (.dict op.configs) d
  | .error _ => false

/-- `op == other` -/
def same (r q : Res Op) : Bool :=
  match r, q with
  | .ok a, .ok b => a.eq b
  | _, _ => false

/-- `op != other` -/
def differ (r q : Res Op) : Bool :=
  match r, q with
  | .ok a, .ok b => !(a.eq b)
  | _, _ => false

/-- constructing the operator raises `e` -/
def raises (r : Res Op) (e : Exc) : Bool :=
  match r with
  | .ok _ => false
  | .error e' => decide (e' = e)

end Conform
end Uttut
