import Verif.Model.Basic
import Mathlib.Algebra.Order.Ring.Unbundled.Rat
/-! # Small spaces used by the examples -/
namespace Distclus

/-- A space of integers with `|x - y|` as distance, used for examples. -/
def exSpace : Space Int Int where
  dist a b := if a < b then b - a else a - b
  combine a w b v := (a * w + b * v) / (w + v)
  copy a := a
  dim _ := 1

/-- The rational line with `|x - y|` as distance and exact means, used for examples. -/
def exQSpace : Space ℚ ℚ where
  dist a b := if a < b then b - a else a - b
  combine a w b v := (a * w + b * v) / (w + v)
  copy a := a
  dim _ := 1

/-- Rational stand-ins for the functions of `math`, used by the examples only: integer powers are
exact, `exp` is exact at 0 and on the right side of 1 or equal to 1 elsewhere, the others are
arbitrary. -/
@[reducible] def exQMath : GoMath ℚ where
  ofInt n := n
  sqrt x := x
  pow x y := x ^ y.num.toNat
  exp x := if x < 0 then 1 / 2 else 1
  log _ := 0
  inf := 0

end Distclus
