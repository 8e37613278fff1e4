import Verif.Model.Basic
import Mathlib.Analysis.SpecialFunctions.Pow.Real
import Mathlib.Analysis.SpecialFunctions.Log.Basic
/-!
# Exact arithmetic: `F := ℝ`

No rounding, no overflow, no NaN.  `inf` has no meaning in `ℝ` and gets a dummy value: the only code
using `math.Inf` is `dtw/cost.go`, whose theorems are not stated over `ℝ` but over any ordered type
with a greatest element.
-/
namespace Distclus

noncomputable instance : GoMath ℝ where
  ofInt n := (n : ℝ)
  sqrt := Real.sqrt
  pow x y := x ^ y
  exp := Real.exp
  log := Real.log
  inf := 0

end Distclus
