import Mathlib.Order.Defs.LinearOrder
/-!
# Common vocabulary of the model

`float64` is modelled by a type parameter `F`; the arithmetic and comparison operators are the
ordinary Lean classes (`Add F`, `LT F`, ...), *without* any law.  The functions of Go's `math`
package used by the library are gathered in the law-free class `GoMath`.
-/

namespace Distclus

/-- The functions of Go's `math` package, and the conversions, used by the library.  No law. -/
class GoMath (F : Type) where
  /-- `float64(n)` for an `int` -/
  ofInt : Int → F
  /-- `math.Sqrt` -/
  sqrt : F → F
  /-- `math.Pow` -/
  pow : F → F → F
  /-- `math.Exp` -/
  exp : F → F
  /-- `math.Log` -/
  log : F → F
  /-- `math.Inf(1)` -/
  inf : F

/-- `core.Space` (core/space.go:7-12).  `core.Elemt` is the type `E`: the type assertions
`elemt.([]float64)` of the concrete spaces are discharged by typing.  The operations are total here:
a concrete space is an instance of this structure on the elements for which its Go methods do not
panic (see `Model/Euclid.lean`, `Model/Dtw.lean` for the panicking versions). -/
structure Space (E F : Type) where
  /-- `Dist` -/
  dist : E → E → F
  /-- `Combine` -/
  combine : E → Int → E → Int → E
  /-- `Copy` -/
  copy : E → E
  /-- `Dim` -/
  dim : List E → Nat

/-- Go slice indexing `l[i]` with an `int` index: `none` is the run-time panic
"index out of range". -/
def idx? {α : Type} (l : List α) (i : Int) : Option α :=
  if i < 0 then none else l[i.toNat]?

/-- Go slice expression `l[a:b]` for `a ≤ b ≤ len(l)`. -/
def slice {α : Type} (l : List α) (a b : Nat) : List α := (l.drop a).take (b - a)

end Distclus
