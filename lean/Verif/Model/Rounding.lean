import Verif.Model.RealMath
import Mathlib.Data.Int.Log
import Mathlib.Algebra.Order.Floor.Ring
/-!
# Floating-point arithmetic with rounding

`Rounding` states what IEEE-754 arithmetic guarantees of its rounding, overflow excluded; `Fl r` is
the type of the numbers which `r` represents, whose operations are the exact ones followed by the
rounding.  The Euclidean space of `Model/Euclid.lean`, instantiated on `Fl r`, is then the code with
its rounding errors.  `binary64` is round-to-nearest-even on the grid of `float64`.

Simplifications: no overflow (the exponent is not bounded above), hence no infinity and no NaN; one
zero; a division by zero is not described (its value here is 0, the theorems exclude it); no fused
multiply-add, which Go allows on some architectures.
-/
namespace Distclus

/-- A rounding of the reals, with the relative error `u` and the absolute error `η` of the results
too small for the relative one (`float64`: 2⁻⁵³ and 2⁻¹⁰⁷⁵). -/
structure Rounding where
  rnd : ℝ → ℝ
  u : ℝ
  η : ℝ
  u_nonneg : 0 ≤ u
  u_le_one : u ≤ 1
  η_nonneg : 0 ≤ η
  mono : Monotone rnd
  idem : ∀ x, rnd (rnd x) = rnd x
  neg : ∀ x, rnd (-x) = -rnd x
  one : rnd 1 = 1
  /-- the error of any operation -/
  err : ∀ x, |rnd x - x| ≤ u * |x| + η
  /-- sums, square roots and integers are not subject to underflow -/
  err_add : ∀ x y, rnd x = x → rnd y = y → |rnd (x + y) - (x + y)| ≤ u * |x + y|
  err_sqrt : ∀ x, rnd x = x → 0 ≤ x → |rnd (Real.sqrt x) - Real.sqrt x| ≤ u * Real.sqrt x
  err_int : ∀ n : ℤ, |rnd n - n| ≤ u * |(n : ℝ)|

theorem Rounding.zero (r : Rounding) : r.rnd 0 = 0 := by
  have := r.neg 0
  rw [neg_zero] at this
  linarith

/-- The numbers represented. -/
def Fl (r : Rounding) : Type := { x : ℝ // r.rnd x = x }

namespace Fl
variable {r : Rounding}

/-- The result of an operation: the exact value, rounded. -/
noncomputable def of (r : Rounding) (x : ℝ) : Fl r := ⟨r.rnd x, r.idem x⟩

/-- The real number represented. -/
def val (x : Fl r) : ℝ := x.1

instance : Zero (Fl r) := ⟨⟨0, r.zero⟩⟩
instance : One (Fl r) := ⟨⟨1, r.one⟩⟩
instance : Neg (Fl r) := ⟨fun x => ⟨-x.1, by rw [r.neg, x.2]⟩⟩
noncomputable instance : Add (Fl r) := ⟨fun x y => of r (x.1 + y.1)⟩
noncomputable instance : Sub (Fl r) := ⟨fun x y => of r (x.1 - y.1)⟩
noncomputable instance : Mul (Fl r) := ⟨fun x y => of r (x.1 * y.1)⟩
noncomputable instance : Div (Fl r) := ⟨fun x y => of r (x.1 / y.1)⟩
noncomputable instance : LinearOrder (Fl r) := inferInstanceAs (LinearOrder { x : ℝ // r.rnd x = x })

/-- `math.Sqrt` is correctly rounded.  `math.Pow`, `math.Exp`, `math.Log` are not: no theorem uses
their value here. -/
noncomputable instance : GoMath (Fl r) where
  ofInt n := of r n
  sqrt x := of r (Real.sqrt x.1)
  pow x y := of r (GoMath.pow x.1 y.1)
  exp x := of r (GoMath.exp x.1)
  log x := of r (GoMath.log x.1)
  inf := 0

end Fl

/-! ### `float64` -/

/-- Round to nearest integer, ties to even. -/
noncomputable def rne (y : ℝ) : ℤ :=
  if y - ⌊y⌋ < 1 / 2 then ⌊y⌋
  else if 1 / 2 < y - ⌊y⌋ then ⌊y⌋ + 1
  else if Even ⌊y⌋ then ⌊y⌋ else ⌊y⌋ + 1

/-- The exponent of the last digit of a number of magnitude `|x|`, with `p` digits and no digit
beyond `emin`. -/
noncomputable def ulpExp (p : ℕ) (emin : ℤ) (x : ℝ) : ℤ := max (Int.log 2 |x| + 1 - p) emin

/-- Round to nearest, ties to even, with `p` binary digits and the least exponent `emin`. -/
noncomputable def roundTo (p : ℕ) (emin : ℤ) (x : ℝ) : ℝ :=
  rne (x / (2 : ℝ) ^ ulpExp p emin x) * (2 : ℝ) ^ ulpExp p emin x

end Distclus
