import Verif.Spec.Fl
/-!
# Specification: the exact cosine distance, and the bound of its rounding error
-/
namespace Distclus

/-- The square of the exact norm. -/
noncomputable def sqNorm {n : Nat} (x : Fin n → ℝ) : ℝ := ∑ i, x i ^ 2

/-- The exact scalar product. -/
noncomputable def dotReal {n : Nat} (x y : Fin n → ℝ) : ℝ := ∑ i, x i * y i

/-- The exact cosine distance of two vectors which are not zero. -/
noncomputable def cosReal {n : Nat} (x y : Fin n → ℝ) : ℝ :=
  1 - dotReal x y / (Real.sqrt (sqNorm x) * Real.sqrt (sqNorm y))

/-- The bound of the error in dimension `n`. -/
def Rounding.cosErr (r : Rounding) (n : Nat) : ℝ := 6 * ((1 + r.u) ^ (n + 3) - 1)

/-- The vector is not zero and its square is not subject to underflow (`float64`: the norm is at least
`√n / 2⁵¹¹`). -/
def Rounding.Regular (r : Rounding) {n : Nat} (x : Fin n → ℝ) : Prop :=
  0 < sqNorm x ∧ n * r.η ≤ r.u * sqNorm x

end Distclus
