import Verif.Model.Rounding
import Verif.Model.Euclid
import Verif.Spec.Vec
import Mathlib.Algebra.BigOperators.Fin
/-!
# Specification: exact quantities, and bounds of rounding errors
-/
namespace Distclus

/-- The coordinates of a point, as real numbers. -/
def Vec.real {r : Rounding} {n : Nat} (a : Vec (Fl r) n) : Fin n → ℝ := fun i => (a.coords i).val

/-- The square of the exact Euclidean distance. -/
noncomputable def sqDist {n : Nat} (x y : Fin n → ℝ) : ℝ := ∑ i, (x i - y i) ^ 2

/-- The exact loss: the sum of the squares of the distances to the nearest centroids. -/
noncomputable def exactLoss {r : Rounding} {n : Nat} (c data : List (Vec (Fl r) n)) : ℝ :=
  (data.map fun e => ⨅ i : Fin c.length, sqDist e.real c[i].real).sum

/-- The numbers up to `N` are represented: the cardinalities are exact. -/
def Rounding.CountsTo (r : Rounding) (N : Nat) : Prop := ∀ k : Nat, k ≤ N → r.rnd k = k

/-- The error of one coordinate of `Combine`, for coordinates bounded by `B`. -/
def Rounding.combErr (r : Rounding) (B : ℝ) : ℝ :=
  ((1 + r.u) ^ 3 - 1) * B + ((1 + r.u) ^ 2 + 1) * r.η

/-- The error of one coordinate of the mean of `k` elements, for coordinates bounded by `B`. -/
def Rounding.meanErr (r : Rounding) (B : ℝ) (k : Nat) : ℝ :=
  k * ((1 + r.u) ^ 3) ^ k * r.combErr B

end Distclus
