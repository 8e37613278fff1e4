import Mathlib.Probability.Distributions.Gamma
import Mathlib.Probability.Distributions.Gaussian.Real
import Mathlib.MeasureTheory.Constructions.Pi
/-!
# The multivariate t distribution

Specification for C115: the textbook density, and the laws of the draws of `distmv.Normal` and
`distuv.ChiSquared` (gonum, not modelled).
-/
namespace Distclus
open MeasureTheory ProbabilityTheory
namespace Spec

/-- The density of the t distribution with `nu` degrees of freedom and `c = nu * sigma²`, at a point whose squared
distance to the center is `r2`. -/
noncomputable def tDensity (nu : ℝ) (d : Nat) (c r2 : ℝ) : ℝ :=
  Real.Gamma ((nu + d) / 2) / Real.Gamma (nu / 2) * (Real.pi * c) ^ (-((d : ℝ) / 2)) *
    (1 + r2 / c) ^ (-((nu + d) / 2))

/-- `d` independent standard normal draws. -/
noncomputable def normals (d : Nat) : Measure (Fin d → ℝ) := Measure.pi fun _ => gaussianReal 0 1

/-- The chi-squared law with `nu` degrees of freedom: the gamma law with shape `nu / 2` and rate `1 / 2`. -/
noncomputable def chiSquared (nu : ℝ) : Measure ℝ := gammaMeasure (nu / 2) (1 / 2)

end Spec
end Distclus
