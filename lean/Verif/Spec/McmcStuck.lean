import Verif.Model.Ieee
import Mathlib.Analysis.SpecialFunctions.Gamma.Basic
/-!
# Acceptance ratios which are no numbers
-/
namespace Distclus
namespace Spec

/-- `+Inf` or NaN. -/
def Blown {f : Format} (x : Ieee f) : Prop := x.1 = .posInf ∨ x.1 = .nan

/-- The function is `+Inf` at the numbers from 172 on. -/
def GammaOverflows {f : Format} (gamma : Ieee f → Ieee f) : Prop :=
  ∀ x : Ieee f, ∀ r : ℝ, x.1 = .fin r → 172 ≤ r → (gamma x).1 = .posInf

/-- The correctly rounded Gamma function, at positive numbers. -/
noncomputable def roundGamma (f : Format) (x : Ieee f) : Ieee f :=
  match x.1 with
  | .fin r => Ieee.of f (.fin (Real.Gamma r))
  | .posInf => Ieee.of f .posInf
  | _ => Ieee.of f .nan

end Spec
end Distclus
