import Verif.Spec.McmcStuck
import Verif.Model.Euclid
/-!
# Numbers and points which are not finite
-/
namespace Distclus
namespace Spec

/-- Infinite or NaN. -/
def Wild {f : Format} (x : Ieee f) : Prop := ∀ r : ℝ, x.1 ≠ .fin r

/-- A coordinate is infinite or NaN. -/
def WildPoint {f : Format} {n : Nat} (p : Vec (Ieee f) n) : Prop := ∃ x ∈ p.1, Wild x

/-- `-Inf` or NaN. -/
def Sunk {f : Format} (x : Ieee f) : Prop := x.1 = .negInf ∨ x.1 = .nan

end Spec
end Distclus
