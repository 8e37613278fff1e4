import Verif.Spec.McmcInf
/-!
# Weights which may be infinite, and points which are far away
-/
namespace Distclus
namespace Spec

/-- A number which is finite and not negative. -/
def FiniteWeight {f : Format} (x : Ieee f) : Prop := ∃ r : ℝ, 0 ≤ r ∧ x.1 = .fin r

/-- A coordinate is infinite and none is NaN. -/
def FarPoint {f : Format} {n : Nat} (p : Vec (Ieee f) n) : Prop :=
  (∃ x ∈ p.1, x.1 = .posInf ∨ x.1 = .negInf) ∧ ∀ x ∈ p.1, x.1 ≠ .nan

/-- Elements which are near each other, and elements at an infinite distance from these. -/
structure FarApart {f : Format} {E : Type} (space : Space E (Ieee f)) (good far : E → Prop) : Prop where
  near : ∀ a b, good a → good b → FiniteWeight (space.dist a b)
  far_near : ∀ a b, far a → good b → (space.dist a b).1 = .posInf
  near_far : ∀ a b, good a → far b → (space.dist a b).1 = .posInf
  far : ∀ a b, far a → far b → Blown (space.dist a b)

end Spec
end Distclus
