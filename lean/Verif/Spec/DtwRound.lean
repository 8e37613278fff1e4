import Verif.Spec.DtwMetric
import Mathlib.Data.Real.Basic
/-!
# Specification: the exact cost of a warping path
-/
namespace Distclus.Spec

/-- The exact distance `δ` of the points at two positions of two series (0 beyond the ends, where no
path of `Warp` goes). -/
noncomputable def exactCell {P : Type} (δ : P → P → ℝ) (s1 s2 : List P) (i j : Nat) : ℝ :=
  match s1[i]?, s2[j]? with
  | some p, some q => δ p q
  | _, _ => 0

/-- The exact cost of a path: the sum, in ℝ, of the exact distances of the points it matches. -/
noncomputable def exactCost {P : Type} (δ : P → P → ℝ) (s1 s2 : List P) (p : List (Nat × Nat)) : ℝ :=
  cellSum (exactCell δ s1 s2) p

/-- The exact DTW distance of two series: the least exact cost of a path whose positions are at most
`w` apart. -/
def IsExactDtw {P : Type} (δ : P → P → ℝ) (w : Nat) (s1 s2 : List P) (e : ℝ) : Prop :=
  (∃ p, Warp (Within w) (s1.length - 1) (s2.length - 1) p ∧ exactCost δ s1 s2 p = e) ∧
  ∀ p, Warp (Within w) (s1.length - 1) (s2.length - 1) p → e ≤ exactCost δ s1 s2 p

end Distclus.Spec
