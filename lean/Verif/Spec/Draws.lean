import Verif.Model.Basic
import Mathlib.MeasureTheory.Measure.Lebesgue.Basic
/-!
# Probabilities of the events decided by uniform draws

`rand.Float64()` and `distuv.Uniform{0, 1}.Rand()` are taken as uniform on `[0, 1)`, successive values
being independent.
-/
namespace Distclus.Spec
open MeasureTheory

/-- The event `A` has probability `p` for a uniform draw on `[0, 1)`: its Lebesgue measure there. -/
def HasProb (A : ℝ → Prop) (p : ℝ) : Prop :=
  0 ≤ p ∧ MeasurableSet {u : ℝ | (0 ≤ u ∧ u < 1) ∧ A u} ∧
    volume {u : ℝ | (0 ≤ u ∧ u < 1) ∧ A u} = ENNReal.ofReal p

/-- The event `A` has probability `p` for `n` independent uniform draws on `[0, 1)`. -/
def HasProbN (n : Nat) (A : (Fin n → ℝ) → Prop) (p : ℝ) : Prop :=
  0 ≤ p ∧ MeasurableSet {u : Fin n → ℝ | (∀ i, 0 ≤ u i ∧ u i < 1) ∧ A u} ∧
    volume {u : Fin n → ℝ | (∀ i, 0 ≤ u i ∧ u i < 1) ∧ A u} = ENNReal.ofReal p

/-- The distance of an element to the nearest of some centres. -/
noncomputable def nearDist {E : Type} (space : Space E ℝ) : List E → E → ℝ
  | [], _ => 0
  | [c], e => space.dist e c
  | c :: c' :: cs, e => min (space.dist e c) (nearDist space (c' :: cs) e)

/-- The probability that k-means++ draws `x` next, the centres being `clust`: the distances to the
nearest centre of the elements whose copy is `x`, over those of all the elements. -/
noncomputable def ppProb {E : Type} [DecidableEq E] (space : Space E ℝ) (elemts clust : List E) (x : E) : ℝ :=
  ((elemts.filter fun e => space.copy e = x).map (nearDist space clust)).sum /
    (elemts.map (nearDist space clust)).sum

end Distclus.Spec
