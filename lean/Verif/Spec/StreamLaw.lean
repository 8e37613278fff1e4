import Verif.Spec.Draws
import Verif.Model.Streaming
import Verif.Model.RealMath
import Mathlib.Probability.Distributions.Gaussian.Real
/-!
# The draws of the streaming algorithm

Specification for C116: `norm.Rand()` (gonum, not modelled) is taken as normal with mean `Mu` and standard deviation
`Sigma`, successive values being independent.
-/
namespace Distclus.Spec
open MeasureTheory ProbabilityTheory
open scoped ENNReal

section
variable {E R : Type} [BEq ℝ] (space : Space E ℝ)

/-- The law of a draw. -/
noncomputable def threshold (conf : StreamingConf ℝ R) : Measure ℝ :=
  gaussianReal conf.mu (conf.sigma ^ 2).toNNReal

/-- The distance of an element to the nearest centre over the maximal distance. -/
noncomputable def relDist (impl : StreamImpl E ℝ R) (e : E) : ℝ :=
  nearDist space impl.clust e / impl.maxDistance

/-- The element is an outlier. -/
def IsOutlier (impl : StreamImpl E ℝ R) (e : E) : Prop :=
  impl.conf.outAfter ≤ impl.count ∧ impl.conf.outRatio < relDist space impl e

open Classical in
/-- The probability that an element opens a cluster. -/
noncomputable def openProb (impl : StreamImpl E ℝ R) (e : E) : ℝ≥0∞ :=
  if IsOutlier space impl e then 1 else threshold impl.conf (Set.Iio (relDist space impl e))

/-- The probability of a decision: to open a cluster, or not. -/
noncomputable def decisionProb (impl : StreamImpl E ℝ R) (e : E) (opens : Bool) : ℝ≥0∞ :=
  if opens then openProb space impl e else 1 - openProb space impl e

/-- The sizes of the clusterings returned by the iterations. -/
def sizes : List (StreamRes E ℝ) → List Nat
  | [] => []
  | .iterate (some cl) _ :: rs => cl.length :: sizes rs
  | _ :: rs => sizes rs

/-- The sizes, starting with `k` clusters, when the decisions are `bs`. -/
def grow : Nat → List Bool → List Nat
  | _, [] => []
  | k, b :: bs => (if b then k + 1 else k) :: grow (if b then k + 1 else k) bs

/-- A state in which the algorithm iterates: some clusters, and the maximal distance is known. -/
structure Warm (impl : StreamImpl E ℝ R) : Prop where
  some : impl.clust ≠ []
  cards : impl.cards.length = impl.clust.length
  max : 0 < impl.maxDistance

/-- The state after a decision. -/
noncomputable def decided (impl : StreamImpl E ℝ R) (e : E) (b : Bool) : StreamImpl E ℝ R :=
  (impl.process space (if b then relDist space impl e - 1 else relDist space impl e) e).getD impl

/-- The probability of the decisions, taken one after the other. -/
noncomputable def pathProb : StreamImpl E ℝ R → List E → List Bool → ℝ≥0∞
  | _, [], [] => 1
  | impl, e :: es, b :: bs => decisionProb space impl e b * pathProb (decided space { impl with c := es } e b) es bs
  | _, _, _ => 0

/-- The event: the iterations return clusterings which grow like the decisions. -/
def Grows (impl : StreamImpl E ℝ R) (ts : List ℝ) (bs : List Bool) : Prop :=
  ∃ impl' rs, impl.run space (ts.map .iterate) = some (impl', rs) ∧ sizes rs = grow impl.clust.length bs

end
end Distclus.Spec
