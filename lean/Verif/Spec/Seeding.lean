import Verif.Model.KMeans
import Verif.Model.RealMath
import Mathlib.MeasureTheory.Constructions.Pi
import Mathlib.MeasureTheory.Measure.Lebesgue.Basic
/-!
# The mean of the loss of centroids drawn at random
-/
namespace Distclus.Spec
open MeasureTheory

/-- `n` independent uniform draws on `[0, 1)`. -/
noncomputable def uniform (n : Nat) : Measure (Fin n → ℝ) :=
  Measure.pi fun _ => (volume : Measure ℝ).restrict (Set.Ico 0 1)

/-- The loss of the centroids returned by an initializer; nothing when there are none. -/
noncomputable def drawnLoss {E : Type} (space : Space E ℝ) (data : List E) (norm : ℝ) : Option (InitRes E) → ℝ
  | some (.ok c) => (totalLoss space c data norm).getD 0
  | _ => 0

/-- The mean of the loss of the centroids returned by `PPInitializer`: the first position is uniform, the other draws
are uniform on `[0, 1)`, all independent. -/
noncomputable def ppMean {E : Type} (space : Space E ℝ) (data : List E) (norm : ℝ) (k : Nat) : ENNReal :=
  (∑ f : Fin data.length, ∫⁻ us, ENNReal.ofReal
    (drawnLoss space data norm (ppInitializer k data space f (List.ofFn us))) ∂ uniform (k - 1)) / data.length

end Distclus.Spec
