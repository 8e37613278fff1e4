import Mathlib.Probability.Distributions.Gamma
import Mathlib.Probability.Distributions.Gaussian.Real
import Mathlib.MeasureTheory.Integral.Pi
import Verif.Spec.StudentLaw
/-!
# The mixture of normal laws which gives the t distribution

For C115.
-/
namespace Distclus
open MeasureTheory ProbabilityTheory Set Spec
open scoped ENNReal NNReal

section
variable {d : Nat}

/-- A product of normal laws has the product of the densities. -/
theorem pi_gaussian (mu : Fin d → ℝ) {v : ℝ≥0} (hv : v ≠ 0) :
    Measure.pi (fun i => gaussianReal (mu i) v) =
      volume.withDensity (fun x : Fin d → ℝ => ∏ i, gaussianPDF (mu i) v (x i)) := by
  refine Measure.pi_eq fun s hs => ?_
  rw [withDensity_apply _ (MeasurableSet.univ_pi hs), volume_pi, Measure.restrict_pi_pi]
  have h1 : ∀ x : Fin d → ℝ, ∏ i, gaussianPDF (mu i) v (x i) =
      ENNReal.ofReal (∏ i, gaussianPDFReal (mu i) v (x i)) := fun x => by
    rw [ENNReal.ofReal_prod_of_nonneg (fun i _ => gaussianPDFReal_nonneg _ _ _)]
    rfl
  simp_rw [h1]
  rw [← ofReal_integral_eq_lintegral_ofReal, integral_fintype_prod_eq_prod,
    ENNReal.ofReal_prod_of_nonneg]
  · exact Finset.prod_congr rfl fun i _ => (gaussianReal_apply_eq_integral _ hv _).symm
  · exact fun i _ => integral_nonneg fun x => gaussianPDFReal_nonneg _ _ _
  · exact Integrable.fintype_prod fun i => (integrable_gaussianPDFReal _ _).restrict
  · exact Filter.Eventually.of_forall fun x => Finset.prod_nonneg fun i _ => gaussianPDFReal_nonneg _ _ _

/-- Scaled and translated independent standard normal draws. -/
theorem pi_gaussian_map (mu : Fin d → ℝ) (a : ℝ) :
    (Measure.pi fun _ : Fin d => gaussianReal 0 1).map (fun z i => mu i + z i * a) =
      Measure.pi (fun i => gaussianReal (mu i) (a ^ 2).toNNReal) := by
  have h1 : ∀ i, (gaussianReal 0 1).map (fun z => mu i + z * a) = gaussianReal (mu i) (a ^ 2).toNNReal := fun i => by
    have : (fun z : ℝ => mu i + z * a) = (fun z => mu i + z) ∘ (fun z => z * a) := rfl
    rw [this, ← Measure.map_map (by fun_prop) (by fun_prop), gaussianReal_map_mul_const, gaussianReal_map_const_add]
    congr 1
    · ring
    · rw [mul_one, Real.toNNReal_of_nonneg (sq_nonneg a)]
  rw [Measure.pi_map_pi (f := fun i z => mu i + z * a) (hμ := fun i => by rw [h1]; infer_instance)
    (fun i => by fun_prop)]
  simp_rw [h1]

/-- The product of the densities of the draws. -/
theorem mixture_eq {nu c : ℝ} (hnu : 0 < nu) (hc : 0 < c) (mu x : Fin d → ℝ) {y : ℝ} (hy : 0 < y) :
    gammaPDFReal (nu / 2) (1 / 2) y * ∏ i, gaussianPDFReal (mu i) (c / y).toNNReal (x i) =
      tDensity nu d c (∑ i, (mu i - x i) ^ 2) *
        gammaPDFReal ((nu + d) / 2) ((1 + (∑ i, (mu i - x i) ^ 2) / c) / 2) y := by
  set r := ∑ i, (mu i - x i) ^ 2 with hr
  have hr0 : 0 ≤ r := Finset.sum_nonneg fun i _ => sq_nonneg _
  have hcy : ((c / y).toNNReal : ℝ) = c / y := Real.coe_toNNReal _ (by positivity)
  have hprod : ∏ i, gaussianPDFReal (mu i) (c / y).toNNReal (x i) =
      (2 * Real.pi * (c / y)) ^ (-((d : ℝ) / 2)) * Real.exp (-(r / c) / 2 * y) := by
    simp only [gaussianPDFReal, hcy]
    rw [Finset.prod_mul_distrib, Finset.prod_const, Finset.card_univ, Fintype.card_fin, ← Real.exp_sum]
    congr 1
    · rw [Real.sqrt_eq_rpow, ← Real.rpow_neg (by positivity), ← Real.rpow_natCast, ← Real.rpow_mul (by positivity)]
      congr 1; ring
    · congr 1
      have : ∀ i, -(x i - mu i) ^ 2 / (2 * (c / y)) = (mu i - x i) ^ 2 * (-(y / (2 * c))) := fun i => by
        field_simp; ring
      simp_rw [this]
      rw [← Finset.sum_mul, ← hr]
      field_simp
  rw [hprod]
  have hR : 0 < 1 + r / c := by positivity
  unfold gammaPDFReal tDensity
  rw [if_pos hy.le, if_pos hy.le]
  have hG : Real.Gamma ((nu + d) / 2) ≠ 0 := (Real.Gamma_pos_of_pos (by positivity)).ne'
  have hG' : Real.Gamma (nu / 2) ≠ 0 := (Real.Gamma_pos_of_pos (by positivity)).ne'
  have e1 : (2 * Real.pi * (c / y)) ^ (-((d : ℝ) / 2)) =
      (1 / 2 : ℝ) ^ ((d : ℝ) / 2) * (Real.pi * c) ^ (-((d : ℝ) / 2)) * y ^ ((d : ℝ) / 2) := by
    rw [show 2 * Real.pi * (c / y) = 2 * (Real.pi * c) / y by ring, Real.div_rpow (by positivity) hy.le,
      Real.mul_rpow (by positivity) (by positivity), Real.rpow_neg hy.le, Real.rpow_neg (by norm_num : (0:ℝ) ≤ 2),
      Real.div_rpow (by norm_num) (by norm_num), Real.one_rpow]
    field_simp
  have e2 : ((1 + r / c) / 2) ^ ((nu + d) / 2) = (1 + r / c) ^ ((nu + d) / 2) *
      ((1 / 2 : ℝ) ^ (nu / 2) * (1 / 2 : ℝ) ^ ((d : ℝ) / 2)) := by
    rw [← Real.rpow_add (by norm_num), ← add_div, ← Real.mul_rpow hR.le (by norm_num)]
    congr 1; ring
  have e3 : y ^ ((nu + d) / 2 - 1) = y ^ (nu / 2 - 1) * y ^ ((d : ℝ) / 2) := by
    rw [← Real.rpow_add hy]; congr 1; ring
  have e4 : Real.exp (-((1 + r / c) / 2 * y)) = Real.exp (-(1 / 2 * y)) * Real.exp (-(r / c) / 2 * y) := by
    rw [← Real.exp_add]; congr 1; ring
  have e5 : (1 + r / c) ^ (-((nu + d) / 2)) * (1 + r / c) ^ ((nu + d) / 2) = 1 := by
    rw [← Real.rpow_add hR, neg_add_cancel, Real.rpow_zero]
  rw [e1, e2, e3, e4]
  set A := (1 + r / c) ^ (-((nu + d) / 2))
  set B := (1 + r / c) ^ ((nu + d) / 2)
  set P := (Real.pi * c) ^ (-((d : ℝ) / 2))
  calc _ = (A * B) * ((1 / 2 : ℝ) ^ (nu / 2) / Real.Gamma (nu / 2) * y ^ (nu / 2 - 1) * Real.exp (-(1 / 2 * y)) *
        ((1 / 2 : ℝ) ^ ((d : ℝ) / 2) * P * y ^ ((d : ℝ) / 2) * Real.exp (-(r / c) / 2 * y))) := by rw [e5, one_mul]
    _ = _ := by field_simp

/-- The mixture has the density of the t distribution. -/
theorem mixture_lintegral {nu c : ℝ} (hnu : 0 < nu) (hc : 0 < c) (mu x : Fin d → ℝ) :
    ∫⁻ y, gammaPDF (nu / 2) (1 / 2) y * (if 0 < y then ∏ i, gaussianPDF (mu i) (c / y).toNNReal (x i) else 0) =
      ENNReal.ofReal (tDensity nu d c (∑ i, (mu i - x i) ^ 2)) := by
  set r := ∑ i, (mu i - x i) ^ 2 with hr
  have hr0 : 0 ≤ r := Finset.sum_nonneg fun i _ => sq_nonneg _
  have hT : 0 ≤ tDensity nu d c r := by unfold tDensity; positivity
  have h1 : ∀ᵐ y : ℝ, gammaPDF (nu / 2) (1 / 2) y *
      (if 0 < y then ∏ i, gaussianPDF (mu i) (c / y).toNNReal (x i) else 0) =
      ENNReal.ofReal (tDensity nu d c r) * gammaPDF ((nu + d) / 2) ((1 + r / c) / 2) y := by
    have : ∀ᵐ y : ℝ, y ≠ 0 := by simp [ae_iff]
    filter_upwards [this] with y hy
    rcases lt_or_gt_of_ne hy with hy | hy
    · rw [gammaPDF_of_neg hy, gammaPDF_of_neg hy, zero_mul, mul_zero]
    · rw [if_pos hy]
      have h2 := mixture_eq hnu hc mu x hy
      rw [← hr] at h2
      unfold gammaPDF
      rw [← ENNReal.ofReal_mul hT, ← h2, ENNReal.ofReal_mul (gammaPDFReal_nonneg (by positivity) (by norm_num) _),
        ENNReal.ofReal_prod_of_nonneg (fun i _ => gaussianPDFReal_nonneg _ _ _)]
      rfl
  rw [lintegral_congr_ae h1, lintegral_const_mul _ (by unfold gammaPDF; fun_prop),
    lintegral_gammaPDF_eq_one (by positivity) (by positivity), mul_one]

/-- The law of a center plus normal draws times `sqrt (c / chi)`. -/
theorem mixture_law {nu c : ℝ} (hnu : 0 < nu) (hc : 0 < c) (mu : Fin d → ℝ)
    (X : (Fin d → ℝ) × ℝ → Fin d → ℝ) (hX : Measurable X)
    (hX' : ∀ y, 0 < y → ∃ a, a ^ 2 = c / y ∧ ∀ z, X (z, y) = fun i => mu i + z i * a) :
    ((Measure.pi fun _ : Fin d => gaussianReal 0 1).prod (gammaMeasure (nu / 2) (1 / 2))).map X =
      volume.withDensity (fun x => ENNReal.ofReal (tDensity nu d c (∑ i, (mu i - x i) ^ 2))) := by
  have hg : IsProbabilityMeasure (gammaMeasure (nu / 2) (1 / 2)) :=
    isProbabilityMeasure_gammaMeasure (by positivity) (by norm_num)
  refine Measure.ext_of_lintegral _ fun f hf => ?_
  rw [lintegral_map hf hX, lintegral_prod_symm' (fun q => f (X q)) (hf.comp hX)]
  have hm : Measurable (fun q : ℝ × (Fin d → ℝ) =>
      if 0 < q.1 then ∏ i, gaussianPDF (mu i) (c / q.1).toNNReal (q.2 i) else 0) := by
    refine Measurable.ite (measurableSet_lt measurable_const measurable_fst) ?_ measurable_const
    refine Finset.measurable_prod _ fun i _ => ?_
    exact measurable_uncurry_gaussianPDF.comp (by fun_prop :
      Measurable fun q : ℝ × (Fin d → ℝ) => (mu i, (c / q.1).toNNReal, q.2 i))
  have hgm : Measurable (gammaPDF (nu / 2) (1 / 2)) := by unfold gammaPDF; fun_prop
  have h1 : ∀ y, 0 < y → ∫⁻ z, f (X (z, y)) ∂(Measure.pi fun _ : Fin d => gaussianReal 0 1) =
      ∫⁻ x, (if 0 < y then ∏ i, gaussianPDF (mu i) (c / y).toNNReal (x i) else 0) * f x := fun y hy => by
    have h0 : (c / y).toNNReal ≠ 0 := by
      have : 0 < c / y := by positivity
      simpa using this
    obtain ⟨a, ha, hz⟩ := hX' y hy
    simp_rw [hz]
    rw [← lintegral_map (f := f) (g := fun (z : Fin d → ℝ) i => mu i + z i * a) hf (by fun_prop), pi_gaussian_map, ha,
      pi_gaussian mu h0, lintegral_withDensity_eq_lintegral_mul _ _ hf]
    · simp only [Pi.mul_apply, if_pos hy]
    · exact Finset.measurable_prod _ fun i _ => (measurable_gaussianPDF _ _).comp (measurable_pi_apply i)
  have h2 : ∫⁻ y, ∫⁻ z, f (X (z, y)) ∂(Measure.pi fun _ : Fin d => gaussianReal 0 1)
        ∂(gammaMeasure (nu / 2) (1 / 2)) =
      ∫⁻ y, ∫⁻ x, gammaPDF (nu / 2) (1 / 2) y *
        (if 0 < y then ∏ i, gaussianPDF (mu i) (c / y).toNNReal (x i) else 0) * f x := by
    have hin : Measurable (fun y => ∫⁻ z, f (X (z, y)) ∂(Measure.pi fun _ : Fin d => gaussianReal 0 1)) :=
      (hf.comp hX).lintegral_prod_left'
    rw [gammaMeasure, lintegral_withDensity_eq_lintegral_mul _ hgm hin]
    have : ∀ᵐ y : ℝ, y ≠ 0 := by simp [ae_iff]
    refine lintegral_congr_ae ?_
    filter_upwards [this] with y hy
    rcases lt_or_gt_of_ne hy with hy | hy
    · simp [gammaPDF_of_neg hy]
    · rw [Pi.mul_apply, h1 y hy, ← lintegral_const_mul]
      · simp_rw [mul_assoc]
      · exact (hm.comp (by fun_prop : Measurable fun x : Fin d → ℝ => (y, x))).mul hf
  rw [h2, lintegral_lintegral_swap, lintegral_withDensity_eq_lintegral_mul _ _ hf]
  · refine lintegral_congr fun x => ?_
    rw [lintegral_mul_const, mixture_lintegral hnu hc]
    · rfl
    · exact hgm.mul (hm.comp (by fun_prop : Measurable fun y : ℝ => (y, x)))
  · unfold tDensity
    fun_prop
  · exact (((hgm.comp measurable_fst).mul hm).mul (hf.comp measurable_snd)).aemeasurable

end
end Distclus
