import Verif.Proof.StudentLaw
import Verif.Props.MultivT
/-!
# C115: the density and the samples of the multivariate t distribution
-/
namespace Distclus
open MeasureTheory ProbabilityTheory Spec
open scoped ENNReal

section
variable {d : Nat}

theorem zip_sum (f : ℝ → ℝ → ℝ) : ∀ {d : Nat} (mu x : Fin d → ℝ),
    (List.zipWith f (List.ofFn mu) (List.ofFn x)).sum = ∑ i, f (mu i) (x i)
  | 0, _, _ => by simp
  | d + 1, mu, x => by
    rw [List.ofFn_succ, List.ofFn_succ, List.zipWith_cons_cons, List.sum_cons, zip_sum f, Fin.sum_univ_succ]

theorem tDensity_pos {nu c r2 : ℝ} (hnu : 0 < nu) (hc : 0 < c) (hr : 0 ≤ r2) : 0 < tDensity nu d c r2 := by
  unfold tDensity
  have : 0 < 1 + r2 / c := by positivity
  positivity

/-- **C115 (density).** `Pdf` of the distribution made by `NewMultivT` is the logarithm of the density of the t
distribution around `mu`, with `Nu` degrees of freedom and scale matrix the identity divided by `sqrt(20 t)`. -/
theorem C115_pdf {nu : ℝ} (hnu : 0 < nu) (mu x : Fin d → ℝ) (t : Nat) (ht : 0 < t) :
    (MultivT.new Real.Gamma d nu).pdf Real.pi (List.ofFn mu) (List.ofFn x) t =
      some (Real.log (tDensity nu d (nu / Real.sqrt (20 * t)) (∑ i, (mu i - x i) ^ 2))) := by
  have hn : (nu == 0) = false := by simpa using hnu.ne'
  have hm : MultivT.new Real.Gamma d nu = ⟨d, nu, Real.log (Real.Gamma ((d + nu) / 2) / Real.Gamma (nu / 2)),
      (d + nu) / 2⟩ := by
    unfold MultivT.new
    rw [hn]
    simp only [Bool.false_eq_true, if_false, GoMath.ofInt, GoMath.log]
    push_cast
    rfl
  rw [pdf_eq _ _ _ (by simp), hm, eucl_sq, zip_sum]
  set r := ∑ i, (mu i - x i) ^ 2 with hr
  have hr0 : 0 ≤ r := Finset.sum_nonneg fun i _ => sq_nonneg _
  have ht' : (0 : ℝ) < t := by exact_mod_cast ht
  have e : (((t * 20 : Int)) : ℝ) = 20 * t := by push_cast; ring
  rw [e]
  set c := nu / Real.sqrt (20 * t) with hc
  have hc0 : 0 < c := by positivity
  have hR : 0 < 1 + r / c := by positivity
  congr 1
  unfold tDensity
  have g1 : 0 < Real.Gamma ((nu + d) / 2) := Real.Gamma_pos_of_pos (by positivity)
  have g2 : 0 < Real.Gamma (nu / 2) := Real.Gamma_pos_of_pos (by positivity)
  have e2 : Real.log (Real.Gamma ((nu + d) / 2) / Real.Gamma (nu / 2) * (Real.pi * c) ^ (-((d : ℝ) / 2)) *
      (1 + r / c) ^ (-((nu + d) / 2))) = Real.log (Real.Gamma ((nu + d) / 2) / Real.Gamma (nu / 2)) +
        -((d : ℝ) / 2) * Real.log (Real.pi * c) + -((nu + d) / 2) * Real.log (1 + r / c) := by
    rw [Real.log_mul (by positivity) (by positivity), Real.log_mul (by positivity) (by positivity),
      Real.log_rpow (by positivity), Real.log_rpow hR]
  rw [e2, add_comm (d : ℝ) nu]
  push_cast
  ring

/-- Without degrees of freedom in the configuration there are 3. -/
theorem C115_default : MultivT.new Real.Gamma d 0 = MultivT.new Real.Gamma d 3 := by
  have h : ((3 : ℝ) == 0) = false := by simp
  unfold MultivT.new
  rw [h]
  simp [GoMath.ofInt]

/-- The samples as vectors. -/
noncomputable def tSample (nu : ℝ) (t : Nat) (mu : Fin d → ℝ) (q : (Fin d → ℝ) × ℝ) : Fin d → ℝ :=
  fun i => mu i + q.1 i * (Real.sqrt (nu / q.2) * (1 / Real.sqrt (20 * t)))

theorem tSample_eq {nu : ℝ} (hnu : nu ≠ 0) (t : Nat) (mu z : Fin d → ℝ) (chi : ℝ) :
    (MultivT.new Real.Gamma d nu).sample (List.ofFn mu) t (List.ofFn z) chi =
      some (List.ofFn (tSample nu t mu (z, chi))) := by
  have hn : (nu == 0) = false := by simpa using hnu
  have h1 : (MultivT.new Real.Gamma d nu).dim = d := rfl
  have h2 : (MultivT.new Real.Gamma d nu).nu = nu := by unfold MultivT.new; rw [hn]; rfl
  rw [(C73_sample _ _ _ (by rw [h1]; simp) t chi).1 (by rw [h1]; simp), h2]
  congr 1
  refine List.ext_getElem (by simp) fun i hi1 hi2 => ?_
  simp [tSample, mul_assoc]

theorem tSample_law {nu : ℝ} (hnu : 0 < nu) (t : Nat) (ht : 0 < t) (mu : Fin d → ℝ) :
    ((normals d).prod (chiSquared nu)).map (tSample nu t mu) =
      volume.withDensity (fun x => ENNReal.ofReal (tDensity nu d (nu / (20 * t)) (∑ i, (mu i - x i) ^ 2))) := by
  have ht' : (0 : ℝ) < t := by exact_mod_cast ht
  refine mixture_law hnu (by positivity) mu _ (by unfold tSample; fun_prop) fun y hy =>
    ⟨Real.sqrt (nu / y) * (1 / Real.sqrt (20 * t)), ?_, fun z => rfl⟩
  rw [mul_pow, Real.sq_sqrt (by positivity), div_pow, Real.sq_sqrt (by positivity)]
  field_simp

/-- **C115 (law).** `Sample(mu, t)`, the normal and chi-squared draws being independent and of these laws, has a density:
the exponential of `Pdf(mu, ·, 20 t²)`. -/
theorem C115_law {nu : ℝ} (hnu : 0 < nu) (t : Nat) (ht : 0 < t) (mu : Fin d → ℝ) :
    ∃ (X : (Fin d → ℝ) × ℝ → Fin d → ℝ) (P : (Fin d → ℝ) → ℝ),
      (∀ z chi, (MultivT.new Real.Gamma d nu).sample (List.ofFn mu) t (List.ofFn z) chi =
        some (List.ofFn (X (z, chi)))) ∧
      (∀ x, (MultivT.new Real.Gamma d nu).pdf Real.pi (List.ofFn mu) (List.ofFn x) (20 * t * t) = some (P x)) ∧
      ((normals d).prod (chiSquared nu)).map X =
        volume.withDensity (fun x => ENNReal.ofReal (Real.exp (P x))) := by
  have ht' : (0 : ℝ) < t := by exact_mod_cast ht
  refine ⟨tSample nu t mu, _, tSample_eq hnu.ne' t mu, fun x => C115_pdf hnu mu x _ (by positivity), ?_⟩
  rw [tSample_law hnu t ht]
  congr 1
  funext x
  rw [Real.exp_log (tDensity_pos hnu (by positivity) (Finset.sum_nonneg fun i _ => sq_nonneg _))]
  congr 3
  have : (20 * ((20 * t * t : Nat) : ℝ)) = (20 * t) ^ 2 := by push_cast; ring
  rw [this, Real.sqrt_sq (by positivity)]

/-- **C115 (total).** At any time the exponential of `Pdf(mu, ·, t)` is a probability density. -/
theorem C115_total {nu : ℝ} (hnu : 0 < nu) (t : Nat) (ht : 0 < t) (mu : Fin d → ℝ) :
    ∃ P : (Fin d → ℝ) → ℝ,
      (∀ x, (MultivT.new Real.Gamma d nu).pdf Real.pi (List.ofFn mu) (List.ofFn x) t = some (P x)) ∧
      ∫⁻ x, ENNReal.ofReal (Real.exp (P x)) = 1 := by
  have ht' : (0 : ℝ) < t := by exact_mod_cast ht
  set c := nu / Real.sqrt (20 * t) with hc
  have hc0 : 0 < c := by positivity
  refine ⟨_, fun x => C115_pdf hnu mu x t ht, ?_⟩
  have hg : IsProbabilityMeasure (gammaMeasure (nu / 2) (1 / 2)) :=
    isProbabilityMeasure_gammaMeasure (by positivity) (by norm_num)
  have h := mixture_law hnu hc0 mu (fun q i => mu i + q.1 i * Real.sqrt (c / q.2)) (by fun_prop)
    fun y hy => ⟨_, Real.sq_sqrt (by positivity), fun z => rfl⟩
  have h' := congrArg (fun m : Measure (Fin d → ℝ) => m Set.univ) h
  rw [Measure.map_apply (by fun_prop) MeasurableSet.univ, Set.preimage_univ, measure_univ,
    withDensity_apply _ MeasurableSet.univ, Measure.restrict_univ] at h'
  rw [h']
  refine lintegral_congr fun x => ?_
  rw [Real.exp_log (tDensity_pos hnu hc0 (Finset.sum_nonneg fun i _ => sq_nonneg _))]

/-- **C115 (claim examined).** "`Pdf(mu, ·, t)` is the log-density of `Sample(mu, t)`" holds in no positive dimension. -/
theorem C115_not_density {nu : ℝ} (hnu : 0 < nu) (hd : 0 < d) (t : Nat) (ht : 0 < t) (mu : Fin d → ℝ)
    (X : (Fin d → ℝ) × ℝ → Fin d → ℝ) (P : (Fin d → ℝ) → ℝ)
    (hX : ∀ z chi, (MultivT.new Real.Gamma d nu).sample (List.ofFn mu) t (List.ofFn z) chi =
      some (List.ofFn (X (z, chi))))
    (hP : ∀ x, (MultivT.new Real.Gamma d nu).pdf Real.pi (List.ofFn mu) (List.ofFn x) t = some (P x)) :
    ((normals d).prod (chiSquared nu)).map X ≠ volume.withDensity (fun x => ENNReal.ofReal (Real.exp (P x))) := by
  have ht' : (0 : ℝ) < t := by exact_mod_cast ht
  have ht1 : (1 : ℝ) ≤ t := by exact_mod_cast ht
  have hX' : X = tSample nu t mu := by
    funext ⟨z, chi⟩
    have := hX z chi
    rw [tSample_eq hnu.ne'] at this
    exact (List.ofFn_injective (Option.some.inj this)).symm
  have hP' : ∀ x, Real.exp (P x) = tDensity nu d (nu / Real.sqrt (20 * t)) (∑ i, (mu i - x i) ^ 2) := fun x => by
    have := hP x
    rw [C115_pdf hnu mu x t ht] at this
    rw [← Option.some.inj this,
      Real.exp_log (tDensity_pos hnu (by positivity) (Finset.sum_nonneg fun i _ => sq_nonneg _))]
  intro h
  rw [hX', tSample_law hnu t ht] at h
  simp_rw [hP'] at h
  have hcont : ∀ c : ℝ, 0 < c → Continuous fun x : Fin d → ℝ =>
      ENNReal.ofReal (tDensity nu d c (∑ i, (mu i - x i) ^ 2)) := fun c hc => by
    refine ENNReal.continuous_ofReal.comp ?_
    unfold tDensity
    refine continuous_const.mul (Continuous.rpow_const (by fun_prop) fun x => .inl ?_)
    have : 0 ≤ ∑ i, (mu i - x i) ^ 2 := Finset.sum_nonneg fun i _ => sq_nonneg _
    positivity
  have hc1 : 0 < nu / (20 * t : ℝ) := by positivity
  have hc2 : 0 < nu / Real.sqrt (20 * t : ℝ) := by positivity
  have hfin : ∫⁻ x : Fin d → ℝ, ENNReal.ofReal (tDensity nu d (nu / Real.sqrt (20 * t)) (∑ i, (mu i - x i) ^ 2)) ≠ ∞ := by
    obtain ⟨P', h1, h2⟩ := C115_total hnu t ht mu
    have : P' = P := by funext x; have := (h1 x).symm.trans (hP x); exact Option.some.inj this
    rw [this] at h2
    simp_rw [hP'] at h2
    rw [h2]; exact ENNReal.one_ne_top
  have h3 := (withDensity_eq_iff (hcont _ hc2).measurable.aemeasurable (hcont _ hc1).measurable.aemeasurable hfin).1 h.symm
  have h4 := (Continuous.ae_eq_iff_eq volume (hcont _ hc2) (hcont _ hc1)).1 h3
  have h5 := congrFun h4 mu
  simp only [sub_self, ne_eq, OfNat.ofNat_ne_zero, not_false_eq_true, zero_pow, Finset.sum_const_zero] at h5
  rw [ENNReal.ofReal_eq_ofReal_iff (tDensity_pos hnu hc2 le_rfl).le (tDensity_pos hnu hc1 le_rfl).le] at h5
  unfold tDensity at h5
  have g1 : 0 < Real.Gamma ((nu + d) / 2) := Real.Gamma_pos_of_pos (by positivity)
  have g2 : 0 < Real.Gamma (nu / 2) := Real.Gamma_pos_of_pos (by positivity)
  simp only [zero_div, add_zero, Real.one_rpow, mul_one] at h5
  have h6 := mul_left_cancel₀ (by positivity) h5
  have hd' : (0 : ℝ) < d := by exact_mod_cast hd
  have h7 := Real.rpow_left_injOn (x := -((d : ℝ) / 2)) (by linarith [hd'] |> ne_of_lt)
    (by positivity : (0:ℝ) ≤ Real.pi * (nu / Real.sqrt (20 * t))) (by positivity : (0:ℝ) ≤ Real.pi * (nu / (20 * t))) h6
  have h8 := mul_left_cancel₀ Real.pi_pos.ne' h7
  rw [div_eq_div_iff (by positivity) (by positivity)] at h8
  have h9 := mul_left_cancel₀ hnu.ne' h8
  have h10 : (20 * t : ℝ) = (20 * t) ^ 2 := by
    conv_lhs => rw [← Real.sq_sqrt (by positivity : (0 : ℝ) ≤ 20 * t), ← h9]
  nlinarith

end

/-! ## The hypotheses are met -/

/-- In dimension 2 with 3 degrees of freedom, at time 1. -/
example : ∃ (X : (Fin 2 → ℝ) × ℝ → Fin 2 → ℝ), ∀ z chi,
    (MultivT.new Real.Gamma 2 3).sample (List.ofFn ![1, 2]) 1 (List.ofFn z) chi = some (List.ofFn (X (z, chi))) :=
  ⟨_, tSample_eq (by norm_num) 1 ![1, 2]⟩

end Distclus
