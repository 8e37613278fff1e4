import Verif.Proof.McmcStuck
import Verif.Props.Ieee
import Verif.Props.Mcmc
import Verif.Props.Nan
/-!
# C135: when mcmc accepts nothing, or does not look at the loss (claim examined)

A configuration accepted by `NewAlgo`, and data which are finite, do not suffice for mcmc to work.  With a negative `B`,
or in dimension at least 341 with the multivariate t distribution, every acceptance ratio is NaN and no proposal is ever
accepted; when `Amp` is not set the loss has no effect on the acceptance.
-/
set_option linter.unusedSectionVars false
namespace Distclus
open Spec

/-! ### The ratio is NaN because of `B` -/

section
variable {D E F R : Type} [Zero F] [One F] [Neg F] [Add F] [Sub F] [Mul F] [BEq F] [LT F] [DecidableLT F] [GoMath F] [Div F]
  [FloatOrder F]

/-- **C135, `B`.** If the logarithm of `2B` is NaN, then from any state, whatever is done, the number of acceptations and
the stored centres do not change; neither do the centroids, but by `Init`. -/
theorem C135_nan_b (h : NanLaws F) (p : McmcParams D E F R) (hb : isNaN (GoMath.log (GoMath.ofInt 2 * p.conf.b) : F))
    (ops : List (McmcOp D E F)) (s s' : McmcSys E F) (hr : s.run p ops = some s') :
    s'.impl.acc = s.impl.acc ∧ s'.impl.store = s.impl.store ∧
      ((∀ op ∈ ops, ∀ d, op ≠ .init d) → s'.centroids = s.centroids ∧ s'.impl.current = s.impl.current) := by
  refine (mcmc_frozen p (fun _ => True) (fun _ _ _ _ _ => trivial) ?_ ops s s' trivial hr).2
  intro s d impl' clust fig _ _ hit
  obtain ⟨prop, _, _, _, _, _, hrat, _⟩ := iterate_cases p _ _ _ _ _ _ hit
  have h2 : impl'.rho = (ratio p.conf s.impl.dim s.impl.current prop s.impl.buffer.data.length).2.1 := by
    rw [← hrat]
  rw [h2]
  exact h.exp (h.add_left _ (h.add_right _ (h.mul_left _ hb)))

end

theorem float64_consts : NonzeroConsts (Ieee float64) := by
  have key : ∀ n : ℤ, n ≠ 0 → |n| ≤ 2 ^ 53 → ((GoMath.ofInt n : Ieee float64) == 0) = false := by
    intro n hn h
    show XReal.beq (GoMath.ofInt n : Ieee float64).1 (0 : Ieee float64).1 = false
    rw [float64_int n h, Ieee.zero_val]
    simp only [XReal.beq, decide_eq_false_iff_not]
    exact_mod_cast hn
  exact ⟨key 1 (by norm_num) (by norm_num), key 2 (by norm_num) (by norm_num)⟩

theorem float64_log_neg {b : Ieee float64} (hb : b < 0) : isNaN (GoMath.log (GoMath.ofInt 2 * b) : Ieee float64) := by
  have hb' : XReal.lt b.1 (0 : Ieee float64).1 := hb
  rw [Ieee.zero_val] at hb'
  show (Ieee.of float64 (GoMath.log (GoMath.ofInt 2 * b : Ieee float64).1)).1 = .nan
  have e2 : (GoMath.ofInt 2 : Ieee float64).1 = .fin 2 := by
    have := float64_int 2 (by norm_num)
    simpa using this
  have hm : (GoMath.ofInt 2 * b : Ieee float64).1 = float64.round (XReal.mul (.fin 2) b.1) := by
    rw [← e2]; rfl
  rw [hm]
  have hlog : ∀ x : ℝ, x < 0 → (GoMath.log (XReal.fin x) : XReal) = .nan := by
    intro x hx
    show (open Classical in if x < 0 then XReal.nan else if x = 0 then XReal.negInf else .fin (Real.log x)) = _
    rw [if_pos hx]
  cases hbv : b.1 with
  | nan => rw [hbv] at hb'; exact absurd hb' (by simp [XReal.lt])
  | posInf => rw [hbv] at hb'; exact absurd hb' (by simp [XReal.lt])
  | negInf =>
    have : XReal.mul (.fin 2) .negInf = .negInf := by
      show XReal.infOf (-2) = _
      unfold XReal.infOf
      rw [if_neg (by norm_num), if_pos (by norm_num)]
    rw [this]; rfl
  | fin r =>
    rw [hbv] at hb'
    have hr : r < 0 := hb'
    obtain ⟨e, _⟩ := Ieee.rnd_fin hbv
    have h1 : float64.r.rnd (2 * r) < 0 :=
      lt_of_le_of_lt (float64.r.mono (by linarith : 2 * r ≤ r)) (by rw [e]; exact hr)
    show (Ieee.of float64 (GoMath.log (float64.round (.fin (2 * r))))).1 = _
    by_cases ht : |float64.r.rnd (2 * r)| < float64.top
    · simp only [Format.round, if_pos ht]
      rw [hlog _ h1]; rfl
    · simp only [Format.round, if_neg ht, if_neg (by linarith : ¬ 0 < 2 * r)]
      rfl

/-- **C135, negative `B`.** `NewAlgo` accepts a configuration with a negative `B` as it does the others.  In `float64`,
the algorithm made with it never accepts a proposal: the centroids are those of the last successful `Init`. -/
theorem C135_negative_b {D E R : Type} (env : ConfEnv R) (hcpu : env.numCPU ≠ 0) (raw : McmcConf (Ieee float64) R)
    (hb : raw.b < 0) (hk : 1 ≤ raw.initK) (hk2 : raw.initK ≤ if raw.maxK = 0 then 16 else raw.maxK)
    (hc : CtrlOk raw.ctrl) :
    ∃ conf, raw.newAlgo env = some conf ∧
      ∀ p : McmcParams D E (Ieee float64) R, p.conf = conf →
        (∀ (data : List E) (ops : List (McmcOp D E (Ieee float64))) (s : McmcSys E (Ieee float64)),
          (McmcSys.new p data).run p ops = some s → s.impl.acc = 0 ∧ ∀ k, s.impl.store k = none) ∧
        (∀ (ops : List (McmcOp D E (Ieee float64))) (s s' : McmcSys E (Ieee float64)),
          s.run p ops = some s' → (∀ op ∈ ops, ∀ d, op ≠ .init d) → s'.centroids = s.centroids) := by
  refine ⟨raw.setDefaults env, ((C21_mcmc_accepts env hcpu float64_consts raw).1).2 ⟨hk, hk2, hc⟩, fun p hp => ?_⟩
  have hbv : p.conf.b = raw.b := by
    have h0 : (raw.b == 0) = false := by
      have hb' : XReal.lt raw.b.1 (0 : Ieee float64).1 := hb
      show XReal.beq raw.b.1 (0 : Ieee float64).1 = false
      rw [Ieee.zero_val] at hb' ⊢
      cases hv : raw.b.1 with
      | fin r =>
        rw [hv] at hb'
        simp only [XReal.beq, decide_eq_false_iff_not]
        exact ne_of_lt hb'
      | _ => rfl
    rw [hp, mcmc_fields]
    simp [h0]
  have hn : isNaN (GoMath.log (GoMath.ofInt 2 * p.conf.b) : Ieee float64) := by rw [hbv]; exact float64_log_neg hb
  refine ⟨fun data ops s hr => ?_, fun ops s s' hr hop => ?_⟩
  · obtain ⟨h1, h2, _⟩ := C135_nan_b (C131_nan float64) p hn ops _ s hr
    exact ⟨h1.trans rfl, fun k => by rw [h2]; rfl⟩
  · exact ((C135_nan_b (C131_nan float64) p hn ops s s' hr).2.2 hop).1

/-! ### The densities are infinite in high dimension -/

/-- **C135, dimension.** With the multivariate t distribution whose dimension and degrees of freedom (3 by default) add up to
344 or more, for a Gamma function which overflows from 172 on: every proposal is rejected, in any history of any
algorithm; the centroids are those of the last successful `Init`. -/
theorem C135_dimension {D R : Type} {n dim : Nat} (p : McmcParams D (Vec (Ieee float64) n) (Ieee float64) R)
    (hcpu : 1 ≤ p.sysCPU) (hk1 : 1 ≤ p.conf.initK) (hk2 : p.conf.initK ≤ p.conf.maxK) (hi : InitContract p.initializer)
    (gamma : Ieee float64 → Ieee float64) (hg : GammaOverflows gamma) (pi nu : Ieee float64) (ν : ℝ) (hnu : nu.1 = .fin ν)
    (hd : dim ≤ 2 ^ 53) (hν : |ν| ≤ 2 ^ 53) (hbig : 344 ≤ dim + (open Classical in if ν = 0 then 3 else ν))
    (hp : ∀ mu x t, (MultivT.new gamma dim nu).pdf pi mu.1 x.1 t = some (p.pdf mu x t))
    (data : List (Vec (Ieee float64) n)) (ops : List (McmcOp D (Vec (Ieee float64) n) (Ieee float64)))
    (s : McmcSys (Vec (Ieee float64) n) (Ieee float64)) (hr : (McmcSys.new p data).run p ops = some s) :
    s.impl.acc = 0 ∧ (∀ k, s.impl.store k = none) ∧
      ∀ (ops' : List (McmcOp D (Vec (Ieee float64) n) (Ieee float64))) (s' : McmcSys (Vec (Ieee float64) n) (Ieee float64)),
        s.run p ops' = some s' → (∀ op ∈ ops', ∀ d, op ≠ .init d) → s'.centroids = s.centroids := by
  have hfac : Blown (MultivT.new gamma dim nu).gammaFactor := by
    refine Ieee.posInf_div ?_ _
    have hnu' : ∃ ν', (if nu == 0 then GoMath.ofInt 3 else nu : Ieee float64).1 = .fin ν' ∧ 344 ≤ dim + ν' ∧ |ν'| ≤ 2 ^ 53 := by
      have hbeq : (nu == 0) = (open Classical in decide (ν = 0)) := by
        show XReal.beq nu.1 (0 : Ieee float64).1 = _
        rw [hnu, Ieee.zero_val]; rfl
      by_cases h0 : ν = 0
      · refine ⟨3, ?_, by simpa [h0] using hbig, by norm_num⟩
        rw [if_pos (by rw [hbeq]; simpa using h0)]
        have := float64_int 3 (by norm_num)
        simpa using this
      · refine ⟨ν, ?_, by simpa [h0] using hbig, hν⟩
        rw [if_neg (by rw [hbeq]; simpa using h0)]; exact hnu
    obtain ⟨ν', e1, e2, e3⟩ := hnu'
    have ed : (GoMath.ofInt dim : Ieee float64).1 = .fin dim := by
      have := float64_int dim (by rw [abs_of_nonneg (by positivity)]; exact_mod_cast hd)
      simpa using this
    have h2 : (GoMath.ofInt 2 : Ieee float64).1 = .fin 2 := by
      have := float64_int 2 (by norm_num)
      simpa using this
    have i344 : binary64.rnd 344 = 344 := by
      have := binary64_int 344 (by norm_num)
      simpa using this
    have i172 : binary64.rnd 172 = 172 := by
      have := binary64_int 172 (by norm_num)
      simpa using this
    have i54 : binary64.rnd (2 ^ 54) = 2 ^ 54 := binary64_scales.pow 54
    have hd' : (dim : ℝ) ≤ 2 ^ 53 := by exact_mod_cast hd
    obtain ⟨y, hy, y1, y2⟩ := float64_between (x := dim + ν') i344 i54 (float64_pow_lt (by norm_num))
      (float64_small (by norm_num) (by norm_num)) e2
      (by linarith [(abs_le.1 e3).2])
    obtain ⟨z, hz, z1, -⟩ := float64_between (x := y / 2) i172 i54 (float64_pow_lt (by norm_num))
      (float64_small (by norm_num) (by norm_num)) (by linarith) (by linarith)
    refine hg _ z ?_ z1
    rw [← hz]
    show (Ieee.of float64 (XReal.div _ (GoMath.ofInt 2 : Ieee float64).1)).1 = _
    rw [h2]
    have hadd : (GoMath.ofInt dim + (if nu == 0 then GoMath.ofInt 3 else nu) : Ieee float64).1 = .fin y := by
      rw [← hy]
      show (Ieee.of float64 (XReal.add (GoMath.ofInt dim : Ieee float64).1 (if nu == 0 then GoMath.ofInt 3 else nu : Ieee float64).1)).1 = _
      rw [ed, e1]; rfl
    rw [hadd]
    show (Ieee.of float64 (@ite _ ((2 : ℝ) = 0) (Classical.propDecidable _) (XReal.infOf y) (.fin (y / 2)))).1 = _
    rw [if_neg (by norm_num)]
  have hpb : ∀ m x t, Blown (p.pdf m x t) := fun m x t => MultivT.pdf_blown pi _ hfac _ _ t _ (hp m x t)
  have hrej : ∀ (s : McmcSys (Vec (Ieee float64) n) (Ieee float64)) d impl' clust fig, McmcInv p s → s.ready = true →
      s.impl.iterate p s.centroids d = some (impl', clust, fig) → isNaN impl'.rho := by
    intro s d impl' clust fig hinv hrd hit
    obtain ⟨a1, a2, a3, a4, a5, t, a6⟩ := hinv.ready hrd
    obtain ⟨prop, hprop, _, _, _, _, hrat, _⟩ := iterate_cases p _ _ _ _ _ _ hit
    obtain ⟨q1, q2, _, _, _, _, _, q5⟩ := propose_spec Ieee.neg_one_lt p hcpu s.impl hinv.sized _ _ _ _ d
      a1 a2 a3 a4 prop hprop
    have b1 : Blown s.impl.current.pdf := proba_blown hpb _ _ _ (by
      intro h0; rw [h0] at a4; simp at a4; omega) _ a6
    have b2 : Blown prop.pdf := proba_blown hpb _ _ _ (by
      intro h0; rw [h0] at q1; simp at q1; omega) _ q5
    have h2 : impl'.rho = (ratio p.conf s.impl.dim s.impl.current prop s.impl.buffer.data.length).2.1 := by rw [← hrat]
    rw [h2]
    exact (C131_nan float64).exp ((C131_nan float64).add_right _ (b1.sub_self b2))
  have hstep : ∀ s s' op, McmcInv p s → s.step p op = some s' → McmcInv p s' := fun s s' op hinv h =>
    mcmc_step_inv Ieee.neg_one_lt p hcpu hk1 hk2 hi s s' op hinv h
  obtain ⟨h0, h1, h2, _⟩ := mcmc_frozen p (McmcInv p) hstep hrej ops _ s (mcmc_new_inv p data) hr
  refine ⟨h1.trans rfl, fun k => by rw [h2]; rfl, fun ops' s' hr' hop => ?_⟩
  exact ((mcmc_frozen p (McmcInv p) hstep hrej ops' s s' h0 hr').2.2.2 hop).1

/-- **C135, dimension, where it begins.** With the correctly rounded Gamma function and 3 degrees of freedom, the factor of
the densities is a finite number up to dimension 340, and `+Inf` from 341 on. -/
theorem C135_threshold (dim : Nat) (h1 : 1 ≤ dim) (h2 : dim ≤ 2 ^ 53) :
    ((∃ y : ℝ, (MultivT.new (roundGamma float64) dim 0).gammaFactor.1 = .fin y) ↔ dim ≤ 340) ∧
    ((MultivT.new (roundGamma float64) dim 0).gammaFactor.1 = .posInf ↔ 341 ≤ dim) := by
  have i : ∀ n : ℤ, |n| ≤ 2 ^ 53 → binary64.rnd n = n := binary64_int
  have hd' : (dim : ℝ) ≤ 2 ^ 53 := by exact_mod_cast h2
  have ed : (GoMath.ofInt dim : Ieee float64).1 = .fin dim := by
    have := float64_int dim (by rw [abs_of_nonneg (by positivity)]; exact_mod_cast h2)
    simpa using this
  have e2 : (GoMath.ofInt 2 : Ieee float64).1 = .fin 2 := by
    have := float64_int 2 (by norm_num)
    simpa using this
  have e3 : (if (0 : Ieee float64) == 0 then GoMath.ofInt 3 else 0 : Ieee float64).1 = .fin 3 := by
    have hb : ((0 : Ieee float64) == 0) = true := by
      show XReal.beq (0 : Ieee float64).1 (0 : Ieee float64).1 = true
      rw [Ieee.zero_val]; simp [XReal.beq]
    rw [if_pos hb]
    have := float64_int 3 (by norm_num)
    simpa using this
  have small : ∀ x : ℝ, 0 ≤ x → x ≤ 2 ^ 54 → |x| < 2 ^ 1024 := fun _ h0 hx => float64_small h0 hx
  -- the sum and its half, between any two representable bounds
  have hpow : ∀ a b : ℝ, binary64.rnd a = a → binary64.rnd b = b → binary64.rnd (2 * a) = 2 * a →
      binary64.rnd (2 * b) = 2 * b → 0 ≤ a → 2 * b ≤ 2 ^ 54 → 0 ≤ b → 2 * a ≤ dim + 3 → dim + 3 ≤ 2 * b →
      ∃ y, (MultivT.new (roundGamma float64) dim 0).power.1 = .fin y ∧ a ≤ y ∧ y ≤ b := by
    intro a b ha hb ha2 hb2 a0 b54 b0 l1 l2
    obtain ⟨y, hy, y1, y2⟩ := float64_between (x := dim + 3) ha2 hb2 (small _ (by linarith) b54)
      (small _ (by linarith) (by linarith)) l1 l2
    obtain ⟨z, hz, z1, z2⟩ := float64_between (x := y / 2) ha hb (small _ b0 (by linarith))
      (small _ a0 (by linarith)) (by linarith) (by linarith)
    refine ⟨z, ?_, z1, z2⟩
    rw [← hz]
    show (Ieee.of float64 (XReal.div (Ieee.of float64 (XReal.add (GoMath.ofInt dim : Ieee float64).1
      (if (0 : Ieee float64) == 0 then GoMath.ofInt 3 else 0 : Ieee float64).1)).1 (GoMath.ofInt 2 : Ieee float64).1)).1 = _
    rw [e2, ed, e3]
    show (Ieee.of float64 (XReal.div (Ieee.of float64 (.fin (dim + 3))).1 (.fin 2))).1 = _
    rw [hy]
    show (Ieee.of float64 (@ite _ ((2 : ℝ) = 0) (Classical.propDecidable _) (XReal.infOf y) (.fin (y / 2)))).1 = _
    rw [if_neg (by norm_num)]
  have r32 : binary64.rnd (3 / 2) = 3 / 2 := by
    rw [binary64_eq 0 (3 * 2 ^ 51) (by norm_num) (by norm_num) (by norm_num) (by norm_num)]
    norm_num
  have r34 : binary64.rnd (3 / 4) = 3 / 4 := by
    rw [binary64_eq (-1) (3 * 2 ^ 51) (by norm_num) (by norm_num) (by norm_num) (by norm_num)]
    norm_num
  have r1 : binary64.rnd 1 = 1 := binary64.one
  have r2 : binary64.rnd 2 = 2 := by simpa using i 2 (by norm_num)
  -- the denominator
  have hden : ∃ g, (roundGamma float64 ((if (0 : Ieee float64) == 0 then GoMath.ofInt 3 else 0 : Ieee float64) /
      GoMath.ofInt 2)).1 = .fin g ∧ 3 / 4 ≤ g ∧ g ≤ 1 := by
    have h32 : ((if (0 : Ieee float64) == 0 then GoMath.ofInt 3 else 0 : Ieee float64) / GoMath.ofInt 2).1 = .fin (3 / 2) := by
      show (Ieee.of float64 (XReal.div (if (0 : Ieee float64) == 0 then GoMath.ofInt 3 else 0 : Ieee float64).1
        (GoMath.ofInt 2 : Ieee float64).1)).1 = _
      rw [e2, e3]
      show (Ieee.of float64 (open Classical in if (2 : ℝ) = 0 then XReal.infOf 3 else .fin (3 / 2))).1 = _
      rw [if_neg (by norm_num), Ieee.of_fin]
      · exact congrArg _ r32
      · show |binary64.rnd (3 / 2)| < 2 ^ 1024
        rw [r32]; exact small _ (by norm_num) (by norm_num)
    obtain ⟨g, hg, g1, g2⟩ := float64_between r34 r1 (small _ (by norm_num) (by norm_num))
      (small _ (by norm_num) (by norm_num)) Gamma_three_half.1 Gamma_three_half.2
    refine ⟨g, ?_, g1, g2⟩
    unfold roundGamma
    rw [h32]; exact hg
  obtain ⟨g, hg, g1, g2⟩ := hden
  have hlow : dim ≤ 340 → ∃ y : ℝ, (MultivT.new (roundGamma float64) dim 0).gammaFactor.1 = .fin y := by
    intro hle
    have hle' : (dim : ℝ) ≤ 340 := by exact_mod_cast hle
    have h1' : (1 : ℝ) ≤ dim := by exact_mod_cast h1
    have r343 : binary64.rnd (343 / 2) = 343 / 2 := by
      rw [binary64_eq 7 (343 * 2 ^ 44) (by norm_num) (by norm_num) (by norm_num) (by norm_num)]
      norm_num
    obtain ⟨y, hy, y1, y2⟩ := hpow 2 (343 / 2) r2 r343 (by
      have := i 4 (by norm_num); norm_num at this ⊢; exact this) (by
      have := i 343 (by norm_num); norm_num at this ⊢; exact this) (by norm_num) (by norm_num) (by norm_num)
      (by linarith) (by linarith)
    obtain ⟨c5, top5⟩ := float64_eighths (m := 5) (by norm_num)
    obtain ⟨c7, top7⟩ := float64_eighths (m := 7) (by norm_num)
    have one_top : |(1 : ℝ)| < 2 ^ 1024 := small _ (by norm_num) (by norm_num)
    obtain ⟨a, ha, a1, a2⟩ := float64_between r1 c5 top5 one_top (Gamma_ge_one y1)
      ((Gamma_le y1 y2).trans factorial_le)
    have hnum : (roundGamma float64 (MultivT.new (roundGamma float64) dim 0).power).1 = .fin a := by
      rw [roundGamma_fin hy]; exact ha
    have g0 : 0 < g := by linarith
    have q1 : 1 ≤ a / g := by rw [le_div_iff₀ g0]; linarith
    have q2 : a / g ≤ 2 ^ 1021 * (7 : Nat) := by
      rw [div_le_iff₀ g0]
      have hT : (0 : ℝ) < 2 ^ 1021 := by positivity
      generalize (2 : ℝ) ^ 1021 = T at *
      push_cast at a2 ⊢
      nlinarith
    obtain ⟨q, hq, u1, u2⟩ := float64_between r1 c7 top7 one_top q1 q2
    have hl1 : 0 ≤ Real.log q := Real.log_nonneg u1
    have hl2 : Real.log q ≤ 2 ^ 1021 * (7 : Nat) := by
      have := Real.log_le_sub_one_of_pos (by linarith : 0 < q)
      linarith
    obtain ⟨l, hl, -, -⟩ := float64_between binary64.zero c7 top7 (by rw [abs_zero]; positivity) hl1 hl2
    refine ⟨l, ?_⟩
    rw [← hl]
    show (Ieee.of float64 (GoMath.log (Ieee.of float64 (XReal.div
      (roundGamma float64 (MultivT.new (roundGamma float64) dim 0).power).1
      (roundGamma float64 ((if (0 : Ieee float64) == 0 then GoMath.ofInt 3 else 0 : Ieee float64) / GoMath.ofInt 2)).1)).1)).1 = _
    rw [hnum, hg]
    have hdiv : XReal.div (.fin a) (.fin g) = .fin (a / g) := by
      show (open Classical in if g = 0 then XReal.infOf a else .fin (a / g)) = _
      rw [if_neg (by linarith)]
    rw [hdiv, hq]
    have hlog : (GoMath.log (XReal.fin q) : XReal) = .fin (Real.log q) := by
      show (open Classical in if q < 0 then XReal.nan else if q = 0 then XReal.negInf else .fin (Real.log q)) = _
      rw [if_neg (by linarith), if_neg (by linarith)]
    rw [hlog]
  have hhigh : 341 ≤ dim → (MultivT.new (roundGamma float64) dim 0).gammaFactor.1 = .posInf := by
    intro hge
    have hge' : (341 : ℝ) ≤ dim := by exact_mod_cast hge
    obtain ⟨y, hy, y1, -⟩ := hpow 172 (2 ^ 53) (by simpa using i 172 (by norm_num)) (binary64_scales.pow 53) (by
      have := i 344 (by norm_num); norm_num at this ⊢; exact this) (by
      rw [show (2 : ℝ) * 2 ^ 53 = 2 ^ 54 by norm_num]; exact binary64_scales.pow 54) (by norm_num) (by norm_num)
      (by norm_num) (by linarith) (by
        have h3 : (3 : ℝ) ≤ 2 ^ 53 := by norm_num
        linarith)
    have hnum := roundGamma_overflows _ y hy y1
    show (Ieee.of float64 (GoMath.log (Ieee.of float64 (XReal.div
      (roundGamma float64 (MultivT.new (roundGamma float64) dim 0).power).1
      (roundGamma float64 ((if (0 : Ieee float64) == 0 then GoMath.ofInt 3 else 0 : Ieee float64) / GoMath.ofInt 2)).1)).1)).1 = _
    rw [hnum, hg]
    have hdiv : XReal.div .posInf (.fin g) = .posInf := by
      show (open Classical in if g < 0 then XReal.negInf else XReal.posInf) = _
      rw [if_neg (by linarith)]
    rw [hdiv]
    rfl
  refine ⟨⟨fun ⟨y, hy⟩ => ?_, hlow⟩, ⟨fun h => ?_, hhigh⟩⟩
  · by_contra hc
    rw [hhigh (by omega)] at hy
    cases hy
  · by_contra hc
    obtain ⟨y, hy⟩ := hlow (by omega)
    rw [h] at hy
    cases hy

/-! ### The loss has no effect when `Amp` is not set -/

/-- `Amp` has no default value: left to 0, it is 0. -/
theorem C135_amp_default {R : Type} (env : ConfEnv R) (raw conf : McmcConf (Ieee float64) R) (h : raw.amp = 0)
    (hn : raw.newAlgo env = some conf) (hcpu : env.numCPU ≠ 0) : conf.amp = 0 := by
  obtain ⟨h1, h2, _⟩ := C21_mcmc_accepts env hcpu float64_consts raw
  by_cases hok : 1 ≤ raw.initK ∧ raw.initK ≤ (if raw.maxK = 0 then 16 else raw.maxK) ∧ CtrlOk raw.ctrl
  · rw [h1.2 hok] at hn
    cases hn
    rw [mcmc_fields]; exact h
  · rw [h2.2 hok] at hn; cases hn

theorem float64_zero_mul {x : Ieee float64} {r : ℝ} (h : x.1 = .fin r) : 0 * x = 0 := by
  apply Subtype.ext
  show (Ieee.of float64 (XReal.mul (0 : Ieee float64).1 x.1)).1 = _
  rw [h, Ieee.zero_val]
  show (Ieee.of float64 (.fin (0 * r))).1 = _
  rw [zero_mul]
  exact Ieee.zero_val

/-- With `Amp` 0 the figures `lambda` and `rGibbs` are 0. -/
theorem ratio_amp_zero {E R : Type} (conf : McmcConf (Ieee float64) R) (ha : conf.amp = 0) {dim time : Nat}
    (hd : dim + 3 ≤ 2 ^ 53) (ht : 0 < time) (ht2 : time ≤ 2 ^ 53) (cur prop : Proposal E (Ieee float64))
    (hl : ∃ y : ℝ, (cur.loss - prop.loss).1 = .fin y) :
    ratio conf dim cur prop time = (0, GoMath.exp (0 + GoMath.log (GoMath.ofInt 2 * conf.b) *
      GoMath.ofInt (dim * (cur.k - prop.k)) + (cur.pdf - prop.pdf)), 0) := by
  obtain ⟨y, hy⟩ := hl
  have hd' : (dim : ℝ) + 3 ≤ 2 ^ 53 := by exact_mod_cast hd
  have ht' : (1 : ℝ) ≤ time := by exact_mod_cast ht
  have ht0 : (time : ℝ) ≠ 0 := by linarith
  have hd0 : (0 : ℝ) ≤ dim := Nat.cast_nonneg _
  have e1 : (GoMath.ofInt (dim + 3) : Ieee float64).1 = .fin (dim + 3) := by
    have := float64_int (dim + 3) (by rw [abs_of_nonneg (by positivity)]; exact_mod_cast hd)
    simpa using this
  have e2 : (GoMath.ofInt time : Ieee float64).1 = .fin time := by
    have := float64_int time (by rw [abs_of_nonneg (by positivity)]; exact_mod_cast ht2)
    simpa using this
  have ib : binary64.rnd (2 ^ 53) = 2 ^ 53 := binary64_scales.pow 53
  have tb : |(2 : ℝ) ^ 53| < 2 ^ 1024 := float64_pow_lt (by norm_num)
  have t0 : |(0 : ℝ)| < 2 ^ 1024 := by rw [abs_zero]; positivity
  obtain ⟨q, hq, q1, q2⟩ := float64_between (x := (dim + 3) / time) binary64.zero ib tb t0 (by positivity)
    ((div_le_self (by positivity) ht').trans hd')
  have hs1 : √q ≤ 2 ^ 53 := by
    rw [Real.sqrt_le_left (by norm_num)]
    refine q2.trans ?_
    norm_num
  obtain ⟨r, hr, -, -⟩ := float64_between binary64.zero ib tb t0 (Real.sqrt_nonneg q) hs1
  have hsq : (GoMath.sqrt (GoMath.ofInt (dim + 3) / GoMath.ofInt time) : Ieee float64).1 = .fin r := by
    rw [← hr]
    show (Ieee.of float64 (GoMath.sqrt (Ieee.of float64 (XReal.div (GoMath.ofInt (dim + 3) : Ieee float64).1
      (GoMath.ofInt time : Ieee float64).1)).1)).1 = _
    rw [e1, e2]
    have hdiv : XReal.div (.fin ((dim : ℝ) + 3)) (.fin (time : ℝ)) = .fin ((dim + 3) / time) := by
      simp only [XReal.div, if_neg ht0]
    rw [hdiv, hq]
    have : (GoMath.sqrt (XReal.fin q) : XReal) = .fin (√q) := by
      show (open Classical in if q < 0 then XReal.nan else .fin (√q)) = _
      rw [if_neg (by linarith)]
    rw [this]
  unfold ratio
  simp only [ha, float64_zero_mul hsq, float64_zero_mul hy]

/-- **C135, `Amp` 0: the loss does not count.** Between proposals with the same numbers of centres and densities, the
acceptance ratio is the same whatever the losses, as long as their difference is a finite number. -/
theorem C135_amp_blind {E R : Type} (conf : McmcConf (Ieee float64) R) (ha : conf.amp = 0) {dim time : Nat}
    (hd : dim + 3 ≤ 2 ^ 53) (ht : 0 < time) (ht2 : time ≤ 2 ^ 53) (cur prop cur' prop' : Proposal E (Ieee float64))
    (hl : ∃ y : ℝ, (cur.loss - prop.loss).1 = .fin y) (hl' : ∃ y : ℝ, (cur'.loss - prop'.loss).1 = .fin y)
    (hk : cur'.k = cur.k ∧ prop'.k = prop.k) (hp : cur'.pdf = cur.pdf ∧ prop'.pdf = prop.pdf) :
    ratio conf dim cur' prop' time = ratio conf dim cur prop time := by
  rw [ratio_amp_zero conf ha hd ht ht2 cur prop hl, ratio_amp_zero conf ha hd ht ht2 cur' prop' hl', hk.1, hk.2, hp.1,
    hp.2]

theorem float64_one_val : (1 : Ieee float64).1 = .fin 1 := by
  show (Ieee.of float64 (.fin 1)).1 = _
  rw [Ieee.of_fin (f := float64) (x := 1) (by
    show |binary64.rnd 1| < 2 ^ 1024
    rw [binary64.one]; exact float64_small (by norm_num) (by norm_num))]
  exact congrArg _ binary64.one

/-- **C135, `Amp` 0: a proposal with as many centres is accepted.** With `B` between 1/2 and 2¹⁰²² (1 by default), a
proposal with the number of centres and the density of the current state is accepted by every draw less than 1, whatever
its loss. -/
theorem C135_amp_accepts {D E R : Type} (p : McmcParams D E (Ieee float64) R) (ha : p.conf.amp = 0) {β : ℝ}
    (hb : p.conf.b.1 = .fin β) (hb1 : 1 / 2 ≤ β) (hb2 : β ≤ 2 ^ 1022) (impl : McmcImpl E (Ieee float64))
    (hd : impl.dim + 3 ≤ 2 ^ 53) (ht : 0 < impl.buffer.data.length) (ht2 : impl.buffer.data.length ≤ 2 ^ 53)
    (centroids : List E) (d : McmcDraws E (Ieee float64)) (prop : Proposal E (Ieee float64))
    (hprop : impl.propose p impl.current centroids impl.buffer.data impl.buffer.data.length d = some prop)
    (hk : prop.k = impl.current.k) {z : ℝ} (hz : impl.current.pdf.1 = .fin z) (hpdf : prop.pdf = impl.current.pdf)
    (hl : ∃ y : ℝ, (impl.current.loss - prop.loss).1 = .fin y) (hu : d.accept < 1) :
    ∃ impl' fig, impl.iterate p centroids d = some (impl', prop.centers, fig) ∧ impl'.rho = 1 ∧
      impl'.acc = impl.acc + 1 ∧ impl'.current = prop := by
  obtain ⟨impl', clust, fig, hit⟩ := iterate_of_propose p impl centroids d prop hprop
  obtain ⟨prop', hprop', _, _, _, _, hrat, hc⟩ := iterate_cases p _ _ _ _ _ _ hit
  rw [hprop] at hprop'
  cases hprop'
  rw [ratio_amp_zero p.conf ha hd ht ht2 _ _ hl] at hrat
  have hrho : impl'.rho = 1 := by
    have h1 := congrArg (fun x => x.2.1) hrat
    simp only at h1
    rw [h1, hk, sub_self, mul_zero, hpdf]
    have hsub : (impl.current.pdf - impl.current.pdf : Ieee float64) = 0 := by
      apply Subtype.ext
      show (Ieee.of float64 (XReal.add impl.current.pdf.1 (XReal.neg impl.current.pdf.1))).1 = _
      rw [hz]
      show (Ieee.of float64 (.fin (z + -z))).1 = _
      rw [add_neg_cancel]; rfl
    have hz0 : (GoMath.ofInt 0 : Ieee float64) = 0 := by
      apply Subtype.ext
      rw [Ieee.zero_val, float64_int 0 (by norm_num)]; simp
    have e2 : (GoMath.ofInt 2 : Ieee float64).1 = .fin 2 := by
      have := float64_int 2 (by norm_num)
      simpa using this
    have hbig : ∃ w : ℝ, (GoMath.log (GoMath.ofInt 2 * p.conf.b) : Ieee float64).1 = .fin w := by
      have i1 : binary64.rnd (2 ^ 1023) = 2 ^ 1023 := binary64_scales.pow 1023
      have t1 : |(2 : ℝ) ^ 1023| < 2 ^ 1024 := float64_pow_lt (by norm_num)
      have h23 : 2 * β ≤ 2 ^ 1023 := by
        rw [show (1023 : Nat) = 1022 + 1 from rfl, pow_succ]
        linarith
      obtain ⟨m, hm, m1, m2⟩ := float64_between (x := 2 * β) binary64.one i1 t1
        (float64_small (by norm_num) (by norm_num)) (by linarith) h23
      have hl1 : 0 ≤ Real.log m := Real.log_nonneg m1
      have hl2 : Real.log m ≤ 2 ^ 1023 := by
        have := Real.log_le_sub_one_of_pos (by linarith : 0 < m)
        linarith
      obtain ⟨l, hl, -, -⟩ := float64_between binary64.zero i1 t1 (by rw [abs_zero]; positivity) hl1 hl2
      refine ⟨l, ?_⟩
      rw [← hl]
      show (Ieee.of float64 (GoMath.log (Ieee.of float64 (XReal.mul (GoMath.ofInt 2 : Ieee float64).1 p.conf.b.1)).1)).1 = _
      rw [e2, hb]
      show (Ieee.of float64 (GoMath.log (Ieee.of float64 (.fin (2 * β))).1)).1 = _
      rw [hm]
      have hlog : (GoMath.log (XReal.fin m) : XReal) = .fin (Real.log m) := by
        show (open Classical in if m < 0 then XReal.nan else if m = 0 then XReal.negInf else .fin (Real.log m)) = _
        rw [if_neg (by linarith), if_neg (by linarith)]
      rw [hlog]
    obtain ⟨w, hw⟩ := hbig
    have hmul : (GoMath.log (GoMath.ofInt 2 * p.conf.b) * 0 : Ieee float64) = 0 := by
      apply Subtype.ext
      show (Ieee.of float64 (XReal.mul (GoMath.log (GoMath.ofInt 2 * p.conf.b) : Ieee float64).1 (0 : Ieee float64).1)).1 = _
      rw [hw, Ieee.zero_val]
      show (Ieee.of float64 (.fin (w * 0))).1 = _
      rw [mul_zero]
      exact Ieee.zero_val
    have hadd : (0 + 0 : Ieee float64) = 0 := by
      apply Subtype.ext
      show (Ieee.of float64 (XReal.add (0 : Ieee float64).1 (0 : Ieee float64).1)).1 = _
      rw [Ieee.zero_val]
      show (Ieee.of float64 (.fin (0 + 0))).1 = _
      rw [add_zero]
      exact Ieee.zero_val
    rw [hz0, hmul, hsub, hadd, hadd]
    apply Subtype.ext
    show (Ieee.of float64 (GoMath.exp (0 : Ieee float64).1)).1 = _
    rw [Ieee.zero_val]
    show (Ieee.of float64 (.fin (Real.exp 0))).1 = _
    rw [Real.exp_zero]; rfl
  rw [hrho] at hc
  rcases hc with ⟨_, c1, c2, c3, _⟩ | ⟨hn, _⟩
  · exact ⟨impl', fig, by rw [hit, c3], hrho, c1, c2⟩
  · exact absurd hu hn

/-! ### The density of a proposal depends on the number of its centres only -/

theorem shiftLoop_self : ∀ (l : List (Ieee float64)), (∀ x ∈ l, ∃ y : ℝ, x.1 = .fin y) → shiftLoop l l 0 = some 0
  | [], _ => rfl
  | a :: l, h => by
    obtain ⟨y, hy⟩ := h a (by simp)
    have hsub : (a - a : Ieee float64) = 0 := by
      apply Subtype.ext
      show (Ieee.of float64 (XReal.add a.1 (XReal.neg a.1))).1 = _
      rw [hy]
      show (Ieee.of float64 (.fin (y + -y))).1 = _
      rw [add_neg_cancel]; rfl
    have hadd : (0 + 0 * 0 : Ieee float64) = 0 := by
      rw [float64_zero_mul Ieee.zero_val]
      apply Subtype.ext
      show (Ieee.of float64 (XReal.add (0 : Ieee float64).1 (0 : Ieee float64).1)).1 = _
      rw [Ieee.zero_val]
      show (Ieee.of float64 (.fin (0 + 0))).1 = _
      rw [add_zero]
      exact Ieee.zero_val
    show shiftLoop l l (0 + (a - a) * (a - a)) = _
    rw [hsub, hadd]
    exact shiftLoop_self l fun x hx => h x (by simp [hx])

theorem probaLoop_const {E F : Type} [Zero F] [Add F] (pdf : E → E → Nat → F) (t : Nat) (g : F) :
    ∀ (c c' : List E) (a : F), (∀ x ∈ c, pdf x x t = g) → (∀ x ∈ c', pdf x x t = g) → c.length = c'.length →
      probaLoop pdf t c c a = probaLoop pdf t c' c' a
  | [], [], _, _, _, _ => rfl
  | [], _ :: _, _, _, _, h => by simp at h
  | _ :: _, [], _, _, _, h => by simp at h
  | x :: c, y :: c', a, h, h', hl => by
    show probaLoop pdf t c c (a + pdf x x t) = probaLoop pdf t c' c' (a + pdf y y t)
    rw [h x (by simp), h' y (by simp)]
    exact probaLoop_const pdf t g c c' _ (fun z hz => h z (by simp [hz])) (fun z hz => h' z (by simp [hz])) (by simpa using hl)

/-- **C135, densities.** With the multivariate t distribution the density which `propose` and `Init` compute of centres
with finite coordinates depends on their number and on the time only: `proba` is called with the centres on both sides. -/
theorem C135_pdf_blind {D R : Type} {n : Nat} (p : McmcParams D (Vec (Ieee float64) n) (Ieee float64) R)
    (m : MultivT (Ieee float64)) (pi : Ieee float64) (hp : ∀ mu x t, m.pdf pi mu.1 x.1 t = some (p.pdf mu x t)) (t : Nat)
    (c c' : List (Vec (Ieee float64) n)) (hc : ∀ x ∈ c, IeeeFinite x) (hc' : ∀ x ∈ c', IeeeFinite x)
    (hl : c.length = c'.length) : proba p.pdf t c c = proba p.pdf t c' c' := by
  have key : ∀ x : Vec (Ieee float64) n, IeeeFinite x → m.pdf pi [] [] t = some (p.pdf x x t) := by
    intro x hx
    rw [← hp x x t]
    unfold MultivT.pdf
    rw [shiftLoop_self x.1 hx]
    rfl
  have h0 : ∃ g, m.pdf pi [] [] t = some g := ⟨_, rfl⟩
  obtain ⟨g, hg⟩ := h0
  refine probaLoop_const p.pdf t g c c' 0 (fun x hx => ?_) (fun x hx => ?_) hl
  · have := key x (hc x hx)
    rw [hg] at this
    exact (Option.some.inj this).symm
  · have := key x (hc' x hx)
    rw [hg] at this
    exact (Option.some.inj this).symm

/-! ### Examples -/

namespace McmcStuckExample

/-- The first `k` data. -/
def firsts {E : Type} (_ : Unit) (k : Int) (data : List E) : InitRes E :=
  if 0 ≤ k ∧ k ≤ data.length then .ok (data.take k.toNat) else .err

theorem firsts_contract {E : Type} : InitContract (firsts (E := E)) := by
  intro d k data c h
  unfold firsts at h
  split at h
  · rename_i hk
    cases h
    rw [List.length_take]
    omega
  · cases h

/-- A sequential mcmc on points of `n` coordinates, with the t distribution of its dimension. -/
noncomputable def params (n : Nat) (pi : Ieee float64) (conf : McmcConf (Ieee float64) Nat) :
    McmcParams Unit (Vec (Ieee float64) n) (Ieee float64) Nat :=
  { conf := { conf with par := false, initK := 1, maxK := 2, frameSize := 0 }
    space := euclidSpace (Ieee float64) n
    sysCPU := 4
    pdf := fun mu x t => ((MultivT.new (roundGamma float64) n 0).pdf pi mu.1 x.1 t).getD 0
    initializer := firsts }

theorem shiftLoop_some {F : Type} [Zero F] [Add F] [Sub F] [Mul F] : ∀ (l l' : List F) (a : F), l.length = l'.length →
    ∃ r, shiftLoop l l' a = some r
  | [], _, a, _ => ⟨a, rfl⟩
  | _ :: _, [], _, h => by simp at h
  | _ :: l, _ :: l', _, h => shiftLoop_some l l' _ (by simpa using h)

theorem params_pdf (n : Nat) (pi : Ieee float64) (conf : McmcConf (Ieee float64) Nat) (mu x : Vec (Ieee float64) n) (t : Nat) :
    (MultivT.new (roundGamma float64) n 0).pdf pi mu.1 x.1 t = some ((params n pi conf).pdf mu x t) := by
  obtain ⟨r, hr⟩ := shiftLoop_some mu.1 x.1 0 (by rw [mu.2, x.2])
  show _ = some (((MultivT.new (roundGamma float64) n 0).pdf pi mu.1 x.1 t).getD 0)
  unfold MultivT.pdf
  rw [hr]
  rfl

/-- `Init` succeeds on any non-empty data... -/
theorem params_init (n : Nat) (pi : Ieee float64) (conf : McmcConf (Ieee float64) Nat) (e : Vec (Ieee float64) n)
    (data : List (Vec (Ieee float64) n)) :
    ∃ s, (McmcSys.new (params n pi conf) (e :: data)).run (params n pi conf) [.init ()] = some s ∧ s.ready = true ∧
      s.centroids = [e] := by
  have hdat : (McmcImpl.new (params n pi conf) (e :: data)).buffer.apply.data = e :: data := rfl
  obtain ⟨st, h1, -⟩ := reduceLoss_state Ieee.neg_one_lt (euclidSpace (Ieee float64) n) [e] (e :: data) (by simp) conf.norm
  have hl : mcmcLoss (params n pi conf) [e] (e :: data) = some (sumF st.1) := by
    simp only [mcmcLoss, params, Bool.false_eq_true, if_false, totalLoss]
    exact congrArg (Option.map fun r => sumF r.1) h1
  have hin : (params n pi conf).initializer () (params n pi conf).conf.initK (e :: data) = .ok [e] := by
    show firsts () 1 (e :: data) = _
    simp [firsts]
  have hi : ((McmcImpl.new (params n pi conf) (e :: data)).init (params n pi conf) ()).2 = .ok [e] := by
    unfold McmcImpl.init
    simp only [hdat, hin, hl, proba, probaLoop]
  refine ⟨⟨((McmcImpl.new (params n pi conf) (e :: data)).init (params n pi conf) ()).1, [e], true⟩, ?_, rfl, rfl⟩
  have hstep : (McmcSys.new (params n pi conf) (e :: data)).step (params n pi conf) (.init ()) =
      some ⟨((McmcImpl.new (params n pi conf) (e :: data)).init (params n pi conf) ()).1, [e], true⟩ := by
    have hp : (McmcImpl.new (params n pi conf) (e :: data)).init (params n pi conf) () =
        (((McmcImpl.new (params n pi conf) (e :: data)).init (params n pi conf) ()).1, .ok [e]) := Prod.ext rfl hi
    simp only [McmcSys.step, show (McmcSys.new (params n pi conf) (e :: data)).impl =
      McmcImpl.new (params n pi conf) (e :: data) from rfl]
    rw [hp]
  simp only [McmcSys.run, hstep]

/-- ...and in 341 dimensions the centroid is the first datum whatever follows, until the next `Init`. -/
example (pi : Ieee float64) (conf : McmcConf (Ieee float64) Nat) (e : Vec (Ieee float64) 341)
    (data : List (Vec (Ieee float64) 341)) :
    ∃ s, (McmcSys.new (params 341 pi conf) (e :: data)).run (params 341 pi conf) [.init ()] = some s ∧ s.ready = true ∧
      ∀ ops' s', s.run (params 341 pi conf) ops' = some s' → (∀ op ∈ ops', ∀ d, op ≠ .init d) →
        s'.centroids = [e] := by
  obtain ⟨s, h1, h2, h3⟩ := params_init 341 pi conf e data
  refine ⟨s, h1, h2, fun ops' s' hr hop => ?_⟩
  rw [← h3]
  exact (C135_dimension (dim := 341) (params 341 pi conf) (by show (1 : Int) ≤ 4; decide)
    (by show (1 : Int) ≤ 1; decide) (by show (1 : Int) ≤ 2; decide) firsts_contract
    (roundGamma float64) roundGamma_overflows pi 0 0 Ieee.zero_val (by norm_num) (by norm_num) (by norm_num)
    (params_pdf 341 pi conf) _ _ s h1).2.2 ops' s' hr hop

/-- A negative `B` is accepted. -/
example (env : ConfEnv Nat) (hcpu : env.numCPU ≠ 0) (raw : McmcConf (Ieee float64) Nat) (hc : CtrlOk raw.ctrl) :
    ∃ conf, ({ raw with b := -1, initK := 3, maxK := 0 } : McmcConf (Ieee float64) Nat).newAlgo env = some conf :=
  let ⟨conf, h, _⟩ := C135_negative_b (D := Unit) (E := Nat) env hcpu { raw with b := -1, initK := 3, maxK := 0 }
    Ieee.neg_one_lt (by show (1 : Int) ≤ 3; decide) (by show (3 : Int) ≤ 16; decide) hc
  ⟨conf, h⟩

/-- With `Amp` 0, a proposal of loss 2⁵³ is worth the current state of loss 0. -/
example (conf : McmcConf (Ieee float64) Nat) (ha : conf.amp = 0) (c : List Nat) :
    ratio conf 2 ⟨1, c, 0, 0⟩ ⟨1, c, GoMath.ofInt (2 ^ 53), 0⟩ 10 = ratio conf 2 ⟨1, c, 0, 0⟩ ⟨1, c, 0, 0⟩ 10 := by
  refine C135_amp_blind conf ha (by norm_num) (by norm_num) (by norm_num) ⟨1, c, 0, 0⟩ ⟨1, c, 0, 0⟩ ⟨1, c, 0, 0⟩
    ⟨1, c, GoMath.ofInt (2 ^ 53), 0⟩ ⟨0, ?_⟩ ⟨-(2 ^ 53), ?_⟩ ⟨rfl, rfl⟩ ⟨rfl, rfl⟩
  · show (Ieee.of float64 (XReal.add (0 : Ieee float64).1 (XReal.neg (0 : Ieee float64).1))).1 = _
    rw [Ieee.zero_val]
    show (Ieee.of float64 (.fin (0 + -0))).1 = _
    rw [neg_zero, add_zero]; exact Ieee.zero_val
  · show (Ieee.of float64 (XReal.add (0 : Ieee float64).1 (XReal.neg (GoMath.ofInt (2 ^ 53) : Ieee float64).1))).1 = _
    rw [Ieee.zero_val, float64_int _ (by norm_num)]
    show (Ieee.of float64 (.fin (0 + -(((2 ^ 53 : ℤ)) : ℝ)))).1 = _
    have e : binary64.rnd (-(2 ^ 53)) = -(2 ^ 53) := by rw [binary64.neg, binary64_scales.pow 53]
    rw [zero_add, Int.cast_pow, Int.cast_ofNat, Ieee.of_fin (f := float64)]
    · exact congrArg _ e
    · show |binary64.rnd (-(2 ^ 53))| < 2 ^ 1024
      rw [e, abs_neg]
      exact float64_pow_lt (by norm_num)

end McmcStuckExample

end Distclus
