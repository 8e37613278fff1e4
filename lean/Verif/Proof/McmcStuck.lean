import Verif.Model.MultivT
import Verif.Proof.Mcmc
import Verif.Proof.Ieee
import Verif.Spec.McmcStuck
import Verif.Spec.Nan
import Mathlib.Analysis.SpecialFunctions.Gamma.BohrMollerup
import Mathlib.Analysis.SpecialFunctions.Gaussian.GaussianIntegral
import Mathlib.Analysis.Real.Pi.Bounds
/-!
# Acceptance ratios which are no numbers: lemmas
-/
set_option linter.unusedSectionVars false
namespace Distclus
open Spec

/-! ### Histories of mcmc whose ratios are NaN -/

section
variable {D E F R : Type} [Zero F] [One F] [Neg F] [Add F] [Sub F] [Mul F] [BEq F] [LT F] [DecidableLT F] [GoMath F] [Div F]
  [FloatOrder F]

/-- If each iteration of a state with the invariant `P` has a NaN ratio, nothing is ever accepted. -/
theorem mcmc_frozen (p : McmcParams D E F R) (P : McmcSys E F → Prop)
    (hstep : ∀ s s' op, P s → s.step p op = some s' → P s')
    (hrej : ∀ (s : McmcSys E F) d impl' clust fig, P s → s.ready = true →
      s.impl.iterate p s.centroids d = some (impl', clust, fig) → isNaN impl'.rho) :
    ∀ (ops : List (McmcOp D E F)) (s s' : McmcSys E F), P s → s.run p ops = some s' →
      P s' ∧ s'.impl.acc = s.impl.acc ∧ s'.impl.store = s.impl.store ∧
      ((∀ op ∈ ops, ∀ d, op ≠ .init d) → s'.centroids = s.centroids ∧ s'.impl.current = s.impl.current) := by
  intro ops
  induction ops with
  | nil => intro s s' hP hr; cases hr; exact ⟨hP, rfl, rfl, fun _ => ⟨rfl, rfl⟩⟩
  | cons op ops ih =>
    intro s s' hP hr
    simp only [McmcSys.run] at hr
    cases hs : s.step p op with
    | none => simp [hs] at hr
    | some s1 =>
      rw [hs] at hr
      have h1 : s1.impl.acc = s.impl.acc ∧ s1.impl.store = s.impl.store ∧
          ((∀ d, op ≠ .init d) → s1.centroids = s.centroids ∧ s1.impl.current = s.impl.current) := by
        cases op with
        | init d =>
          simp only [McmcSys.step] at hs
          split at hs
          · rename_i impl c hin
            cases hs
            obtain ⟨_, b2, b3, _⟩ := init_cases p s.impl impl d _ hin
            exact ⟨b3, b2, fun h => absurd rfl (h d)⟩
          · rename_i impl r hne hin
            cases hs
            obtain ⟨_, b2, b3, _⟩ := init_cases p s.impl impl d _ hin
            exact ⟨b3, b2, fun h => absurd rfl (h d)⟩
        | push e r =>
          simp only [McmcSys.step] at hs
          split at hs
          · cases hs
          · cases hs; exact ⟨rfl, rfl, fun _ => ⟨rfl, rfl⟩⟩
        | iterate d =>
          simp only [McmcSys.step] at hs
          split at hs
          · rename_i hrd
            split at hs
            · cases hs; exact ⟨rfl, rfl, fun _ => ⟨rfl, rfl⟩⟩
            · rename_i impl' clust fig hit
              cases hs
              have hn := hrej s d impl' clust fig hP hrd hit
              obtain ⟨prop, _, _, _, _, _, _, hc⟩ := iterate_cases p _ _ _ _ _ _ hit
              rcases hc with ⟨hlt, _⟩ | ⟨_, c1, c2, c3, c4⟩
              · exact absurd hlt (FloatOrder.not_lt_nan hn)
              · exact ⟨c1, c4, fun _ => ⟨c3, c2⟩⟩
          · cases hs
      obtain ⟨a1, a2, a3⟩ := h1
      obtain ⟨b0, b1, b2, b3⟩ := ih s1 s' (hstep s s1 op hP hs) hr
      refine ⟨b0, b1.trans a1, b2.trans a2, fun hop => ?_⟩
      obtain ⟨c1, c2⟩ := b3 fun o ho => hop o (by simp [ho])
      obtain ⟨d1, d2⟩ := a3 (hop op (by simp))
      exact ⟨c1.trans d1, c2.trans d2⟩

end

/-! ### `+Inf` and NaN -/

section
variable {f : Format}

theorem Ieee.of_posInf : (Ieee.of f .posInf).1 = .posInf := rfl
theorem Ieee.of_nan : (Ieee.of f .nan).1 = .nan := rfl

theorem Spec.Blown.of {x : XReal} (h : x = .posInf ∨ x = .nan) : Blown (Ieee.of f x) := by
  rcases h with rfl | rfl
  · exact Or.inl rfl
  · exact Or.inr rfl

theorem Spec.Blown.add {a : Ieee f} (h : Blown a) (b : Ieee f) : Blown (a + b) := by
  refine Blown.of (x := XReal.add a.1 b.1) ?_
  rcases h with h | h <;> rw [h] <;> cases b.1 <;> simp [XReal.add]

theorem Spec.Blown.sub {a : Ieee f} (h : Blown a) (b : Ieee f) : Blown (a - b) := by
  refine Blown.of (x := XReal.add a.1 (XReal.neg b.1)) ?_
  rcases h with h | h <;> rw [h] <;> cases b.1 <;> simp [XReal.add, XReal.neg]

theorem Spec.Blown.fin_add {a b : Ieee f} {r : ℝ} (ha : a.1 = .fin r) (h : Blown b) : Blown (a + b) := by
  refine Blown.of (x := XReal.add a.1 b.1) ?_
  rcases h with h | h <;> rw [h, ha] <;> simp [XReal.add]

theorem Spec.Blown.sub_self {a b : Ieee f} (ha : Blown a) (hb : Blown b) : (a - b).1 = .nan := by
  show (Ieee.of f (XReal.add a.1 (XReal.neg b.1))).1 = _
  rcases ha with h | h <;> rcases hb with h' | h' <;> rw [h, h'] <;> rfl

theorem Ieee.zero_val : (0 : Ieee f).1 = .fin 0 := by
  rw [← Fl.toIeee_zero]
  exact Fl.toIeee_val (by rw [Fl.val_zero, abs_zero]; linarith [f.one_lt_top])

theorem probaLoop_blown {E : Type} {pdf : E → E → Nat → Ieee f} (t : Nat) :
    ∀ (x mu : List E) (a r : Ieee f), Blown a → probaLoop pdf t x mu a = some r → Blown r := by
  intro x
  induction x with
  | nil => intro mu a r ha h; cases h; exact ha
  | cons v x ih =>
    intro mu a r ha h
    cases mu with
    | nil => cases h
    | cons m mu => exact ih mu _ r (ha.add _) h

theorem proba_blown {E : Type} {pdf : E → E → Nat → Ieee f} (hp : ∀ m x t, Blown (pdf m x t)) (t : Nat)
    (x mu : List E) (hx : x ≠ []) (r : Ieee f) (h : proba pdf t x mu = some r) : Blown r := by
  cases x with
  | nil => exact absurd rfl hx
  | cons v x =>
    cases mu with
    | nil => cases h
    | cons m mu => exact probaLoop_blown t x mu _ r (Blown.fin_add Ieee.zero_val (hp m v t)) h

/-- A distribution whose factor is `+Inf` or NaN has such densities only. -/
theorem MultivT.pdf_blown (pi : Ieee f) (m : MultivT (Ieee f)) (h : Blown m.gammaFactor) (mu x : List (Ieee f))
    (t : Nat) (r : Ieee f) (hr : m.pdf pi mu x t = some r) : Blown r := by
  unfold MultivT.pdf at hr
  split at hr
  · cases hr
  · cases hr
    exact (h.sub _).add _

theorem Ieee.posInf_div {a : Ieee f} (h : a.1 = .posInf) (b : Ieee f) :
    Blown (GoMath.log (a / b) : Ieee f) := by
  have h1 : (a / b).1 = .posInf ∨ (a / b).1 = .negInf ∨ (a / b).1 = .nan := by
    show f.round (XReal.div a.1 b.1) = _ ∨ f.round (XReal.div a.1 b.1) = _ ∨ f.round (XReal.div a.1 b.1) = _
    rw [h]
    cases b.1 with
    | nan => exact Or.inr (Or.inr rfl)
    | negInf => exact Or.inr (Or.inr rfl)
    | posInf => exact Or.inr (Or.inr rfl)
    | fin r =>
      by_cases hr : r < 0
      · right; left; simp only [XReal.div, if_pos hr]; rfl
      · left; simp only [XReal.div, if_neg hr]; rfl
  show Blown (Ieee.of f (GoMath.log (a / b).1))
  rcases h1 with h1 | h1 | h1 <;> rw [h1]
  · exact Or.inl rfl
  · exact Or.inr rfl
  · exact Or.inr rfl

/-- The value of a result which does not overflow. -/
theorem Ieee.of_fin {x : ℝ} (h : |f.r.rnd x| < f.top) : (Ieee.of f (.fin x)).1 = .fin (f.r.rnd x) := by
  show f.round (.fin x) = _
  simp only [Format.round, if_pos h]

theorem Ieee.rnd_fin {x : Ieee f} {r : ℝ} (h : x.1 = .fin r) : f.r.rnd r = r ∧ |r| < f.top := by
  have := x.2
  unfold Format.Rep at this
  rw [h] at this
  unfold Format.round at this
  split at this
  · rename_i y hy
    cases hy
    split at this
    · rename_i hlt
      have e : f.r.rnd r = r := by simpa using this
      exact ⟨e, by rw [e] at hlt; exact hlt⟩
    · split at this <;> cases this
  · rename_i hne
    exact absurd rfl (hne r)

end

/-! ### `float64` -/

theorem float64_int (n : ℤ) (h : |n| ≤ 2 ^ 53) : (GoMath.ofInt n : Ieee float64).1 = .fin n := by
  have e : float64.r.rnd (n : ℝ) = n := binary64_int n h
  have hb : |(n : ℝ)| < float64.top := by
    have h1 : ((|n| : ℤ) : ℝ) ≤ ((2 ^ 53 : ℤ) : ℝ) := by exact_mod_cast h
    rw [Int.cast_abs] at h1
    refine lt_of_le_of_lt h1 ?_
    show ((2 ^ 53 : ℤ) : ℝ) < 2 ^ 1024
    rw [Int.cast_pow, Int.cast_ofNat]
    exact pow_lt_pow_right₀ (by norm_num) (by norm_num)
  show (Ieee.of float64 (.fin ((n : Int) : ℝ))).1 = _
  rw [Ieee.of_fin (by rw [e]; exact hb), e]

/-- A result between two representable numbers stays between them. -/
theorem float64_between {x a b : ℝ} (ha : binary64.rnd a = a) (hb : binary64.rnd b = b) (hb' : |b| < 2 ^ 1024)
    (ha' : |a| < 2 ^ 1024) (h1 : a ≤ x) (h2 : x ≤ b) :
    ∃ y, (Ieee.of float64 (.fin x)).1 = .fin y ∧ a ≤ y ∧ y ≤ b := by
  have c1 : a ≤ binary64.rnd x := by rw [← ha]; exact binary64.mono h1
  have c2 : binary64.rnd x ≤ b := by rw [← hb]; exact binary64.mono h2
  refine ⟨binary64.rnd x, Ieee.of_fin ?_, c1, c2⟩
  show |binary64.rnd x| < 2 ^ 1024
  rw [abs_lt] at hb' ha' ⊢
  constructor
  · exact lt_of_lt_of_le ha'.1 c1
  · exact lt_of_le_of_lt c2 hb'.2

theorem float64_pow_lt {k : Nat} (h : k < 1024) : |(2 : ℝ) ^ k| < 2 ^ 1024 := by
  rw [abs_of_pos (by positivity)]
  exact pow_lt_pow_right₀ (by norm_num) h

theorem float64_small {x : ℝ} (h0 : 0 ≤ x) (h : x ≤ 2 ^ 54) : |x| < 2 ^ 1024 := by
  rw [abs_of_nonneg h0]
  exact lt_of_le_of_lt h (pow_lt_pow_right₀ (by norm_num) (by norm_num))

/-- Multiples of 2¹⁰²¹ below the overflow. -/
theorem float64_eighths {m : Nat} (h : m < 8) :
    binary64.rnd (2 ^ 1021 * m) = 2 ^ 1021 * m ∧ |(2 : ℝ) ^ 1021 * m| < 2 ^ 1024 := by
  refine ⟨binary64_scales.mul (N := 8) (fun n hn => ?_) 1021 h.le, ?_⟩
  · have := binary64_int n (by rw [abs_of_nonneg (by positivity)]; omega)
    simpa using this
  · rw [abs_of_nonneg (by positivity), show (1024 : Nat) = 1021 + 3 from rfl, pow_add]
    have h0 : (0 : ℝ) < 2 ^ 1021 := by positivity
    have hm : (m : ℝ) < 2 ^ 3 := by
      have : (m : ℝ) < (8 : Nat) := Nat.cast_lt.2 h
      norm_num at this ⊢; exact this
    exact mul_lt_mul_of_pos_left hm h0

/-! ### The Gamma function -/

theorem top_le_factorial : (2 : ℝ) ^ 1024 ≤ (Nat.factorial 171 : ℝ) := by
  have h : 2 ^ 1024 ≤ Nat.factorial 171 := by decide +kernel
  have h' : ((2 ^ 1024 : Nat) : ℝ) ≤ (Nat.factorial 171 : ℝ) := Nat.cast_le.2 h
  rwa [Nat.cast_pow, Nat.cast_ofNat] at h'

theorem factorial_le : (14 : ℝ) * (Nat.factorial 170 : ℝ) ≤ 2 ^ 1021 * (5 : Nat) := by
  have h : 14 * Nat.factorial 170 ≤ 2 ^ 1021 * 5 := by decide +kernel
  have h' : ((14 * Nat.factorial 170 : Nat) : ℝ) ≤ ((2 ^ 1021 * 5 : Nat) : ℝ) := Nat.cast_le.2 h
  rwa [Nat.cast_mul, Nat.cast_mul, Nat.cast_pow, Nat.cast_ofNat, Nat.cast_ofNat] at h'

theorem Gamma_172 {r : ℝ} (h : 172 ≤ r) : (2 : ℝ) ^ 1024 ≤ Real.Gamma r := by
  refine top_le_factorial.trans ?_
  have e : Real.Gamma 172 = (Nat.factorial 171 : ℝ) := by
    have := Real.Gamma_nat_eq_factorial 171
    rw [← this]; congr 1; norm_num
  rw [← e]
  exact Real.Gamma_strictMonoOn_Ici.monotoneOn (by simp; norm_num) (by simp; linarith) h

theorem Gamma_le {r : ℝ} (h1 : 2 ≤ r) (h2 : r ≤ 343 / 2) : Real.Gamma r ≤ 14 * (Nat.factorial 170 : ℝ) := by
  refine (Real.Gamma_strictMonoOn_Ici.monotoneOn (by simpa using h1) (by simp; norm_num) h2).trans ?_
  have e1 : Real.Gamma 171 = (Nat.factorial 170 : ℝ) := by
    have := Real.Gamma_nat_eq_factorial 170
    rw [← this]; congr 1; norm_num
  have e2 : Real.Gamma 172 = 171 * (Nat.factorial 170 : ℝ) := by
    have := Real.Gamma_add_one (s := 171) (by norm_num)
    rw [← e1, ← this]; norm_num
  have h := Real.Gamma_mul_add_mul_le_rpow_Gamma_mul_rpow_Gamma (s := 171) (t := 172) (a := 1 / 2) (b := 1 / 2)
    (by norm_num) (by norm_num) (by norm_num) (by norm_num) (by norm_num)
  rw [show (1 / 2 : ℝ) * 171 + 1 / 2 * 172 = 343 / 2 by norm_num, ← Real.sqrt_eq_rpow, ← Real.sqrt_eq_rpow, e1, e2,
    Real.sqrt_mul (by norm_num)] at h
  have h0 : (0 : ℝ) ≤ (Nat.factorial 170 : ℝ) := Nat.cast_nonneg _
  have hs : √(171 : ℝ) ≤ 14 := by
    rw [Real.sqrt_le_left (by norm_num)]; norm_num
  have hm := Real.mul_self_sqrt h0
  refine h.trans ?_
  calc √(Nat.factorial 170 : ℝ) * (√171 * √(Nat.factorial 170 : ℝ))
      = √171 * (√(Nat.factorial 170 : ℝ) * √(Nat.factorial 170 : ℝ)) := by ring
    _ = √171 * (Nat.factorial 170 : ℝ) := by rw [hm]
    _ ≤ _ := mul_le_mul_of_nonneg_right hs h0

theorem Gamma_ge_one {r : ℝ} (h1 : 2 ≤ r) : 1 ≤ Real.Gamma r := by
  have := Real.Gamma_strictMonoOn_Ici.monotoneOn (by simp : (2 : ℝ) ∈ Set.Ici 2) (by simpa using h1) h1
  rwa [Real.Gamma_two] at this

theorem Gamma_three_half : 3 / 4 ≤ Real.Gamma (3 / 2) ∧ Real.Gamma (3 / 2) ≤ 1 := by
  have h := Real.Gamma_add_one (s := 1 / 2) (by norm_num)
  rw [Real.Gamma_one_half_eq, show (1 / 2 : ℝ) + 1 = 3 / 2 by norm_num] at h
  rw [h]
  have h1 : (3 / 2 : ℝ) ≤ √Real.pi := Real.le_sqrt_of_sq_le (by nlinarith [Real.pi_gt_three])
  have h2 : √Real.pi ≤ 2 := by
    rw [Real.sqrt_le_left (by norm_num)]; nlinarith [Real.pi_le_four]
  constructor <;> linarith

theorem roundGamma_fin {f : Format} {x : Ieee f} {r : ℝ} (h : x.1 = .fin r) :
    roundGamma f x = Ieee.of f (.fin (Real.Gamma r)) := by
  unfold roundGamma
  rw [h]

/-- The rounded Gamma function overflows from 172 on. -/
theorem roundGamma_overflows : GammaOverflows (roundGamma float64) := by
  intro x r hx hr
  have h := Gamma_172 hr
  have e : binary64.rnd (2 ^ 1024) = 2 ^ 1024 := binary64_scales.pow 1024
  have h1 : (2 : ℝ) ^ 1024 ≤ binary64.rnd (Real.Gamma r) := by
    have := binary64.mono h
    rwa [e] at this
  have h0 : (0 : ℝ) < 2 ^ 1024 := by positivity
  unfold roundGamma
  rw [hx]
  show float64.round (.fin (Real.Gamma r)) = _
  have hn : ¬ |float64.r.rnd (Real.Gamma r)| < float64.top := by
    rw [not_lt]
    exact h1.trans (le_abs_self _)
  simp only [Format.round, if_neg hn, if_pos (lt_of_lt_of_le h0 h)]

end Distclus
