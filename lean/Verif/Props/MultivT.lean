import Verif.Model.MultivT
import Verif.Model.RealMath
import Mathlib.Analysis.SpecialFunctions.Gamma.Basic
import Mathlib.Analysis.Real.Pi.Bounds
import Mathlib.Tactic.Linarith
import Mathlib.Tactic.Positivity
/-!
# C34, C73: the multivariate t distribution, in exact arithmetic
-/
namespace Distclus

/-- The Euclidean distance of two vectors of the same length. -/
noncomputable def Spec.eucl (x y : List ℝ) : ℝ :=
  Real.sqrt (List.zipWith (fun a b => (a - b) ^ 2) x y).sum

open Spec

theorem shiftLoop_eq : ∀ (mu x : List ℝ) (a : ℝ), mu.length ≤ x.length →
    shiftLoop mu x a = some (a + (List.zipWith (fun a b => (a - b) ^ 2) mu x).sum) := by
  intro mu
  induction mu with
  | nil => intro x a _; simp [shiftLoop]
  | cons m mu ih =>
    intro x a h
    cases x with
    | nil => simp at h
    | cons b x =>
      simp only [shiftLoop, ih x _ (by simpa using h), List.zipWith_cons_cons, List.sum_cons,
        Option.some.injEq]
      ring

theorem shiftLoop_none : ∀ (mu x : List ℝ) (a : ℝ), x.length < mu.length →
    shiftLoop mu x a = none := by
  intro mu
  induction mu with
  | nil => intro x a h; simp at h
  | cons m mu ih =>
    intro x a h
    cases x with
    | nil => rfl
    | cons b x => exact ih x _ (by simpa using h)

theorem sqs_nonneg (x y : List ℝ) : 0 ≤ (List.zipWith (fun a b => (a - b) ^ 2) x y).sum := by
  apply List.sum_nonneg
  intro z hz
  obtain ⟨i, hi, rfl⟩ := List.mem_iff_getElem.1 hz
  simp only [List.getElem_zipWith]
  positivity

theorem eucl_sq (x y : List ℝ) :
    eucl x y ^ 2 = (List.zipWith (fun a b => (a - b) ^ 2) x y).sum :=
  Real.sq_sqrt (sqs_nonneg x y)

theorem eucl_nonneg (x y : List ℝ) : 0 ≤ eucl x y := Real.sqrt_nonneg _

theorem eucl_comm : ∀ x y : List ℝ, eucl x y = eucl y x := by
  intro x y
  unfold eucl
  rw [List.zipWith_comm]
  congr 3
  funext a b
  ring

theorem eucl_translate : ∀ (x y v : List ℝ), x.length = v.length → y.length = v.length →
    eucl (List.zipWith (· + ·) x v) (List.zipWith (· + ·) y v) = eucl x y := by
  intro x y v hx hy
  unfold eucl
  congr 1
  induction v generalizing x y with
  | nil =>
    have := List.length_eq_zero_iff.1 hx
    subst this
    simp
  | cons c v ih =>
    cases x with
    | nil => simp at hx
    | cons a x =>
      cases y with
      | nil => simp at hy
      | cons b y =>
        simp only [List.zipWith_cons_cons, List.sum_cons]
        rw [ih x y (by simpa using hx) (by simpa using hy)]
        ring

theorem eucl_eq_zero : ∀ (x y : List ℝ), x.length = y.length → eucl x y = 0 → x = y := by
  intro x y h h0
  replace h0 : (List.zipWith (fun a b => (a - b) ^ 2) x y).sum = 0 := by
    rw [← eucl_sq, h0]; ring
  induction x generalizing y with
  | nil => exact (List.length_eq_zero_iff.1 h.symm).symm
  | cons a x ih =>
    cases y with
    | nil => simp at h
    | cons b y =>
      simp only [List.zipWith_cons_cons, List.sum_cons] at h0
      have h1 := sqs_nonneg x y
      have h2 := sq_nonneg (a - b)
      have h3 : (a - b) ^ 2 = 0 := by linarith
      have h4 : a = b := by nlinarith
      rw [h4, ih y (by simpa using h) (by linarith)]

/-- The value of the density in terms of the distance. -/
theorem pdf_eq (m : MultivT ℝ) (mu x : List ℝ) (h : mu.length = x.length) (t : Nat) :
    m.pdf Real.pi mu x t =
      some (m.gammaFactor - Real.log (Real.pi * (m.nu / Real.sqrt ((t * 20 : Int) : ℝ))) *
        ((m.dim : Int) : ℝ) / ((2 : Int) : ℝ) +
        (-m.power * Real.log (1 + eucl mu x ^ 2 / (m.nu / Real.sqrt ((t * 20 : Int) : ℝ))))) := by
  unfold MultivT.pdf
  rw [shiftLoop_eq mu x 0 (by omega), zero_add, eucl_sq]
  rfl

/-- **C34** (panics). `Pdf` panics exactly when the second vector is shorter than the first. -/
theorem C34_panics_iff (m : MultivT ℝ) (mu x : List ℝ) (t : Nat) :
    m.pdf Real.pi mu x t = none ↔ x.length < mu.length := by
  constructor
  · intro h
    by_contra hc
    unfold MultivT.pdf at h
    rw [shiftLoop_eq mu x 0 (by omega)] at h
    cases h
  · intro h
    unfold MultivT.pdf
    rw [shiftLoop_none mu x 0 h]

/-- **C34** (symmetry). -/
theorem C34_symmetric (m : MultivT ℝ) (mu x : List ℝ) (h : mu.length = x.length) (t : Nat) :
    m.pdf Real.pi mu x t = m.pdf Real.pi x mu t := by
  rw [pdf_eq m mu x h t, pdf_eq m x mu h.symm t, eucl_comm]

/-- **C34** (translation). -/
theorem C34_translation (m : MultivT ℝ) (mu x v : List ℝ) (h1 : mu.length = v.length)
    (h2 : x.length = v.length) (t : Nat) :
    m.pdf Real.pi (List.zipWith (· + ·) mu v) (List.zipWith (· + ·) x v) t =
      m.pdf Real.pi mu x t := by
  rw [pdf_eq m mu x (by omega) t, pdf_eq m _ _ (by simp [h1, h2]) t, eucl_translate mu x v h1 h2]

/-- **C34** (monotony). For a positive `Nu` (or the default) and a positive time, the density is a
strictly decreasing function of the Euclidean distance. -/
theorem C34_decreasing (dim : Nat) (nu : ℝ) (hnu : 0 ≤ nu) (t : Nat) (ht : 0 < t)
    (mu x mu' x' : List ℝ) (h : mu.length = x.length) (h' : mu'.length = x'.length) :
    let m := MultivT.new Real.Gamma dim nu
    ∃ v v', m.pdf Real.pi mu x t = some v ∧ m.pdf Real.pi mu' x' t = some v' ∧
      (v' < v ↔ eucl mu x < eucl mu' x') ∧ (v' = v ↔ eucl mu x = eucl mu' x') := by
  intro m
  have hnu' : 0 < m.nu := by
    simp only [m, MultivT.new]
    split
    · change (0 : ℝ) < ((3 : Int) : ℝ); norm_num
    · rename_i hz
      rcases hnu.eq_or_lt with h0 | h0
      · subst h0; simp at hz
      · exact h0
  have hpow : 0 < m.power := by
    have : m.power = (((dim : Int) : ℝ) + m.nu) / ((2 : Int) : ℝ) := by
      simp only [m, MultivT.new]; rfl
    rw [this]
    have : (0 : ℝ) ≤ ((dim : Int) : ℝ) := by exact_mod_cast Nat.zero_le dim
    have h2 : (0 : ℝ) < ((2 : Int) : ℝ) := by norm_num
    positivity
  set scale := m.nu / Real.sqrt ((t * 20 : Int) : ℝ) with hs
  have hscale : 0 < scale := by
    apply div_pos hnu'
    apply Real.sqrt_pos.2
    have : (0 : Int) < t * 20 := by omega
    exact_mod_cast this
  refine ⟨_, _, pdf_eq m mu x h t, pdf_eq m mu' x' h' t, ?_⟩
  rw [← hs]
  have harg : ∀ e : ℝ, 0 < 1 + e ^ 2 / scale := fun e => by positivity
  have key : ∀ e e' : ℝ, 0 ≤ e → 0 ≤ e' → e < e' →
      Real.log (1 + e ^ 2 / scale) < Real.log (1 + e' ^ 2 / scale) := by
    intro e e' he he' hlt
    apply Real.log_lt_log (harg e)
    have : e ^ 2 < e' ^ 2 := by nlinarith
    have := div_lt_div_of_pos_right this hscale
    linarith
  have n1 := eucl_nonneg mu x
  have n2 := eucl_nonneg mu' x'
  constructor
  · constructor
    · intro hv
      by_contra hc
      have hle : eucl mu' x' ≤ eucl mu x := not_lt.1 hc
      rcases hle.eq_or_lt with heq | hlt
      · rw [heq] at hv; exact lt_irrefl _ hv
      · have := mul_lt_mul_of_pos_left (key _ _ n2 n1 hlt) hpow
        linarith
    · intro hlt
      have := mul_lt_mul_of_pos_left (key _ _ n1 n2 hlt) hpow
      linarith
  · constructor
    · intro hv
      by_contra hne
      rcases lt_or_gt_of_ne hne with hlt | hlt
      · have := mul_lt_mul_of_pos_left (key _ _ n1 n2 hlt) hpow
        linarith
      · have := mul_lt_mul_of_pos_left (key _ _ n2 n1 hlt) hpow
        linarith
    · intro heq; rw [heq]

/-- **C34** (maximum). The density is maximal at `mu`, and only there. -/
theorem C34_maximum (dim : Nat) (nu : ℝ) (hnu : 0 ≤ nu) (t : Nat) (ht : 0 < t)
    (mu x : List ℝ) (h : mu.length = x.length) :
    let m := MultivT.new Real.Gamma dim nu
    ∃ v top, m.pdf Real.pi mu x t = some v ∧ m.pdf Real.pi mu mu t = some top ∧ v ≤ top ∧
      (v = top ↔ x = mu) := by
  intro m
  obtain ⟨top, v, h1, h2, h3, h4⟩ := C34_decreasing dim nu hnu t ht mu mu mu x rfl h
  have hz : ∀ l : List ℝ, eucl l l = 0 := by
    intro l
    have : (List.zipWith (fun a b => (a - b) ^ 2) l l).sum = 0 := by
      induction l with
      | nil => simp
      | cons a l ih => simp
    rw [eucl, this, Real.sqrt_zero]
  rw [hz] at h3 h4
  refine ⟨v, top, h2, h1, ?_, ?_⟩
  · rcases (eucl_nonneg mu x).eq_or_lt with h0 | h0
    · exact (h4.2 h0).le
    · exact (h3.2 h0).le
  · rw [h4]
    constructor
    · intro h0; exact (eucl_eq_zero mu x h h0.symm).symm
    · intro h0; subst h0; exact (hz _).symm

/-- The hypotheses can be met: two vectors at different distances of the origin. -/
example : eucl [0, 0] [1, 0] = 1 ∧ eucl [0, 0] [3, 4] = 5 := by
  constructor
  · simp [eucl]
  · have : (List.zipWith (fun a b : ℝ => (a - b) ^ 2) [0, 0] [3, 4]).sum = 5 ^ 2 := by norm_num
    rw [eucl, this, Real.sqrt_sq (by norm_num)]

/-! ### `Sample` -/

theorem sampleLoop_eq (c s : ℝ) : ∀ (mu z : List ℝ), z.length ≤ mu.length →
    sampleLoop c s mu z = some (List.zipWith (fun a b => a + b * c * s) mu z) := by
  intro mu z
  induction z generalizing mu with
  | nil => intro _; simp [sampleLoop]
  | cons b z ih =>
    intro h
    cases mu with
    | nil => simp at h
    | cons a mu => simp [sampleLoop, ih mu (by simpa using h)]

/-- **C73** (panics, length). `Sample` returns a vector of the dimension of the distribution, the
first coordinates of the centre being shifted by the scaled draw; it panics exactly when the centre
is too short. -/
theorem C73_sample (m : MultivT ℝ) (mu normal : List ℝ) (hn : normal.length = m.dim) (t : Nat)
    (chi : ℝ) :
    (m.dim ≤ mu.length → m.sample mu t normal chi =
      some (List.zipWith (fun a b => a + b * Real.sqrt (m.nu / chi) *
        (1 / Real.sqrt (20 * t))) mu normal)) ∧
    (m.sample mu t normal chi = none ↔ mu.length < m.dim) := by
  have h1 : m.dim ≤ mu.length → m.sample mu t normal chi =
      some (List.zipWith (fun a b => a + b * Real.sqrt (m.nu / chi) *
        (1 / Real.sqrt (20 * t))) mu normal) := by
    intro h
    unfold MultivT.sample
    rw [sampleLoop_eq _ _ mu normal (by omega)]
    have e1 : (GoMath.ofInt 1 : ℝ) = 1 := by change ((1 : Int) : ℝ) = 1; norm_num
    have e2 : (GoMath.ofInt ((t : Int) * 20) : ℝ) = 20 * t := by
      change (((t : Int) * 20 : Int) : ℝ) = 20 * t; push_cast; ring
    rw [e1, e2]
    rfl
  refine ⟨h1, ?_, ?_⟩
  · intro h
    by_contra hc
    rw [h1 (by omega)] at h
    cases h
  · intro h
    unfold MultivT.sample
    have : ∀ (c s : ℝ) (mu z : List ℝ), mu.length < z.length → sampleLoop c s mu z = none := by
      intro c s mu z
      induction z generalizing mu with
      | nil => intro h; simp at h
      | cons b z ih =>
        intro h
        cases mu with
        | nil => rfl
        | cons a mu => simp [sampleLoop, ih mu (by simpa using h)]
    exact this _ _ mu normal (by omega)

/-- The claim that `Pdf` fits `Sample`, in a necessary form. `Sample` returns `mu + s(t)·y` where
`s(t) = 1/√(20 t)` and the distribution of `y` does not depend on the time; if `Pdf` were its
log-density, `Pdf(mu, mu + s(t)·y, t) + Dim·log s(t)` would not depend on the time. -/
def Spec.FitsScale (m : MultivT ℝ) (s : Nat → ℝ) : Prop :=
  ∀ (mu y : List ℝ), mu.length = m.dim → y.length = m.dim → ∀ (t t' : Nat), 0 < t → 0 < t' →
    ∃ v v', m.pdf Real.pi mu (List.zipWith (fun a b => a + s t * b) mu y) t = some v ∧
      m.pdf Real.pi mu (List.zipWith (fun a b => a + s t' * b) mu y) t' = some v' ∧
      v + m.dim * Real.log (s t) = v' + m.dim * Real.log (s t')

theorem eucl_scaled (c : ℝ) : ∀ (mu y : List ℝ), mu.length = y.length →
    eucl mu (List.zipWith (fun a b => a + c * b) mu y) ^ 2 = c ^ 2 * (y.map (· ^ 2)).sum := by
  intro mu y h
  rw [eucl_sq]
  induction y generalizing mu with
  | nil => simp
  | cons b y ih =>
    cases mu with
    | nil => simp at h
    | cons a mu =>
      simp only [List.zipWith_cons_cons, List.sum_cons, List.map_cons]
      rw [ih mu (by simpa using h)]
      ring

/-- `Pdf` fits a sampler with the scale `(20 t)^(-1/4)`. -/
theorem C73_pdf_scale (m : MultivT ℝ) (hnu : 0 < m.nu) :
    FitsScale m fun t => 1 / Real.sqrt (Real.sqrt (20 * t)) := by
  intro mu y hmu hy t t' ht ht'
  have hlen : ∀ c : ℝ, mu.length = (List.zipWith (fun a b => a + c * b) mu y).length := by
    intro c; simp [hmu, hy]
  refine ⟨_, _, pdf_eq m mu _ (hlen _) t, pdf_eq m mu _ (hlen _) t', ?_⟩
  rw [eucl_scaled _ mu y (by omega), eucl_scaled _ mu y (by omega)]
  have key : ∀ t : Nat, 0 < t → ∀ q : ℝ,
      (1 / Real.sqrt (Real.sqrt (20 * t))) ^ 2 * q / (m.nu / Real.sqrt ((t * 20 : Int) : ℝ)) =
        q / m.nu ∧
      Real.log (Real.pi * (m.nu / Real.sqrt ((t * 20 : Int) : ℝ))) =
        Real.log (Real.pi * m.nu) + 2 * Real.log (1 / Real.sqrt (Real.sqrt (20 * t))) := by
    intro t ht q
    have hcast : ((t * 20 : Int) : ℝ) = 20 * t := by push_cast; ring
    rw [hcast]
    have hpos : (0 : ℝ) < 20 * t := by
      have : (0 : ℝ) < t := by exact_mod_cast ht
      positivity
    have hr : 0 < Real.sqrt (20 * t) := Real.sqrt_pos.2 hpos
    have hrr : 0 < Real.sqrt (Real.sqrt (20 * t)) := Real.sqrt_pos.2 hr
    have hsq : Real.sqrt (Real.sqrt (20 * t)) ^ 2 = Real.sqrt (20 * t) := Real.sq_sqrt hr.le
    constructor
    · rw [div_pow, hsq]
      field_simp
    · rw [show Real.pi * (m.nu / Real.sqrt (20 * t)) = Real.pi * m.nu / Real.sqrt (20 * t) by ring,
        Real.log_div (by positivity) hr.ne', one_div, Real.log_inv]
      nth_rewrite 1 [← hsq]
      rw [Real.log_pow]
      push_cast
      ring
  obtain ⟨k1, k2⟩ := key t ht (y.map (· ^ 2)).sum
  obtain ⟨k3, k4⟩ := key t' ht' (y.map (· ^ 2)).sum
  rw [k1, k2, k3, k4]
  push_cast
  ring

/-- **C73, negation.** `Pdf` does not fit `Sample`, whose scale is `1/√(20 t)` (`C73_sample`), in any
dimension: it is not the density of what is sampled. -/
theorem C73_pdf_sample_mismatch (m : MultivT ℝ) (hnu : 0 < m.nu) (hd : 0 < m.dim) :
    ¬ FitsScale m fun t => 1 / Real.sqrt (20 * t) := by
  intro h
  have hgood := C73_pdf_scale m hnu
  set z := List.replicate m.dim (0 : ℝ)
  obtain ⟨v, v', h1, h2, h3⟩ := h z z (by simp [z]) (by simp [z]) 1 16 (by omega) (by omega)
  obtain ⟨w, w', g1, g2, g3⟩ := hgood z z (by simp [z]) (by simp [z]) 1 16 (by omega) (by omega)
  have hz : ∀ c : ℝ, List.zipWith (fun a b => a + c * b) z z = z := by
    intro c
    simp [z]
  simp only [hz] at h1 h2 g1 g2
  rw [h1] at g1
  rw [h2] at g2
  cases g1
  cases g2
  have hdim : (0 : ℝ) < m.dim := by exact_mod_cast hd
  have e1 : Real.sqrt (20 * ((16 : Nat) : ℝ)) = 4 * Real.sqrt 20 := by
    rw [show (20 * ((16 : Nat) : ℝ)) = 4 ^ 2 * 20 by norm_num,
      Real.sqrt_mul (by norm_num), Real.sqrt_sq (by norm_num)]
  have e2 : Real.sqrt (4 * Real.sqrt 20) = 2 * Real.sqrt (Real.sqrt 20) := by
    rw [show (4 : ℝ) * Real.sqrt 20 = 2 ^ 2 * Real.sqrt 20 by norm_num,
      Real.sqrt_mul (by norm_num), Real.sqrt_sq (by norm_num)]
  simp only [Nat.cast_one, mul_one, e1, e2, one_div, Real.log_inv] at h3 g3
  have s1 : 0 < Real.sqrt 20 := Real.sqrt_pos.2 (by norm_num)
  have s2 : 0 < Real.sqrt (Real.sqrt 20) := Real.sqrt_pos.2 s1
  rw [Real.log_mul (by norm_num) s1.ne'] at h3
  rw [Real.log_mul (by norm_num) s2.ne'] at g3
  have l4 : Real.log 4 = 2 * Real.log 2 := by
    rw [show (4 : ℝ) = 2 ^ 2 by norm_num, Real.log_pow]; norm_num
  rw [l4] at h3
  have l2 : 0 < Real.log 2 := Real.log_pos (by norm_num)
  have := mul_pos hdim l2
  nlinarith

end Distclus
