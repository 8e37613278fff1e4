import Verif.Model.Rounding
import Mathlib.Tactic.Linarith
import Mathlib.Tactic.Positivity
import Mathlib.Tactic.FieldSimp
/-!
# Round-to-nearest-even is a `Rounding`
-/
namespace Distclus

theorem rne_int (n : ℤ) : rne n = n := by
  simp [rne]

theorem rne_err (y : ℝ) : |(rne y : ℝ) - y| ≤ 1 / 2 := by
  have h1 := Int.floor_le y
  have h2 := Int.lt_floor_add_one y
  unfold rne
  split
  · rw [abs_le]; constructor <;> linarith
  · split
    · push_cast; rw [abs_le]; constructor <;> linarith
    · split <;> (push_cast; rw [abs_le]; constructor <;> linarith)

theorem rne_mono : Monotone rne := by
  intro x y h
  by_contra hc
  have hc : rne y + 1 ≤ rne x := by omega
  have hc' : (rne y : ℝ) + 1 ≤ rne x := by exact_mod_cast hc
  have hx := abs_le.1 (rne_err x)
  have hy := abs_le.1 (rne_err y)
  have : x = y := le_antisymm h (by linarith [hx.1, hx.2, hy.1, hy.2])
  subst this
  omega

theorem rne_neg (y : ℝ) : rne (-y) = -rne y := by
  rcases eq_or_lt_of_le (Int.floor_le y) with h | h
  · rw [← h, ← Int.cast_neg, rne_int, rne_int]
  · have h2 := Int.lt_floor_add_one y
    have hf : ⌊-y⌋ = -⌊y⌋ - 1 := by
      rw [Int.floor_eq_iff]
      push_cast
      constructor <;> linarith
    have he : Even (-⌊y⌋ - 1) ↔ ¬ Even ⌊y⌋ := by
      rw [Int.even_sub_one, even_neg]
    unfold rne
    rw [hf]
    push_cast
    rcases lt_trichotomy (y - ⌊y⌋) (1 / 2) with h3 | h3 | h3
    · rw [if_neg (by linarith), if_pos (by linarith), if_pos h3]; ring
    · have a1 : ¬ (-y - (-(⌊y⌋ : ℝ) - 1) < 1 / 2) := by linarith
      have a2 : ¬ (1 / 2 < -y - (-(⌊y⌋ : ℝ) - 1)) := by linarith
      have a3 : ¬ (y - (⌊y⌋ : ℝ) < 1 / 2) := by linarith
      have a4 : ¬ (1 / 2 < y - (⌊y⌋ : ℝ)) := by linarith
      rw [if_neg a1, if_neg a2, if_neg a3, if_neg a4]
      by_cases hev : Even ⌊y⌋
      · rw [if_neg (fun h => he.1 h hev), if_pos hev]; ring
      · rw [if_pos (he.2 hev), if_neg hev]; ring
    · rw [if_pos (by linarith), if_neg (by linarith), if_pos h3]; ring

section
variable {p : ℕ} {emin : ℤ}

theorem ulpExp_neg (x : ℝ) : ulpExp p emin (-x) = ulpExp p emin x := by simp [ulpExp]

theorem ulpExp_ge (x : ℝ) : emin ≤ ulpExp p emin x := le_max_right _ _

theorem roundTo_neg (x : ℝ) : roundTo p emin (-x) = -roundTo p emin x := by
  simp [roundTo, ulpExp_neg, neg_div, rne_neg]

theorem two_zpow_pos (e : ℤ) : (0 : ℝ) < 2 ^ e := by positivity

theorem roundTo_err_ulp (x : ℝ) : |roundTo p emin x - x| ≤ 2 ^ ulpExp p emin x / 2 := by
  have hp := two_zpow_pos (ulpExp p emin x)
  have : roundTo p emin x - x = ((rne (x / 2 ^ ulpExp p emin x) : ℝ) - x / 2 ^ ulpExp p emin x) *
      2 ^ ulpExp p emin x := by
    unfold roundTo; field_simp
  rw [this, abs_mul, abs_of_pos hp]
  have := rne_err (x / (2 : ℝ) ^ ulpExp p emin x)
  nlinarith

/-- The numbers of the grid of the magnitude of `x`, or of a finer one, are not rounded. -/
theorem roundTo_grid {x : ℝ} {m : ℤ} {e : ℤ} (hx : x = m * (2 : ℝ) ^ e)
    (he : ulpExp p emin x ≤ e) : roundTo p emin x = x := by
  have hp := two_zpow_pos (ulpExp p emin x)
  obtain ⟨k, hk⟩ := Int.le.dest he
  have : x / (2 : ℝ) ^ ulpExp p emin x = ((m * 2 ^ k : ℤ) : ℝ) := by
    conv_lhs => rw [show x / (2 : ℝ) ^ ulpExp p emin x = m * (2 : ℝ) ^ e / 2 ^ ulpExp p emin x by rw [← hx]]
    rw [← hk, zpow_add₀ (by norm_num), zpow_natCast]
    push_cast
    field_simp
  unfold roundTo
  rw [this, rne_int, ← this]
  field_simp

theorem log_le_of_lt {x : ℝ} {k : ℤ} (h0 : 0 < x) (h : x < (2 : ℝ) ^ (k + 1)) : Int.log 2 x ≤ k := by
  have := (Int.lt_zpow_iff_log_lt (b := 2) (by norm_num) h0 (x := k + 1)).1 (by exact_mod_cast h)
  omega

theorem le_log_of_le {x : ℝ} {k : ℤ} (h0 : 0 < x) (h : (2 : ℝ) ^ k ≤ x) : k ≤ Int.log 2 x :=
  (Int.zpow_le_iff_le_log (b := 2) (by norm_num) h0).1 (by exact_mod_cast h)

theorem log_le (x : ℝ) (h : 0 < x) : (2 : ℝ) ^ Int.log 2 x ≤ x := by
  have := Int.zpow_log_le_self (b := 2) (r := x) (by norm_num) h
  exact_mod_cast this

theorem lt_log (x : ℝ) : x < (2 : ℝ) ^ (Int.log 2 x + 1) := by
  have := Int.lt_zpow_succ_log_self (b := 2) (by norm_num) x
  exact_mod_cast this

theorem log_mono {x y : ℝ} (h0 : 0 < x) (h : x ≤ y) : Int.log 2 x ≤ Int.log 2 y :=
  Int.log_mono_right h0 h

theorem roundTo_pow (hp : 1 ≤ p) {k : ℤ} (hk : emin ≤ k) : roundTo p emin ((2 : ℝ) ^ k) = 2 ^ k := by
  refine roundTo_grid (m := 1) (e := k) (by simp) ?_
  have : Int.log 2 (|(2 : ℝ) ^ k|) ≤ k := by
    rw [abs_of_pos (two_zpow_pos k)]
    exact log_le_of_lt (two_zpow_pos k) (zpow_lt_zpow_right₀ (by norm_num) (by omega))
  unfold ulpExp
  omega

theorem roundTo_zero : roundTo p emin 0 = 0 := by
  have : rne (0 : ℝ) = 0 := by simpa using rne_int 0
  simp [roundTo, this]

theorem roundTo_nonneg {x : ℝ} (h : 0 ≤ x) : 0 ≤ roundTo p emin x := by
  have hp := two_zpow_pos (ulpExp p emin x)
  refine mul_nonneg ?_ hp.le
  have : rne 0 ≤ rne (x / 2 ^ ulpExp p emin x) := rne_mono (by positivity)
  rw [show rne (0 : ℝ) = 0 by simpa using rne_int 0] at this
  exact_mod_cast this

/-- Rounding in the grid of another number of the same exponent. -/
theorem roundTo_same {x y : ℝ} (he : ulpExp p emin x = ulpExp p emin y) (h : x ≤ y) :
    roundTo p emin x ≤ roundTo p emin y := by
  unfold roundTo
  rw [he]
  have hp := two_zpow_pos (ulpExp p emin y)
  refine mul_le_mul_of_nonneg_right ?_ hp.le
  have := rne_mono (show x / 2 ^ ulpExp p emin y ≤ y / 2 ^ ulpExp p emin y by gcongr)
  exact_mod_cast this

theorem roundTo_le_pow {x : ℝ} {k : ℤ} (hk : ulpExp p emin x ≤ k) (h : x ≤ 2 ^ k) :
    roundTo p emin x ≤ 2 ^ k := by
  have hp := two_zpow_pos (ulpExp p emin x)
  obtain ⟨j, hj⟩ := Int.le.dest hk
  have e : (2 : ℝ) ^ k = ((2 ^ j : ℤ) : ℝ) * 2 ^ ulpExp p emin x := by
    rw [← hj, zpow_add₀ (by norm_num), zpow_natCast]; push_cast; ring
  unfold roundTo
  rw [e]
  refine mul_le_mul_of_nonneg_right ?_ hp.le
  have h' : x / 2 ^ ulpExp p emin x ≤ ((2 ^ j : ℤ) : ℝ) := by rw [div_le_iff₀ hp, ← e]; exact h
  have := rne_mono h'
  rw [rne_int] at this
  exact_mod_cast this

theorem pow_le_roundTo {x : ℝ} {k : ℤ} (hk : ulpExp p emin x ≤ k) (h : 2 ^ k ≤ x) :
    2 ^ k ≤ roundTo p emin x := by
  have hp := two_zpow_pos (ulpExp p emin x)
  obtain ⟨j, hj⟩ := Int.le.dest hk
  have e : (2 : ℝ) ^ k = ((2 ^ j : ℤ) : ℝ) * 2 ^ ulpExp p emin x := by
    rw [← hj, zpow_add₀ (by norm_num), zpow_natCast]; push_cast; ring
  unfold roundTo
  rw [e]
  refine mul_le_mul_of_nonneg_right ?_ hp.le
  have h' : ((2 ^ j : ℤ) : ℝ) ≤ x / 2 ^ ulpExp p emin x := by rw [le_div_iff₀ hp, ← e]; exact h
  have := rne_mono h'
  rw [rne_int] at this
  exact_mod_cast this

theorem roundTo_mono_pos (hp : 1 ≤ p) {x y : ℝ} (h0 : 0 < x) (h : x ≤ y) :
    roundTo p emin x ≤ roundTo p emin y := by
  have h0y : 0 < y := lt_of_lt_of_le h0 h
  have hl := log_mono h0 h
  rcases eq_or_ne (ulpExp p emin x) (ulpExp p emin y) with he | he
  · exact roundTo_same he h
  · have ax : |x| = x := abs_of_pos h0
    have ay : |y| = y := abs_of_pos h0y
    have hlt : ulpExp p emin x < ulpExp p emin y := by
      refine lt_of_le_of_ne ?_ he
      unfold ulpExp; rw [ax, ay]; omega
    have hy : ulpExp p emin y = Int.log 2 y + 1 - p := by
      unfold ulpExp at hlt ⊢; rw [ax, ay] at hlt; rw [ay]; omega
    have hll : Int.log 2 x < Int.log 2 y := by
      unfold ulpExp at hlt; rw [ax, ay] at hlt; omega
    refine le_trans (roundTo_le_pow (k := Int.log 2 y) (by omega) ?_)
      (pow_le_roundTo (by omega) (log_le y h0y))
    refine (lt_log x).le.trans ?_
    exact zpow_le_zpow_right₀ (by norm_num) (by omega)

theorem roundTo_mono (hp : 1 ≤ p) : Monotone (roundTo p emin) := by
  intro x y h
  rcases lt_trichotomy x 0 with hx | hx | hx
  · rcases lt_or_ge y 0 with hy | hy
    · have := roundTo_mono_pos (p := p) (emin := emin) hp (x := -y) (y := -x) (by linarith) (by linarith)
      rw [roundTo_neg, roundTo_neg] at this
      linarith
    · have h1 := roundTo_nonneg (p := p) (emin := emin) hy
      have h2 := roundTo_nonneg (p := p) (emin := emin) (x := -x) (by linarith)
      rw [roundTo_neg] at h2
      linarith
  · subst hx
    rw [roundTo_zero]
    exact roundTo_nonneg h
  · exact roundTo_mono_pos hp hx h

theorem roundTo_idem_pos (hp : 1 ≤ p) {x : ℝ} (h0 : 0 < x) :
    roundTo p emin (roundTo p emin x) = roundTo p emin x := by
  have hn := roundTo_nonneg (p := p) (emin := emin) h0.le
  rcases eq_or_lt_of_le hn with hz | hz
  · rw [← hz, roundTo_zero]
  have ax : |x| = x := abs_of_pos h0
  have az : |roundTo p emin x| = roundTo p emin x := abs_of_pos hz
  have hxl := lt_log x
  by_cases hm : emin ≤ Int.log 2 x + 1
  · -- the power of two above `x` is on the grid
    have hk : ulpExp p emin x ≤ Int.log 2 x + 1 := by unfold ulpExp; rw [ax]; omega
    rcases eq_or_lt_of_le (roundTo_le_pow hk hxl.le) with h | h
    · rw [h]; exact roundTo_pow hp hm
    · refine roundTo_grid (m := rne (x / 2 ^ ulpExp p emin x)) (e := ulpExp p emin x) rfl ?_
      have := log_le_of_lt hz h
      unfold ulpExp at *
      rw [az, ax] at *
      omega
  · have hk : ulpExp p emin x = emin := by unfold ulpExp; rw [ax]; omega
    have hle : roundTo p emin x ≤ 2 ^ emin := by
      refine roundTo_le_pow (by omega) (hxl.le.trans ?_)
      exact zpow_le_zpow_right₀ (by norm_num) (by omega)
    refine roundTo_grid (m := rne (x / 2 ^ ulpExp p emin x)) (e := ulpExp p emin x) rfl ?_
    have : Int.log 2 (roundTo p emin x) ≤ emin := log_le_of_lt hz
      (lt_of_le_of_lt hle (zpow_lt_zpow_right₀ (by norm_num) (by omega)))
    rw [hk]
    unfold ulpExp
    rw [az]
    omega

theorem roundTo_idem (hp : 1 ≤ p) (x : ℝ) :
    roundTo p emin (roundTo p emin x) = roundTo p emin x := by
  rcases lt_trichotomy x 0 with hx | hx | hx
  · have := roundTo_idem_pos (emin := emin) hp (x := -x) (by linarith)
    simpa [roundTo_neg] using this
  · subst hx; rw [roundTo_zero, roundTo_zero]
  · exact roundTo_idem_pos hp hx

/-- The relative error, when the exponent is not the least one. -/
theorem roundTo_rel {x : ℝ} (h : ulpExp p emin x = Int.log 2 |x| + 1 - p) :
    |roundTo p emin x - x| ≤ (2 : ℝ) ^ (-(p : ℤ)) * |x| := by
  rcases eq_or_ne x 0 with hx | hx
  · subst hx; simp [roundTo_zero]
  have ha := abs_pos.2 hx
  refine (roundTo_err_ulp x).trans ?_
  rw [h, show Int.log 2 |x| + 1 - (p : ℤ) = -(p : ℤ) + Int.log 2 |x| + 1 by ring,
    zpow_add₀ (by norm_num), zpow_add₀ (by norm_num)]
  have := log_le |x| ha
  have h2 := two_zpow_pos (-(p : ℤ))
  rw [zpow_one, mul_div_assoc]
  norm_num
  exact this

theorem ulpExp_cases (x : ℝ) :
    ulpExp p emin x = Int.log 2 |x| + 1 - p ∨ ulpExp p emin x = emin := by
  unfold ulpExp; omega

/-- A number represented is a multiple of the least one. -/
theorem grid_of_fixed {x : ℝ} (h : roundTo p emin x = x) : ∃ m : ℤ, x = m * (2 : ℝ) ^ emin := by
  obtain ⟨k, hk⟩ := Int.le.dest (ulpExp_ge (p := p) (emin := emin) x)
  refine ⟨rne (x / 2 ^ ulpExp p emin x) * 2 ^ k, ?_⟩
  conv_lhs => rw [← h]
  unfold roundTo
  rw [← hk, zpow_add₀ (by norm_num), zpow_natCast]
  push_cast
  ring

end

/-- Round-to-nearest-even with `p` digits and the least exponent `emin`, without overflow. -/
noncomputable def Rounding.nearestEven (p : ℕ) (emin : ℤ) (hp : 1 ≤ p) (hm : emin ≤ -(2 * p)) :
    Rounding where
  rnd := roundTo p emin
  u := 2 ^ (-(p : ℤ))
  η := 2 ^ emin / 2
  u_nonneg := by positivity
  u_le_one := zpow_le_one_of_nonpos₀ (by norm_num) (by omega)
  η_nonneg := by positivity
  mono := roundTo_mono hp
  idem := roundTo_idem hp
  neg := roundTo_neg
  one := by
    have := roundTo_pow (emin := emin) hp (k := 0) (by omega)
    simpa using this
  err x := by
    rcases ulpExp_cases (p := p) (emin := emin) x with h | h
    · have := roundTo_rel h
      have := two_zpow_pos emin
      linarith
    · have h1 := roundTo_err_ulp (p := p) (emin := emin) x
      rw [h] at h1
      have : 0 ≤ (2 : ℝ) ^ (-(p : ℤ)) * |x| := by positivity
      linarith
  err_add x y hx hy := by
    rcases ulpExp_cases (p := p) (emin := emin) (x + y) with h | h
    · exact roundTo_rel h
    · obtain ⟨a, ha⟩ := grid_of_fixed hx
      obtain ⟨b, hb⟩ := grid_of_fixed hy
      rw [roundTo_grid (m := a + b) (e := emin) (by rw [ha, hb]; push_cast; ring) h.le]
      simp only [sub_self, abs_zero]
      positivity
  err_sqrt x hx h0 := by
    rcases eq_or_lt_of_le h0 with hz | hz
    · rw [← hz]; simp [roundTo_zero]
    have hs : 0 < Real.sqrt x := Real.sqrt_pos.2 hz
    rcases ulpExp_cases (p := p) (emin := emin) (Real.sqrt x) with h | h
    · have := roundTo_rel h
      rwa [abs_of_pos hs] at this
    · exfalso
      have hl : Int.log 2 (Real.sqrt x) + 1 ≤ emin + p := by
        unfold ulpExp at h; rw [abs_of_pos hs] at h; omega
      have h1 : Real.sqrt x < 2 ^ (emin + p) :=
        (lt_log _).trans_le (zpow_le_zpow_right₀ (by norm_num) hl)
      have h2 : x < 2 ^ (emin + p) * 2 ^ (emin + p) := by
        have := Real.mul_self_sqrt h0
        have := two_zpow_pos (emin + p)
        nlinarith
      rw [← zpow_add₀ (by norm_num)] at h2
      have h3 : x < 2 ^ emin := h2.trans_le (zpow_le_zpow_right₀ (by norm_num) (by omega))
      obtain ⟨m, hm'⟩ := grid_of_fixed hx
      have hpe := two_zpow_pos emin
      have m0 : (0 : ℝ) < m := by
        by_contra hc
        rw [hm'] at hz
        nlinarith
      have m1 : (1 : ℝ) ≤ m := by exact_mod_cast (show (1 : ℤ) ≤ m from by exact_mod_cast m0)
      rw [hm'] at h3
      nlinarith
  err_int n := by
    rcases ulpExp_cases (p := p) (emin := emin) (n : ℝ) with h | h
    · exact roundTo_rel h
    · obtain ⟨k, hk⟩ := Int.le.dest (show emin ≤ 0 by omega)
      have e : (n : ℝ) = ((n * 2 ^ k : ℤ) : ℝ) * 2 ^ emin := by
        push_cast
        rw [← zpow_natCast, mul_assoc, ← zpow_add₀ (by norm_num),
          show (k : ℤ) + emin = 0 by omega]
        simp
      rw [roundTo_grid e h.le]
      simp only [sub_self, abs_zero]
      positivity

/-- `float64`: 53 digits, least number 2⁻¹⁰⁷⁴, overflow excluded. -/
noncomputable def binary64 : Rounding :=
  Rounding.nearestEven 53 (-1074) (by norm_num) (by norm_num)

/-- How to compute a rounding of a positive number: its exponent and the nearest integer. -/
theorem binary64_eq {x : ℝ} (k m : ℤ) (hk : -1022 ≤ k) (h1 : 2 ^ k ≤ x) (h2 : x < 2 ^ (k + 1))
    (h : |x / 2 ^ (k - 52) - m| < 1 / 2) : binary64.rnd x = m * 2 ^ (k - 52) := by
  have h0 : 0 < x := lt_of_lt_of_le (two_zpow_pos k) h1
  have hl : Int.log 2 |x| = k := by
    rw [abs_of_pos h0]
    exact le_antisymm (log_le_of_lt h0 h2) (le_log_of_le h0 h1)
  have hu : ulpExp 53 (-1074) x = k - 52 := by
    unfold ulpExp; rw [hl]; push_cast; omega
  show roundTo 53 (-1074) x = _
  unfold roundTo
  rw [hu]
  congr 2
  have a := abs_lt.1 h
  have b := abs_le.1 (rne_err (x / 2 ^ (k - 52)))
  have c1 : (rne (x / 2 ^ (k - 52)) : ℝ) < m + 1 := by linarith [a.1, a.2, b.1, b.2]
  have c2 : (m : ℝ) < rne (x / 2 ^ (k - 52)) + 1 := by linarith [a.1, a.2, b.1, b.2]
  have c1' : rne (x / 2 ^ (k - 52)) < m + 1 := by exact_mod_cast c1
  have c2' : m < rne (x / 2 ^ (k - 52)) + 1 := by exact_mod_cast c2
  omega

/-- The integers up to 2⁵³ are represented. -/
theorem binary64_int (n : ℤ) (h : |n| ≤ 2 ^ 53) : binary64.rnd n = n := by
  show roundTo 53 (-1074) (n : ℝ) = n
  rcases eq_or_ne n 0 with hn | hn
  · subst hn; simp [roundTo_zero]
  have ha : (0 : ℝ) < |(n : ℝ)| := abs_pos.2 (by exact_mod_cast hn)
  have hle : |(n : ℝ)| ≤ 2 ^ (53 : ℤ) := by
    have : ((|n| : ℤ) : ℝ) ≤ ((2 ^ 53 : ℤ) : ℝ) := by exact_mod_cast h
    rw [Int.cast_abs] at this
    exact_mod_cast this
  rcases eq_or_lt_of_le hle with he | he
  · rcases abs_cases (n : ℝ) with ⟨h1, _⟩ | ⟨h1, _⟩
    · rw [← h1, he]; exact roundTo_pow (by norm_num) (by norm_num)
    · rw [show (n : ℝ) = -(2 ^ (53 : ℤ)) by rw [← he, h1]; ring, roundTo_neg,
        roundTo_pow (by norm_num) (by norm_num)]
  · refine roundTo_grid (m := n) (e := 0) (by simp) ?_
    have := log_le_of_lt (k := 52) ha (by exact_mod_cast he)
    unfold ulpExp
    push_cast
    omega

end Distclus
