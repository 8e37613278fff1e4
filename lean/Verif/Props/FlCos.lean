import Verif.Proof.FlCos
import Verif.Props.Fl64
import Verif.Model.Streaming
/-!
# C140: the cosine space, with rounding
-/
namespace Distclus
open Spec

/-- **C140.** With rounding, the cosine distance of two vectors is the exact one up to `cosErr`. -/
theorem C140_error {r : Rounding} (hr : r.η ≤ r.u) {n : Nat} (a b : Vec (Fl r) n) (ha : r.Regular a.real)
    (hb : r.Regular b.real) (hn : r.cosErr n ≤ 3 / 8) :
    |((cosinusSpace (Fl r) n).dist a b).val - cosReal a.real b.real| ≤ r.cosErr n :=
  cos_err hr a b ha hb (by unfold Rounding.cosErr at hn; linarith)

/-- The bound for `float64`. -/
theorem C140_binary64 {n : Nat} (hn : n + 3 ≤ 2 ^ 45) : binary64.η ≤ binary64.u ∧
    binary64.cosErr n ≤ 3 / 8 ∧ binary64.cosErr n ≤ (n + 3) * 2 ^ (-49 : ℤ) := by
  obtain ⟨hu, hη⟩ := C98_binary64
  have hu0 := binary64.u_nonneg
  have h1 : binary64.η ≤ binary64.u := by
    rw [hu, hη]; exact zpow_le_zpow_right₀ (by norm_num) (by norm_num)
  have hq' : ((n + 3 : ℕ) : ℝ) ≤ 2 ^ (45 : ℤ) := by exact_mod_cast hn
  have e1 : ((n : ℝ) + 3) * 2 ^ (-49 : ℤ) = 16 * (((n + 3 : ℕ) : ℝ) * binary64.u) := by
    rw [hu, show (-49 : ℤ) = 4 + -53 by norm_num, zpow_add₀ (by norm_num)]
    push_cast; norm_num; ring
  set a : ℝ := ((n + 3 : ℕ) : ℝ) * binary64.u with ha
  have ha4 : a ≤ 1 / 256 := by
    rw [ha, hu]
    calc ((n + 3 : ℕ) : ℝ) * 2 ^ (-53 : ℤ) ≤ 2 ^ (45 : ℤ) * 2 ^ (-53 : ℤ) := by gcongr
      _ = 1 / 256 := by rw [← zpow_add₀ (by norm_num)]; norm_num
  have ha0 : 0 ≤ a := by positivity
  obtain ⟨p1, p2⟩ := pow_bounds hu0 (q := n + 3) (by linarith) binary64.u_le_one
  rw [← ha] at p1 p2
  have p3 : 1 / (1 - a) ≤ 1 + 2 * a := by
    rw [div_le_iff₀ (by linarith)]
    nlinarith
  unfold Rounding.cosErr
  rw [e1]
  exact ⟨h1, by linarith, by linarith⟩

/-- **C140.** When the element is nearly collinear to no centroid, `Assign` returns a centroid which is
nearest up to the rounding. -/
theorem C140_nearest {r : Rounding} (hr : r.η ≤ r.u) {n : Nat} (hn : r.cosErr n ≤ 3 / 8)
    (c : List (Vec (Fl r) n)) (e : Vec (Fl r) n) (hc : c ≠ []) (he : r.Regular e.real)
    (hreg : ∀ y ∈ c, r.Regular y.real) (hfar : ∀ y ∈ c, r.cosErr n ≤ cosReal e.real y.real) :
    ∃ (k : Nat) (x : Vec (Fl r) n),
      assign (cosinusSpace (Fl r) n) c e = some (some x, (k : Int), (cosinusSpace (Fl r) n).dist e x) ∧
      c[k]? = some x ∧
      ∀ y ∈ c, cosReal e.real x.real ≤ cosReal e.real y.real + 2 * r.cosErr n := by
  have herr := fun y (hy : y ∈ c) => abs_le.1 (C140_error hr e y he (hreg y hy) hn)
  obtain ⟨k, x, h, hx⟩ := C03_assign_nearest Fl.neg_one_lt_zero (cosinusSpace (Fl r) n) c e hc (fun _ _ h => h)
    (fun y hy => by
      rw [not_lt, Fl.le_iff]
      have := (herr y hy).1
      have := hfar y hy
      show (0 : ℝ) ≤ _
      linarith)
  refine ⟨k, x, h, hx.at_label, fun y hy => ?_⟩
  have h1 := Fl.le_iff.1 (not_lt.1 (hx.minimal y hy trivial))
  have h2 := herr x (List.mem_of_getElem? hx.at_label)
  have h3 := herr y hy
  linarith [h2.1, h3.2]

/-- **C140.** But as soon as the distance of the element to a centroid is computed negative, a centroid
which comes after it is preferred, however far it is. -/
theorem C140_passed_over {r : Rounding} {n : Nat} (pre post : List (Vec (Fl r) n)) (x y e : Vec (Fl r) n)
    (hx : (cosinusSpace (Fl r) n).dist e x < 0) :
    ((pre.length : Nat) : Int) < (nearest (cosinusSpace (Fl r) n) (pre ++ x :: y :: post) e).1 :=
  C04_negative_forgotten Fl.neg_one_lt_zero _ pre x y post e (fun _ _ h => h) hx

/-! ### The distance of a vector to itself in `float64` -/

namespace FlCosExample

/-- The integers, as numbers of `float64`. -/
noncomputable def int (m : ℤ) (h : |m| ≤ 2 ^ 53) : Fl binary64 := ⟨m, binary64_int m h⟩

noncomputable def vec (a b : ℤ) (ha : |a| ≤ 2 ^ 53) (hb : |b| ≤ 2 ^ 53) : Vec (Fl binary64) 2 := ⟨[int a ha, int b hb], rfl⟩

noncomputable abbrev cs := cosinusSpace (Fl binary64) 2

theorem prod (a b c d : ℤ) (ha : |a| ≤ 2 ^ 53) (hb : |b| ≤ 2 ^ 53) (hc : |c| ≤ 2 ^ 53) (hd : |d| ≤ 2 ^ 53)
    (h1 : |a * c| ≤ 2 ^ 53) (h2 : |b * d| ≤ 2 ^ 53) (h3 : |a * c + b * d| ≤ 2 ^ 53) :
    (scalarProduct (vec a b ha hb).1 (vec c d hc hd).1).val = (a * c + b * d : ℤ) := by
  show binary64.rnd (binary64.rnd (0 + binary64.rnd ((a : ℝ) * c)) + binary64.rnd ((b : ℝ) * d)) = _
  rw [zero_add, ← Int.cast_mul, ← Int.cast_mul, binary64_int _ h1, binary64_int _ h1, binary64_int _ h2,
    ← Int.cast_add, binary64_int _ h3]

/-- (2, 3) and (-2, -3). -/
noncomputable def v : Vec (Fl binary64) 2 := vec 2 3 (by norm_num) (by norm_num)
noncomputable def w : Vec (Fl binary64) 2 := vec (-2) (-3) (by norm_num) (by norm_num)

/-- √13, rounded. -/
theorem sqrt13 : binary64.rnd (Real.sqrt 13) = (8118979690322419 : ℤ) * 2 ^ (-51 : ℤ) := by
  have h1 : (8118979690322419 : ℝ) / 2 ^ 51 ≤ Real.sqrt 13 := by
    apply Real.le_sqrt_of_sq_le; norm_num
  have h2 : Real.sqrt 13 ≤ (129903675045158711 : ℝ) / 2 ^ 55 := by
    rw [Real.sqrt_le_left (by norm_num)]; norm_num
  refine binary64_eq 1 8118979690322419 (by norm_num) ?_ ?_ ?_
  · norm_num at h1 h2 ⊢; linarith
  · norm_num at h1 h2 ⊢; linarith
  · rw [abs_lt]; norm_num at h1 h2 ⊢; constructor <;> linarith

theorem div1 : binary64.rnd (13 / ((8118979690322419 : ℤ) * 2 ^ (-51 : ℤ))) = (8118979690322420 : ℤ) * 2 ^ (-51 : ℤ) :=
  binary64_eq 1 8118979690322420 (by norm_num) (by norm_num) (by norm_num) (by norm_num [abs_lt])

theorem div2 : binary64.rnd ((8118979690322420 : ℤ) * 2 ^ (-51 : ℤ) / ((8118979690322419 : ℤ) * 2 ^ (-51 : ℤ))) =
    (2 ^ 52 + 1 : ℤ) * 2 ^ (-52 : ℤ) :=
  binary64_eq 0 (2 ^ 52 + 1) (by norm_num) (by norm_num) (by norm_num) (by norm_num [abs_lt])

theorem rnd_eps : binary64.rnd (1 - (2 ^ 52 + 1 : ℤ) * 2 ^ (-52 : ℤ)) = -2 ^ (-52 : ℤ) := by
  rw [show (1 : ℝ) - (2 ^ 52 + 1 : ℤ) * 2 ^ (-52 : ℤ) = -2 ^ (-52 : ℤ) by push_cast; norm_num, binary64.neg,
    Fl64.rnd_pow _ (by norm_num)]

theorem nv : (GoMath.sqrt (scalarProduct v.1 v.1)).val = (8118979690322419 : ℤ) * 2 ^ (-51 : ℤ) := by
  rw [Fl.val_sqrt, v, prod _ _ _ _ _ _ _ _ (by norm_num) (by norm_num) (by norm_num), ← sqrt13]
  norm_num

theorem nw : (GoMath.sqrt (scalarProduct w.1 w.1)).val = (8118979690322419 : ℤ) * 2 ^ (-51 : ℤ) := by
  rw [Fl.val_sqrt, w, prod _ _ _ _ _ _ _ _ (by norm_num) (by norm_num) (by norm_num), ← sqrt13]
  norm_num

theorem self_of (a b : Vec (Fl binary64) 2) (s : (scalarProduct a.1 b.1).val = (13 : ℤ))
    (na : (GoMath.sqrt (scalarProduct a.1 a.1)).val = (8118979690322419 : ℤ) * 2 ^ (-51 : ℤ))
    (nb : (GoMath.sqrt (scalarProduct b.1 b.1)).val = (8118979690322419 : ℤ) * 2 ^ (-51 : ℤ)) :
    (cs.dist a b).val = -2 ^ (-52 : ℤ) := by
  show ((1 : Fl binary64) - _ / _ / _).val = _
  rw [Fl.val_sub, Fl.val_div, Fl.val_div, s, na, nb, Fl.val_one, Int.cast_ofNat (R := ℝ) (n := 13), div1, div2, rnd_eps]

theorem vv : (cs.dist v v).val = -2 ^ (-52 : ℤ) :=
  self_of v v (by rw [v, prod _ _ _ _ _ _ _ _ (by norm_num) (by norm_num) (by norm_num)]; norm_num) nv nv

theorem ww : (cs.dist w w).val = -2 ^ (-52 : ℤ) :=
  self_of w w (by rw [w, prod _ _ _ _ _ _ _ _ (by norm_num) (by norm_num) (by norm_num)]; norm_num) nw nw

theorem wv : 1 ≤ (cs.dist w v).val := by
  have s : (scalarProduct w.1 v.1).val = -13 := by
    rw [w, v, prod _ _ _ _ _ _ _ _ (by norm_num) (by norm_num) (by norm_num)]; norm_num
  show 1 ≤ ((1 : Fl binary64) - _ / _ / _).val
  rw [Fl.val_sub, Fl.val_div, Fl.val_div, s, nw, nv, Fl.val_one, neg_div, binary64.neg, neg_div, binary64.neg,
    sub_neg_eq_add, div1, div2, ← binary64.one]
  apply binary64.mono
  rw [binary64.one]
  norm_num

noncomputable def zero : Vec (Fl binary64) 2 := vec 0 0 (by norm_num) (by norm_num)

theorem mean : cs.combine v 1 w 1 = zero := by
  apply Subtype.ext
  show [_, _] = [_, _]
  have h1 : binary64.rnd ((1 : ℤ) : ℝ) = 1 := by rw [Int.cast_one, binary64.one]
  have key : ∀ a : ℤ, (ha : |a| ≤ 2 ^ 53) → (hb : |-a| ≤ 2 ^ 53) →
      (int a ha * GoMath.ofInt 1 + int (-a) hb * GoMath.ofInt 1) / (GoMath.ofInt 1 + GoMath.ofInt 1) =
        int 0 (by norm_num) := by
    intro a ha hb
    apply Fl.ext
    rw [Fl.val_div, Fl.val_add, Fl.val_mul, Fl.val_mul, Fl.val_ofInt, h1, mul_one, mul_one]
    show binary64.rnd (binary64.rnd (binary64.rnd (a : ℝ) + binary64.rnd ((-a : ℤ) : ℝ)) / _) = ((0 : ℤ) : ℝ)
    rw [binary64_int a ha, binary64_int _ hb, Int.cast_neg, add_neg_cancel, binary64.zero, zero_div, binary64.zero,
      Int.cast_zero]
  congr 1
  · exact key 2 (by norm_num) (by norm_num)
  · congr 1
    exact key 3 (by norm_num) (by norm_num)

theorem near_v : (nearest cs [v, w] v).1 = 1 := by
  have h1 := C140_passed_over [] [] v w v (Fl.lt_iff.2 (by rw [vv, Fl.val_zero]; simp))
  have h2 := nearest_range Fl.neg_one_lt_zero cs [v, w] (by simp) v
  simp only [List.length_nil, List.nil_append, List.length_cons] at h1 h2
  change (0 : Int) < (nearest cs [v, w] v).1 at h1
  omega

theorem near_w : (nearest cs [v, w] w).1 = 1 := by
  have h0 : ¬ cs.dist w v < 0 := by
    rw [Fl.lt_iff, Fl.val_zero]; linarith [wv]
  have h1 : cs.dist w w < cs.dist w v := by
    rw [Fl.lt_iff, ww]
    have : (0 : ℝ) < 2 ^ (-52 : ℤ) := by positivity
    linarith [wv]
  simp only [nearest, nearestLoop, Fl.neg_one_lt_zero, true_or, if_true, h0, h1, or_true]
  rfl

theorem assign_v : ∃ d, assign cs [v, w] v = some (some w, 1, d) := by
  have h := near_v
  unfold assign
  generalize nearest cs [v, w] v = p at h ⊢
  obtain ⟨a, b⟩ := p
  simp only at h
  subst h
  exact ⟨b, rfl⟩

theorem assign_w : ∃ d, assign cs [v, w] w = some (some w, 1, d) := by
  have h := near_w
  unfold assign
  generalize nearest cs [v, w] w = p at h ⊢
  obtain ⟨a, b⟩ := p
  simp only at h
  subst h
  exact ⟨b, rfl⟩

theorem real_v : v.real = ![2, 3] := by
  funext i
  fin_cases i
  · show ((2 : ℤ) : ℝ) = 2; norm_num
  · show ((3 : ℤ) : ℝ) = 3; norm_num
theorem real_w : w.real = ![-2, -3] := by
  funext i
  fin_cases i
  · show ((-2 : ℤ) : ℝ) = -2; norm_num
  · show ((-3 : ℤ) : ℝ) = -3; norm_num

/-- These vectors are regular. -/
theorem regular_v : binary64.Regular v.real := by
  obtain ⟨hu, hη⟩ := C98_binary64
  have h : sqNorm v.real = 13 := by rw [real_v]; simp [sqNorm, Fin.sum_univ_two]; norm_num
  refine ⟨by rw [h]; norm_num, ?_⟩
  rw [h, hu, hη]
  have : (2 : ℝ) ^ (-1075 : ℤ) ≤ 2 ^ (-53 : ℤ) := zpow_le_zpow_right₀ (by norm_num) (by norm_num)
  have h0 : (0 : ℝ) < 2 ^ (-53 : ℤ) := by positivity
  push_cast
  linarith
theorem regular_w : binary64.Regular w.real := by
  obtain ⟨hu, hη⟩ := C98_binary64
  have h : sqNorm w.real = 13 := by rw [real_w]; simp [sqNorm, Fin.sum_univ_two]; norm_num
  refine ⟨by rw [h]; norm_num, ?_⟩
  rw [h, hu, hη]
  have : (2 : ℝ) ^ (-1075 : ℤ) ≤ 2 ^ (-53 : ℤ) := zpow_le_zpow_right₀ (by norm_num) (by norm_num)
  have h0 : (0 : ℝ) < 2 ^ (-53 : ℤ) := by positivity
  push_cast
  linarith

theorem cos_vw : cosReal v.real w.real = 2 := by
  have hv : sqNorm v.real = 13 := by rw [real_v]; simp [sqNorm, Fin.sum_univ_two]; norm_num
  have hw : sqNorm w.real = 13 := by rw [real_w]; simp [sqNorm, Fin.sum_univ_two]; norm_num
  have hd : dotReal v.real w.real = -13 := by rw [real_v, real_w]; simp [dotReal, Fin.sum_univ_two]; norm_num
  rw [cosReal, hv, hw, hd, Real.mul_self_sqrt (by norm_num)]
  norm_num

/-- The label of (2, 3) is right when the only centroid is (-2, -3): C140_nearest applies. -/
example : ∃ (k : Nat) (x : Vec (Fl binary64) 2),
      assign cs [w] v = some (some x, (k : Int), cs.dist v x) ∧ [w][k]? = some x ∧
      ∀ y ∈ [w], cosReal v.real x.real ≤ cosReal v.real y.real + 2 * binary64.cosErr 2 := by
  obtain ⟨h1, h2, _⟩ := C140_binary64 (n := 2) (by norm_num)
  refine C140_nearest h1 h2 [w] v (by simp) regular_v (by simpa using regular_w) ?_
  intro y hy
  rw [List.mem_singleton] at hy
  rw [hy, cos_vw]
  linarith

/-! The distances of (0, 3) and (1, 3). -/
noncomputable def s : Vec (Fl binary64) 2 := vec 0 3 (by norm_num) (by norm_num)
noncomputable def t : Vec (Fl binary64) 2 := vec 1 3 (by norm_num) (by norm_num)

theorem sqrt10 : binary64.rnd (Real.sqrt 10) = (7120816245988179 : ℤ) * 2 ^ (-51 : ℤ) := by
  have h1 : (113933059935810857 : ℝ) / 2 ^ 55 ≤ Real.sqrt 10 := by
    apply Real.le_sqrt_of_sq_le; norm_num
  have h2 : Real.sqrt 10 ≤ (7120816245988179 : ℝ) / 2 ^ 51 := by
    rw [Real.sqrt_le_left (by norm_num)]; norm_num
  refine binary64_eq 1 7120816245988179 (by norm_num) ?_ ?_ ?_
  · norm_num at h1 h2 ⊢; linarith
  · norm_num at h1 h2 ⊢; linarith
  · rw [abs_lt]; norm_num at h1 h2 ⊢; constructor <;> linarith

theorem ns : (GoMath.sqrt (scalarProduct s.1 s.1)).val = 3 := by
  rw [Fl.val_sqrt, s, prod _ _ _ _ _ _ _ _ (by norm_num) (by norm_num) (by norm_num)]
  rw [show ((0 * 0 + 3 * 3 : ℤ) : ℝ) = 3 * 3 by norm_num, Real.sqrt_mul_self (by norm_num)]
  exact_mod_cast binary64_int 3 (by norm_num)

theorem nt : (GoMath.sqrt (scalarProduct t.1 t.1)).val = (7120816245988179 : ℤ) * 2 ^ (-51 : ℤ) := by
  rw [Fl.val_sqrt, t, prod _ _ _ _ _ _ _ _ (by norm_num) (by norm_num) (by norm_num), ← sqrt10]
  norm_num

theorem st : (cs.dist s t).val = (462219759555178 : ℤ) * 2 ^ (-53 : ℤ) := by
  have p : (scalarProduct s.1 t.1).val = 9 := by
    rw [s, t, prod _ _ _ _ _ _ _ _ (by norm_num) (by norm_num) (by norm_num)]; norm_num
  show ((1 : Fl binary64) - _ / _ / _).val = _
  rw [Fl.val_sub, Fl.val_div, Fl.val_div, p, ns, nt, Fl.val_one,
    show (9 : ℝ) / 3 = ((3 : ℤ) : ℝ) by norm_num, binary64_int 3 (by norm_num),
    binary64_eq (x := ((3 : ℤ) : ℝ) / ((7120816245988179 : ℤ) * 2 ^ (-51 : ℤ))) (-1) 8544979495185814
      (by norm_num) (by norm_num) (by norm_num) (by norm_num [abs_lt])]
  rw [show (1 : ℝ) - (8544979495185814 : ℤ) * 2 ^ (-1 - 52 : ℤ) = (462219759555178 : ℤ) * 2 ^ (-53 : ℤ) by norm_num]
  rw [binary64_eq (-5) 7395516152882848 (by norm_num) (by norm_num) (by norm_num) (by norm_num [abs_lt])]
  norm_num

theorem ts : (cs.dist t s).val = (462219759555179 : ℤ) * 2 ^ (-53 : ℤ) := by
  have p : (scalarProduct t.1 s.1).val = 9 := by
    rw [s, t, prod _ _ _ _ _ _ _ _ (by norm_num) (by norm_num) (by norm_num)]; norm_num
  show ((1 : Fl binary64) - _ / _ / _).val = _
  rw [Fl.val_sub, Fl.val_div, Fl.val_div, p, ns, nt, Fl.val_one,
    binary64_eq (x := (9 : ℝ) / ((7120816245988179 : ℤ) * 2 ^ (-51 : ℤ))) 1 6408734621389360
      (by norm_num) (by norm_num) (by norm_num) (by norm_num [abs_lt]),
    binary64_eq (x := ((6408734621389360 : ℤ) : ℝ) * 2 ^ (1 - 52 : ℤ) / 3) (-1) 8544979495185813
      (by norm_num) (by norm_num) (by norm_num) (by norm_num [abs_lt])]
  rw [show (1 : ℝ) - (8544979495185813 : ℤ) * 2 ^ (-1 - 52 : ℤ) = (462219759555179 : ℤ) * 2 ^ (-53 : ℤ) by norm_num]
  rw [binary64_eq (-5) 7395516152882864 (by norm_num) (by norm_num) (by norm_num) (by norm_num [abs_lt])]
  norm_num
end FlCosExample

open FlCosExample in
/-- **C140 (claim examined).** "An element which is a centroid is labelled with it" fails in `float64`:
the cosine distance of (2, 3) to itself is -2⁻⁵², and with the centroids (2, 3) and (-2, -3) the element
(2, 3) gets the label of (-2, -3), the farthest direction there is. -/
theorem C140_own_label : (cs.dist v v).val = -2 ^ (-52 : ℤ) ∧ cosReal v.real w.real = 2 ∧
    ∃ d, assign cs [v, w] v = some (some w, 1, d) :=
  ⟨vv, cos_vw, assign_v⟩

open FlCosExample in
/-- **C140 (claim examined).** Hence an iteration of k-means destroys the best clustering: on the data
(2, 3) and (-2, -3), each being its own centroid, the second centroid becomes the null vector, which has no
direction (its distances are NaN, C43). -/
theorem C140_kmeans : kmeansStep .seq cs [v, w] [v, w] = some [v, zero] := by
  obtain ⟨d1, h1⟩ := assign_v
  obtain ⟨d2, h2⟩ := assign_w
  have hc : cs.combine v 1 w 1 = zero := mean
  have hcp : cs.copy v = v := rfl
  simp [kmeansStep, KStrategy.iterate, reduceDBA, reduceLoop, h1, h2, dbaStep, idx?, hc, hcp, seqBuildResult,
    allSome]

open FlCosExample in
/-- **C140 (claim examined).** "The cosine distance is symmetric" fails in `float64` for (0, 3) and (1, 3). -/
theorem C140_symmetry : (cs.dist s t).val = (462219759555178 : ℤ) * 2 ^ (-53 : ℤ) ∧
    (cs.dist t s).val = (462219759555179 : ℤ) * 2 ^ (-53 : ℤ) ∧ cs.dist s t ≠ cs.dist t s := by
  refine ⟨st, ts, fun h => ?_⟩
  have := congrArg Fl.val h
  rw [st, ts] at this
  norm_num at this

open FlCosExample in
/-- **C140 (claim examined).** "Equal data give one centre" fails for the streaming algorithm: when (2, 3)
comes again while it is the only centre and no distance has been seen, its relative distance is 1, the
quotient of -2⁻⁵² by itself, and it opens a second centre for each threshold below 1 (exactly it would be 0/0,
which compares with nothing, and be merged). -/
theorem C140_streaming {R : Type} (impl : StreamImpl (Vec (Fl binary64) 2) (Fl binary64) R)
    (hc : impl.clust = [v]) (hm : impl.maxDistance = 0) (threshold : Fl binary64) (ht : threshold < 1) :
    ∃ impl', impl.process cs threshold v = some impl' ∧ impl'.clust = [v, v] := by
  have h0 : cs.dist v v < 0 := Fl.lt_iff.2 (by rw [vv, Fl.val_zero]; simp)
  have ha : assign cs [v] v = some (some v, 0, cs.dist v v) := by
    simp [assign, nearest, nearestLoop, Fl.neg_one_lt_zero, idx?]
  have hd : cs.dist v v / cs.dist v v = 1 := by
    apply Fl.ext
    rw [Fl.val_div, div_self (by rw [vv]; exact neg_ne_zero.2 (by positivity)), Fl.val_one, binary64.one]
  have hrel : impl.getRelativeDistance (cs.dist v v) =
      ({ impl with maxDistance := cs.dist v v }, 1) := by
    simp [StreamImpl.getRelativeDistance, hm, hd]
  unfold StreamImpl.process
  rw [hc, ha]
  simp only [hrel]
  by_cases hout : impl.conf.outAfter ≤ impl.count ∧ impl.conf.outRatio < 1
  · simp only [if_pos hout]
    exact ⟨_, rfl, by simp [StreamImpl.addOutlier, hc]⟩
  · simp only [if_neg hout, if_pos ht]
    refine ⟨_, rfl, ?_⟩
    simp only [StreamImpl.addCenter, StreamImpl.updateMaxDistance]
    split <;> simp [hc]
end Distclus
