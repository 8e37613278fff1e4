import Verif.Proof.FlEuclid
import Verif.Spec.FlCos
import Mathlib.Algebra.Order.BigOperators.Ring.Finset
/-!
# Proofs: the rounding of the cosine distance
-/
namespace Distclus
open Spec

namespace Rounding
variable {r : Rounding}

/-- The error of the loop of `ScalarProduct`. -/
theorem dot_err (l : List (Fl r × Fl r)) : ∀ s : Fl r,
    |(l.foldl (fun s ab => s + ab.1 * ab.2) s).val - (s.val + (l.map fun ab => ab.1.val * ab.2.val).sum)| ≤
      ((1 + r.u) ^ l.length - 1) * |s.val| +
        ((1 + r.u) ^ (l.length + 1) - 1) * (l.map fun ab => |ab.1.val * ab.2.val|).sum +
          l.length * ((1 + r.u) ^ l.length * r.η) := by
  have hu := r.u_nonneg
  have hη := r.η_nonneg
  induction l with
  | nil => intro s; simp
  | cons ab l ih =>
    intro s
    simp only [List.map_cons, List.sum_cons, List.foldl_cons, List.length_cons]
    have h := ih (s + ab.1 * ab.2)
    set D := (l.map fun ab => ab.1.val * ab.2.val).sum
    set A := (l.map fun ab => |ab.1.val * ab.2.val|).sum with hA
    have hA0 : 0 ≤ A := List.sum_nonneg (by simp only [List.mem_map]; rintro _ ⟨x, _, rfl⟩; positivity)
    set R := (l.foldl (fun s ab => s + ab.1 * ab.2) (s + ab.1 * ab.2)).val
    set p := ab.1.val * ab.2.val
    have ht : |(ab.1 * ab.2).val - p| ≤ r.u * |p| + r.η := r.err p
    have hs : |(s + ab.1 * ab.2).val - (s.val + (ab.1 * ab.2).val)| ≤ r.u * |s.val + (ab.1 * ab.2).val| :=
      r.err_add s.val (ab.1 * ab.2).val s.2 (ab.1 * ab.2).2
    set t := (ab.1 * ab.2).val
    set s' := (s + ab.1 * ab.2).val
    have e1 : |t| ≤ (1 + r.u) * |p| + r.η := by
      have : |t| ≤ |t - p| + |p| := by simpa using abs_add_le (t - p) p
      linarith
    have e2 : |s.val + t| ≤ |s.val| + ((1 + r.u) * |p| + r.η) := (abs_add_le _ _).trans (by linarith)
    have e3 : |s' - (s.val + p)| ≤ r.u * |s.val| + ((1 + r.u) ^ 2 - 1) * |p| + (1 + r.u) * r.η := by
      have a : |s' - (s.val + p)| ≤ |s' - (s.val + t)| + |t - p| := by
        have := abs_add_le (s' - (s.val + t)) (t - p)
        rwa [show s' - (s.val + t) + (t - p) = s' - (s.val + p) by ring] at this
      have b := mul_le_mul_of_nonneg_left e2 hu
      nlinarith
    have e4 : |s'| ≤ (1 + r.u) * |s.val| + (1 + r.u) ^ 2 * |p| + (1 + r.u) * r.η := by
      have a : |s'| ≤ |s' - (s.val + p)| + |s.val + p| := by simpa using abs_add_le (s' - (s.val + p)) (s.val + p)
      have b := abs_add_le s.val p
      nlinarith
    have e5 : |R - (s.val + (p + D))| ≤ |R - (s' + D)| + |s' - (s.val + p)| := by
      have := abs_add_le (R - (s' + D)) (s' - (s.val + p))
      rwa [show R - (s' + D) + (s' - (s.val + p)) = R - (s.val + (p + D)) by ring] at this
    set g := (1 + r.u) ^ l.length with hg
    have hg1 : 1 ≤ g := one_le_pow₀ (by linarith)
    have e6 : (g - 1) * |s'| ≤ (g - 1) * ((1 + r.u) * |s.val| + (1 + r.u) ^ 2 * |p| + (1 + r.u) * r.η) :=
      mul_le_mul_of_nonneg_left e4 (by linarith)
    have p1 : (1 + r.u) ^ (l.length + 1) = g * (1 + r.u) := pow_succ _ _
    have p2 : (1 + r.u) ^ (l.length + 1 + 1) = g * (1 + r.u) * (1 + r.u) := by rw [pow_succ, pow_succ]
    rw [p1] at h
    rw [p1, p2]
    push_cast
    have k1 : 0 ≤ (g * (1 + r.u) * (1 + r.u) - g * (1 + r.u)) * A := by
      apply mul_nonneg _ hA0
      have : 0 ≤ g * (1 + r.u) * r.u := by positivity
      linarith
    have k2 : 0 ≤ (l.length : ℝ) * (g * r.u * r.η) := by positivity
    refine (e5.trans (add_le_add h e3)).trans ?_
    nlinarith
end Rounding

theorem map_sum_fin {r : Rounding} (f : Fl r → Fl r → ℝ) : ∀ (n : Nat) (l m : List (Fl r)) (hl : l.length = n)
    (hm : m.length = n), ((List.zip l m).map fun ab => f ab.1 ab.2).sum =
      ∑ i : Fin n, f (l[i.1]'(by rw [hl]; exact i.2)) (m[i.1]'(by rw [hm]; exact i.2)) := by
  intro n
  induction n with
  | zero =>
    intro l m hl hm
    rw [List.length_eq_zero_iff] at hl hm
    subst hl hm; simp
  | succ n ih =>
    intro l m hl hm
    cases l with
    | nil => simp at hl
    | cons a l =>
      cases m with
      | nil => simp at hm
      | cons b m =>
        rw [List.zip_cons_cons, List.map_cons, List.sum_cons, Fin.sum_univ_succ,
          ih l m (by simpa using hl) (by simpa using hm)]
        congr 1

theorem sqNorm_nonneg {n : Nat} (x : Fin n → ℝ) : 0 ≤ sqNorm x := Finset.sum_nonneg fun _ _ => by positivity

/-- Cauchy–Schwarz, for the sum of the absolute values. -/
theorem abs_dot_le {n : Nat} (x y : Fin n → ℝ) :
    ∑ i, |x i * y i| ≤ Real.sqrt (sqNorm x) * Real.sqrt (sqNorm y) := by
  rw [← Real.sqrt_mul (sqNorm_nonneg x)]
  apply Real.le_sqrt_of_sq_le
  have := Finset.sum_mul_sq_le_sq_mul_sq Finset.univ (fun i => |x i|) (fun i => |y i|)
  simpa [abs_mul, sqNorm, sq_abs] using this

theorem dot_abs_le {n : Nat} (x y : Fin n → ℝ) :
    |dotReal x y| ≤ Real.sqrt (sqNorm x) * Real.sqrt (sqNorm y) :=
  (Finset.abs_sum_le_sum_abs _ _).trans (abs_dot_le x y)

/-- The error of `ScalarProduct`. -/
theorem scalar_err {r : Rounding} {n : Nat} (a b : Vec (Fl r) n) (ha : r.Regular a.real) (hb : r.Regular b.real) :
    |(scalarProduct a.1 b.1).val - dotReal a.real b.real| ≤
      ((1 + r.u) ^ (n + 2) - 1) * (Real.sqrt (sqNorm a.real) * Real.sqrt (sqNorm b.real)) := by
  have hu := r.u_nonneg
  have hlen : (List.zip a.1 b.1).length = n := by rw [List.length_zip, a.2, b.2, Nat.min_self]
  have h := r.dot_err (List.zip a.1 b.1) 0
  rw [hlen, map_sum_fin (fun x y => x.val * y.val) n a.1 b.1 a.2 b.2,
    map_sum_fin (fun x y => |x.val * y.val|) n a.1 b.1 a.2 b.2, Fl.val_zero, zero_add, abs_zero, mul_zero,
    zero_add] at h
  change |(scalarProduct a.1 b.1).val - dotReal a.real b.real| ≤ ((1 + r.u) ^ (n + 1) - 1) *
    (∑ i, |a.real i * b.real i|) + n * ((1 + r.u) ^ n * r.η) at h
  have hcs := abs_dot_le a.real b.real
  have sa := Real.sq_sqrt (sqNorm_nonneg a.real)
  have sb := Real.sq_sqrt (sqNorm_nonneg b.real)
  have a0 := Real.sqrt_nonneg (sqNorm a.real)
  have b0 := Real.sqrt_nonneg (sqNorm b.real)
  have ha2 := ha.2
  have hb2 := hb.2
  rw [← sa] at ha2
  rw [← sb] at hb2
  set α := Real.sqrt (sqNorm a.real)
  set β := Real.sqrt (sqNorm b.real)
  have hη : (n : ℝ) * r.η ≤ r.u * (α * β) := by
    rcases le_total α β with h | h
    · refine ha2.trans (mul_le_mul_of_nonneg_left ?_ hu); nlinarith
    · refine hb2.trans (mul_le_mul_of_nonneg_left ?_ hu); nlinarith
  set g := (1 + r.u) ^ n with hg
  have hg1 : 1 ≤ g := one_le_pow₀ (by linarith)
  have p1 : (1 + r.u) ^ (n + 1) = g * (1 + r.u) := pow_succ _ _
  have p2 : (1 + r.u) ^ (n + 2) = g * (1 + r.u) * (1 + r.u) := by rw [pow_succ, pow_succ]
  rw [p1] at h
  rw [p2]
  have k1 : (g * (1 + r.u) - 1) * (∑ i, |a.real i * b.real i|) ≤ (g * (1 + r.u) - 1) * (α * β) :=
    mul_le_mul_of_nonneg_left hcs (by nlinarith)
  have k2 : g * (n * r.η) ≤ g * (r.u * (α * β)) := mul_le_mul_of_nonneg_left hη (by linarith)
  have k3 : 0 ≤ g * r.u * r.u * (α * β) := by positivity
  nlinarith

/-- The error of `Norm`. -/
theorem norm_err {r : Rounding} {n : Nat} (a : Vec (Fl r) n) (ha : r.Regular a.real)
    (hω : (1 + r.u) ^ (n + 3) - 1 ≤ 1) :
    |(GoMath.sqrt (scalarProduct a.1 a.1)).val - Real.sqrt (sqNorm a.real)| ≤
      ((1 + r.u) ^ (n + 3) - 1) * Real.sqrt (sqNorm a.real) := by
  have hu := r.u_nonneg
  have hs := scalar_err a a ha ha
  have hd : dotReal a.real a.real = sqNorm a.real := by simp [dotReal, sqNorm, sq]
  have sa := Real.sq_sqrt (sqNorm_nonneg a.real)
  have a0 := Real.sqrt_nonneg (sqNorm a.real)
  rw [hd] at hs
  have p3 : (1 + r.u) ^ (n + 3) = (1 + r.u) ^ (n + 2) * (1 + r.u) := pow_succ _ _
  rw [p3] at hω ⊢
  have hg1 : 1 ≤ (1 + r.u) ^ (n + 2) := one_le_pow₀ (by linarith)
  set γ := (1 + r.u) ^ (n + 2) - 1 with hγ
  have hγ' : (1 + r.u) ^ (n + 2) = 1 + γ := by rw [hγ]; ring
  rw [hγ'] at hω ⊢
  have hγ0 : 0 ≤ γ := by linarith
  set α := Real.sqrt (sqNorm a.real)
  rw [← sa] at hs
  set p := scalarProduct a.1 a.1
  obtain ⟨h1, h2⟩ := abs_le.1 hs
  have hγ1 : γ ≤ 1 := by nlinarith
  have p0 : 0 ≤ p.val := by nlinarith
  have q1 : (1 - γ) * α ≤ Real.sqrt p.val := by
    apply Real.le_sqrt_of_sq_le
    nlinarith [mul_nonneg hγ0 (sq_nonneg α), mul_nonneg (mul_nonneg hγ0 (by linarith : 0 ≤ 1 - γ)) (sq_nonneg α)]
  have q2 : Real.sqrt p.val ≤ (1 + γ) * α := by
    rw [show (1 + γ) * α = Real.sqrt (((1 + γ) * α) ^ 2) by rw [Real.sqrt_sq (by positivity)]]
    apply Real.sqrt_le_sqrt
    nlinarith [mul_nonneg hγ0 (sq_nonneg α), mul_nonneg (mul_nonneg hγ0 hγ0) (sq_nonneg α)]
  have he : |(GoMath.sqrt p).val - Real.sqrt p.val| ≤ r.u * Real.sqrt p.val := r.err_sqrt p.val p.2 p0
  obtain ⟨e1, e2⟩ := abs_le.1 he
  have hq0 := Real.sqrt_nonneg p.val
  set q := Real.sqrt p.val
  have k1 : r.u * q ≤ r.u * ((1 + γ) * α) := mul_le_mul_of_nonneg_left q2 hu
  rw [abs_le]
  constructor <;> nlinarith

/-- The quotient of a scalar product by two norms, each with an error. -/
theorem quotient_err {C ε θ φ ω : ℝ} (hn : ω ≤ 1 / 16) (cC : |C| ≤ 1) (cε : |ε - C| ≤ ω) (cθ : |θ - 1| ≤ ω)
    (cφ : |φ - 1| ≤ ω) : |ε / (θ * φ) - C| ≤ 7 / 2 * ω := by
  have hω0 : 0 ≤ ω := (abs_nonneg _).trans cε
  obtain ⟨T1, T2⟩ := abs_le.1 cθ
  obtain ⟨F1, F2⟩ := abs_le.1 cφ
  have θ0 : 0 < θ := by linarith
  have φ0 : 0 < φ := by linarith
  obtain ⟨x, hx⟩ : ∃ x, x = ε / (θ * φ) := ⟨_, rfl⟩
  have ex : ε = x * (θ * φ) := by rw [hx]; field_simp
  rw [← hx]
  have tf1 : (15 / 16) ^ 2 ≤ θ * φ := by
    have h1 : 15 / 16 ≤ θ := by linarith
    have h2 : 15 / 16 ≤ φ := by linarith
    nlinarith
  have tfd : |1 - θ * φ| ≤ 33 / 16 * ω := by
    rw [show 1 - θ * φ = -((θ - 1) + (φ - 1) + (θ - 1) * (φ - 1)) by ring, abs_neg]
    have h1 := abs_add_le ((θ - 1) + (φ - 1)) ((θ - 1) * (φ - 1))
    have h2 := abs_add_le (θ - 1) (φ - 1)
    have h3 : |(θ - 1) * (φ - 1)| ≤ ω * ω := by
      rw [abs_mul]; exact mul_le_mul cθ cφ (abs_nonneg _) hω0
    nlinarith
  have cx : |x - C| ≤ 7 / 2 * ω := by
    have h1 : |x - C| * (θ * φ) ≤ 49 / 16 * ω := by
      rw [show |x - C| * (θ * φ) = |(x - C) * (θ * φ)| by rw [abs_mul, abs_of_pos (by positivity : 0 < θ * φ)],
        show (x - C) * (θ * φ) = (ε - C) + C * (1 - θ * φ) by rw [ex]; ring]
      have h2 := abs_add_le (ε - C) (C * (1 - θ * φ))
      have h3 : |C * (1 - θ * φ)| ≤ 1 * (33 / 16 * ω) := by
        rw [abs_mul]; exact mul_le_mul cC tfd (abs_nonneg _) (by norm_num)
      linarith
    have h0 := mul_le_mul_of_nonneg_left tf1 (abs_nonneg (x - C))
    linarith
  exact cx

/-- The two divisions and the subtraction, rounded. -/
theorem division_err {r : Rounding} (hr : r.η ≤ r.u) (P Na Nb : Fl r) {x β C ω : ℝ} (hω3 : 3 * r.u ≤ ω)
    (hn : ω ≤ 1 / 16) (cC : |C| ≤ 1) (cx : |x - C| ≤ 7 / 2 * ω) (q1 : P.val / Na.val = x * Nb.val)
    (Nb0 : 0 < Nb.val) (hβ : β ≤ 16 / 15 * Nb.val) (hηβ : r.η ≤ r.u * β) :
    |((1 : Fl r) - P / Na / Nb).val - (1 - C)| ≤ 6 * ω := by
  have hu := r.u_nonneg
  obtain ⟨C1, C2⟩ := abs_le.1 cC
  have ax : |x| ≤ 39 / 32 := by
    have : |x| ≤ |x - C| + |C| := by simpa using abs_add_le (x - C) C
    linarith
  -- first division
  have d1 : |(P / Na).val - P.val / Na.val| ≤ r.u * |P.val / Na.val| + r.η := r.err _
  rw [q1] at d1
  set c1 := P / Na
  have d2 : |c1.val / Nb.val - x| ≤ 5 / 2 * r.u := by
    have h1 : |c1.val / Nb.val - x| * Nb.val ≤ r.u * (|x| * Nb.val) + r.u * β := by
      rw [show |c1.val / Nb.val - x| * Nb.val = |(c1.val / Nb.val - x) * Nb.val| by
          rw [abs_mul, abs_of_pos Nb0],
        show (c1.val / Nb.val - x) * Nb.val = c1.val - x * Nb.val by field_simp]
      rw [abs_mul x, abs_of_pos Nb0] at d1
      linarith
    have h3 : r.u * β ≤ r.u * (16 / 15 * Nb.val) := mul_le_mul_of_nonneg_left hβ hu
    have h4 : r.u * (|x| * Nb.val) ≤ r.u * (39 / 32 * Nb.val) := by gcongr
    have h5 : |c1.val / Nb.val - x| * Nb.val ≤ 5 / 2 * r.u * Nb.val := by
      have h0 := mul_nonneg hu Nb0.le
      linarith
    exact le_of_mul_le_mul_right h5 Nb0
  -- second division
  have d3 : |(c1 / Nb).val - c1.val / Nb.val| ≤ r.u * |c1.val / Nb.val| + r.η := r.err _
  set c2 := c1 / Nb
  set y := c1.val / Nb.val
  have hu16 : r.u ≤ 1 / 48 := by linarith
  have ay : |y| ≤ 3 / 2 := by
    have : |y| ≤ |y - x| + |x| := by simpa using abs_add_le (y - x) x
    linarith
  have d4 : |c2.val - y| ≤ 5 / 2 * r.u := by
    have : r.u * |y| ≤ r.u * (3 / 2) := mul_le_mul_of_nonneg_left ay hu
    linarith
  have d5 : |c2.val - C| ≤ 7 / 2 * ω + 5 * r.u := by
    have h1 := abs_add_le (c2.val - y + (y - x)) (x - C)
    have h2 := abs_add_le (c2.val - y) (y - x)
    rw [show c2.val - y + (y - x) + (x - C) = c2.val - C by ring] at h1
    linarith
  -- the subtraction
  have d6 : |((1 : Fl r) - c2).val - (1 - c2.val)| ≤ r.u * |1 - c2.val| := by
    have := r.err_add 1 (-c2.val) r.one (by rw [r.neg, Fl.rnd_val])
    simpa [Fl.val_sub, Fl.val_one, sub_eq_add_neg] using this
  have a1 : |1 - c2.val| ≤ 5 / 2 := by
    have h1 := abs_add_le (1 - C) (C - c2.val)
    rw [show 1 - C + (C - c2.val) = 1 - c2.val by ring, abs_sub_comm C] at h1
    have h2 : |1 - C| ≤ 2 := by rw [abs_le]; constructor <;> linarith
    linarith
  have d7 : r.u * |1 - c2.val| ≤ r.u * (5 / 2) := mul_le_mul_of_nonneg_left a1 hu
  have h1 := abs_add_le (((1 : Fl r) - c2).val - (1 - c2.val)) (C - c2.val)
  rw [show ((1 : Fl r) - c2).val - (1 - c2.val) + (C - c2.val) = ((1 : Fl r) - c2).val - (1 - C) by ring,
    abs_sub_comm C] at h1
  linarith

/-- **The error of the cosine distance.** -/
theorem cos_err {r : Rounding} (hr : r.η ≤ r.u) {n : Nat} (a b : Vec (Fl r) n) (ha : r.Regular a.real)
    (hb : r.Regular b.real) (hn : (1 + r.u) ^ (n + 3) - 1 ≤ 1 / 16) :
    |((cosinusSpace (Fl r) n).dist a b).val - cosReal a.real b.real| ≤ r.cosErr n := by
  have hu := r.u_nonneg
  have hη := r.η_nonneg
  have hs := scalar_err a b ha hb
  have na := norm_err a ha (by linarith)
  have nb := norm_err b hb (by linarith)
  have hdot := dot_abs_le a.real b.real
  have a0 : 0 < Real.sqrt (sqNorm a.real) := Real.sqrt_pos.2 ha.1
  have b0 : 0 < Real.sqrt (sqNorm b.real) := Real.sqrt_pos.2 hb.1
  have sb := Real.sq_sqrt (sqNorm_nonneg b.real)
  have hb2 := hb.2
  rw [← sb] at hb2
  have hn1 : 1 ≤ n := by
    rcases Nat.eq_zero_or_pos n with h | h
    · subst h; have := hb.1; simp [sqNorm] at this
    · exact h
  have hω3 : 3 * r.u ≤ (1 + r.u) ^ (n + 3) - 1 := by
    have h1 : (1 + r.u) ^ 3 ≤ (1 + r.u) ^ (n + 3) := pow_le_pow_right₀ (by linarith) (by omega)
    have h2 : 1 + 3 * r.u ≤ (1 + r.u) ^ 3 := by nlinarith [mul_nonneg hu hu, mul_nonneg hu (mul_nonneg hu hu)]
    linarith
  have hγω : (1 + r.u) ^ (n + 2) - 1 ≤ (1 + r.u) ^ (n + 3) - 1 := by
    have : (1 + r.u) ^ (n + 2) ≤ (1 + r.u) ^ (n + 3) := pow_le_pow_right₀ (by linarith) (by omega)
    linarith
  unfold Rounding.cosErr cosReal
  set ω := (1 + r.u) ^ (n + 3) - 1 with hω
  set α := Real.sqrt (sqNorm a.real)
  set β := Real.sqrt (sqNorm b.real)
  set D := dotReal a.real b.real
  show |((1 : Fl r) - scalarProduct a.1 b.1 / GoMath.sqrt (scalarProduct a.1 a.1) /
    GoMath.sqrt (scalarProduct b.1 b.1)).val - _| ≤ _
  set P := scalarProduct a.1 b.1
  set Na := GoMath.sqrt (scalarProduct a.1 a.1)
  set Nb := GoMath.sqrt (scalarProduct b.1 b.1)
  have hs' : |P.val - D| ≤ ω * (α * β) := hs.trans (mul_le_mul_of_nonneg_right hγω (by positivity))
  have hηβ : r.η ≤ r.u * β := by
    rcases le_total 1 β with h | h
    · nlinarith
    · have : r.η ≤ n * r.η := by
        have : (1 : ℝ) ≤ n := by exact_mod_cast hn1
        nlinarith
      have : r.u * β ^ 2 ≤ r.u * β := mul_le_mul_of_nonneg_left (by nlinarith) hu
      linarith
  -- everything relative to α and β
  obtain ⟨C, hC⟩ : ∃ C, C = D / (α * β) := ⟨_, rfl⟩
  obtain ⟨θ, hθ⟩ : ∃ θ, θ = Na.val / α := ⟨_, rfl⟩
  obtain ⟨φ, hφ⟩ : ∃ φ, φ = Nb.val / β := ⟨_, rfl⟩
  obtain ⟨ε, hε⟩ : ∃ ε, ε = P.val / (α * β) := ⟨_, rfl⟩
  have eN : Na.val = θ * α := by rw [hθ]; field_simp
  have eM : Nb.val = φ * β := by rw [hφ]; field_simp
  have eP : P.val = ε * (α * β) := by rw [hε]; field_simp
  have eD : D = C * (α * β) := by rw [hC]; field_simp
  have hab : 0 < α * β := by positivity
  have cC : |C| ≤ 1 := by
    rw [eD, abs_mul, abs_of_pos hab] at hdot
    exact le_of_mul_le_mul_right (by linarith) hab
  have cε : |ε - C| ≤ ω := by
    rw [eD, eP, ← sub_mul, abs_mul, abs_of_pos hab] at hs'
    exact le_of_mul_le_mul_right hs' hab
  have cθ : |θ - 1| ≤ ω := by
    have h := na
    rw [eN, show θ * α - α = (θ - 1) * α by ring, abs_mul, abs_of_pos a0] at h
    exact le_of_mul_le_mul_right h a0
  have cφ : |φ - 1| ≤ ω := by
    have h := nb
    rw [eM, show φ * β - β = (φ - 1) * β by ring, abs_mul, abs_of_pos b0] at h
    exact le_of_mul_le_mul_right h b0
  rw [← hC]
  obtain ⟨C1, C2⟩ := abs_le.1 cC
  obtain ⟨E1, E2⟩ := abs_le.1 cε
  obtain ⟨T1, T2⟩ := abs_le.1 cθ
  obtain ⟨F1, F2⟩ := abs_le.1 cφ
  have hω0 : 0 ≤ ω := by linarith
  have θ0 : 0 < θ := by linarith
  have φ0 : 0 < φ := by linarith
  -- the quotient without rounding
  obtain ⟨x, hx⟩ : ∃ x, x = ε / (θ * φ) := ⟨_, rfl⟩
  have ex : ε = x * (θ * φ) := by rw [hx]; field_simp
  have cx : |x - C| ≤ 7 / 2 * ω := by rw [hx]; exact quotient_err hn cC cε cθ cφ
  have Nb0 : 0 < Nb.val := by rw [eM]; positivity
  have q1 : P.val / Na.val = x * Nb.val := by
    rw [eP, eN, eM, ex]; field_simp
  have hβ : β ≤ 16 / 15 * Nb.val := by
    rw [eM]
    have : 15 / 16 ≤ φ := by linarith
    nlinarith
  exact division_err hr P Na Nb hω3 hn cC cx q1 Nb0 hβ hηβ

end Distclus
