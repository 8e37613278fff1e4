import Verif.Proof.DtwRound
import Verif.Props.FlLoss
/-!
# C147: the DTW distance, rounded
-/
namespace Distclus
open Spec

section
variable {P : Type} {r : Rounding}

/-- **C147.** Whatever the distance of points, if it is known up to a relative error and an absolute
one: the path that `NewDTWWindow` reports and the distance it computes, against the exact costs of
that path and of all the other ones. -/
theorem C147_path (space : Space P (Fl r)) (δ : P → P → ℝ) (s1 s2 : List P) {lo hi c : ℝ} (hc : 0 ≤ c)
    (hhi : 0 ≤ hi) (window : Int) (hw : 0 ≤ window) (h1 : s1 ≠ []) (h2 : s2 ≠ [])
    (hd : ∀ a ∈ s1, ∀ b ∈ s2, 0 ≤ (space.dist a b).val) (hδ : ∀ a ∈ s1, ∀ b ∈ s2, 0 ≤ δ a b)
    (h : ∀ a ∈ s1, ∀ b ∈ s2, lo * δ a b - c ≤ (space.dist a b).val ∧ (space.dist a b).val ≤ hi * (δ a b + c))
    (hlast : Within (band window s2.length) (s1.length - 1) (s2.length - 1)) :
    ∃ dtw p, ∃ v : Fl r, newDTWWindow s1 s2 (withInf space) window = some dtw ∧
      dtw.path = p.map (fun x : Nat × Nat => (⟨x.1, x.2⟩ : Ends)) ∧
      Warp (Within (band window s2.length)) (s1.length - 1) (s2.length - 1) p ∧
      dtw.dist = (v : WithTop (Fl r)) ∧ 0 ≤ v.val ∧
      (1 - r.u) ^ (s1.length + s2.length - 2) *
        (lo * exactCost δ s1 s2 p - (s1.length + s2.length - 1 : ℕ) * c) ≤ v.val ∧
      ∀ q, Warp (Within (band window s2.length)) (s1.length - 1) (s2.length - 1) q →
        v.val ≤ (1 + r.u) ^ (s1.length + s2.length - 2) *
          (hi * (exactCost δ s1 s2 q + (s1.length + s2.length - 1 : ℕ) * c)) := by
  obtain ⟨dtw, p, e, _, _, _, hpath, hp, hcost, hmin⟩ :=
    C44_C45_dtw Fl.withTop_add_mono s1 s2 (withInf space) window hw h1 h2 hlast
  obtain ⟨v, hv, h0, hlow, _⟩ := pathCost_fl space δ s1 s2 hc hhi h1 h2 hd hδ h hp
  have hdist : dtw.dist = (v : WithTop (Fl r)) := Option.some.inj (hcost.symm.trans hv)
  refine ⟨dtw, p, v, e, hpath, hp, hdist, h0, hlow, fun q hq => ?_⟩
  obtain ⟨x, hx, hle⟩ := hmin q hq
  obtain ⟨w, hw', _, _, hup⟩ := pathCost_fl space δ s1 s2 hc hhi h1 h2 hd hδ h hq
  have : x = (w : WithTop (Fl r)) := Option.some.inj (hx.symm.trans hw')
  rw [this, hdist, WithTop.coe_le_coe, Fl.le_iff] at hle
  exact hle.trans hup

/-- The two errors of the Euclidean distance. -/
theorem fl_dist_lohi {n : Nat} (a b : Vec (Fl r) n) :
    Real.sqrt ((1 - r.u) ^ (n + 5)) * Real.sqrt (sqDist a.real b.real) - Real.sqrt (n * r.η) ≤
      ((euclidSpace (Fl r) n).dist a b).val ∧
    ((euclidSpace (Fl r) n).dist a b).val ≤
      Real.sqrt ((1 + r.u) ^ (n + 5)) * (Real.sqrt (sqDist a.real b.real) + Real.sqrt (n * r.η)) := by
  obtain ⟨_, h0, _, h1, h2⟩ := C98_dist a b
  have h0' : 0 ≤ ((euclidSpace (Fl r) n).dist a b).val := h0
  have hu0 := r.u_nonneg
  have hu1 : 0 ≤ 1 - r.u := by linarith [r.u_le_one]
  have hη : 0 ≤ (n : ℝ) * r.η := mul_nonneg (by positivity) r.η_nonneg
  have hs := sqDist_nonneg a.real b.real
  set d := ((euclidSpace (Fl r) n).dist a b).val
  set s := sqDist a.real b.real
  constructor
  · rw [← Real.sqrt_mul (pow_nonneg hu1 _), sub_le_iff_le_add]
    refine Real.sqrt_le_iff.2 ⟨by positivity, ?_⟩
    have := Real.sq_sqrt hη
    nlinarith [mul_nonneg h0' (Real.sqrt_nonneg (n * r.η))]
  · have k : d ≤ Real.sqrt ((1 + r.u) ^ (n + 5) * (s + n * r.η)) := Real.le_sqrt_of_sq_le h2
    refine k.trans ?_
    rw [Real.sqrt_mul (by positivity)]
    refine mul_le_mul_of_nonneg_left ?_ (Real.sqrt_nonneg _)
    refine Real.sqrt_le_iff.2 ⟨by positivity, ?_⟩
    nlinarith [Real.sq_sqrt hη, Real.sq_sqrt hs, mul_nonneg (Real.sqrt_nonneg s) (Real.sqrt_nonneg (n * r.η))]

/-- The exact Euclidean distance of two vectors of rounded numbers. -/
noncomputable def exactDist {n : Nat} (a b : Vec (Fl r) n) : ℝ := Real.sqrt (sqDist a.real b.real)

/-- **C147.** The DTW distance that `Space.Dist` computes, on series of vectors which it does not
resize, against the exact DTW distance of these series. -/
theorem C147_dist {n : Nat} (window : Int) (x y : List (Vec (Fl r) n)) (hx : x ≠ []) (hy : y ≠ [])
    (hf : NoResize window x.length y.length) (e : ℝ)
    (he : IsExactDtw exactDist (band window y.length) x y e) :
    ∃ v : Fl r, (DtwSpace.mk window (withInf (euclidSpace (Fl r) n))).dist x y = some (v : WithTop (Fl r)) ∧
      (1 - r.u) ^ (x.length + y.length - 2) *
        (Real.sqrt ((1 - r.u) ^ (n + 5)) * e - (x.length + y.length - 1 : ℕ) * Real.sqrt (n * r.η)) ≤ v.val ∧
      v.val ≤ (1 + r.u) ^ (x.length + y.length - 2) *
        (Real.sqrt ((1 + r.u) ^ (n + 5)) * (e + (x.length + y.length - 1 : ℕ) * Real.sqrt (n * r.η))) := by
  have p1 := List.length_pos_iff.2 hx
  have p2 := List.length_pos_iff.2 hy
  have hl : Within (band window y.length) (x.length - 1) (y.length - 1) := by
    unfold NoResize at hf
    unfold Within band
    split <;> omega
  have hs : shrinkLongest x y (withInf (euclidSpace (Fl r) n)) window = some (x, y) := by
    unfold shrinkLongest
    unfold NoResize at hf
    simp only
    rw [if_neg (by omega), if_neg (by omega)]
  obtain ⟨d, p, v, hd, _, hp, hv, _, hlow, hup⟩ := C147_path (euclidSpace (Fl r) n) exactDist x y
    (Real.sqrt_nonneg (n * r.η)) (Real.sqrt_nonneg _) window (by unfold NoResize at hf; omega) hx hy
    (fun a _ b _ => (C98_dist a b).2.1) (fun a _ b _ => Real.sqrt_nonneg _) (fun a _ b _ => fl_dist_lohi a b) hl
  obtain ⟨⟨q, hq, rfl⟩, hmin⟩ := he
  refine ⟨v, ?_, le_trans ?_ hlow, hup q hq⟩
  · unfold DtwSpace.dist
    rw [hs]
    simp only [hd, Option.map_some, hv]
  · have hu1 : 0 ≤ 1 - r.u := by linarith [r.u_le_one]
    refine mul_le_mul_of_nonneg_left ?_ (pow_nonneg hu1 _)
    have := mul_le_mul_of_nonneg_left (hmin p hp) (Real.sqrt_nonneg ((1 - r.u) ^ (n + 5)))
    linarith

/-- **C147.** The path reported is the best one up to rounding: its exact cost, against the exact DTW
distance. -/
theorem C147_best {n : Nat} (window : Int) (hw : 0 ≤ window) (x y : List (Vec (Fl r) n)) (hx : x ≠ [])
    (hy : y ≠ []) (hl : Within (band window y.length) (x.length - 1) (y.length - 1)) (e : ℝ)
    (he : IsExactDtw exactDist (band window y.length) x y e) :
    ∃ dtw p, newDTWWindow x y (withInf (euclidSpace (Fl r) n)) window = some dtw ∧
      dtw.path = p.map (fun x : Nat × Nat => (⟨x.1, x.2⟩ : Ends)) ∧
      Warp (Within (band window y.length)) (x.length - 1) (y.length - 1) p ∧
      e ≤ exactCost exactDist x y p ∧
      (1 - r.u) ^ (x.length + y.length - 2) * (Real.sqrt ((1 - r.u) ^ (n + 5)) * exactCost exactDist x y p -
          (x.length + y.length - 1 : ℕ) * Real.sqrt (n * r.η)) ≤
        (1 + r.u) ^ (x.length + y.length - 2) *
          (Real.sqrt ((1 + r.u) ^ (n + 5)) * (e + (x.length + y.length - 1 : ℕ) * Real.sqrt (n * r.η))) := by
  obtain ⟨d, p, v, hd, hpath, hp, hv, _, hlow, hup⟩ := C147_path (euclidSpace (Fl r) n) exactDist x y
    (Real.sqrt_nonneg (n * r.η)) (Real.sqrt_nonneg _) window hw hx hy
    (fun a _ b _ => (C98_dist a b).2.1) (fun a _ b _ => Real.sqrt_nonneg _) (fun a _ b _ => fl_dist_lohi a b) hl
  obtain ⟨⟨q, hq, rfl⟩, hmin⟩ := he
  exact ⟨d, p, hd, hpath, hp, hmin p hp, hlow.trans (hup q hq)⟩
end

/-- **C147.** Without rounding the code computes the exact DTW distance: the bounds above compare what
it computes with what it would compute in ℝ. -/
theorem C147_exact {P : Type} (space : Space P ℝ) (window : Int) (hw : 0 ≤ window) (x y : List P) (hx : x ≠ [])
    (hy : y ≠ []) (hl : Within (band window y.length) (x.length - 1) (y.length - 1)) :
    ∃ dtw e, newDTWWindow x y (withInf space) window = some dtw ∧ dtw.dist = ((e : ℝ) : WithTop ℝ) ∧
      IsExactDtw space.dist (band window y.length) x y e := by
  have p1 := List.length_pos_iff.2 hx
  have p2 := List.length_pos_iff.2 hy
  obtain ⟨dtw, p, e, _, _, _, _, hp, hcost, hmin⟩ :=
    C44_C45_dtw (fun a b c h => by gcongr) x y (withInf space) window hw hx hy hl
  have key : ∀ q : List (Nat × Nat), (∀ c ∈ q, c.1 < x.length ∧ c.2 < y.length) →
      cellSum (pairDist (withInf space) x y) q = ((exactCost space.dist x y q : ℝ) : WithTop ℝ) := by
    intro q
    induction q with
    | nil => intro _; simp [cellSum, exactCost]
    | cons c q ih =>
      intro hq
      obtain ⟨c1, c2⟩ := hq c (by simp)
      unfold exactCost at ih ⊢
      rw [cellSum_cons, cellSum_cons, ih fun a ha => hq a (by simp [ha]), WithTop.coe_add]
      unfold pairDist exactCell
      rw [List.getElem?_eq_getElem c1, List.getElem?_eq_getElem c2]
      rfl
  have hin : ∀ q, Warp (Within (band window y.length)) (x.length - 1) (y.length - 1) q →
      pathCost (pairDist (withInf space) x y) q = some ((exactCost space.dist x y q : ℝ) : WithTop ℝ) := by
    intro q hq
    rw [pathCost_cellSum _ _ hq.ne_nil, key q fun c hc => by have := hq.inside c hc; omega]
  refine ⟨dtw, exactCost space.dist x y p, e, Option.some.inj (hcost.symm.trans (hin p hp)), ⟨p, hp, rfl⟩,
    fun q hq => ?_⟩
  obtain ⟨z, hz, hle⟩ := hmin q hq
  rw [Option.some.inj (hz.symm.trans (hin q hq)), Option.some.inj (hcost.symm.trans (hin p hp)),
    WithTop.coe_le_coe] at hle
  exact hle

/-- **C147.** In `float64`: the relative error is at most `(|x| + |y| + n + 3) · 2⁻⁵²`, and underflow adds
no more than some `√n · 2⁻⁵³⁶` for each cell of a path. -/
theorem C147_binary64 {n : Nat} (window : Int) (x y : List (Vec (Fl binary64) n)) (hx : x ≠ []) (hy : y ≠ [])
    (hf : NoResize window x.length y.length) (e : ℝ) (hq : x.length + y.length + n + 3 ≤ 2 ^ 51)
    (he : IsExactDtw exactDist (band window y.length) x y e) :
    ∃ v : Fl binary64,
      (DtwSpace.mk window (withInf (euclidSpace (Fl binary64) n))).dist x y = some (v : WithTop (Fl binary64)) ∧
      |v.val - e| ≤ (x.length + y.length + n + 3) * 2 ^ (-52 : ℤ) * e +
        2 * ((x.length + y.length - 1) * Real.sqrt (n * 2 ^ (-1075 : ℤ))) := by
  obtain ⟨v, hv, h1, h2⟩ := C147_dist window x y hx hy hf e he
  refine ⟨v, hv, ?_⟩
  obtain ⟨hu, hη⟩ := C98_binary64
  have p1 := List.length_pos_iff.2 hx
  have p2 := List.length_pos_iff.2 hy
  have hu0 := binary64.u_nonneg
  have hu1 : 0 ≤ 1 - binary64.u := by linarith [binary64.u_le_one]
  have he0 : 0 ≤ e := by
    obtain ⟨⟨p, hp, rfl⟩, _⟩ := he
    refine cellSum_nonneg (fun i j => ?_) p
    unfold exactCell
    split
    · exact Real.sqrt_nonneg _
    · exact le_rfl
  rw [← hη]
  have hκ := Real.sqrt_nonneg ((n : ℝ) * binary64.η)
  set κ := Real.sqrt ((n : ℝ) * binary64.η)
  have eN : ((x.length + y.length - 1 : ℕ) : ℝ) = (x.length : ℝ) + y.length - 1 := by
    rw [Nat.cast_sub (by omega)]; push_cast; ring
  rw [eN] at h1 h2
  set N : ℝ := (x.length : ℝ) + y.length - 1
  have hN : 0 ≤ N := by rw [← eN]; positivity
  set q := x.length + y.length + n + 3 with hqd
  have hq' : (q : ℝ) ≤ 2 ^ (51 : ℤ) := by exact_mod_cast hq
  have e0 : ((x.length : ℝ) + y.length + n + 3) = (q : ℝ) := by rw [hqd]; push_cast; ring
  have e1 : (q : ℝ) * 2 ^ (-52 : ℤ) = 2 * (q * binary64.u) := by
    rw [hu, show (-52 : ℤ) = 1 + -53 by norm_num, zpow_add₀ (by norm_num)]
    norm_num; ring
  rw [e0, e1]
  set a : ℝ := q * binary64.u with ha
  have ha4 : a ≤ 1 / 4 := by
    rw [ha, hu]
    calc (q : ℝ) * 2 ^ (-53 : ℤ) ≤ 2 ^ (51 : ℤ) * 2 ^ (-53 : ℤ) := by gcongr
      _ = 1 / 4 := by rw [← zpow_add₀ (by norm_num)]; norm_num
  have ha0 : 0 ≤ a := by positivity
  obtain ⟨b1, b2⟩ := pow_bounds hu0 (q := q) (by linarith) binary64.u_le_one
  rw [← ha] at b1 b2
  have b3 : 1 / (1 - a) ≤ 1 + 2 * a := by
    rw [div_le_iff₀ (by linarith)]
    nlinarith
  have s1 : (1 - binary64.u) ^ (n + 5) ≤ Real.sqrt ((1 - binary64.u) ^ (n + 5)) := by
    refine Real.le_sqrt_of_sq_le ?_
    have k0 := pow_nonneg hu1 (n + 5)
    have k1 : (1 - binary64.u) ^ (n + 5) ≤ 1 := pow_le_one₀ hu1 (by linarith)
    nlinarith
  have s2 : Real.sqrt ((1 + binary64.u) ^ (n + 5)) ≤ (1 + binary64.u) ^ (n + 5) := by
    have k1 : 1 ≤ (1 + binary64.u) ^ (n + 5) := one_le_pow₀ (by linarith)
    refine Real.sqrt_le_iff.2 ⟨by linarith, by nlinarith⟩
  have eq : q = (x.length + y.length - 2) + (n + 5) := by omega
  have t1 : (1 - a) * e - N * κ ≤ v.val := by
    refine le_trans ?_ h1
    have k1 : (1 - binary64.u) ^ (x.length + y.length - 2) ≤ 1 := pow_le_one₀ hu1 (by linarith)
    have k2 : (1 - a) * e ≤ (1 - binary64.u) ^ (x.length + y.length - 2) *
        (Real.sqrt ((1 - binary64.u) ^ (n + 5)) * e) := by
      rw [← mul_assoc]
      refine mul_le_mul_of_nonneg_right (b1.trans ?_) he0
      rw [eq, pow_add]
      exact mul_le_mul_of_nonneg_left s1 (pow_nonneg hu1 _)
    have k3 : (1 - binary64.u) ^ (x.length + y.length - 2) * (N * κ) ≤ N * κ := by
      have := mul_le_mul_of_nonneg_right k1 (mul_nonneg hN hκ)
      linarith
    rw [mul_sub]
    linarith
  have t2 : v.val ≤ (1 + 2 * a) * (e + N * κ) := by
    refine h2.trans ?_
    rw [← mul_assoc]
    refine mul_le_mul_of_nonneg_right ?_ (by positivity)
    refine le_trans ?_ (b2.trans b3)
    have k0 : 0 ≤ (1 + binary64.u) ^ (x.length + y.length - 2) := pow_nonneg (by linarith) _
    rw [show (1 + binary64.u) ^ q = (1 + binary64.u) ^ (x.length + y.length - 2) * (1 + binary64.u) ^ (n + 5) by
      rw [← pow_add, ← eq]]
    exact mul_le_mul_of_nonneg_left s2 k0
  have hNκ : 0 ≤ N * κ := mul_nonneg hN hκ
  set K := N * κ
  rw [abs_le]
  constructor
  · nlinarith [mul_nonneg ha0 he0]
  · nlinarith [mul_nonneg ha0 hNκ]

/-! ### Rounding makes a difference -/

namespace Ex147
open Fl64 FlLossExample

noncomputable def origin : List (Vec (Fl binary64) 1) := [pt 0]
noncomputable def falling : List (Vec (Fl binary64) 1) := [pt big, pt three, pt three]
noncomputable def rising : List (Vec (Fl binary64) 1) := [pt three, pt three, pt big]

theorem warp_row (p : List (Nat × Nat)) (h : Warp (Within 3) 0 2 p) : p = [(0, 2), (0, 1), (0, 0)] := by
  cases h with
  | right h _ =>
    cases h with
    | right h _ =>
      cases h with
      | start _ => rfl

theorem dist_row (y : List (Vec (Fl binary64) 1)) (a b c : Vec (Fl binary64) 1) (hy : y = [a, b, c]) :
    (DtwSpace.mk 0 (withInf sp)).dist origin y =
      some ((sp.dist (pt 0) a + sp.dist (pt 0) b + sp.dist (pt 0) c : Fl binary64) : WithTop (Fl binary64)) := by
  subst hy
  obtain ⟨d, p, e, _, _, _, _, hp, hc, _⟩ := C44_C45_dtw Fl.withTop_add_mono origin [a, b, c] (withInf sp) 0 le_rfl
    (by simp [origin]) (by simp) (by simp [origin, Within, band])
  have := warp_row p (by simpa [origin, band] using hp)
  subst this
  have hs : shrinkLongest origin [a, b, c] (withInf sp) 0 = some (origin, [a, b, c]) := by
    unfold shrinkLongest
    simp [origin]
  unfold DtwSpace.dist
  rw [hs]
  simp only [e, Option.map_some]
  rw [← hc]
  rfl

theorem exact_pt (x : Fl binary64) (hx : 0 ≤ x.val) : exactDist (pt 0) (pt x) = x.val := by
  unfold exactDist sqDist
  rw [Fin.sum_univ_one]
  show Real.sqrt ((0 - x.val) ^ 2) = _
  rw [Real.sqrt_sq_eq_abs, zero_sub, abs_neg, abs_of_nonneg hx]

theorem exact_row (y : List (Vec (Fl binary64) 1)) (a b c : Vec (Fl binary64) 1) (hy : y = [a, b, c]) (e : ℝ)
    (he : exactDist (pt 0) a + exactDist (pt 0) b + exactDist (pt 0) c = e) :
    IsExactDtw exactDist 3 origin y e := by
  subst hy he
  have hcost : exactCost exactDist origin [a, b, c] [(0, 2), (0, 1), (0, 0)] =
      exactDist (pt 0) a + exactDist (pt 0) b + exactDist (pt 0) c := by
    unfold exactCost cellSum
    simp only [List.map_cons, List.map_nil, List.sum_cons, List.sum_nil]
    show exactDist (pt 0) c + (exactDist (pt 0) b + (exactDist (pt 0) a + 0)) = _
    ring
  refine ⟨⟨[(0, 2), (0, 1), (0, 0)], ?_, hcost⟩, fun p hp => ?_⟩
  · exact .right (.right (.start (by simp [Within])) (by simp [Within, origin])) (by simp [Within, origin])
  · rw [warp_row p (by simpa [origin] using hp), hcost]

theorem three_to (x : Fl binary64) (h : sp.dist (pt x) (pt 0) = x) : sp.dist (pt 0) (pt x) = x :=
  ((C98_dist (pt 0) (pt x)).1).trans h

end Ex147

open Fl64 FlLossExample Ex147 in
/-- **C147.** The distance depends on the order in which a path is summed: reversing both series changes
the `float64` that is computed, and the first of the two is not the exact distance, which is the same
for both. -/
theorem C147_order :
    ∃ v w : Fl binary64,
      (DtwSpace.mk 0 (withInf sp)).dist origin falling = some (v : WithTop (Fl binary64)) ∧
      (DtwSpace.mk 0 (withInf sp)).dist origin.reverse falling.reverse = some (w : WithTop (Fl binary64)) ∧
      v.val = 2 ^ (55 : ℤ) ∧ w.val = 2 ^ (55 : ℤ) + 8 ∧
      IsExactDtw exactDist 3 origin falling (2 ^ (55 : ℤ) + 6) ∧
      IsExactDtw exactDist 3 origin.reverse falling.reverse (2 ^ (55 : ℤ) + 6) := by
  refine ⟨_, _, dist_row falling _ _ _ rfl, dist_row rising (pt three) (pt three) (pt big) rfl, ?_, ?_,
    exact_row falling _ _ _ rfl _ ?_, exact_row rising (pt three) (pt three) (pt big) rfl _ ?_⟩
  · rw [three_to big dist_big, three_to three dist_three, sum_down, sum_down]
    exact v_big
  · rw [three_to big dist_big, three_to three dist_three, sum_six]
    have : six + big = big + six := by
      apply Fl.ext
      rw [Fl.val_add, Fl.val_add, add_comm]
    rw [this, sum_up]
  · rw [exact_pt big (by rw [v_big]; positivity), exact_pt three (by show (0 : ℝ) ≤ 3; norm_num), v_big]
    show (2 : ℝ) ^ (55 : ℤ) + 3 + 3 = _
    ring
  · rw [exact_pt big (by rw [v_big]; positivity), exact_pt three (by show (0 : ℝ) ≤ 3; norm_num), v_big]
    show (3 : ℝ) + 3 + 2 ^ (55 : ℤ) = _
    ring

/-- The exact DTW distance exists, so that the theorems above are not empty. -/
example {n : Nat} (window : Int) (x y : List (Vec (Fl binary64) n)) (hx : x ≠ []) (hy : y ≠ [])
    (hf : NoResize window x.length y.length) : ∃ e, IsExactDtw exactDist (band window y.length) x y e := by
  have p1 := List.length_pos_iff.2 hx
  have p2 := List.length_pos_iff.2 hy
  obtain ⟨_, e, _, _, h⟩ := C147_exact
    { dist := exactDist, combine := fun a _ _ _ => a, copy := id, dim := fun _ => 0 } window (by unfold NoResize at hf; omega) x y hx hy
    (by unfold NoResize at hf; unfold Within band; split <;> omega)
  exact ⟨e, h⟩

end Distclus
