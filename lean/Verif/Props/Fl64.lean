import Verif.Props.Fl
import Verif.Props.Dba
/-!
# C99 – C101 for `float64`: readable constants, and witnesses
-/
namespace Distclus
open Spec

theorem pow_bounds {u : ℝ} (hu : 0 ≤ u) {q : Nat} (hq : q * u < 1) (hu1 : u ≤ 1) :
    1 - q * u ≤ (1 - u) ^ q ∧ (1 + u) ^ q ≤ 1 / (1 - q * u) := by
  have h1 : 1 - q * u ≤ (1 - u) ^ q := by
    have := one_add_mul_le_pow (a := -u) (by linarith) q
    rw [← sub_eq_add_neg] at this
    linarith
  refine ⟨h1, ?_⟩
  rw [le_div_iff₀ (by linarith)]
  calc (1 + u) ^ q * (1 - q * u) ≤ (1 + u) ^ q * (1 - u) ^ q := by gcongr
    _ = (1 - u ^ 2) ^ q := by rw [← mul_pow]; ring
    _ ≤ 1 := pow_le_one₀ (by nlinarith) (by nlinarith [sq_nonneg u])

/-- **C99** for `float64`, in readable constants. -/
theorem C99_binary64 {n : Nat} (hn : n + 5 ≤ 2 ^ 51) (c : List (Vec (Fl binary64) n))
    (e : Vec (Fl binary64) n) (hc : c ≠ []) :
    ∃ (k : Nat) (x : Vec (Fl binary64) n),
      assign (euclidSpace (Fl binary64) n) c e =
        some (some x, (k : Int), (euclidSpace (Fl binary64) n).dist e x) ∧
      c[k]? = some x ∧ ∀ y ∈ c, sqDist e.real x.real ≤
        (1 + (n + 5) * 2 ^ (-51 : ℤ)) * sqDist e.real y.real + n * 2 ^ (-1072 : ℤ) := by
  obtain ⟨k, x, h, hk, hm⟩ := C99_nearest c e hc
  refine ⟨k, x, h, hk, fun y hy => ?_⟩
  have hm := hm y hy
  obtain ⟨hu, hη⟩ := C98_binary64
  have hu0 := binary64.u_nonneg
  have hη0 := binary64.η_nonneg
  set u := binary64.u
  set η := binary64.η
  have hx := sqDist_nonneg e.real x.real
  have hyy := sqDist_nonneg e.real y.real
  set X := sqDist e.real x.real
  set Y := sqDist e.real y.real
  have hq : ((n + 5 : ℕ) : ℝ) ≤ 2 ^ (51 : ℤ) := by exact_mod_cast hn
  set a : ℝ := ((n + 5 : ℕ) : ℝ) * u with ha
  have ha4 : a ≤ 1 / 4 := by
    rw [ha, hu]
    calc ((n + 5 : ℕ) : ℝ) * 2 ^ (-53 : ℤ) ≤ 2 ^ (51 : ℤ) * 2 ^ (-53 : ℤ) := by gcongr
      _ = 1 / 4 := by rw [← zpow_add₀ (by norm_num)]; norm_num
  have ha0 : 0 ≤ a := by positivity
  obtain ⟨p1, p2⟩ := pow_bounds hu0 (q := n + 5) (by linarith) binary64.u_le_one
  rw [← ha] at p1 p2
  have k1 : (1 - a) * X ≤ (1 - u) ^ (n + 5) * X := by gcongr
  have k2 : (1 + u) ^ (n + 5) * (Y + n * η) ≤ 1 / (1 - a) * (Y + n * η) := by gcongr
  have k3 : (1 - a) * X ≤ 1 / (1 - a) * (Y + n * η) + n * η := by linarith
  have hd : 0 < 1 - a := by linarith
  have k4 : (1 - a) ^ 2 * X ≤ Y + n * η + (1 - a) * (n * η) := by
    have := mul_le_mul_of_nonneg_left k3 hd.le
    rw [mul_add, ← mul_assoc (1 - a) (1 / (1 - a)), mul_one_div_cancel (ne_of_gt hd)] at this
    nlinarith
  have e1 : (n + 5 : ℝ) * 2 ^ (-51 : ℤ) = 4 * a := by
    rw [ha, hu, show (-51 : ℤ) = 2 + -53 by norm_num, zpow_add₀ (by norm_num)]
    push_cast; norm_num; ring
  have e2 : (2 : ℝ) ^ (-1072 : ℤ) = 8 * η := by
    rw [hη, show (-1072 : ℤ) = 3 + -1075 by norm_num, zpow_add₀ (by norm_num)]
    norm_num
  rw [e1, e2]
  have hnη : 0 ≤ (n : ℝ) * η := by positivity
  have f0 : 0 ≤ 2 - 7 * a + 4 * a ^ 2 := by nlinarith [sq_nonneg a]
  have f1 : 1 ≤ (1 + 4 * a) * (1 - a) ^ 2 := by nlinarith [mul_nonneg ha0 f0]
  have f2 : 9 / 16 ≤ (1 - a) ^ 2 := by nlinarith
  have f3 : (1 - a) ^ 2 * X ≤ (1 - a) ^ 2 * ((1 + 4 * a) * Y + n * (8 * η)) := by
    refine k4.trans ?_
    have : Y ≤ (1 + 4 * a) * (1 - a) ^ 2 * Y := by nlinarith
    nlinarith
  exact le_of_mul_le_mul_left f3 (by positivity)

/-- **C100** for `float64`, in readable constants. -/
theorem C100_binary64 {k : Nat} (hk : k ≤ 2 ^ 50) {B : ℝ} (hB : 0 ≤ B) :
    binary64.meanErr B k ≤ k * (2 ^ (-50 : ℤ) * B + 2 ^ (-1072 : ℤ)) := by
  obtain ⟨hu, hη⟩ := C98_binary64
  have hu0 := binary64.u_nonneg
  have hη0 := binary64.η_nonneg
  have hk' : (k : ℝ) ≤ 2 ^ (50 : ℤ) := by exact_mod_cast hk
  unfold Rounding.meanErr Rounding.combErr
  set u := binary64.u
  set η := binary64.η
  have hu8 : u ≤ 1 / 8 := by rw [hu]; norm_num
  have c3 : (1 + u) ^ 3 ≤ 1 + 4 * u := by nlinarith [mul_nonneg hu0 hu0, mul_nonneg hu0 (mul_nonneg hu0 hu0)]
  have c2 : (1 + u) ^ 2 + 1 ≤ 3 := by nlinarith
  have hk4 : (k : ℝ) * (4 * u) ≤ 1 / 2 := by
    rw [hu]
    calc (k : ℝ) * (4 * 2 ^ (-53 : ℤ)) ≤ 2 ^ (50 : ℤ) * (4 * 2 ^ (-53 : ℤ)) := by gcongr
      _ = 1 / 2 := by norm_num
  have hp : ((1 + u) ^ 3) ^ k ≤ 2 := by
    have h1 : ((1 + u) ^ 3) ^ k ≤ (1 + 4 * u) ^ k := by gcongr
    have h2 := (pow_bounds (u := 4 * u) (q := k) (by linarith) (by linarith) (by linarith)).2
    have h3 : 1 / (1 - (k : ℝ) * (4 * u)) ≤ 2 := by
      rw [div_le_iff₀ (by linarith)]; linarith
    linarith
  have hc : ((1 + u) ^ 3 - 1) * B + ((1 + u) ^ 2 + 1) * η ≤ 4 * u * B + 3 * η := by
    have : ((1 + u) ^ 3 - 1) * B ≤ 4 * u * B := by gcongr; linarith
    have : ((1 + u) ^ 2 + 1) * η ≤ 3 * η := by gcongr
    linarith
  have hc0 : 0 ≤ ((1 + u) ^ 3 - 1) * B + ((1 + u) ^ 2 + 1) * η := by
    have : 1 ≤ (1 + u) ^ 3 := one_le_pow₀ (by linarith)
    have : 0 ≤ ((1 + u) ^ 3 - 1) * B := mul_nonneg (by linarith) hB
    positivity
  have e1 : (2 : ℝ) ^ (-50 : ℤ) = 8 * u := by
    rw [hu, show (-50 : ℤ) = 3 + -53 by norm_num, zpow_add₀ (by norm_num)]; norm_num
  have e2 : (2 : ℝ) ^ (-1072 : ℤ) = 8 * η := by
    rw [hη, show (-1072 : ℤ) = 3 + -1075 by norm_num, zpow_add₀ (by norm_num)]; norm_num
  rw [e1, e2]
  calc (k : ℝ) * ((1 + u) ^ 3) ^ k * (((1 + u) ^ 3 - 1) * B + ((1 + u) ^ 2 + 1) * η)
      ≤ k * 2 * (4 * u * B + 3 * η) := by gcongr
    _ ≤ k * (8 * u * B + 8 * η) := by
      have : 0 ≤ (k : ℝ) * η := by positivity
      nlinarith

/-! ### Witnesses

The data 2⁵⁵, 1, -2⁵⁵, 1, of mean 1/2, in one cluster. -/
namespace Fl64

/-- A point of dimension 1. -/
def pt (x : Fl binary64) : Vec (Fl binary64) 1 := ⟨[x], rfl⟩

noncomputable def big : Fl binary64 := fpow 55 (by norm_num)
noncomputable def data : List (Vec (Fl binary64) 1) := [pt big, pt 1, pt (-big), pt 1]
noncomputable def half : Fl binary64 := fpow (-1) (by norm_num)
noncomputable def quarter : Fl binary64 := fpow (-2) (by norm_num)
noncomputable abbrev sp : Space (Vec (Fl binary64) 1) (Fl binary64) := euclidSpace (Fl binary64) 1

theorem rnd_pow (k : ℤ) (hk : -1074 ≤ k) : binary64.rnd (2 ^ k) = 2 ^ k :=
  roundTo_pow (by norm_num) hk

theorem rnd_nat (k : Nat) (hk : k ≤ 4) : binary64.rnd k = k := C100_counts k (by omega)

theorem rnd_above : binary64.rnd (2 ^ (55 : ℤ) + 1) = 2 ^ (55 : ℤ) := by
  have := binary64_eq (x := 2 ^ (55 : ℤ) + 1) 55 (2 ^ 52) (by norm_num) (by norm_num) (by norm_num)
    (by norm_num)
  rw [this]; norm_num

theorem rnd_below : binary64.rnd (2 ^ (55 : ℤ) - 1) = 2 ^ (55 : ℤ) := by
  have := binary64_eq (x := 2 ^ (55 : ℤ) - 1) 54 (2 ^ 53) (by norm_num) (by norm_num) (by norm_num)
    (by norm_num)
  rw [this]; norm_num

theorem comb (x y : Fl binary64) (w v : Nat) (hw : w ≤ 4) (hv : v ≤ 4) (ht : w + v ≤ 4) :
    sp.combine (pt x) w (pt y) v = pt (Fl.of binary64
      (binary64.rnd (binary64.rnd (x.val * w) + binary64.rnd (y.val * v)) / (w + v))) := by
  apply Subtype.ext
  show [_] = [_]
  congr 1
  apply Fl.ext
  have h1 := rnd_nat w hw
  have h2 := rnd_nat v hv
  have h3 := rnd_nat (w + v) ht
  push_cast at h3
  show binary64.rnd (binary64.rnd (binary64.rnd (x.val * binary64.rnd ((w : ℤ) : ℝ)) +
    binary64.rnd (y.val * binary64.rnd ((v : ℤ) : ℝ))) /
      binary64.rnd (binary64.rnd ((w : ℤ) : ℝ) + binary64.rnd ((v : ℤ) : ℝ))) = _
  rw [Int.cast_natCast, Int.cast_natCast, h1, h2, h3]
  rfl

theorem v_big : big.val = 2 ^ (55 : ℤ) := rfl

noncomputable def p54 : Fl binary64 := fpow 54 (by norm_num)

theorem s1 : sp.combine (pt big) (1 : Nat) (pt 1) (1 : Nat) = pt p54 := by
  rw [comb _ _ _ _ (by norm_num) (by norm_num) (by norm_num)]
  congr 1
  apply Fl.ext
  show binary64.rnd _ = 2 ^ (54 : ℤ)
  rw [v_big, Fl.val_one, Nat.cast_one, mul_one, mul_one, rnd_pow 55 (by norm_num), binary64.one,
    rnd_above, ← rnd_pow 54 (by norm_num)]
  congr 1
  norm_num

theorem s1' : sp.combine (pt (-big)) (1 : Nat) (pt 1) (1 : Nat) = pt (-p54) := by
  rw [comb _ _ _ _ (by norm_num) (by norm_num) (by norm_num)]
  congr 1
  apply Fl.ext
  show binary64.rnd _ = -(2 ^ (54 : ℤ))
  rw [Fl.val_neg, v_big, Fl.val_one, Nat.cast_one, mul_one, mul_one, binary64.neg,
    rnd_pow 55 (by norm_num), binary64.one,
    show -(2 : ℝ) ^ (55 : ℤ) + 1 = -(2 ^ (55 : ℤ) - 1) by ring, binary64.neg,
    rnd_below, ← rnd_pow 54 (by norm_num), ← binary64.neg]
  congr 1
  norm_num

theorem s2 : sp.combine (pt p54) (2 : Nat) (pt (-big)) (1 : Nat) = pt 0 := by
  rw [comb _ _ _ _ (by norm_num) (by norm_num) (by norm_num)]
  congr 1
  apply Fl.ext
  show binary64.rnd _ = 0
  rw [Fl.val_neg, v_big, show p54.val * ((2 : ℕ) : ℝ) = 2 ^ (55 : ℤ) by
      show (2 : ℝ) ^ (54 : ℤ) * _ = _; norm_num, Nat.cast_one, mul_one, binary64.neg,
    rnd_pow 55 (by norm_num), add_neg_cancel, binary64.zero, zero_div, binary64.zero]

theorem s3 : sp.combine (pt 0) (3 : Nat) (pt 1) (1 : Nat) = pt quarter := by
  rw [comb _ _ _ _ (by norm_num) (by norm_num) (by norm_num)]
  congr 1
  apply Fl.ext
  show binary64.rnd _ = 2 ^ (-2 : ℤ)
  rw [Fl.val_zero, Fl.val_one, zero_mul, Nat.cast_one, mul_one, binary64.zero, binary64.one,
    zero_add, binary64.one, ← rnd_pow (-2) (by norm_num)]
  congr 1
  norm_num

theorem s4 : sp.combine (pt p54) (2 : Nat) (pt (-p54)) (2 : Nat) = pt 0 := by
  rw [comb _ _ _ _ (by norm_num) (by norm_num) (by norm_num)]
  congr 1
  apply Fl.ext
  show binary64.rnd _ = 0
  rw [Fl.val_neg, neg_mul, binary64.neg, add_neg_cancel, binary64.zero, zero_div, binary64.zero]

theorem running_data : running sp data = some (pt quarter) := by
  show some (sp.combine (sp.combine (sp.combine (pt big) (1 : Nat) (pt 1) (1 : Nat)) (2 : Nat)
    (pt (-big)) (1 : Nat)) (3 : Nat) (pt 1) (1 : Nat)) = _
  rw [s1, s2, s3]

/-- With one centroid, a reduction combines all the elements. -/
theorem reduce_one (c : Vec (Fl binary64) 1) (l : List (Vec (Fl binary64) 1)) :
    reduceDBA sp [c] l = some ([running sp l], [(l.length : Int)]) := by
  obtain ⟨cents, cards, h, h1, h2, h3, _⟩ := C06_reduceDBA Fl.neg_one_lt_zero sp [c] l (by simp)
  have hf : (l.filter fun e => (nearest sp [c] e).1 == ((0 : Nat) : Int)) = l := by
    rw [List.filter_eq_self]
    intro e _
    have := nearest_range Fl.neg_one_lt_zero sp [c] (by simp) e
    simp only [List.length_cons, List.length_nil] at this
    simp; omega
  obtain ⟨a, b⟩ := h3 0 (by simp)
  rw [hf] at a b
  rw [h]
  cases cents with
  | nil => simp at h1
  | cons x xs =>
    cases cards with
    | nil => simp at h2
    | cons y ys =>
      simp at h1 h2 a b
      subst h1 h2 a b
      rfl

theorem seq_step (c : Vec (Fl binary64) 1) : KStrategy.seq.iterate sp [c] data = some [some (pt quarter)] := by
  simp [KStrategy.iterate, reduce_one, running_data, seqBuildResult]

theorem par_step (c : Vec (Fl binary64) 1) : (KStrategy.par 2).iterate sp [c] data = some [some (pt 0)] := by
  have hp : par data.length 2 = some [⟨0, 2, 0⟩, ⟨2, 4, 1⟩] := by
    show par 4 2 = _
    decide
  have r1 : running sp (slice data 0 2) = some (pt p54) := by rw [← s1]; rfl
  have r2 : running sp (slice data 2 4) = some (pt (-p54)) := by rw [← s1']; rfl
  have l1 : (slice data 0 2).length = 2 := rfl
  have l2 : (slice data 2 4).length = 2 := rfl
  have h4 : sp.combine (pt p54) 2 (pt (-p54)) 2 = pt 0 := s4
  simp [KStrategy.iterate, parReduceDBA, hp, allSome, reduce_one, r1, r2, l1, l2, dbaAggregate,
    dbaAggregateLoop, dbaCombine, dbaCombineLoop, dbaCombine1, h4, parBuildResult, buildLoop]

end Fl64

open Fl64 in
/-- **C100 (claim examined).** In `float64` the sequential and the parallel iterations do not give
the same centroids: 1/4 and 0 here, for a mean of 1/2. -/
theorem C100_strategies_differ (c : Vec (Fl binary64) 1) :
    KStrategy.seq.iterate sp [c] data = some [some (pt quarter)] ∧
    (KStrategy.par 2).iterate sp [c] data = some [some (pt 0)] ∧
    KStrategy.seq.iterate sp [c] data ≠ (KStrategy.par 2).iterate sp [c] data ∧
    mean (data.map fun x => x.real 0) = 1 / 2 := by
  refine ⟨seq_step c, par_step c, ?_, ?_⟩
  · rw [seq_step, par_step]
    intro h
    have h : pt quarter = pt 0 := by simpa using h
    have h := congrArg (fun v => v.real 0) h
    exact absurd h (ne_of_gt (two_zpow_pos (-2)))
  · show mean [(2 : ℝ) ^ (55 : ℤ), 1, -(2 ^ (55 : ℤ)), 1] = _
    simp [mean]
    norm_num

open Fl64 in
/-- **C101 (claim examined).** In `float64` an iteration can increase the loss: from the exact mean,
the sequential one moves the centroid to 1/4. -/
theorem C101_increases : ∃ c', kmeansStep .seq sp data [pt half] = some c' ∧
    exactLoss [pt half] data < exactLoss c' data := by
  refine ⟨[pt quarter], by simp [kmeansStep, seq_step, allSome], ?_⟩
  have key : ∀ (x : Fl binary64), exactLoss [pt x] data =
      (2 ^ (55 : ℤ) - x.val) ^ 2 + ((1 - x.val) ^ 2 + ((-(2 ^ (55 : ℤ)) - x.val) ^ 2 + (1 - x.val) ^ 2)) := by
    intro x
    have one : ∀ e : Vec (Fl binary64) 1, (⨅ i : Fin [pt x].length, sqDist e.real [pt x][i].real) =
        (e.real 0 - x.val) ^ 2 := by
      intro e
      obtain ⟨y, hy, h⟩ := best_mem [pt x] (by simp) e.real
      rw [h, List.mem_singleton.1 hy]
      unfold sqDist
      rw [Fin.sum_univ_one]
      rfl
    unfold exactLoss
    simp only [one]
    show ([(2 ^ (55 : ℤ) - x.val) ^ 2, (1 - x.val) ^ 2, (-(2 ^ (55 : ℤ)) - x.val) ^ 2, (1 - x.val) ^ 2] : List ℝ).sum = _
    simp
  rw [key, key, show half.val = 1 / 2 by show (2 : ℝ) ^ (-1 : ℤ) = _; norm_num,
    show quarter.val = 1 / 4 by show (2 : ℝ) ^ (-2 : ℤ) = _; norm_num]
  norm_num

/-! ### The hypotheses are met -/

namespace Fl64

theorem data_le : ∀ x ∈ data, ∀ i, |x.real i| ≤ 2 ^ (55 : ℤ) := by
  intro x hx i
  have hi : i = 0 := Subsingleton.elim _ _
  subst hi
  simp only [data, List.mem_cons, List.not_mem_nil, or_false] at hx
  rcases hx with rfl | rfl | rfl | rfl
  · show |(2 : ℝ) ^ (55 : ℤ)| ≤ _; norm_num
  · show |(1 : ℝ)| ≤ _; norm_num
  · show |-(2 : ℝ) ^ (55 : ℤ)| ≤ _; norm_num
  · show |(1 : ℝ)| ≤ _; norm_num

example : binary64.CountsTo data.length := fun k hk => C100_counts k (hk.trans (by decide))

/-- C101 on these data. -/
example : ∃ c', kmeansStep (.par 3) sp data [pt half, pt big] = some c' ∧ c'.length = 2 ∧
    (1 - binary64.u) ^ 6 * exactLoss c' data ≤ (1 + binary64.u) ^ 6 *
      (exactLoss [pt half, pt big] data + 4 * (1 * binary64.η)) +
        4 * (1 * binary64.η + 1 * binary64.meanErr (2 ^ (55 : ℤ)) 4 ^ 2) := by
  have := C101_loss_step (.par 3) (by show (1 : Int) ≤ 3; norm_num) [pt half, pt big] data (by simp)
    (fun k hk => C100_counts k (hk.trans (by decide))) (by positivity) data_le
  simpa [data] using this

/-- C99: 1 is labelled with 0 and not with 2⁵⁵. -/
example : assign sp [pt big, pt 0] (pt 1) = some (some (pt 0), (1 : Int), sp.dist (pt 1) (pt 0)) := by
  refine C99_margin _ _ 1 (pt 0) rfl ?_
  intro j y hj hne
  have hy : j = 0 ∧ y = pt big := by
    match j, hne with
    | 0, _ => simpa using hj.symm
    | j + 2, _ => simp at hj
  rw [hy.2]
  have e1 : sqDist (pt 1).real (pt 0).real = 1 := by
    unfold sqDist; rw [Fin.sum_univ_one]; show ((1 : ℝ) - 0) ^ 2 = 1; norm_num
  have e2 : sqDist (pt 1).real (pt big).real = (1 - 2 ^ (55 : ℤ)) ^ 2 := by
    unfold sqDist; rw [Fin.sum_univ_one]; rfl
  rw [e1, e2]
  have hu0 := binary64.u_nonneg
  have hη0 := binary64.η_nonneg
  have hu : binary64.u ≤ 1 / 8 := by rw [C98_binary64.1]; norm_num
  have hη : binary64.η ≤ 1 := by
    rw [C98_binary64.2]; exact zpow_le_one_of_nonpos₀ (by norm_num) (by norm_num)
  have a : (1 + binary64.u) ^ (1 + 5) ≤ (9 / 8) ^ 6 := by
    exact pow_le_pow_left₀ (by linarith) (by linarith) 6
  have b : (7 / 8 : ℝ) ^ 6 ≤ (1 - binary64.u) ^ (1 + 5) :=
    pow_le_pow_left₀ (by norm_num) (by linarith) 6
  push_cast
  calc (1 + binary64.u) ^ (1 + 5) * (1 + 1 * binary64.η) + 1 * binary64.η
      ≤ (9 / 8) ^ 6 * (1 + 1 * 1) + 1 * 1 := by gcongr
    _ < (7 / 8 : ℝ) ^ 6 * (1 - 2 ^ (55 : ℤ)) ^ 2 := by norm_num
    _ ≤ _ := by gcongr

end Fl64
end Distclus
