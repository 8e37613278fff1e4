import Verif.Proof.FlEuclid
import Verif.Proof.KMeans
/-!
# Errors of means and of k-means in floating point
-/
namespace Distclus
open Spec

namespace Rounding
variable (r : Rounding)

theorem combErr_nonneg {B : ℝ} (hB : 0 ≤ B) : 0 ≤ r.combErr B := by
  have hu := r.u_nonneg
  have hη := r.η_nonneg
  have : 1 ≤ (1 + r.u) ^ 3 := one_le_pow₀ (by linarith)
  unfold combErr
  have : 0 ≤ ((1 + r.u) ^ 3 - 1) * B := mul_nonneg (by linarith) hB
  positivity

theorem meanErr_nonneg {B : ℝ} (hB : 0 ≤ B) (k : Nat) : 0 ≤ r.meanErr B k := by
  have := r.combErr_nonneg hB
  have hu := r.u_nonneg
  unfold meanErr
  positivity

theorem meanErr_mono {B : ℝ} (hB : 0 ≤ B) {j k : Nat} (h : j ≤ k) : r.meanErr B j ≤ r.meanErr B k := by
  have := r.combErr_nonneg hB
  have hu := r.u_nonneg
  have h1 : 1 ≤ (1 + r.u) ^ 3 := one_le_pow₀ (by linarith)
  unfold meanErr
  have h2 : (j : ℝ) ≤ k := by exact_mod_cast h
  have h3 : ((1 + r.u) ^ 3) ^ j ≤ ((1 + r.u) ^ 3) ^ k := pow_le_pow_right₀ h1 h
  gcongr

/-- One coordinate of `Combine`. -/
theorem combine_err (a b : Fl r) (w v : Int) (hw : 0 < w) (hv : 0 < v) (ew : r.rnd w = w)
    (ev : r.rnd v = v) (et : r.rnd ((w : ℝ) + v) = (w : ℝ) + v) {B : ℝ} (ha : |a.val| ≤ B)
    (hb : |b.val| ≤ B) :
    |((a * GoMath.ofInt w + b * GoMath.ofInt v) / (GoMath.ofInt w + GoMath.ofInt v) : Fl r).val -
      (a.val * w + b.val * v) / (w + v)| ≤ r.combErr B := by
  have hu := r.u_nonneg
  have hη := r.η_nonneg
  have hB : 0 ≤ B := (abs_nonneg _).trans ha
  have hw' : (1 : ℝ) ≤ w := by exact_mod_cast hw
  have hv' : (1 : ℝ) ≤ v := by exact_mod_cast hv
  set t : ℝ := (w : ℝ) + v with ht
  have t2 : 2 ≤ t := by linarith
  have t0 : 0 < t := by linarith
  have hvt : (GoMath.ofInt w + GoMath.ofInt v : Fl r).val = t := by
    rw [Fl.val_add, Fl.val_ofInt, Fl.val_ofInt, ew, ev, et]
  -- the products
  have p1 : |(a * GoMath.ofInt w : Fl r).val - a.val * w| ≤ r.u * (B * w) + r.η := by
    rw [Fl.val_mul, Fl.val_ofInt, ew]
    refine (r.err _).trans ?_
    rw [abs_mul, abs_of_pos (show (0 : ℝ) < w by linarith)]
    gcongr
  have p2 : |(b * GoMath.ofInt v : Fl r).val - b.val * v| ≤ r.u * (B * v) + r.η := by
    rw [Fl.val_mul, Fl.val_ofInt, ev]
    refine (r.err _).trans ?_
    rw [abs_mul, abs_of_pos (show (0 : ℝ) < v by linarith)]
    gcongr
  set P := (a * GoMath.ofInt w : Fl r) with hP
  set Q := (b * GoMath.ofInt v : Fl r) with hQ
  set X : ℝ := a.val * w + b.val * v with hX
  have hXB : |X| ≤ B * t := by
    rw [hX, ht]
    refine (abs_add_le _ _).trans ?_
    rw [abs_mul, abs_mul, abs_of_pos (show (0 : ℝ) < w by linarith),
      abs_of_pos (show (0 : ℝ) < v by linarith)]
    have : |a.val| * w ≤ B * w := by gcongr
    have : |b.val| * v ≤ B * v := by gcongr
    linarith
  have s1 : |(P.val + Q.val) - X| ≤ r.u * (B * t) + 2 * r.η := by
    have : (P.val + Q.val) - X = (P.val - a.val * w) + (Q.val - b.val * v) := by rw [hX]; ring
    rw [this]
    refine (abs_add_le _ _).trans ?_
    rw [ht]
    linarith
  have s2 := r.err_add P.val Q.val P.2 Q.2
  rw [← Fl.val_add] at s2
  have s3 : |P.val + Q.val| ≤ (1 + r.u) * (B * t) + 2 * r.η := by
    have := abs_sub_abs_le_abs_sub (P.val + Q.val) X
    linarith
  have s4 : |(P + Q).val - X| ≤ ((1 + r.u) ^ 2 - 1) * (B * t) + (1 + r.u) * (2 * r.η) := by
    have h1 := abs_sub_le (P + Q).val (P.val + Q.val) X
    have h2 : r.u * |P.val + Q.val| ≤ r.u * ((1 + r.u) * (B * t) + 2 * r.η) := by gcongr
    have h3 : ((1 + r.u) ^ 2 - 1) * (B * t) + (1 + r.u) * (2 * r.η) =
        r.u * ((1 + r.u) * (B * t) + 2 * r.η) + (r.u * (B * t) + 2 * r.η) := by ring
    linarith
  -- the quotient
  rw [Fl.val_div, hvt]
  have q1 : |(P + Q).val / t - X / t| ≤ ((1 + r.u) ^ 2 - 1) * B + (1 + r.u) * r.η := by
    rw [← sub_div, abs_div, abs_of_pos t0, div_le_iff₀ t0]
    refine s4.trans ?_
    have : (1 + r.u) * (2 * r.η) ≤ (1 + r.u) * r.η * t := by
      have : 0 ≤ (1 + r.u) * r.η := by positivity
      nlinarith
    nlinarith
  have q2 : |X / t| ≤ B := by
    rw [abs_div, abs_of_pos t0, div_le_iff₀ t0]; exact hXB
  have q3 : |(P + Q).val / t| ≤ (1 + r.u) ^ 2 * B + (1 + r.u) * r.η := by
    have := abs_sub_abs_le_abs_sub ((P + Q).val / t) (X / t)
    linarith
  have q4 := r.err ((P + Q).val / t)
  have q5 := abs_sub_le (r.rnd ((P + Q).val / t)) ((P + Q).val / t) (X / t)
  have q6 : r.u * |(P + Q).val / t| ≤ r.u * ((1 + r.u) ^ 2 * B + (1 + r.u) * r.η) := by gcongr
  have q7 : r.combErr B = r.u * ((1 + r.u) ^ 2 * B + (1 + r.u) * r.η) + r.η +
      (((1 + r.u) ^ 2 - 1) * B + (1 + r.u) * r.η) := by unfold combErr; ring
  rw [q7]
  linarith

end Rounding

theorem combine_real {r : Rounding} {n : Nat} (x y : Vec (Fl r) n) (w v : Int) (i : Fin n) :
    ((euclidSpace (Fl r) n).combine x w y v).real i =
      ((x.coords i * GoMath.ofInt w + y.coords i * GoMath.ofInt v) /
        (GoMath.ofInt w + GoMath.ofInt v) : Fl r).val := by
  simp only [Vec.real, Vec.coords, euclidSpace, pointCombine, List.getElem_zipWith]

/-- `m` is the mean of `ms` up to the error `meanErr`. -/
def NearMean (r : Rounding) (N : Nat) (B : ℝ) {n : Nat} (ms : List (Vec (Fl r) n))
    (m : Vec (Fl r) n) : Prop :=
  ms.length ≤ N → (∀ x ∈ ms, ∀ i, |x.real i| ≤ B) →
    ∀ i, |m.real i - mean (ms.map fun x => x.real i)| ≤ r.meanErr B ms.length

theorem abs_sum_le {B : ℝ} : ∀ l : List ℝ, (∀ x ∈ l, |x| ≤ B) → |l.sum| ≤ l.length * B := by
  intro l
  induction l with
  | nil => simp
  | cons a l ih =>
    intro h
    have h1 := h a (by simp)
    have h2 := ih fun x hx => h x (by simp [hx])
    have := abs_add_le a l.sum
    simp only [List.sum_cons, List.length_cons, Nat.cast_add, Nat.cast_one]
    linarith

theorem abs_mean_le {B : ℝ} (l : List ℝ) (hl : l ≠ []) (h : ∀ x ∈ l, |x| ≤ B) : |mean l| ≤ B := by
  have hp : (0 : ℝ) < l.length := by exact_mod_cast List.length_pos_iff.2 hl
  unfold mean
  rw [smul_eq_mul, abs_mul, abs_of_pos (inv_pos.2 hp), inv_mul_le_iff₀ hp]
  exact abs_sum_le l h

theorem mean_append {a b : List ℝ} (ha : a ≠ []) (hb : b ≠ []) :
    mean (a ++ b) = (mean a * a.length + mean b * b.length) / (a.length + b.length) := by
  have h1 : (0 : ℝ) < a.length := by exact_mod_cast List.length_pos_iff.2 ha
  have h2 : (0 : ℝ) < b.length := by exact_mod_cast List.length_pos_iff.2 hb
  simp only [mean, smul_eq_mul, List.length_append, List.sum_append, Nat.cast_add]
  field_simp

theorem nearMean_combine (r : Rounding) {N : Nat} (hN : r.CountsTo N) (B : ℝ) (n : Nat) :
    CombineOk (euclidSpace (Fl r) n) (NearMean r N B) := by
  intro a b x y ha hb hx hy hlen hB i
  rw [List.length_append] at hlen
  have ha1 : 0 < a.length := List.length_pos_iff.2 ha
  have hb1 : 0 < b.length := List.length_pos_iff.2 hb
  have h1 := hx (by omega) (fun z hz => hB z (by simp [hz])) i
  have h2 := hy (by omega) (fun z hz => hB z (by simp [hz])) i
  have hB0 : 0 ≤ B := by
    obtain ⟨z, hz⟩ := List.exists_mem_of_ne_nil a ha
    exact (abs_nonneg _).trans (hB z (by simp [hz]) i)
  set k := a.length + b.length - 1 with hk
  set E := r.meanErr B k with hE
  have e1 : r.meanErr B a.length ≤ E := r.meanErr_mono hB0 (by omega)
  have e2 : r.meanErr B b.length ≤ E := r.meanErr_mono hB0 (by omega)
  have m1 : |mean (a.map fun x => x.real i)| ≤ B := abs_mean_le _ (by simpa using ha) (by
    intro z hz
    obtain ⟨x, hx, rfl⟩ := List.mem_map.1 hz
    exact hB x (by simp [hx]) i)
  have m2 : |mean (b.map fun x => x.real i)| ≤ B := abs_mean_le _ (by simpa using hb) (by
    intro z hz
    obtain ⟨x, hx, rfl⟩ := List.mem_map.1 hz
    exact hB x (by simp [hx]) i)
  rw [List.map_append, mean_append (by simpa using ha) (by simpa using hb), combine_real]
  simp only [List.length_map, List.length_append]
  set A := mean (a.map fun x => x.real i)
  set C := mean (b.map fun x => x.real i)
  have bx : |(x.coords i).val| ≤ B + E := by
    have := abs_sub_abs_le_abs_sub (x.real i) A
    have : |x.real i| ≤ B + E := by linarith
    exact this
  have by' : |(y.coords i).val| ≤ B + E := by
    have := abs_sub_abs_le_abs_sub (y.real i) C
    have : |y.real i| ≤ B + E := by linarith
    exact this
  have hc := r.combine_err (x.coords i) (y.coords i) (a.length : Int) (b.length : Int)
    (by omega) (by omega) (by have := hN a.length (by omega); exact_mod_cast this)
    (by have := hN b.length (by omega); exact_mod_cast this)
    (by have := hN (a.length + b.length) (by omega); push_cast at this ⊢; exact_mod_cast this) bx by'
  simp only [Int.cast_natCast] at hc
  have l1 : (0 : ℝ) < a.length := by exact_mod_cast ha1
  have l2 : (0 : ℝ) < b.length := by exact_mod_cast hb1
  have hd : |((x.coords i).val * (a.length : ℝ) + (y.coords i).val * b.length) / (a.length + b.length) -
      (A * a.length + C * b.length) / (a.length + b.length)| ≤ E := by
    rw [← sub_div, abs_div, abs_of_pos (by linarith : (0 : ℝ) < a.length + b.length),
      div_le_iff₀ (by linarith)]
    have : (x.coords i).val * (a.length : ℝ) + (y.coords i).val * b.length -
        (A * a.length + C * b.length) = (x.real i - A) * a.length + (y.real i - C) * b.length := by
      show _ = ((x.coords i).val - A) * a.length + ((y.coords i).val - C) * b.length
      ring
    rw [this]
    refine (abs_add_le _ _).trans ?_
    rw [abs_mul, abs_mul, abs_of_pos l1, abs_of_pos l2]
    have g1 : |x.real i - A| * a.length ≤ E * a.length :=
      mul_le_mul_of_nonneg_right (h1.trans e1) l1.le
    have g2 : |y.real i - C| * b.length ≤ E * b.length :=
      mul_le_mul_of_nonneg_right (h2.trans e2) l2.le
    linarith
  have hfin : r.combErr (B + E) + E ≤ r.meanErr B (a.length + b.length) := by
    have hcn := r.combErr_nonneg hB0
    have hu := r.u_nonneg
    have e : r.combErr (B + E) + E = (1 + r.u) ^ 3 * E + r.combErr B := by
      unfold Rounding.combErr; ring
    have ek : a.length + b.length = k + 1 := by omega
    have g1 : 1 ≤ (1 + r.u) ^ 3 := one_le_pow₀ (by linarith)
    have g2 : 1 ≤ ((1 + r.u) ^ 3) ^ (k + 1) := one_le_pow₀ g1
    rw [e, ek, hE]
    unfold Rounding.meanErr
    push_cast
    have : (1 + r.u) ^ 3 * ((k : ℝ) * ((1 + r.u) ^ 3) ^ k * r.combErr B) =
        k * ((1 + r.u) ^ 3) ^ (k + 1) * r.combErr B := by ring
    rw [this]
    nlinarith
  refine le_trans (abs_sub_le _ _ _) (le_trans (add_le_add hc hd) hfin)

theorem nearMean_running (r : Rounding) {N : Nat} (hN : r.CountsTo N) (B : ℝ) (n : Nat)
    (ms : List (Vec (Fl r) n)) : ∀ m, running (euclidSpace (Fl r) n) ms = some m →
      NearMean r N B ms m := by
  induction ms using List.reverseRecOn with
  | nil => intro m h; cases h
  | append_singleton ms e ih =>
    intro m h
    have h1 : NearMean r N B [e] e := by
      intro _ hB i
      have hB0 : 0 ≤ B := (abs_nonneg _).trans (hB e (by simp) i)
      simp only [List.map_cons, List.map_nil, mean, List.length_cons, List.length_nil,
        List.sum_cons, List.sum_nil]
      simpa using r.meanErr_nonneg hB0 1
    cases ms with
    | nil =>
      simp only [List.nil_append, running, List.foldl_nil, Option.some.injEq] at h
      subst h
      exact h1
    | cons a as =>
      obtain ⟨m', hm'⟩ := running_isSome (euclidSpace (Fl r) n) (ms := a :: as) (by simp)
      rw [running_snoc _ _ e hm'] at h
      cases h
      exact nearMean_combine r hN B n (a :: as) [e] m' e (by simp) (by simp) (ih m' hm') h1

end Distclus
