import Verif.Proof.FlMean
import Verif.Props.Nearest
import Verif.Props.KMeans
import Verif.Props.Dtw
/-!
# C98 – C101: what the rounding of `float64` does to distances, labels, means and losses

`r` is any rounding with the guarantees of IEEE-754 (`Rounding`), of which `binary64` is `float64`
without overflow.  The operations are those of the model on `Fl r`, that is the code's, each one
rounded; the right-hand sides are exact.
-/
namespace Distclus
open Spec

/-! ### C98: distances -/

theorem fl_term_comm {r : Rounding} (a b : Fl r) : (a - b) * (a - b) = (b - a) * (b - a) := by
  apply Fl.ext
  rw [Fl.val_mul, Fl.val_mul, Fl.val_sub, Fl.val_sub, ← neg_sub, r.neg]
  congr 1
  ring

theorem fl_term_self {r : Rounding} (a : Fl r) (s : Fl r) : s + (a - a) * (a - a) = s := by
  apply Fl.ext
  rw [Fl.val_add, Fl.val_mul, Fl.val_sub, sub_self, r.zero, mul_zero, r.zero, add_zero]
  exact s.2

/-- **C98.** In floating point the Euclidean distance is symmetric bit for bit, never negative, zero
between a point and itself, and its square is the exact one up to a factor `(1 ± u)^(n+5)` and, for
underflows, `n η`. -/
theorem C98_dist {r : Rounding} {n : Nat} (a b : Vec (Fl r) n) :
    (euclidSpace (Fl r) n).dist a b = (euclidSpace (Fl r) n).dist b a ∧
    0 ≤ (euclidSpace (Fl r) n).dist a b ∧
    (euclidSpace (Fl r) n).dist a a = 0 ∧
    (1 - r.u) ^ (n + 5) * sqDist a.real b.real - n * r.η ≤
      ((euclidSpace (Fl r) n).dist a b).val ^ 2 ∧
    ((euclidSpace (Fl r) n).dist a b).val ^ 2 ≤
      (1 + r.u) ^ (n + 5) * (sqDist a.real b.real + n * r.η) := by
  obtain ⟨h0, h1, h2⟩ := fl_dist_err a b
  refine ⟨?_, h0, ?_, h1, h2⟩
  · show GoMath.sqrt _ = GoMath.sqrt _
    congr 1
    have key : ∀ (l m : List (Fl r)) (s : Fl r),
        (List.zip l m).foldl (fun s ab => s + (ab.1 - ab.2) * (ab.1 - ab.2)) s =
          (List.zip m l).foldl (fun s ab => s + (ab.1 - ab.2) * (ab.1 - ab.2)) s := by
      intro l
      induction l with
      | nil => intro m s; simp
      | cons x l ih =>
        intro m s
        cases m with
        | nil => simp
        | cons y m =>
          simp only [List.zip_cons_cons, List.foldl_cons]
          rw [ih, fl_term_comm]
    exact key _ _ _
  · have key : ∀ (l : List (Fl r)) (s : Fl r),
        (List.zip l l).foldl (fun s ab => s + (ab.1 - ab.2) * (ab.1 - ab.2)) s = s := by
      intro l
      induction l with
      | nil => intro s; rfl
      | cons x l ih =>
        intro s
        simp only [List.zip_cons_cons, List.foldl_cons]
        rw [fl_term_self, ih]
    show GoMath.sqrt ((List.zip a.1 a.1).foldl _ 0) = 0
    rw [key]
    apply Fl.ext
    rw [Fl.val_sqrt, Fl.val_zero, Real.sqrt_zero, r.zero]

/-- The constants of `float64`. -/
theorem C98_binary64 : binary64.u = 2 ^ (-53 : ℤ) ∧ binary64.η = 2 ^ (-1075 : ℤ) := by
  refine ⟨rfl, ?_⟩
  show (2 : ℝ) ^ (-1074 : ℤ) / 2 = _
  rw [show (-1075 : ℤ) = -1074 - 1 by norm_num, zpow_sub_one₀ (by norm_num)]
  rfl

/-- A space whose distances are read among the numbers and `+Inf`, which the cost matrix of DTW
uses outside of its band. -/
def withInf {E F : Type} (space : Space E F) : Space E (WithTop F) where
  dist a b := ((space.dist a b : F) : WithTop F)
  combine := space.combine
  copy := space.copy
  dim := space.dim

theorem Fl.withTop_add_mono {r : Rounding} (a b x : WithTop (Fl r)) (h : a ≤ b) :
    a + x ≤ b + x := by
  induction x with
  | top => simp
  | coe x =>
    induction b with
    | top => simp
    | coe b =>
      induction a with
      | top => exact absurd (top_le_iff.1 h) (WithTop.coe_ne_top)
      | coe a =>
        rw [← WithTop.coe_add, ← WithTop.coe_add, WithTop.coe_le_coe]
        exact Fl.add_mono_left a b x (WithTop.coe_le_coe.1 h)

/-- DTW over the Euclidean space, in floating point: the hypotheses of C44–C49 on the arithmetic
hold.  In particular the distance of a series to itself is zero and no distance is negative. -/
theorem C98_dtw {r : Rounding} {n : Nat} (window : Int) (hw : 0 ≤ window) :
    (∀ s : List (Vec (Fl r) n), s ≠ [] →
      ∃ d, newDTWWindow s s (withInf (euclidSpace (Fl r) n)) window = some d ∧ d.dist = 0) ∧
    (∀ s1 s2 : List (Vec (Fl r) n), s1 ≠ [] → s2 ≠ [] →
      Within (band window s2.length) (s1.length - 1) (s2.length - 1) →
      ∃ d, newDTWWindow s1 s2 (withInf (euclidSpace (Fl r) n)) window = some d ∧ 0 ≤ d.dist) :=
  C49_identity Fl.withTop_add_mono
    (by rw [← WithTop.coe_zero, ← WithTop.coe_add, Fl.zero_add_zero])
    (fun a b ha hb => by
      induction b with
      | top => simp
      | coe b =>
        induction a with
        | top => simp
        | coe a =>
          rw [← WithTop.coe_zero, WithTop.coe_le_coe] at ha hb
          rw [← WithTop.coe_zero, ← WithTop.coe_add, WithTop.coe_le_coe]
          exact Fl.add_nonneg' ha hb) _
    (fun p q => by
      rw [← WithTop.coe_zero]
      exact WithTop.coe_le_coe.2 (C98_dist p q).2.1)
    (fun p => by
      rw [← WithTop.coe_zero]
      exact congrArg _ (C98_dist p p).2.2.1) window hw

theorem binary64_tiny {x : ℝ} (h0 : 0 ≤ x) (h : x < 2 ^ (-1075 : ℤ)) : binary64.rnd x = 0 := by
  rcases eq_or_lt_of_le h0 with hz | hz
  · rw [← hz]; exact binary64.zero
  have hl : Int.log 2 |x| ≤ -1076 := by
    rw [abs_of_pos hz]; exact log_le_of_lt hz (by simpa using h)
  have hu : ulpExp 53 (-1074) x = -1074 := by unfold ulpExp; push_cast; omega
  show roundTo 53 (-1074) x = 0
  unfold roundTo
  rw [hu]
  have hp := two_zpow_pos (-1074)
  have e : (2 : ℝ) ^ (-1075 : ℤ) = 2 ^ (-1074 : ℤ) / 2 := C98_binary64.2.symm
  have h1 : x / 2 ^ (-1074 : ℤ) < 1 / 2 := by rw [div_lt_iff₀ hp]; rw [e] at h; linarith
  have h2 : 0 < x / 2 ^ (-1074 : ℤ) := div_pos hz hp
  have b := abs_le.1 (rne_err (x / 2 ^ (-1074 : ℤ)))
  have c1 : (rne (x / 2 ^ (-1074 : ℤ)) : ℝ) < 1 := by linarith [b.2]
  have c2 : (-1 : ℝ) < rne (x / 2 ^ (-1074 : ℤ)) := by linarith [b.1]
  have : rne (x / 2 ^ (-1074 : ℤ)) = 0 := by
    have c1' : rne (x / 2 ^ (-1074 : ℤ)) < 1 := by exact_mod_cast c1
    have c2' : -1 < rne (x / 2 ^ (-1074 : ℤ)) := by exact_mod_cast c2
    omega
  rw [this]; simp

/-- A power of two as a `float64`. -/
noncomputable def fpow (k : ℤ) (hk : -1074 ≤ k) : Fl binary64 :=
  ⟨2 ^ k, roundTo_pow (by norm_num) hk⟩

/-- **C98 (claim examined).** A distance of zero does not mean that the points are equal: 2⁻⁶⁰⁰ is
at distance 0 from 0, its square being too small. -/
theorem C98_zero_distinct : ∃ a b : Vec (Fl binary64) 1,
    a ≠ b ∧ (euclidSpace (Fl binary64) 1).dist a b = 0 := by
  refine ⟨⟨[fpow (-600) (by norm_num)], rfl⟩, ⟨[0], rfl⟩, ?_, ?_⟩
  · intro h
    have h := congrArg (fun v => v.1) h
    simp only [List.cons.injEq, and_true] at h
    have h := congrArg Fl.val h
    exact absurd h (ne_of_gt (two_zpow_pos (-600)))
  · apply Fl.ext
    have hv : (fpow (-600) (by norm_num) - 0 : Fl binary64).val = 2 ^ (-600 : ℤ) := by
      rw [Fl.val_sub, Fl.val_zero, sub_zero]; exact (fpow (-600) (by norm_num)).2
    show binary64.rnd (Real.sqrt (binary64.rnd (0 + binary64.rnd
      ((fpow (-600) (by norm_num) - 0 : Fl binary64).val *
        (fpow (-600) (by norm_num) - 0 : Fl binary64).val)))) = 0
    rw [hv, ← zpow_add₀ (by norm_num), binary64_tiny (by positivity)
      (zpow_lt_zpow_right₀ (by norm_num) (by norm_num)), add_zero, binary64.zero, Real.sqrt_zero,
      binary64.zero]

/-! ### C99: labels -/

/-- **C99.** In floating point `Assign` (hence `Predict`) returns a centroid which is nearest up to
the rounding of the distances. -/
theorem C99_nearest {r : Rounding} {n : Nat} (c : List (Vec (Fl r) n)) (e : Vec (Fl r) n)
    (hc : c ≠ []) :
    ∃ (k : Nat) (x : Vec (Fl r) n),
      assign (euclidSpace (Fl r) n) c e = some (some x, (k : Int), (euclidSpace (Fl r) n).dist e x) ∧
      c[k]? = some x ∧ ∀ y ∈ c, (1 - r.u) ^ (n + 5) * sqDist e.real x.real ≤
        (1 + r.u) ^ (n + 5) * (sqDist e.real y.real + n * r.η) + n * r.η := by
  obtain ⟨k, x, h, hk, hmin, _⟩ := C03_assign_nearest_linear Fl.neg_one_lt_zero
    (euclidSpace (Fl r) n) c e hc (fun y => (C98_dist e y).2.1)
  refine ⟨k, x, h, hk, fun y hy => ?_⟩
  obtain ⟨x0, x1, _⟩ := fl_dist_err e x
  obtain ⟨y0, _, y2⟩ := fl_dist_err e y
  have := pow_le_pow_left₀ x0 (Fl.le_iff.1 (hmin y hy)) 2
  linarith

/-- **C99** (margin). When one centroid is nearer than the others by more than the rounding, its
label is returned. -/
theorem C99_margin {r : Rounding} {n : Nat} (c : List (Vec (Fl r) n)) (e : Vec (Fl r) n)
    (k : Nat) (x : Vec (Fl r) n) (hk : c[k]? = some x)
    (hx : ∀ (j : Nat) (y : Vec (Fl r) n), c[j]? = some y → j ≠ k →
      (1 + r.u) ^ (n + 5) * (sqDist e.real x.real + n * r.η) + n * r.η <
        (1 - r.u) ^ (n + 5) * sqDist e.real y.real) :
    assign (euclidSpace (Fl r) n) c e = some (some x, (k : Int), (euclidSpace (Fl r) n).dist e x) := by
  have hmem := List.mem_of_getElem? hk
  obtain ⟨j, y, h, hj, hmin⟩ := C99_nearest c e (List.ne_nil_of_mem hmem)
  by_cases hjk : j = k
  · subst hjk
    rw [hk] at hj
    cases hj
    exact h
  · exact absurd (hmin x hmem) (not_le.2 (hx j y hj hjk))

/-! ### C100: means -/

/-- **C100** (`Combine`). Each coordinate of `Combine` is the weighted mean up to `combErr`. -/
theorem C100_combine {r : Rounding} {n : Nat} (x y : Vec (Fl r) n) (w v : Nat) (hw : 0 < w)
    (hv : 0 < v) (hN : r.CountsTo (w + v)) {B : ℝ} (i : Fin n) (hx : |x.real i| ≤ B)
    (hy : |y.real i| ≤ B) :
    |((euclidSpace (Fl r) n).combine x w y v).real i -
      (x.real i * w + y.real i * v) / (w + v)| ≤ r.combErr B := by
  rw [combine_real]
  have := r.combine_err (x.coords i) (y.coords i) (w : Int) (v : Int) (by omega) (by omega)
    (by have := hN w (by omega); exact_mod_cast this)
    (by have := hN v (by omega); exact_mod_cast this)
    (by have := hN (w + v) le_rfl; push_cast at this ⊢; exact_mod_cast this) hx hy
  simp only [Int.cast_natCast] at this
  exact this

/-- **C100** (k-means). After an iteration, sequential or parallel, each coordinate of the centroid
of a cluster is the mean of the elements assigned to it up to `meanErr`. -/
theorem C100_iterate {r : Rounding} {n : Nat} (s : KStrategy) (hs : s.Valid)
    (c data : List (Vec (Fl r) n)) (hc : c ≠ []) (hN : r.CountsTo data.length) {B : ℝ}
    (hB : ∀ x ∈ data, ∀ i, |x.real i| ≤ B) :
    ∃ out : List (Vec (Fl r) n), s.iterate (euclidSpace (Fl r) n) c data = some (out.map some) ∧
      out.length = c.length ∧ ∀ (l : Nat) (x : Vec (Fl r) n), c[l]? = some x →
        let ms := data.filter fun e => (nearest (euclidSpace (Fl r) n) c e).1 == (l : Int)
        ∃ m, out[l]? = some m ∧ (ms = [] → m = x) ∧
          (ms ≠ [] → ∀ i, |m.real i - mean (ms.map fun x => x.real i)| ≤ r.meanErr B ms.length) := by
  obtain ⟨out, h1, h2, h3⟩ := iterate_spec Fl.neg_one_lt_zero (nearMean_combine r hN B n)
    (nearMean_running r hN B n) s hs c data hc
  refine ⟨out, h1, h2, fun l x hx => ?_⟩
  obtain ⟨m, hm, he, hne⟩ := h3 l x hx
  exact ⟨m, hm, he, fun hms => hne hms (List.length_filter_le _ _)
    (fun z hz => hB z (List.mem_of_mem_filter hz))⟩

/-- **C100** (sequential against parallel). Two strategies differ by at most twice that error. -/
theorem C100_strategies {r : Rounding} {n : Nat} (s s' : KStrategy) (hs : s.Valid) (hs' : s'.Valid)
    (c data : List (Vec (Fl r) n)) (hc : c ≠ []) (hN : r.CountsTo data.length) {B : ℝ} (h0 : 0 ≤ B)
    (hB : ∀ x ∈ data, ∀ i, |x.real i| ≤ B) :
    ∃ out out' : List (Vec (Fl r) n), s.iterate (euclidSpace (Fl r) n) c data = some (out.map some) ∧
      s'.iterate (euclidSpace (Fl r) n) c data = some (out'.map some) ∧
      out.length = c.length ∧ out'.length = c.length ∧
      ∀ (l : Nat) (m m' : Vec (Fl r) n), out[l]? = some m → out'[l]? = some m' →
        ∀ i, |m.real i - m'.real i| ≤ 2 * r.meanErr B data.length := by
  obtain ⟨out, h1, h2, h3⟩ := C100_iterate s hs c data hc hN hB
  obtain ⟨out', h1', h2', h3'⟩ := C100_iterate s' hs' c data hc hN hB
  refine ⟨out, out', h1, h1', h2, h2', fun l m m' hm hm' i => ?_⟩
  have hl : l < c.length := by have := (List.getElem?_eq_some_iff.1 hm).1; omega
  obtain ⟨m1, e1, z1, n1⟩ := h3 l c[l] (by simp)
  obtain ⟨m2, e2, z2, n2⟩ := h3' l c[l] (by simp)
  rw [e1] at hm; cases hm
  rw [e2] at hm'; cases hm'
  have hE := r.meanErr_nonneg h0 data.length
  by_cases hms : (data.filter fun e => (nearest (euclidSpace (Fl r) n) c e).1 == (l : Int)) = []
  · rw [z1 hms, z2 hms, sub_self, abs_zero]; linarith
  · have a1 := n1 hms i
    have a2 := n2 hms i
    have a3 := r.meanErr_mono h0 (List.length_filter_le
      (fun e => (nearest (euclidSpace (Fl r) n) c e).1 == (l : Int)) data)
    rw [abs_sub_comm] at a2
    have := abs_sub_le (m.real i) (mean ((data.filter fun e =>
      (nearest (euclidSpace (Fl r) n) c e).1 == (l : Int)).map fun x => x.real i)) (m'.real i)
    linarith

/-- The integers counted by `float64`. -/
theorem C100_counts : binary64.CountsTo (2 ^ 53) := by
  intro k hk
  have := binary64_int (k : Int) (by rw [abs_of_nonneg (by omega)]; exact_mod_cast hk)
  exact_mod_cast this

/-! ### C101: the loss -/

theorem sqDist_shift {r : Rounding} {n : Nat} (ms : List (Vec (Fl r) n)) (hne : ms ≠ [])
    (m x : Fin n → ℝ) {E : ℝ}
    (hm : ∀ i, |m i - mean (ms.map fun z => z.real i)| ≤ E) :
    (ms.map fun e => sqDist e.real m).sum ≤
      (ms.map fun e => sqDist e.real x).sum + ms.length * (n * E ^ 2) := by
  unfold sqDist
  rw [list_sum_finset (fun i (e : Vec (Fl r) n) => (e.real i - m i) ^ 2),
    list_sum_finset (fun i (e : Vec (Fl r) n) => (e.real i - x i) ^ 2)]
  have : (ms.length : ℝ) * (n * E ^ 2) = ∑ _i : Fin n, (ms.length : ℝ) * E ^ 2 := by
    rw [Finset.sum_const, Finset.card_univ, Fintype.card_fin, nsmul_eq_mul]; ring
  rw [this, ← Finset.sum_add_distrib]
  apply Finset.sum_le_sum
  intro i _
  set μ := mean (ms.map fun z => z.real i) with hμ
  have hpos : (0 : ℝ) < ms.length := by exact_mod_cast List.length_pos_iff.2 hne
  have hsum : (ms.map fun e => e.real i).sum = ms.length * μ := by
    rw [hμ, mean, List.length_map, smul_eq_mul]; field_simp
  have h1 := sum_sq_shift μ (x i) (ms.map fun e => e.real i)
  have h2 := sum_sq_shift μ (m i) (ms.map fun e => e.real i)
  simp only [List.map_map, Function.comp_def, List.length_map] at h1 h2
  rw [hsum, sub_self, mul_zero, add_zero] at h1 h2
  have h3 : (m i - μ) ^ 2 ≤ E ^ 2 := by
    rw [← sq_abs]; exact pow_le_pow_left₀ (abs_nonneg _) (hm i) 2
  have h4 : 0 ≤ ms.length * (μ - x i) ^ 2 := by positivity
  have h5 : (ms.length : ℝ) * (μ - m i) ^ 2 ≤ ms.length * E ^ 2 := by
    rw [show (μ - m i) ^ 2 = (m i - μ) ^ 2 by ring]; gcongr
  linarith


theorem assign_label {E F : Type} [Zero F] [One F] [Neg F] [LT F] [DecidableLT F]
    {space : Space E F} {c : List E} {e : E} {x : Option E} {l : Int} {d : F}
    (h : assign space c e = some (x, l, d)) : l = (nearest space c e).1 := by
  unfold assign at h
  generalize nearest space c e = p at h ⊢
  obtain ⟨a, b⟩ := p
  dsimp only at h
  split at h
  · split at h
    · cases h; rfl
    · cases h
  · cases h; rfl

theorem best_le {r : Rounding} {n : Nat} (c : List (Vec (Fl r) n)) (x : Fin n → ℝ) (y : Vec (Fl r) n)
    (hy : y ∈ c) : (⨅ i : Fin c.length, sqDist x c[i].real) ≤ sqDist x y.real := by
  obtain ⟨j, hj, rfl⟩ := List.mem_iff_getElem.1 hy
  exact ciInf_le (Set.finite_range _).bddBelow (⟨j, hj⟩ : Fin c.length)

theorem best_mem {r : Rounding} {n : Nat} (c : List (Vec (Fl r) n)) (hc : c ≠ []) (x : Fin n → ℝ) :
    ∃ y ∈ c, (⨅ i : Fin c.length, sqDist x c[i].real) = sqDist x y.real := by
  have : Nonempty (Fin c.length) := ⟨⟨0, List.length_pos_iff.2 hc⟩⟩
  obtain ⟨i, hi⟩ := exists_eq_ciInf_of_finite (f := fun i : Fin c.length => sqDist x c[i].real)
  exact ⟨c[i], List.getElem_mem _, hi.symm⟩

/-- **C101.** An iteration of k-means in floating point does not increase the exact loss by more
than the rounding of the distances and of the means. -/
theorem C101_loss_step {r : Rounding} {n : Nat} (s : KStrategy) (hs : s.Valid)
    (c data : List (Vec (Fl r) n)) (hc : c ≠ []) (hN : r.CountsTo data.length) {B : ℝ} (h0 : 0 ≤ B)
    (hB : ∀ x ∈ data, ∀ i, |x.real i| ≤ B) :
    ∃ c', kmeansStep s (euclidSpace (Fl r) n) data c = some c' ∧ c'.length = c.length ∧
      (1 - r.u) ^ (n + 5) * exactLoss c' data ≤
        (1 + r.u) ^ (n + 5) * (exactLoss c data + data.length * (n * r.η)) +
          data.length * (n * r.η + n * r.meanErr B data.length ^ 2) := by
  obtain ⟨out, h1, h2, h3⟩ := C100_iterate s hs c data hc hN hB
  refine ⟨out, by simp [kmeansStep, h1, allSome_map_some], h2, ?_⟩
  have hneg := Fl.neg_one_lt_zero (r := r)
  set sp := euclidSpace (Fl r) n
  set q := n + 5
  set E := r.meanErr B data.length with hE
  have hu1 : 0 ≤ 1 - r.u := by linarith [r.u_le_one]
  have hq0 : 0 ≤ (1 - r.u) ^ q := pow_nonneg hu1 _
  have hq1 : (1 - r.u) ^ q ≤ 1 := pow_le_one₀ hu1 (by linarith [r.u_nonneg])
  obtain ⟨d, hd⟩ := List.exists_mem_of_ne_nil c hc
  have hlab : ∀ e ∈ data, 0 ≤ (nearest sp c e).1 ∧ (nearest sp c e).1 < c.length :=
    fun e _ => nearest_range hneg sp c hc e
  -- the old centroids, with the labels computed
  have step1 : (1 - r.u) ^ q *
      (data.map fun e => sqDist e.real (c.getD (nearest sp c e).1.toNat d).real).sum ≤
      (1 + r.u) ^ q * (exactLoss c data + data.length * (n * r.η)) + data.length * (n * r.η) := by
    unfold exactLoss
    have key : ∀ l : List (Vec (Fl r) n), (1 - r.u) ^ q *
        (l.map fun e => sqDist e.real (c.getD (nearest sp c e).1.toNat d).real).sum ≤
        (1 + r.u) ^ q * ((l.map fun e => ⨅ i : Fin c.length, sqDist e.real c[i].real).sum +
          l.length * (n * r.η)) + l.length * (n * r.η) := by
      intro l
      induction l with
      | nil => simp
      | cons e l ih =>
        obtain ⟨k, x, ha, hk, hmin⟩ := C99_nearest c e hc
        obtain ⟨y, hy, hbest⟩ := best_mem c hc e.real
        have hx : c.getD (nearest sp c e).1.toNat d = x := by
          have hl := nearest_range hneg sp c hc e
          have : (nearest sp c e).1 = (k : Int) := by
            exact (assign_label ha).symm
          rw [this, Int.toNat_natCast, List.getD, hk]; rfl
        have h := hmin y hy
        rw [← hbest] at h
        simp only [List.map_cons, List.sum_cons, List.length_cons, Nat.cast_add, Nat.cast_one, hx]
        have : (1 - r.u) ^ q * sqDist e.real x.real ≤ (1 + r.u) ^ q *
          ((⨅ i : Fin c.length, sqDist e.real c[i].real) + n * r.η) + n * r.η := h
        nlinarith
    exact key data
  -- the new ones, with the same labels
  have step2 : (data.map fun e => sqDist e.real (out.getD (nearest sp c e).1.toNat d).real).sum ≤
      (data.map fun e => sqDist e.real (c.getD (nearest sp c e).1.toNat d).real).sum +
        data.length * (n * E ^ 2) := by
    have hcount : (data.map fun _ => (n : ℝ) * E ^ 2).sum = data.length * (n * E ^ 2) := by
      simp
    rw [← hcount, sum_by_label c.length (fun e => (nearest sp c e).1)
        (fun l e => sqDist e.real (out.getD l d).real) data hlab,
      sum_by_label c.length (fun e => (nearest sp c e).1)
        (fun l e => sqDist e.real (c.getD l d).real) data hlab,
      sum_by_label c.length (fun e => (nearest sp c e).1) (fun _ _ => (n : ℝ) * E ^ 2) data hlab,
      ← Finset.sum_add_distrib]
    apply Finset.sum_le_sum
    intro l hl
    have hlt : l < c.length := by simpa using hl
    obtain ⟨m, hm, _, hmean⟩ := h3 l c[l] (by simp)
    by_cases he : (data.filter fun e => (nearest sp c e).1 == (l : Int)) = []
    · rw [he]; simp
    · have e1 : out.getD l d = m := by simp [hm]
      rw [e1]
      have := sqDist_shift _ he m.real (c.getD l d).real (E := E) (fun i =>
        (hmean he i).trans (r.meanErr_mono h0 (List.length_filter_le _ _)))
      simpa using this
  -- the new ones, with the best labels
  have step3 : exactLoss out data ≤
      (data.map fun e => sqDist e.real (out.getD (nearest sp c e).1.toNat d).real).sum := by
    unfold exactLoss
    apply List.sum_le_sum
    intro e he
    obtain ⟨hl0, hl1⟩ := hlab e he
    have hlt : (nearest sp c e).1.toNat < out.length := by omega
    refine best_le out e.real _ ?_
    simp [List.getD, List.getElem?_eq_getElem hlt]
  have hnn : 0 ≤ (data.length : ℝ) * (n * E ^ 2) := by positivity
  have h4 := mul_le_mul_of_nonneg_left (step3.trans step2) hq0
  have h5 : (1 - r.u) ^ q * ((data.length : ℝ) * (n * E ^ 2)) ≤ data.length * (n * E ^ 2) := by
    nlinarith
  nlinarith

end Distclus
