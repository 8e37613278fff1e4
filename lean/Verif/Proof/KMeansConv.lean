import Verif.Props.KMeans
/-!
# Lemmas for the convergence of k-means
-/
namespace Distclus
open Spec

/-- The loss of a clustering as a real number (norm 2). -/
theorem loss_eq_sum {n : Nat} (c data : List (Vec ℝ n)) (hc : c ≠ []) :
    totalLoss (euclidSpace ℝ n) c data 2 =
      some (data.map fun e => (nearest (euclidSpace ℝ n) c e).2 ^ 2).sum := by
  rw [C10_totalLoss (by norm_num) _ c data hc 2]
  have hpow : ∀ x : ℝ, GoMath.pow x 2 = x ^ 2 := fun x => Real.rpow_two x
  simp only [hpow]

/-- Huygens: the sum of squared distances to `x` and to the mean differ by the squared distance between them. -/
theorem mean_shift {n : Nat} (ms : List (Vec ℝ n)) (hne : ms ≠ []) (m x : Vec ℝ n)
    (hm : m.coords = mean (ms.map Vec.coords)) :
    (ms.map fun e => (euclidSpace ℝ n).dist e x ^ 2).sum =
      (ms.map fun e => (euclidSpace ℝ n).dist e m ^ 2).sum +
        ms.length * ∑ i, (m.coords i - x.coords i) ^ 2 := by
  have hsq : ∀ e y : Vec ℝ n, (euclidSpace ℝ n).dist e y ^ 2 =
      ∑ i, (e.coords i - y.coords i) ^ 2 := by
    intro e y
    rw [euclid_dist_eq, Real.sq_sqrt (Finset.sum_nonneg fun i _ => sq_nonneg _)]
  simp only [hsq]
  rw [list_sum_finset (fun i (e : Vec ℝ n) => (e.coords i - m.coords i) ^ 2),
    list_sum_finset (fun i (e : Vec ℝ n) => (e.coords i - x.coords i) ^ 2), Finset.mul_sum,
    ← Finset.sum_add_distrib]
  apply Finset.sum_congr rfl
  intro i _
  have h := sum_sq_shift (m.coords i) (x.coords i) (ms.map fun e => e.coords i)
  simp only [List.map_map, Function.comp_def, List.length_map] at h
  rw [h]
  have hpos : (0 : ℝ) < ms.length := by exact_mod_cast List.length_pos_iff.2 hne
  have hsum : (ms.map fun e => e.coords i).sum = ms.length * m.coords i := by
    have h1 : ∀ l : List (Vec ℝ n), (l.map Vec.coords).sum i = (l.map fun e => e.coords i).sum := by
      intro l
      induction l with
      | nil => simp
      | cons a l ih => simp [ih]
    rw [hm, mean, Pi.smul_apply, List.length_map, smul_eq_mul, h1]
    field_simp
  rw [hsum]; ring

/-- One iteration in two halves: the loss of the new centroids for the old assignment lies between the new loss
and the old one, and is the old one only when nothing changes. -/
theorem kmeans_halves {n : Nat} (s : KStrategy) (hs : s.Valid) (c data : List (Vec ℝ n)) (hc : c ≠ [])
    (d : Vec ℝ n) :
    ∃ out, kmeansStep s (euclidSpace ℝ n) data c = some out ∧ out.length = c.length ∧
      (∀ (l : Nat) (x : Vec ℝ n), c[l]? = some x →
        let ms := data.filter fun e => (nearest (euclidSpace ℝ n) c e).1 == (l : Int)
        ∃ m, out[l]? = some m ∧ (ms = [] → m = x) ∧ (ms ≠ [] → m.coords = mean (ms.map Vec.coords))) ∧
      (data.map fun e => (nearest (euclidSpace ℝ n) out e).2 ^ 2).sum ≤
        (data.map fun e => (euclidSpace ℝ n).dist e
          (out.getD (nearest (euclidSpace ℝ n) c e).1.toNat d) ^ 2).sum ∧
      (data.map fun e => (euclidSpace ℝ n).dist e
          (out.getD (nearest (euclidSpace ℝ n) c e).1.toNat d) ^ 2).sum ≤
        (data.map fun e => (nearest (euclidSpace ℝ n) c e).2 ^ 2).sum ∧
      ((data.map fun e => (euclidSpace ℝ n).dist e
          (out.getD (nearest (euclidSpace ℝ n) c e).1.toNat d) ^ 2).sum =
        (data.map fun e => (nearest (euclidSpace ℝ n) c e).2 ^ 2).sum → out = c) := by
  have hneg : (-1 : ℝ) < 0 := by norm_num
  have hb := euclid_barycentric n
  obtain ⟨out, h1, h2, h3⟩ := iterate_spec hneg (mean_append_combine hb) (running_mean hb) s hs c
    data hc
  have hne : out ≠ [] := by
    intro h; subst h; exact hc (List.length_eq_zero_iff.1 (by simpa using h2.symm))
  have h0 : ∀ a b, 0 ≤ (euclidSpace ℝ n).dist a b := fun a b => by
    rw [euclid_dist_eq]; exact Real.sqrt_nonneg _
  set sp := euclidSpace ℝ n
  have hlab : ∀ e ∈ data, 0 ≤ (nearest sp c e).1 ∧ (nearest sp c e).1 < c.length :=
    fun e _ => nearest_range hneg sp c hc e
  have step1 : (data.map fun e => (nearest sp out e).2 ^ 2).sum ≤
      (data.map fun e => sp.dist e (out.getD (nearest sp c e).1.toNat d) ^ 2).sum := by
    apply List.sum_le_sum
    intro e he
    obtain ⟨hl0, hl1⟩ := hlab e he
    have hlt : (nearest sp c e).1.toNat < out.length := by omega
    have hmem : out.getD (nearest sp c e).1.toNat d ∈ out := by
      simp [List.getD, List.getElem?_eq_getElem hlt]
    obtain ⟨j, x, hj, hx⟩ := nearest_mem hneg sp out e hne
    have hnn : 0 ≤ (nearest sp out e).2 := by rw [hx]; exact h0 e x
    exact pow_le_pow_left₀ hnn (nearest_le sp h0 out e _ hmem) 2
  have step3 : (data.map fun e => sp.dist e (c.getD (nearest sp c e).1.toNat d) ^ 2).sum =
      (data.map fun e => (nearest sp c e).2 ^ 2).sum := by
    congr 1
    apply List.map_congr_left
    intro e he
    obtain ⟨j, x, hj, hx⟩ := nearest_mem hneg sp c e hc
    rw [hx]
    simp [hj]
  have hle : ∀ l, l < c.length →
      ((data.filter fun e => (nearest sp c e).1 == (l : Int)).map
        fun e => sp.dist e (out.getD l d) ^ 2).sum ≤
      ((data.filter fun e => (nearest sp c e).1 == (l : Int)).map
        fun e => sp.dist e (c.getD l d) ^ 2).sum ∧
      (out.getD l d ≠ c.getD l d →
      ((data.filter fun e => (nearest sp c e).1 == (l : Int)).map
        fun e => sp.dist e (out.getD l d) ^ 2).sum <
      ((data.filter fun e => (nearest sp c e).1 == (l : Int)).map
        fun e => sp.dist e (c.getD l d) ^ 2).sum) := by
    intro l hlt
    obtain ⟨m, hm, hz, hmean⟩ := h3 l c[l] (by simp)
    have e1 : out.getD l d = m := by simp [hm]
    have e2 : c.getD l d = c[l] := by simp [hlt]
    rw [e1, e2]
    by_cases he : (data.filter fun e => (nearest sp c e).1 == (l : Int)) = []
    · refine ⟨by rw [he]; simp, fun h => absurd (hz he) h⟩
    · have hsh := mean_shift _ he m c[l] (hmean he)
      have hpos : (0 : ℝ) < (data.filter fun e => (nearest sp c e).1 == (l : Int)).length := by
        exact_mod_cast List.length_pos_iff.2 he
      have hsn : 0 ≤ ∑ i, (m.coords i - c[l].coords i) ^ 2 :=
        Finset.sum_nonneg fun i _ => sq_nonneg _
      rw [hsh]
      refine ⟨le_add_of_nonneg_right (mul_nonneg hpos.le hsn), fun hd => ?_⟩
      refine lt_add_of_pos_right _ (mul_pos hpos (lt_of_le_of_ne hsn fun h => hd (hb.inj _ _ ?_)))
      funext i
      have := (Finset.sum_eq_zero_iff_of_nonneg fun i _ => sq_nonneg _).1 h.symm i (Finset.mem_univ i)
      have := pow_eq_zero_iff (two_ne_zero) |>.1 this
      linarith
  refine ⟨out, by simp [kmeansStep, h1, allSome_map_some], h2, h3, step1, ?_, ?_⟩
  · rw [← step3, sum_by_label c.length (fun e => (nearest sp c e).1)
        (fun l e => sp.dist e (out.getD l d) ^ 2) data hlab,
      sum_by_label c.length (fun e => (nearest sp c e).1)
        (fun l e => sp.dist e (c.getD l d) ^ 2) data hlab]
    exact Finset.sum_le_sum fun l hl => (hle l (by simpa using hl)).1
  · rw [← step3, sum_by_label c.length (fun e => (nearest sp c e).1)
        (fun l e => sp.dist e (out.getD l d) ^ 2) data hlab,
      sum_by_label c.length (fun e => (nearest sp c e).1)
        (fun l e => sp.dist e (c.getD l d) ^ 2) data hlab]
    intro heq
    by_contra hdiff
    have : ∃ l < c.length, out.getD l d ≠ c.getD l d := by
      by_contra hno
      push Not at hno
      apply hdiff
      apply List.ext_getElem h2
      intro i hi1 hi2
      have := hno i hi2
      simpa [List.getD, hi1, hi2] using this
    obtain ⟨l, hl, hd⟩ := this
    have := Finset.sum_lt_sum (s := Finset.range c.length)
      (fun l hl => (hle l (by simpa using hl)).1) ⟨l, by simpa using hl, (hle l hl).2 hd⟩
    exact absurd heq this.ne

/-- The successive clusterings. -/
theorem kmeans_states {n : Nat} (s : KStrategy) (hs : s.Valid) (c data : List (Vec ℝ n)) (hc : c ≠ []) :
    ∃ C : Nat → List (Vec ℝ n), C 0 = c ∧ (∀ t, (C t).length = c.length) ∧
      (∀ t, kmeansStep s (euclidSpace ℝ n) data (C t) = some (C (t + 1))) ∧
      ∀ t, kmeansRun s (euclidSpace ℝ n) (List.replicate t data) c = some (C t) := by
  obtain ⟨d, _⟩ := List.exists_mem_of_ne_nil c hc
  let C : Nat → List (Vec ℝ n) :=
    Nat.rec c fun _ p => (kmeansStep s (euclidSpace ℝ n) data p).getD []
  have hstep : ∀ t, (C t).length = c.length ∧
      kmeansStep s (euclidSpace ℝ n) data (C t) = some (C (t + 1)) := by
    intro t
    induction t with
    | zero =>
      obtain ⟨out, h1, h2, _⟩ := kmeans_halves s hs c data hc d
      refine ⟨rfl, ?_⟩
      show kmeansStep s (euclidSpace ℝ n) data c = some ((kmeansStep s _ data c).getD [])
      rw [h1]; rfl
    | succ t ih =>
      obtain ⟨hl, hk⟩ := ih
      have hne : C t ≠ [] := by
        intro h; rw [h] at hl; exact hc (List.length_eq_zero_iff.1 hl.symm)
      obtain ⟨out, h1, h2, _⟩ := kmeans_halves s hs (C t) data hne d
      rw [h1] at hk
      have hC : out = C (t + 1) := Option.some.inj hk
      have hl' : (C (t + 1)).length = c.length := by rw [← hC, h2, hl]
      have hne' : C (t + 1) ≠ [] := by
        intro h; rw [h] at hl'; exact hc (List.length_eq_zero_iff.1 hl'.symm)
      obtain ⟨out', h1', _⟩ := kmeans_halves s hs (C (t + 1)) data hne' d
      refine ⟨hl', ?_⟩
      show _ = some ((kmeansStep s _ data (C (t + 1))).getD [])
      rw [h1']; rfl
  refine ⟨C, rfl, fun t => (hstep t).1, fun t => (hstep t).2, ?_⟩
  have : ∀ m t, kmeansRun s (euclidSpace ℝ n) (List.replicate m data) (C t) = some (C (t + m)) := by
    intro m
    induction m with
    | zero => intro t; rfl
    | succ m ih =>
      intro t
      simp only [List.replicate_succ, kmeansRun, (hstep t).2, ih]
      rw [show t + 1 + m = t + (m + 1) by omega]
  intro t
  have h := this t 0
  rw [Nat.zero_add] at h
  exact h

end Distclus
