import Verif.Props.KMeansOpt
/-!
# C123: k-means in the cosine space

Model: `Verif/Model/Euclid.lean` (cosinus/cosinus.go) and `Verif/Model/KMeans.lean`.  The combination of the cosine space is
that of the Euclidean space, so an iteration replaces a centroid by the arithmetic mean of its cluster.  The hypothesis about
`w` keeps the centroids away from 0, where the distance of the code is 0/0 (NaN) and the one of the model is a convention.
-/
namespace Distclus
open Spec

/-- The scalar product of the coordinates. -/
def Spec.dot {n : Nat} (a b : Fin n → ℝ) : ℝ := ∑ i, a i * b i

theorem inner_dot {n : Nat} (a b : Vec ℝ n) : inner ℝ a.toE b.toE = dot a.coords b.coords := by
  rw [PiLp.inner_apply]
  refine Finset.sum_congr rfl fun i _ => ?_
  simp [Vec.toE, mul_comm]

theorem norm_dot {n : Nat} (a : Vec ℝ n) : ‖a.toE‖ = Real.sqrt (dot a.coords a.coords) := by
  rw [← inner_dot, real_inner_self_eq_norm_sq, Real.sqrt_sq (norm_nonneg _)]

theorem cosinus_dist_dot {n : Nat} (a b : Vec ℝ n) : (cosinusSpace ℝ n).dist a b =
    1 - dot a.coords b.coords / (Real.sqrt (dot a.coords a.coords) * Real.sqrt (dot b.coords b.coords)) := by
  rw [cosinus_dist_toE, inner_dot, norm_dot, norm_dot]

theorem dot_le {n : Nat} (a b : Vec ℝ n) :
    dot a.coords b.coords ≤ Real.sqrt (dot a.coords a.coords) * Real.sqrt (dot b.coords b.coords) := by
  rw [← inner_dot, ← norm_dot, ← norm_dot]
  exact real_inner_le_norm _ _

theorem cosinus_nonneg {n : Nat} (a b : Vec ℝ n) : 0 ≤ (cosinusSpace ℝ n).dist a b := by
  rw [cosinus_dist_dot, sub_nonneg]
  exact div_le_one_of_le₀ (dot_le a b) (by positivity)

theorem dot_sum {n : Nat} (w : Fin n → ℝ) (ms : List (Vec ℝ n)) :
    (ms.map fun e => dot e.coords w).sum = dot (ms.map Vec.coords).sum w := by
  induction ms with
  | nil => simp [dot]
  | cons a l ih =>
    simp only [List.map_cons, List.sum_cons, ih]
    simp [dot, add_mul, Finset.sum_add_distrib]

theorem dot_smul {n : Nat} (r : ℝ) (a w : Fin n → ℝ) : dot (r • a) w = r * dot a w := by
  simp [dot, Finset.mul_sum, mul_assoc]

theorem dot_comm {n : Nat} (a b : Fin n → ℝ) : dot a b = dot b a := by
  simp [dot, mul_comm]

/-- The sum of the cosine distances of vectors of the same norm to any vector. -/
theorem cosinus_sum {n : Nat} (ms : List (Vec ℝ n)) (ρ : ℝ)
    (hn : ∀ e ∈ ms, Real.sqrt (dot e.coords e.coords) = ρ) (m : Vec ℝ n) (hne : ms ≠ [])
    (hm : m.coords = mean (ms.map Vec.coords)) (x : Vec ℝ n) :
    (ms.map fun e => (cosinusSpace ℝ n).dist e x).sum =
      ms.length * (1 - dot m.coords x.coords / (ρ * Real.sqrt (dot x.coords x.coords))) := by
  have h1 : (ms.map fun e => (cosinusSpace ℝ n).dist e x) =
      ms.map fun e => 1 - (ρ * Real.sqrt (dot x.coords x.coords))⁻¹ * dot e.coords x.coords := by
    refine List.map_congr_left fun e he => ?_
    rw [cosinus_dist_dot, hn e he, div_eq_mul_inv, mul_comm]
  have h2 : ∀ (r : ℝ) (l : List (Vec ℝ n)), (l.map fun e => 1 - r * dot e.coords x.coords).sum =
      l.length - r * (l.map fun e => dot e.coords x.coords).sum := by
    intro r l
    induction l with
    | nil => simp
    | cons a l ih => simp only [List.map_cons, List.sum_cons, ih, List.length_cons]; push_cast; ring
  have hpos : (0 : ℝ) < ms.length := by exact_mod_cast List.length_pos_iff.2 hne
  have h3 : dot (ms.map Vec.coords).sum x.coords = ms.length * dot m.coords x.coords := by
    rw [hm, mean, dot_smul, List.length_map]
    field_simp
  rw [h1, h2, dot_sum, h3]
  ring

/-- The mean is the best centroid for vectors of the same norm. -/
theorem cosinus_mean_le {n : Nat} (ms : List (Vec ℝ n)) (ρ : ℝ) (hρ : 0 < ρ)
    (hn : ∀ e ∈ ms, Real.sqrt (dot e.coords e.coords) = ρ) (m : Vec ℝ n) (hne : ms ≠ [])
    (hm : m.coords = mean (ms.map Vec.coords)) (x : Vec ℝ n) :
    (ms.map fun e => (cosinusSpace ℝ n).dist e m).sum ≤ (ms.map fun e => (cosinusSpace ℝ n).dist e x).sum := by
  rw [cosinus_sum ms ρ hn m hne hm, cosinus_sum ms ρ hn m hne hm]
  refine mul_le_mul_of_nonneg_left ?_ (by positivity)
  rw [sub_le_sub_iff_left]
  set a := Real.sqrt (dot m.coords m.coords) with ha
  set b := Real.sqrt (dot x.coords x.coords) with hb
  have ha0 : 0 ≤ a := Real.sqrt_nonneg _
  have hb0 : 0 ≤ b := Real.sqrt_nonneg _
  have hself : dot m.coords m.coords = a * a := by
    rw [ha, Real.mul_self_sqrt]
    exact Finset.sum_nonneg fun i _ => mul_self_nonneg _
  rw [hself]
  have e1 : a * a / (ρ * a) = a / ρ := by
    rcases ha0.eq_or_lt with h | h
    · rw [← h]; simp
    · field_simp
  rw [e1]
  rcases hb0.eq_or_lt with h | h
  · rw [← h]; simp; positivity
  · rw [div_le_div_iff₀ (by positivity) hρ]
    have := dot_le m x
    rw [← ha, ← hb] at this
    calc dot m.coords x.coords * ρ ≤ (a * b) * ρ := mul_le_mul_of_nonneg_right this hρ.le
      _ = a * (ρ * b) := by ring

theorem loss_one {E : Type} (space : Space E ℝ) (c data : List E) (hc : c ≠ []) :
    totalLoss space c data 1 = some (data.map fun e => (nearest space c e).2).sum := by
  rw [C10_totalLoss (by norm_num) space c data hc 1]
  have hpow : ∀ x : ℝ, GoMath.pow x 1 = x := fun x => Real.rpow_one x
  simp only [hpow]

/-- **C123 (one iteration).** Let the data have the same norm and, like the centroids, a positive product with some
vector `w` (for instance non-negative non-zero data, with all the coordinates of `w` equal to 1).  An iteration of k-means
in the cosine space gives centroids with the same property and does not increase the loss of norm 1. -/
theorem C123_step {n : Nat} (s : KStrategy) (hs : s.Valid) (c data : List (Vec ℝ n)) (hc : c ≠ [])
    (w : Fin n → ℝ) (ρ : ℝ) (hρ : 0 < ρ)
    (hn : ∀ e ∈ data, Real.sqrt (dot e.coords e.coords) = ρ) (hw : ∀ e ∈ data, 0 < dot e.coords w)
    (hcw : ∀ x ∈ c, 0 < dot x.coords w) :
    ∃ c' before after, kmeansStep s (cosinusSpace ℝ n) data c = some c' ∧ c'.length = c.length ∧
      (∀ x ∈ c', 0 < dot x.coords w) ∧
      totalLoss (cosinusSpace ℝ n) c data 1 = some before ∧
      totalLoss (cosinusSpace ℝ n) c' data 1 = some after ∧ after ≤ before := by
  have hneg : (-1 : ℝ) < 0 := by norm_num
  have hb := cosinus_barycentric n
  obtain ⟨out, h1, h2, h3⟩ := iterate_spec hneg (mean_append_combine hb) (running_mean hb) s hs c
    data hc
  have hne : out ≠ [] := by
    intro h; subst h; exact hc (List.length_eq_zero_iff.1 (by simpa using h2.symm))
  have h0 : ∀ a b, 0 ≤ (cosinusSpace ℝ n).dist a b := cosinus_nonneg
  refine ⟨out, _, _, by simp [kmeansStep, h1, allSome_map_some], h2, ?_, loss_one _ c data hc, loss_one _ out data hne, ?_⟩
  · intro x hx
    obtain ⟨l, hl, rfl⟩ := List.mem_iff_getElem.1 hx
    obtain ⟨m, hm, hz, hmean⟩ := h3 l c[l] (by simp [← h2, hl])
    rw [List.getElem?_eq_getElem hl] at hm
    obtain rfl := Option.some.inj hm
    by_cases he : (data.filter fun e => (nearest (cosinusSpace ℝ n) c e).1 == (l : Int)) = []
    · rw [hz he]; exact hcw _ (List.getElem_mem _)
    · set ms := data.filter fun e => (nearest (cosinusSpace ℝ n) c e).1 == (l : Int)
      have hmm : out[l].coords = mean (ms.map Vec.coords) := hmean he
      rw [hmm, mean, dot_smul, ← dot_sum]
      have hpos : (0 : ℝ) < ms.length := by exact_mod_cast List.length_pos_iff.2 he
      refine mul_pos (by simpa using hpos) (List.sum_pos _ ?_ (by simpa using he))
      intro y hy
      obtain ⟨e, he', rfl⟩ := List.mem_map.1 hy
      exact hw e (List.mem_of_mem_filter he')
  · obtain ⟨d, _⟩ := List.exists_mem_of_ne_nil c hc
    set sp := cosinusSpace ℝ n
    have hlab : ∀ e ∈ data, 0 ≤ (nearest sp c e).1 ∧ (nearest sp c e).1 < c.length :=
      fun e _ => nearest_range hneg sp c hc e
    have step1 : (data.map fun e => (nearest sp out e).2).sum ≤
        (data.map fun e => sp.dist e (out.getD (nearest sp c e).1.toNat d)).sum := by
      apply List.sum_le_sum
      intro e he
      obtain ⟨hl0, hl1⟩ := hlab e he
      have hlt : (nearest sp c e).1.toNat < out.length := by omega
      have hmem : out.getD (nearest sp c e).1.toNat d ∈ out := by
        simp [List.getD, List.getElem?_eq_getElem hlt]
      exact nearest_le sp h0 out e _ hmem
    have step3 : (data.map fun e => sp.dist e (c.getD (nearest sp c e).1.toNat d)).sum =
        (data.map fun e => (nearest sp c e).2).sum := by
      congr 1
      apply List.map_congr_left
      intro e he
      obtain ⟨j, x, hj, hx⟩ := nearest_mem hneg sp c e hc
      rw [hx]
      simp [hj]
    refine step1.trans ?_
    rw [← step3, sum_by_label c.length (fun e => (nearest sp c e).1)
        (fun l e => sp.dist e (out.getD l d)) data hlab,
      sum_by_label c.length (fun e => (nearest sp c e).1)
        (fun l e => sp.dist e (c.getD l d)) data hlab]
    refine Finset.sum_le_sum fun l hl => ?_
    have hlt : l < c.length := by simpa using hl
    obtain ⟨m, hm, hz, hmean⟩ := h3 l c[l] (by simp)
    have e1 : out.getD l d = m := by simp [hm]
    have e2 : c.getD l d = c[l] := by simp [hlt]
    rw [e1, e2]
    by_cases he : (data.filter fun e => (nearest sp c e).1 == (l : Int)) = []
    · rw [he]; simp
    · exact cosinus_mean_le _ ρ hρ (fun e h => hn e (List.mem_of_mem_filter h)) m he (hmean he) _

/-- **C123 (any number of iterations on the same data).** -/
theorem C123_run {n : Nat} (s : KStrategy) (hs : s.Valid) (data : List (Vec ℝ n))
    (w : Fin n → ℝ) (ρ : ℝ) (hρ : 0 < ρ)
    (hn : ∀ e ∈ data, Real.sqrt (dot e.coords e.coords) = ρ) (hw : ∀ e ∈ data, 0 < dot e.coords w)
    (i j : Nat) (hij : i ≤ j) (c : List (Vec ℝ n)) (hc : c ≠ []) (hcw : ∀ x ∈ c, 0 < dot x.coords w) :
    ∃ ci cj li lj, kmeansRun s (cosinusSpace ℝ n) (List.replicate i data) c = some ci ∧
      kmeansRun s (cosinusSpace ℝ n) (List.replicate j data) c = some cj ∧
      totalLoss (cosinusSpace ℝ n) ci data 1 = some li ∧
      totalLoss (cosinusSpace ℝ n) cj data 1 = some lj ∧ lj ≤ li := by
  induction i generalizing j c with
  | zero =>
    induction j generalizing c with
    | zero => exact ⟨c, c, _, _, rfl, rfl, loss_one _ c data hc, loss_one _ c data hc, le_rfl⟩
    | succ j ih =>
      obtain ⟨c', b, a, h1, h2, h6, h3, h4, h5⟩ := C123_step s hs c data hc w ρ hρ hn hw hcw
      have hne : c' ≠ [] := by
        intro h; subst h; exact hc (List.length_eq_zero_iff.1 (by simpa using h2.symm))
      obtain ⟨ci, cj, li, lj, q1, q2, q3, q4, q5⟩ := ih (by omega) c' hne h6
      cases q1
      rw [h4] at q3
      cases q3
      exact ⟨c, cj, b, lj, rfl, by simp [List.replicate_succ, kmeansRun, h1, q2], h3, q4, q5.trans h5⟩
  | succ i ih =>
    obtain ⟨j, rfl⟩ : ∃ j', j = j' + 1 := ⟨j - 1, by omega⟩
    obtain ⟨c', b, a, h1, h2, h6, h3, h4, h5⟩ := C123_step s hs c data hc w ρ hρ hn hw hcw
    have hne : c' ≠ [] := by
      intro h; subst h; exact hc (List.length_eq_zero_iff.1 (by simpa using h2.symm))
    obtain ⟨ci, cj, li, lj, q1, q2, q3, q4, q5⟩ := ih j (by omega) c' hne h6
    exact ⟨ci, cj, li, lj, by simp [List.replicate_succ, kmeansRun, h1, q1],
      by simp [List.replicate_succ, kmeansRun, h1, q2], q3, q4, q5⟩

/-- With one centroid, the first iteration gives the mean. -/
theorem cosinus_one {n : Nat} (s : KStrategy) (hs : s.Valid) (x : Vec ℝ n) (data : List (Vec ℝ n)) (hd : data ≠ [])
    (m : Vec ℝ n) (hm : m.coords = mean (data.map Vec.coords)) :
    kmeansStep s (cosinusSpace ℝ n) data [x] = some [m] := by
  have hneg : (-1 : ℝ) < 0 := by norm_num
  have hb := cosinus_barycentric n
  obtain ⟨out, h1, h2, h3⟩ := iterate_spec hneg (mean_append_combine hb) (running_mean hb) s hs [x]
    data (by simp)
  obtain ⟨m', rfl⟩ := List.length_eq_one_iff.1 h2
  obtain ⟨m'', e, _, hm'⟩ := h3 0 x (by simp)
  have : (data.filter fun e => (nearest (cosinusSpace ℝ n) [x] e).1 == ((0 : Nat) : Int)) = data := by
    rw [List.filter_eq_self]; intro a _; simp [nearest_one]
  simp only [List.getElem?_cons_zero, Option.some.injEq] at e
  subst e
  rw [this] at hm'
  rw [Vec.coords_inj (hm.trans (hm' hd).symm)]
  simp [kmeansStep, h1, allSome]

theorem coords_pt2 (a b : ℝ) : (pt2 a b).coords = ![a, b] := by
  funext i
  fin_cases i <;> simp [pt2, Vec.of, Vec.coords]

theorem dist_cos2 (a b c d : ℝ) : (cosinusSpace ℝ 2).dist (pt2 a b) (pt2 c d) =
    1 - (a * c + b * d) / (Real.sqrt (a * a + b * b) * Real.sqrt (c * c + d * d)) := by
  rw [cosinus_dist_dot]
  simp [dot, coords_pt2, Fin.sum_univ_two]

/-- The hypotheses of C123 are met: vectors of norm 5 with positive coordinates. -/
example : (∀ e ∈ [pt2 3 4, pt2 4 3, pt2 5 0], Real.sqrt (dot e.coords e.coords) = 5) ∧
    (∀ e ∈ [pt2 3 4, pt2 4 3, pt2 5 0], 0 < dot e.coords ![1, 1]) := by
  have h25 : Real.sqrt 25 = 5 := by
    rw [show (25 : ℝ) = 5 ^ 2 by norm_num]; exact Real.sqrt_sq (by norm_num)
  constructor <;> intro e he <;> fin_cases he <;> norm_num [dot, coords_pt2, Fin.sum_univ_two, h25]

/-- **C123 (data of different norms: examined).** Without the same norm the loss of norm 1 may increase. -/
theorem C123_norms (s : KStrategy) (hs : s.Valid) :
    ∃ (data c c' : List (Vec ℝ 2)) (before after : ℝ), data.Nodup ∧ c.Sublist data ∧
      (∀ e ∈ data, 0 < dot e.coords ![1, 1]) ∧
      kmeansStep s (cosinusSpace ℝ 2) data c = some c' ∧
      totalLoss (cosinusSpace ℝ 2) c data 1 = some before ∧
      totalLoss (cosinusSpace ℝ 2) c' data 1 = some after ∧ before < after := by
  have s1 : Real.sqrt 4 = 2 := by rw [show (4 : ℝ) = 2 ^ 2 by norm_num]; exact Real.sqrt_sq (by norm_num)
  have s2 : Real.sqrt 9 = 3 := by rw [show (9 : ℝ) = 3 ^ 2 by norm_num]; exact Real.sqrt_sq (by norm_num)
  have s3 : Real.sqrt 64 = 8 := by rw [show (64 : ℝ) = 8 ^ 2 by norm_num]; exact Real.sqrt_sq (by norm_num)
  have s4 : Real.sqrt (25 / 4) = 5 / 2 := by
    rw [show (25 / 4 : ℝ) = (5 / 2) ^ 2 by norm_num]; exact Real.sqrt_sq (by norm_num)
  refine ⟨[pt2 1 0, pt2 2 0, pt2 3 0, pt2 0 8], [pt2 1 0], [pt2 (3 / 2) 2], 1, 7 / 5, ?_, ?_, ?_,
    cosinus_one s hs _ _ (by simp) _ ?_, ?_, ?_, by norm_num⟩
  · norm_num [List.nodup_cons, pt2_inj]
  · exact (List.Sublist.refl [pt2 1 0]).append (List.nil_sublist [pt2 2 0, pt2 3 0, pt2 0 8])
  · intro e he
    fin_cases he <;> norm_num [dot, coords_pt2, Fin.sum_univ_two]
  · simp only [List.map_cons, List.map_nil, coords_pt2, mean]
    funext i
    fin_cases i <;> norm_num
  · rw [loss_one _ _ _ (by simp)]
    simp only [nearest_one, List.map_cons, List.map_nil, dist_cos2]
    norm_num [s1, s2, s3]
  · rw [loss_one _ _ _ (by simp)]
    simp only [nearest_one, List.map_cons, List.map_nil, dist_cos2]
    norm_num [s1, s2, s3, s4]

/-- **C123 (norm 2: examined).** Even for data of the same norm the loss of norm 2 may increase. -/
theorem C123_norm2 (s : KStrategy) (hs : s.Valid) :
    ∃ (data c c' : List (Vec ℝ 2)) (before after : ℝ),
      (∀ e ∈ data, Real.sqrt (dot e.coords e.coords) = 1) ∧ (∀ e ∈ data ++ c, 0 < dot e.coords ![1, 1]) ∧
      kmeansStep s (cosinusSpace ℝ 2) data c = some c' ∧
      totalLoss (cosinusSpace ℝ 2) c data 2 = some before ∧
      totalLoss (cosinusSpace ℝ 2) c' data 2 = some after ∧ before < after := by
  have s1 : Real.sqrt 25 = 5 := by rw [show (25 : ℝ) = 5 ^ 2 by norm_num]; exact Real.sqrt_sq (by norm_num)
  have loss2 : ∀ c data : List (Vec ℝ 2), c ≠ [] → totalLoss (cosinusSpace ℝ 2) c data 2 =
      some (data.map fun e => (nearest (cosinusSpace ℝ 2) c e).2 ^ 2).sum := by
    intro c data hc
    rw [C10_totalLoss (by norm_num) _ c data hc 2]
    have hpow : ∀ x : ℝ, GoMath.pow x 2 = x ^ 2 := fun x => Real.rpow_two x
    simp only [hpow]
  refine ⟨[pt2 1 0, pt2 1 0, pt2 0 1], [pt2 4 3], [pt2 (2 / 3) (1 / 3)], 6 / 25, _, ?_, ?_,
    cosinus_one s hs _ _ (by simp) _ ?_, ?_, loss2 _ _ (by simp), ?_⟩
  · intro e he
    fin_cases he <;> norm_num [dot, coords_pt2, Fin.sum_univ_two]
  · intro e he
    fin_cases he <;> norm_num [dot, coords_pt2, Fin.sum_univ_two]
  · simp only [List.map_cons, List.map_nil, coords_pt2, mean]
    funext i
    fin_cases i <;> norm_num
  · rw [loss2 _ _ (by simp)]
    simp only [nearest_one, List.map_cons, List.map_nil, dist_cos2]
    norm_num [s1]
  · simp only [nearest_one, List.map_cons, List.map_nil, dist_cos2]
    have hs5 : (2 / 3 : ℝ) * (2 / 3) + 1 / 3 * (1 / 3) = 5 / 9 := by norm_num
    rw [hs5]
    have h5 : 2 / 3 < Real.sqrt (5 / 9) := by
      rw [Real.lt_sqrt (by norm_num)]; norm_num
    have key : 1 / 2 < 1 - (0 * (2 / 3) + 1 * (1 / 3)) / (Real.sqrt (0 * 0 + 1 * 1) * Real.sqrt (5 / 9)) := by
      have : (1 / 3) / Real.sqrt (5 / 9) < 1 / 2 := by
        rw [div_lt_iff₀ (by linarith)]; linarith
      norm_num
      norm_num at this
      linarith
    simp only [List.sum_cons, List.sum_nil]
    nlinarith [sq_nonneg (1 - (1 * (2 / 3) + 0 * (1 / 3)) / (Real.sqrt (1 * 1 + 0 * 0) * Real.sqrt (5 / 9)))]

end Distclus
