import Verif.Props.KMeansConv
/-!
# C121: how good is the clustering which k-means converges to?
-/
namespace Distclus
open Ctrl Algo Spec

/-- The centroid nearest to `e` among one. -/
theorem nearest_one {E : Type} (space : Space E ℝ) (x e : E) :
    nearest space [x] e = (0, space.dist e x) := by
  simp [nearest, nearestLoop]

/-- The centroid nearest to `e` among two. -/
theorem nearest_two {E : Type} (space : Space E ℝ) (h0 : ∀ a b, 0 ≤ space.dist a b) (x y e : E) :
    nearest space [x, y] e =
      if space.dist e y < space.dist e x then (1, space.dist e y) else (0, space.dist e x) := by
  simp [nearest, nearestLoop, (h0 e x).not_gt]

/-- **C121 (one centroid).** With one centroid the first iteration gives the mean of the data, whatever the centroid
it starts from; later iterations do not change it; no other centroid has a loss as small. -/
theorem C121_one {n : Nat} (s : KStrategy) (hs : s.Valid) (x : Vec ℝ n) (data : List (Vec ℝ n)) (hd : data ≠ []) :
    ∃ m : Vec ℝ n, m.coords = mean (data.map Vec.coords) ∧
      (∀ t, kmeansRun s (euclidSpace ℝ n) (List.replicate (t + 1) data) [x] = some [m]) ∧
      ∃ best, totalLoss (euclidSpace ℝ n) [m] data 2 = some best ∧
        ∀ y, ∃ loss, totalLoss (euclidSpace ℝ n) [y] data 2 = some loss ∧ best ≤ loss ∧
          (loss = best → y = m) := by
  have key : ∀ x : Vec ℝ n, ∃ m : Vec ℝ n, kmeansStep s (euclidSpace ℝ n) data [x] = some [m] ∧
      m.coords = mean (data.map Vec.coords) := by
    intro x
    obtain ⟨out, h1, h2, h3, _⟩ := kmeans_halves s hs [x] data (by simp) x
    obtain ⟨m, rfl⟩ := List.length_eq_one_iff.1 h2
    obtain ⟨m', e, _, hm⟩ := h3 0 x (by simp)
    have : (data.filter fun e => (nearest (euclidSpace ℝ n) [x] e).1 == ((0 : Nat) : Int)) = data := by
      rw [List.filter_eq_self]; intro a _; simp [nearest_one]
    simp only [List.getElem?_cons_zero, Option.some.injEq] at e
    subst e
    rw [this] at hm
    exact ⟨m, h1, hm hd⟩
  obtain ⟨m, h1, hm⟩ := key x
  have fix : kmeansStep s (euclidSpace ℝ n) data [m] = some [m] := by
    obtain ⟨m', h1', hm'⟩ := key m
    rwa [Vec.coords_inj (hm'.trans hm.symm)] at h1'
  refine ⟨m, hm, ?_, _, loss_eq_sum [m] data (by simp), fun y => ⟨_, loss_eq_sum [y] data (by simp), ?_⟩⟩
  · have stay : ∀ t, kmeansRun s (euclidSpace ℝ n) (List.replicate t data) [m] = some [m] := by
      intro t
      induction t with
      | zero => rfl
      | succ t ih => simp [List.replicate_succ, kmeansRun, fix, ih]
    intro t
    simp [List.replicate_succ, kmeansRun, h1, stay]
  · simp only [nearest_one]
    rw [mean_shift data hd m y hm]
    have hpos : (0 : ℝ) < data.length := by exact_mod_cast List.length_pos_iff.2 hd
    have hsn : 0 ≤ ∑ i, (m.coords i - y.coords i) ^ 2 := Finset.sum_nonneg fun i _ => sq_nonneg _
    refine ⟨le_add_of_nonneg_right (mul_nonneg hpos.le hsn), fun h => ?_⟩
    have h' : ∑ i, (m.coords i - y.coords i) ^ 2 = 0 := by
      have : data.length * ∑ i, (m.coords i - y.coords i) ^ 2 = 0 := by linarith
      exact (mul_eq_zero.1 this).resolve_left hpos.ne'
    refine Vec.coords_inj (funext fun i => ?_)
    have := (Finset.sum_eq_zero_iff_of_nonneg fun i _ => sq_nonneg _).1 h' i (Finset.mem_univ i)
    have := pow_eq_zero_iff (two_ne_zero) |>.1 this
    linarith

/-- **C121 (one centroid, through the controller).** One client, an implementation which is k-means with one
centroid on a buffer without window, `Iter` positive: the centroid observed after `Batch` is the mean of all the
data. -/
theorem C121_batch {n : Nat} {conf : Conf} {s : Algo (List (Vec ℝ n))} (alg : KStrategy) (ha : alg.Valid)
    {ini : List (Vec ℝ n) → List (Vec ℝ n) → Prop} (hini : ∀ D c, ini D c → c.length = 1)
    (hc : Limited conf) (h : OneClient conf s)
    (hP : Batching s.log) {data : List (Vec ℝ n)} {t : Nat} {c : Option (List (Vec ℝ n))}
    {l1 l2 : List (Event (List (Vec ℝ n)))} {st : Notes (Vec ℝ n)}
    (hl : s.log = l1 ++ .ret t (.centroids c) :: l2)
    (hp : played (session l2).2 = true) (hv : followsL (session l2).2 ≠ some .running) (hC : Cold l2)
    (hB : Buffered ini (kmeansStep alg (euclidSpace ℝ n)) (newDataBuffer data 0) l2 st)
    (hN : 1 ≤ conf.iter) (hd : data ++ st.pushed ≠ []) :
    ∃ m : Vec ℝ n, c = some [m] ∧ m.coords = mean ((data ++ st.pushed).map Vec.coords) := by
  obtain ⟨D, out, h1, h2, h3, h4⟩ := C89_batch alg ha (by omega) hini hc h hP hl hp hv hC hB (by simpa using hN)
  obtain ⟨m, rfl⟩ := List.length_eq_one_iff.1 h3
  refine ⟨m, h2, ?_⟩
  have hf : (D.filter fun e => (nearest (euclidSpace ℝ n) [m] e).1 == ((0 : Nat) : Int)) = D := by
    rw [List.filter_eq_self]; intro a _; simp [nearest_one]
  have h5 := h4 0 m rfl
  rw [hf] at h5
  rw [h5 fun e => hd (by rw [e] at h1; exact h1.symm.eq_nil), mean, mean, (h1.map Vec.coords).sum_eq,
    (h1.map Vec.coords).length_eq]

/-- The point of the plane of coordinates `a`, `b`. -/
def pt2 (a b : ℝ) : Vec ℝ 2 := Vec.of ![a, b]

theorem dist_pt2 (a b c d : ℝ) :
    (euclidSpace ℝ 2).dist (pt2 a b) (pt2 c d) = Real.sqrt ((a - c) ^ 2 + (b - d) ^ 2) := by
  rw [euclid_dist_eq]
  simp [pt2, Vec.of, Vec.coords, Fin.sum_univ_two]

theorem pt2_inj {a b c d : ℝ} : pt2 a b = pt2 c d ↔ a = c ∧ b = d := by
  constructor
  · intro h
    have h' := congrArg Vec.coords h
    have h0 := congrFun h' 0
    have h1 := congrFun h' 1
    simp [pt2, Vec.of, Vec.coords] at h0 h1
    exact ⟨h0, h1⟩
  · rintro ⟨rfl, rfl⟩; rfl

/-- The corners of a rectangle of sides `L` and 1. -/
def corners (L : ℝ) : List (Vec ℝ 2) := [pt2 0 0, pt2 0 1, pt2 L 0, pt2 L 1]

theorem pt2_dist_lt {a b c d e f : ℝ} :
    (euclidSpace ℝ 2).dist (pt2 a b) (pt2 c d) < (euclidSpace ℝ 2).dist (pt2 a b) (pt2 e f) ↔
      (a - c) ^ 2 + (b - d) ^ 2 < (a - e) ^ 2 + (b - f) ^ 2 := by
  rw [dist_pt2, dist_pt2, Real.sqrt_lt_sqrt_iff (by positivity)]

/-- For instance the mean of 0, 1 and 5 is reached from 7, with three goroutines. -/
example : ∃ m : Vec ℝ 1, m.coords = mean ([Vec.of ![0], Vec.of ![1], Vec.of ![5]].map Vec.coords) ∧
    m.coords 0 = 2 ∧
    ∀ t, kmeansRun (.par 3) (euclidSpace ℝ 1) (List.replicate (t + 1) [Vec.of ![0], Vec.of ![1], Vec.of ![5]])
      [Vec.of ![7]] = some [m] := by
  obtain ⟨m, h1, h2, _⟩ := C121_one (.par 3) (by simp [KStrategy.Valid]) (Vec.of ![7])
    [Vec.of ![(0 : ℝ)], Vec.of ![1], Vec.of ![5]] (by simp)
  refine ⟨m, h1, ?_, h2⟩
  rw [h1]
  simp only [mean, List.map_cons, List.map_nil, List.sum_cons, List.sum_nil, Pi.smul_apply, Pi.add_apply,
    Pi.zero_apply, List.length_cons, List.length_nil, smul_eq_mul]
  norm_num [Vec.of, Vec.coords]

/-- **C121 (two centroids or more: the optimum examined).** For every factor `B` there are four points of the plane
such that k-means with two of them as first centroids reaches at the first iteration a clustering which no further
iteration changes, and whose loss is more than `B` times the (positive) loss of another pair of centroids. -/
theorem C121_stuck (s : KStrategy) (hs : s.Valid) (B : ℝ) :
    ∃ (data c out best : List (Vec ℝ 2)) (loss opt : ℝ), data.Nodup ∧ c.Sublist data ∧ c.length = 2 ∧
      best.length = 2 ∧
      (∀ t, kmeansRun s (euclidSpace ℝ 2) (List.replicate (t + 1) data) c = some out) ∧
      totalLoss (euclidSpace ℝ 2) out data 2 = some loss ∧
      totalLoss (euclidSpace ℝ 2) best data 2 = some opt ∧ 0 < opt ∧ B * opt < loss := by
  obtain ⟨L, hL2, hLB⟩ : ∃ L : ℝ, 2 < L ∧ B < L ^ 2 := by
    refine ⟨max 3 (B + 1), lt_max_of_lt_left (by norm_num), ?_⟩
    have h3 : (3 : ℝ) ≤ max 3 (B + 1) := le_max_left _ _
    have hB : B + 1 ≤ max 3 (B + 1) := le_max_right _ _
    nlinarith
  have h0 : ∀ a b, 0 ≤ (euclidSpace ℝ 2).dist a b := fun a b => by
    rw [euclid_dist_eq]; exact Real.sqrt_nonneg _
  have n2 := nearest_two (euclidSpace ℝ 2) h0
  -- the step from two first centroids at the same abscissa `a`
  have step : ∀ a, kmeansStep s (euclidSpace ℝ 2) (corners L) [pt2 a 0, pt2 a 1] =
      some [pt2 (L / 2) 0, pt2 (L / 2) 1] := by
    intro a
    obtain ⟨out, h1, h2, h3, _⟩ := kmeans_halves s hs [pt2 a 0, pt2 a 1] (corners L) (by simp) (pt2 0 0)
    obtain ⟨u, v, rfl⟩ := List.length_eq_two.1 h2
    obtain ⟨m, e, _, hm⟩ := h3 0 (pt2 a 0) rfl
    obtain ⟨m', e', _, hm'⟩ := h3 1 (pt2 a 1) rfl
    simp only [List.getElem?_cons_zero, List.getElem?_cons_succ, Option.some.injEq] at e e'
    subst e e'
    have l0 : ∀ z, (nearest (euclidSpace ℝ 2) [pt2 a 0, pt2 a 1] (pt2 z 0)).1 = 0 := fun z => by
      rw [n2, if_neg (by rw [pt2_dist_lt]; norm_num)]
    have l1 : ∀ z, (nearest (euclidSpace ℝ 2) [pt2 a 0, pt2 a 1] (pt2 z 1)).1 = 1 := fun z => by
      rw [n2, if_pos (by rw [pt2_dist_lt]; norm_num)]
    simp [corners, l0, l1] at hm hm'
    rw [h1]
    congr 2
    · apply Vec.coords_inj
      rw [hm]
      funext i
      fin_cases i <;> simp [mean, pt2, Vec.of, Vec.coords] ; ring
    · congr 1
      apply Vec.coords_inj
      rw [hm']
      funext i
      fin_cases i <;> simp [mean, pt2, Vec.of, Vec.coords] <;> ring
  have stay : ∀ t, kmeansRun s (euclidSpace ℝ 2) (List.replicate t (corners L)) [pt2 (L / 2) 0, pt2 (L / 2) 1] =
      some [pt2 (L / 2) 0, pt2 (L / 2) 1] := by
    intro t
    induction t with
    | zero => rfl
    | succ t ih => simp [List.replicate_succ, kmeansRun, step, ih]
  refine ⟨corners L, [pt2 0 0, pt2 0 1], [pt2 (L / 2) 0, pt2 (L / 2) 1], [pt2 0 (1 / 2), pt2 L (1 / 2)], L ^ 2, 1, ?_, ?_,
    rfl, rfl, ?_, ?_, ?_, by norm_num, by linarith⟩
  · have hne : L ≠ 0 := by linarith
    simp [corners, List.nodup_cons, pt2_inj, hne.symm]
  · exact ((List.Sublist.refl [pt2 0 0, pt2 0 1]).append (List.nil_sublist [pt2 L 0, pt2 L 1]))
  · intro t
    simp [List.replicate_succ, kmeansRun, step, stay]
  · rw [loss_eq_sum _ _ (by simp)]
    have l0 : ∀ z, (nearest (euclidSpace ℝ 2) [pt2 (L / 2) 0, pt2 (L / 2) 1] (pt2 z 0)).2 ^ 2 = (z - L / 2) ^ 2 :=
      fun z => by
        rw [n2, if_neg (by rw [pt2_dist_lt]; norm_num), dist_pt2, Real.sq_sqrt (by positivity)]; ring
    have l1 : ∀ z, (nearest (euclidSpace ℝ 2) [pt2 (L / 2) 0, pt2 (L / 2) 1] (pt2 z 1)).2 ^ 2 = (z - L / 2) ^ 2 :=
      fun z => by
        rw [n2, if_pos (by rw [pt2_dist_lt]; norm_num), dist_pt2, Real.sq_sqrt (by positivity)]; ring
    simp only [corners, List.map_cons, List.map_nil, List.sum_cons, List.sum_nil, l0, l1]
    congr 1
    ring
  · rw [loss_eq_sum _ _ (by simp)]
    have hs : 0 < L ^ 2 := by positivity
    have l0 : ∀ z, (z - 1 / 2) ^ 2 = 1 / 4 → 
        (nearest (euclidSpace ℝ 2) [pt2 0 (1 / 2), pt2 L (1 / 2)] (pt2 0 z)).2 ^ 2 = 1 / 4 := fun z hz => by
      rw [n2, if_neg (by rw [pt2_dist_lt]; nlinarith), dist_pt2, Real.sq_sqrt (by positivity), hz]; ring
    have l1 : ∀ z, (z - 1 / 2) ^ 2 = 1 / 4 → 
        (nearest (euclidSpace ℝ 2) [pt2 0 (1 / 2), pt2 L (1 / 2)] (pt2 L z)).2 ^ 2 = 1 / 4 := fun z hz => by
      rw [n2, if_pos (by rw [pt2_dist_lt]; nlinarith), dist_pt2, Real.sq_sqrt (by positivity), hz]; ring
    simp only [corners, List.map_cons, List.map_nil, List.sum_cons, List.sum_nil, l0 0 (by norm_num),
      l0 1 (by norm_num), l1 0 (by norm_num), l1 1 (by norm_num)]
    norm_num

end Distclus
