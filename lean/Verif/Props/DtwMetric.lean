import Verif.Proof.DtwMetric
import Mathlib.Tactic.Linarith
/-!
# C134: the DTW distance as a distance between series

Exact arithmetic: the costs are in an ordered commutative monoid with a greatest element, such as
`ℝ ∪ {∞}` or `ℕ ∪ {∞}`.
-/

namespace Distclus
open Spec

section
variable {P F : Type} [AddCommMonoid F] [LinearOrder F] [IsOrderedAddMonoid F] [OrderTop F]

/-- `Dist` on series which are not resized: the least sum of costs of a path in the window. -/
theorem dist_least (sp : DtwSpace P F) (x y : List P) (hx : x ≠ []) (hy : y ≠ [])
    (hf : NoResize sp.window x.length y.length) :
    ∃ v p, sp.dist x y = some v ∧
      Warp (Within (band sp.window y.length)) (x.length - 1) (y.length - 1) p ∧
      cellSum (pairDist sp.inner x y) p = v ∧
      ∀ q, Warp (Within (band sp.window y.length)) (x.length - 1) (y.length - 1) q →
        v ≤ cellSum (pairDist sp.inner x y) q := by
  have p1 := List.length_pos_iff.2 hx
  have p2 := List.length_pos_iff.2 hy
  have hs : shrinkLongest x y sp.inner sp.window = some (x, y) := by
    unfold shrinkLongest
    unfold NoResize at hf
    simp only
    rw [if_neg (by omega), if_neg (by omega)]
  have hl : Within (band sp.window y.length) (x.length - 1) (y.length - 1) := by
    unfold NoResize at hf
    unfold Within band
    split <;> omega
  obtain ⟨d, p, e, _, _, _, _, hp, hc, hmin⟩ := C44_C45_dtw (fun a b c h => by gcongr) x y sp.inner
    sp.window (by unfold NoResize at hf; omega) hx hy hl
  refine ⟨d.dist, p, ?_, hp, ?_, ?_⟩
  · unfold DtwSpace.dist
    rw [hs]
    simp only [e, Option.map_some]
  · rw [pathCost_cellSum _ _ hp.ne_nil] at hc
    exact Option.some.inj hc
  · intro q hq
    obtain ⟨z, hz, hle⟩ := hmin q hq
    rw [pathCost_cellSum _ _ hq.ne_nil] at hz
    cases hz
    exact hle

omit [IsOrderedAddMonoid F] in
theorem pairDist_nonneg (space : Space P F) (hd : ∀ p q, 0 ≤ space.dist p q) (x y : List P)
    (i j : Nat) : 0 ≤ pairDist space x y i j := by
  unfold pairDist
  split
  · exact hd _ _
  · exact le_top

omit [AddCommMonoid F] [LinearOrder F] [IsOrderedAddMonoid F] [OrderTop F] in
theorem sum_pairDist [AddCommMonoid F] [Top F] (space : Space P F) : ∀ x y : List P,
    x.length = y.length →
    ∑ i ∈ Finset.range x.length, pairDist space x y i i = (List.zipWith space.dist x y).sum := by
  intro x
  induction x with
  | nil => intro y h; simp
  | cons a x ih =>
    intro y h
    cases y with
    | nil => simp at h
    | cons b y =>
      rw [List.length_cons, Finset.sum_range_succ', List.zipWith_cons_cons, List.sum_cons,
        ← ih y (by simpa using h), add_comm]
      rfl

/-- **C134** (upper bound). The distance of series of the same length is at most the sum of the
distances of their points, taken in order, for every window. -/
theorem C134_upper (sp : DtwSpace P F) (hw : 0 ≤ sp.window) (x y : List P) (hx : x ≠ [])
    (hl : x.length = y.length) :
    ∃ v, sp.dist x y = some v ∧ v ≤ (List.zipWith sp.inner.dist x y).sum := by
  have p1 := List.length_pos_iff.2 hx
  have hy : y ≠ [] := List.length_pos_iff.1 (by omega)
  obtain ⟨v, p, e, _, _, hmin⟩ := dist_least sp x y hx hy (by unfold NoResize; omega)
  refine ⟨v, e, ?_⟩
  obtain ⟨q, hq, hs⟩ := diagonal_warp (band sp.window y.length) (pairDist sp.inner x y) (x.length - 1)
  rw [← sum_pairDist sp.inner x y hl]
  have e1 : y.length - 1 = x.length - 1 := by omega
  rw [e1] at hmin
  have := hmin q hq
  rw [hs] at this
  have e2 : x.length - 1 + 1 = x.length := by omega
  rwa [e2] at this

/-- **C134** (lower bounds). If every point of `x` is at least `b i` away from the points of `y` in
the window, the distance is at least the sum of the `b i`; and the same with the two series
exchanged. -/
theorem C134_lower (sp : DtwSpace P F) (x y : List P) (hx : x ≠ []) (hy : y ≠ [])
    (hf : NoResize sp.window x.length y.length) :
    ∃ v, sp.dist x y = some v ∧
      (∀ b : Nat → F, (∀ i, 0 ≤ b i) →
        (∀ (i j : Nat) (p q : P), x[i]? = some p → y[j]? = some q →
          Within (band sp.window y.length) i j → b i ≤ sp.inner.dist p q) →
        ∑ i ∈ Finset.range x.length, b i ≤ v) ∧
      (∀ b : Nat → F, (∀ j, 0 ≤ b j) →
        (∀ (i j : Nat) (p q : P), x[i]? = some p → y[j]? = some q →
          Within (band sp.window y.length) i j → b j ≤ sp.inner.dist p q) →
        ∑ j ∈ Finset.range y.length, b j ≤ v) := by
  have p1 := List.length_pos_iff.2 hx
  have p2 := List.length_pos_iff.2 hy
  obtain ⟨v, p, e, hp, rfl, _⟩ := dist_least sp x y hx hy hf
  refine ⟨_, e, fun b hb hle => ?_, fun b hb hle => ?_⟩
  · have := rows_le_cellSum (d := pairDist sp.inner x y) hb (fun i j hij => ?_) hp
    · rwa [show x.length - 1 + 1 = x.length by omega] at this
    · unfold pairDist
      split
      · rename_i p q h1 h2; exact hle i j p q h1 h2 hij
      · exact le_top
  · have := cols_le_cellSum (d := pairDist sp.inner x y) hb (fun i j hij => ?_) hp
    · rwa [show y.length - 1 + 1 = y.length by omega] at this
    · unfold pairDist
      split
      · rename_i p q h1 h2; exact hle i j p q h1 h2 hij
      · exact le_top

/-- **C134** (ends). The distance is at least that of the first points, and that of the last
points. -/
theorem C134_ends (sp : DtwSpace P F) (hd : ∀ p q, 0 ≤ sp.inner.dist p q) (x y : List P) (a b a' b' : P)
    (ha : x.head? = some a) (hb : y.head? = some b) (ha' : x.getLast? = some a')
    (hb' : y.getLast? = some b') (hf : NoResize sp.window x.length y.length) :
    ∃ v, sp.dist x y = some v ∧ sp.inner.dist a b ≤ v ∧ sp.inner.dist a' b' ≤ v := by
  have hx : x ≠ [] := by rintro rfl; simp at ha
  have hy : y ≠ [] := by rintro rfl; simp at hb
  obtain ⟨v, p, e, hp, rfl, _⟩ := dist_least sp x y hx hy hf
  have hmem := cell_le_cellSum (pairDist_nonneg sp.inner hd x y) p
  have h0 := hp.origin_mem
  have h1 : (x.length - 1, y.length - 1) ∈ p := by rw [hp.head_cell.1]; simp
  refine ⟨_, e, ?_, ?_⟩
  · have := hmem _ h0
    unfold pairDist at this
    rw [← List.head?_eq_getElem?, ← List.head?_eq_getElem?, ha, hb] at this
    exact this
  · have := hmem _ h1
    unfold pairDist at this
    rw [← List.getLast?_eq_getElem?, ← List.getLast?_eq_getElem?, ha', hb'] at this
    exact this

/-- **C134** (zero). For a point distance that separates points, series at distance 0 are the same up
to repeated points; and conversely if the window covers both series. -/
theorem C134_zero [DecidableEq P] (sp : DtwSpace P F) (hd : ∀ p q, 0 ≤ sp.inner.dist p q)
    (hsep : ∀ p q, sp.inner.dist p q = 0 ↔ p = q) (htop : (0 : F) ≠ ⊤) (x y : List P) (hx : x ≠ [])
    (hy : y ≠ []) (hf : NoResize sp.window x.length y.length) :
    (sp.dist x y = some 0 → collapse x = collapse y) ∧
    (Wide (band sp.window y.length) x.length y.length →
      (sp.dist x y = some 0 ↔ collapse x = collapse y)) := by
  have p1 := List.length_pos_iff.2 hx
  have p2 := List.length_pos_iff.2 hy
  obtain ⟨v, p, e, hp, hv, hmin⟩ := dist_least sp x y hx hy hf
  have tx : x.take (x.length - 1 + 1) = x := List.take_of_length_le (by omega)
  have ty : y.take (y.length - 1 + 1) = y := List.take_of_length_le (by omega)
  have fwd : sp.dist x y = some 0 → collapse x = collapse y := by
    intro h0
    rw [e] at h0
    have hv0 : v = 0 := Option.some.inj h0
    subst hv0
    have := collapse_of_warp (x := x) (y := y) hp (by omega) (by omega) fun c hc => by
      have hz := cell_zero (pairDist_nonneg sp.inner hd x y) p hv c hc
      unfold pairDist at hz
      split at hz
      · rename_i a b h1 h2
        rw [h1, h2, (hsep a b).1 hz]
      · exact absurd hz.symm htop
    rwa [tx, ty] at this
  refine ⟨fwd, fun hwide => ⟨fwd, fun hc => ?_⟩⟩
  obtain ⟨q, hq, heq⟩ := warp_of_collapse x y (band sp.window y.length) _ (x.length - 1) (y.length - 1)
    (le_refl _) (by omega) (by omega) (by unfold Wide at hwide; omega) (by unfold Wide at hwide; omega)
    (by rw [tx, ty]; exact hc)
  have h0 : cellSum (pairDist sp.inner x y) q = 0 := by
    apply List.sum_eq_zero
    intro z hz
    simp only [List.mem_map] at hz
    obtain ⟨c, hc, rfl⟩ := hz
    have hb := hq.bounds c hc
    have := heq c hc
    unfold pairDist
    rw [List.getElem?_eq_getElem (show c.1 < x.length by omega),
      List.getElem?_eq_getElem (show c.2 < y.length by omega)] at this ⊢
    simp only [Option.some.injEq] at this
    exact (hsep _ _).2 this
  have hle := hmin q hq
  rw [h0] at hle
  rw [e, le_antisymm hle (hv ▸ cellSum_nonneg (pairDist_nonneg sp.inner hd x y) p)]

/-- **C134** (weak triangle inequality). For a point distance with the triangle inequality, and a
window between the outer series that covers them or is at least the sum of the two others, the
distance of the outer series is bounded by the two other distances, the first multiplied by the
number of points of `z` that one point of `y` may be paired with and the second one by the
number of points of `x` that one point of `y` may be paired with. -/
theorem C134_weak_triangle (space : Space P F) (hd : ∀ p q, 0 ≤ space.dist p q)
    (htri : ∀ p q r, space.dist p r ≤ space.dist p q + space.dist q r) (htop : ∀ a : F, a + ⊤ = ⊤)
    (w1 w2 w3 : Int) (x y z : List P) (hx : x ≠ []) (hy : y ≠ []) (hz : z ≠ [])
    (f1 : NoResize w1 x.length y.length) (f2 : NoResize w2 y.length z.length)
    (f3 : NoResize w3 x.length z.length)
    (hw : band w1 y.length + band w2 z.length ≤ band w3 z.length ∨
      Wide (band w3 z.length) x.length z.length) :
    ∃ a b c, (DtwSpace.mk w1 space).dist x y = some a ∧ (DtwSpace.mk w2 space).dist y z = some b ∧
      (DtwSpace.mk w3 space).dist x z = some c ∧
      c ≤ min z.length (2 * band w2 z.length + 1) • a +
        min x.length (2 * band w1 y.length + 1) • b := by
  have p1 := List.length_pos_iff.2 hx
  have p2 := List.length_pos_iff.2 hy
  have p3 := List.length_pos_iff.2 hz
  obtain ⟨a, p, ea, hp, rfl, _⟩ := dist_least ⟨w1, space⟩ x y hx hy f1
  obtain ⟨b, q, eb, hq, rfl, _⟩ := dist_least ⟨w2, space⟩ y z hy hz f2
  obtain ⟨c, r, ec, hr, _, hmin⟩ := dist_least ⟨w3, space⟩ x z hx hz f3
  refine ⟨_, _, c, ea, eb, ec, ?_⟩
  simp only at hp hq hr hmin ⊢
  have n1 := pairDist_nonneg space hd x y
  have n2 := pairDist_nonneg space hd y z
  have n3 := pairDist_nonneg space hd x z
  have bp : Warp (fun i j => Within (band w1 y.length) i j ∧ i < x.length) (x.length - 1)
      (y.length - 1) p := hp.imp fun i j hi hj h => ⟨h, by omega⟩
  have bq : Warp (fun j k => Within (band w2 z.length) j k ∧ k < z.length) (y.length - 1)
      (z.length - 1) q := hq.imp fun i j hi hj h => ⟨h, by omega⟩
  have ht : ∀ i j k, pairDist space x z i k ≤ pairDist space x y i j + pairDist space y z j k := by
    intro i j k
    have top' : ∀ a : F, (⊤ : F) + a = ⊤ := fun a => by rw [add_comm, htop]
    unfold pairDist
    cases x[i]? <;> cases y[j]? <;> cases z[k]? <;> simp [htop, top', htri]
  obtain ⟨s, hs, hcs⟩ := compose_warp (C := Within (band w3 z.length)) (d3 := pairDist space x z)
    (fun i j k hA hB => by
      unfold Wide at hw
      unfold Within at *
      omega) n1 n2 n3 ht (min x.length (2 * band w1 y.length + 1))
    (min z.length (2 * band w2 z.length + 1)) _ _ _ _ p q (le_refl _) bp bq
    (fun c => by
      have := inCol_bound hp c
      rwa [show x.length - 1 + 1 = x.length by omega] at this)
    (fun c => by
      have := inRow_bound hq c
      rwa [show z.length - 1 + 1 = z.length by omega] at this)
  refine ((hmin s hs).trans hcs).trans ?_
  have c1 : cellSum (pairDist space x y) p = pairDist space x y (x.length - 1) (y.length - 1) +
      cellSum (pairDist space x y) p.tail := by
    conv_lhs => rw [hp.head_cell.1]
    rw [cellSum_cons]
  have c2 : cellSum (pairDist space y z) q = pairDist space y z (y.length - 1) (z.length - 1) +
      cellSum (pairDist space y z) q.tail := by
    conv_lhs => rw [hq.head_cell.1]
    rw [cellSum_cons]
  have b1 : inRow q (y.length - 1) ≤ min z.length (2 * band w2 z.length + 1) := by
    have := inRow_bound hq (y.length - 1)
    rwa [show z.length - 1 + 1 = z.length by omega] at this
  have b2 : inCol p (y.length - 1) ≤ min x.length (2 * band w1 y.length + 1) := by
    have := inCol_bound hp (y.length - 1)
    rwa [show x.length - 1 + 1 = x.length by omega] at this
  have f1 := nsmul_le_nsmul_left (n1 (x.length - 1) (y.length - 1)) b1
  have f2 := nsmul_le_nsmul_left (n2 (y.length - 1) (z.length - 1)) b2
  rw [c1, c2, nsmul_add, nsmul_add]
  refine le_trans ?_ (le_of_eq (show
    min z.length (2 * band w2 z.length + 1) • cellSum (pairDist space x y) p.tail +
    min z.length (2 * band w2 z.length + 1) • pairDist space x y (x.length - 1) (y.length - 1) +
    min x.length (2 * band w1 y.length + 1) • cellSum (pairDist space y z) q.tail +
    min x.length (2 * band w1 y.length + 1) • pairDist space y z (y.length - 1) (z.length - 1) = _
    by abel))
  gcongr

end

/-- The hypotheses of C134 on the point space are met by `natSpace`. -/
example : (∀ p q, 0 ≤ natSpace.dist p q) ∧ (∀ p q, natSpace.dist p q = 0 ↔ p = q) ∧
    (∀ p q r, natSpace.dist p r ≤ natSpace.dist p q + natSpace.dist q r) ∧
    ((0 : WithTop Nat) ≠ ⊤) ∧ ∀ a : WithTop Nat, a + ⊤ = ⊤ := by
  refine ⟨fun _ _ => bot_le, fun p q => ?_, fun p q r => ?_, by simp, by simp⟩
  · simp only [natSpace]; norm_cast; omega
  · simp only [natSpace]; norm_cast; omega

/-- Series of different lengths at distance 0, and the weak triangle inequality on three series. -/
example : collapse [1, 1, 2] = collapse [1, 2, 2, 2] ∧
    (DtwSpace.mk 4 natSpace).dist [1, 1, 2] [1, 2, 2, 2] = some 0 ∧ NoResize 4 3 4 ∧
    Wide (band 4 4) 3 4 := by
  refine ⟨by decide, by decide, by unfold NoResize; omega, by unfold Wide band; decide⟩

/-- **C134** (triangle inequality, witness). Three series of three points without window: the second
and the third are different and at distance 0, and not at the same distance of the first. -/
theorem C134_triangle_false :
    (DtwSpace.mk 0 natSpace).dist [0, 0, 0] [0, 0, 2] = some 2 ∧
    (DtwSpace.mk 0 natSpace).dist [0, 0, 2] [0, 2, 2] = some 0 ∧
    (DtwSpace.mk 0 natSpace).dist [0, 0, 0] [0, 2, 2] = some 4 := by decide

/-- **C134** (no constant). The factor of the weak triangle inequality cannot be replaced by a
constant: two series at distance 0, of which one is at distance at most 1 of a third series and the
other one at distance `n` or more, all of the same length. -/
theorem C134_no_constant (n : Nat) :
    ∃ x y z : List Nat, x.length = n + 2 ∧ y.length = n + 2 ∧ z.length = n + 2 ∧
      (DtwSpace.mk 0 natSpace).dist y z = some 0 ∧
      (∃ a, (DtwSpace.mk 0 natSpace).dist x y = some a ∧ a ≤ 1) ∧
      ∃ c, (DtwSpace.mk 0 natSpace).dist x z = some c ∧ ((n + 1 : Nat) : WithTop Nat) ≤ c := by
  have hsep : ∀ p q, natSpace.dist p q = 0 ↔ p = q := by
    intro p q; simp only [natSpace]; norm_cast; omega
  have cx : ∀ n, collapse (List.replicate (n + 1) (0 : Nat)) = [0] := by
    intro n
    induction n with
    | zero => rfl
    | succ n ih => rw [List.replicate_succ', collapse_snoc, ih]; rfl
  have cz : ∀ n, collapse (0 :: List.replicate (n + 1) (1 : Nat)) = [0, 1] := by
    intro n
    induction n with
    | zero => rfl
    | succ n ih => rw [List.replicate_succ', ← List.cons_append, collapse_snoc, ih]; rfl
  refine ⟨List.replicate (n + 1) 0 ++ [0], List.replicate (n + 1) 0 ++ [1],
    0 :: List.replicate (n + 1) 1, by simp, by simp, by simp, ?_, ?_, ?_⟩
  · refine ((C134_zero ⟨0, natSpace⟩ (fun _ _ => bot_le) hsep (by simp) _ _ (by simp) (by simp)
      (by simp [NoResize])).2 (by simp [Wide, band])).2 ?_
    rw [collapse_snoc, cx, cz]; rfl
  · obtain ⟨a, ha, hle⟩ := C134_upper ⟨0, natSpace⟩ (le_refl _)
      (List.replicate (n + 1) 0 ++ [0]) (List.replicate (n + 1) 0 ++ [1]) (by simp) (by simp)
    refine ⟨a, ha, hle.trans (le_of_eq ?_)⟩
    rw [List.zipWith_append (by simp), List.zipWith_replicate]
    simp [natSpace]
  · obtain ⟨c, hc, _, hle⟩ := C134_lower ⟨0, natSpace⟩ (List.replicate (n + 1) 0 ++ [0])
      (0 :: List.replicate (n + 1) 1) (by simp) (by simp) (by simp [NoResize])
    refine ⟨c, hc, ?_⟩
    have := hle (fun j => if j = 0 then 0 else 1) (fun _ => bot_le) (by
      intro i j p q hp hq _
      have hp0 : p = 0 := by
        have := List.mem_of_getElem? hp
        simp at this; exact this
      cases j with
      | zero => exact bot_le
      | succ j =>
        have hq1 : q = 1 := by
          rw [List.getElem?_cons_succ] at hq
          exact List.eq_of_mem_replicate (List.mem_of_getElem? hq)
        simp [hp0, hq1, natSpace])
    rw [List.length_cons, List.length_replicate, Finset.sum_range_succ'] at this
    simpa using this

end Distclus
