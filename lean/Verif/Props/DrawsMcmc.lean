import Verif.Props.Draws
import Verif.Props.McmcRatio
/-!
# C104: the distribution of the moves of the MCMC algorithm
-/

namespace Distclus
open Spec MeasureTheory

section
variable {D E R : Type}

/-- **C104 (acceptance).** The other draws being given, a proposal is accepted with probability
`min 1 rho`. -/
theorem C104_accept (p : McmcParams D E ℝ R) (impl : McmcImpl E ℝ) (centroids : List E) (d : McmcDraws E ℝ)
    (prop : Proposal E ℝ)
    (hp : impl.propose p impl.current centroids impl.buffer.data impl.buffer.data.length d = some prop) :
    HasProb (fun u => ∃ impl' clust fig,
        impl.iterate p centroids { d with accept := u } = some (impl', clust, fig) ∧
        impl'.acc = impl.acc + 1 ∧ impl'.current = prop ∧ clust = prop.centers)
      (min 1 (ratio p.conf impl.dim impl.current prop impl.buffer.data.length).2.1) := by
  set rho := (ratio p.conf impl.dim impl.current prop impl.buffer.data.length).2.1 with hrho
  have hpos : 0 < rho := by rw [hrho, ratio_target]; exact Real.exp_pos _
  have hp' : ∀ u, impl.propose p impl.current centroids impl.buffer.data impl.buffer.data.length
      { d with accept := u } = some prop := fun u => hp
  have hev : ∀ u, (∃ impl' clust fig,
        impl.iterate p centroids { d with accept := u } = some (impl', clust, fig) ∧
        impl'.acc = impl.acc + 1 ∧ impl'.current = prop ∧ clust = prop.centers) ↔ u < rho := by
    intro u
    constructor
    · rintro ⟨impl', clust, fig, h, h1, _, _⟩
      obtain ⟨prop', g1, _, _, _, _, g2, g3⟩ := iterate_cases p _ _ _ _ _ _ h
      rw [hp' u] at g1
      cases g1
      have hr : impl'.rho = rho := congrArg (fun q => q.2.1) g2
      rcases g3 with ⟨g3, _⟩ | ⟨_, g3, _⟩
      · rw [← hr]; exact g3
      · omega
    · intro hu
      have : ∃ r, impl.iterate p centroids { d with accept := u } = some r := by
        unfold McmcImpl.iterate McmcImpl.doIter
        simp only [hp' u, McmcImpl.accept]
        split <;> simp_all
      obtain ⟨⟨impl', clust, fig⟩, h⟩ := this
      obtain ⟨prop', g1, _, _, _, _, g2, g3⟩ := iterate_cases p _ _ _ _ _ _ h
      rw [hp' u] at g1
      cases g1
      have hr : impl'.rho = rho := congrArg (fun q => q.2.1) g2
      rcases g3 with ⟨_, g3, g4, g5, _⟩ | ⟨g3, _⟩
      · exact ⟨impl', clust, fig, h, g3, g4, g5⟩
      · rw [hr] at g3; exact absurd hu g3
  have hset : {u : ℝ | (0 ≤ u ∧ u < 1) ∧ ∃ impl' clust fig,
        impl.iterate p centroids { d with accept := u } = some (impl', clust, fig) ∧
        impl'.acc = impl.acc + 1 ∧ impl'.current = prop ∧ clust = prop.centers} =
      Set.Ico 0 (min 1 rho) := by
    ext u
    simp only [Set.mem_ofPred_eq, hev, Set.mem_Ico, lt_min_iff]
    tauto
  refine ⟨le_min zero_le_one hpos.le, ?_, ?_⟩
  · rw [hset]; exact measurableSet_Ico
  · rw [hset, Real.volume_Ico, sub_zero]

theorem nextK_prob (conf : McmcConf ℝ R) (a b c : ℝ) (hp : conf.probaK = [a, b, c]) (ha : 0 ≤ a) (hb : 0 ≤ b)
    (hc : 0 ≤ c) (hs : 0 < a + b + c) (k : Int) (data : List E) (t : Int) :
    let clamp := fun n : Int => if n < 1 then 1 else if n > conf.maxK then conf.maxK
      else if n > data.length then (data.length : Int) else n
    HasProb (fun u => nextK conf k data u = some t)
      ((if clamp (k - 1) = t then a / (a + b + c) else 0) + (if clamp k = t then b / (a + b + c) else 0) +
        (if clamp (k + 1) = t then c / (a + b + c) else 0)) := by
  intro clamp
  have hsum : [a, b, c].sum = a + b + c := by simp; ring
  have hw : ∀ w ∈ [a, b, c], 0 ≤ w := by simp [ha, hb, hc]
  have hU := HasProb.union ((Finset.range 3).filter fun i : Nat => clamp (k + (i - 1 : Int)) = t)
    (A := fun i u => weightedChoice [a, b, c] u = .ok (i : Int))
    (p := fun i => ([a, b, c][i]?).getD 0 / (a + b + c)) ?_ ?_
  · have he : (∑ i ∈ (Finset.range 3).filter (fun i : Nat => clamp (k + (i - 1 : Int)) = t),
        ([a, b, c][i]?).getD 0 / (a + b + c)) =
        ((if clamp (k - 1) = t then a / (a + b + c) else 0) + (if clamp k = t then b / (a + b + c) else 0) +
        (if clamp (k + 1) = t then c / (a + b + c) else 0)) := by
      rw [Finset.sum_filter, Finset.sum_range_succ, Finset.sum_range_succ, Finset.sum_range_one]
      simp only [List.getElem?_cons_zero, List.getElem?_cons_succ, Option.getD_some]
      norm_num
      rfl
    rw [he] at hU
    refine HasProb.congr hU fun u hu0 hu1 => ?_
    unfold nextK
    rw [hp]
    rcases hu0.eq_or_lt with rfl | hu0
    · rw [C29_zero_draw [a, b, c] (by rw [hsum]; exact hs.ne')]
      simp [idx?]
    · obtain ⟨⟨j, hj⟩, hiff⟩ := C29_weightedChoice [a, b, c] u hw (by rw [hsum]; exact hs) hu0 hu1
      obtain ⟨w, hw', _⟩ := (hiff j).1 hj
      have hj3 : j < 3 := by simpa using (List.getElem?_eq_some_iff.1 hw').1
      rw [hj]
      have hx : (∃ i ∈ (Finset.range 3).filter (fun i : Nat => clamp (k + (i - 1 : Int)) = t),
          ChoiceRes.ok (j : Int) = .ok (i : Int)) ↔ clamp (k + (j - 1 : Int)) = t := by
        constructor
        · rintro ⟨i, hi, he⟩
          injection he with he
          have : j = i := by exact_mod_cast he
          subst this
          exact (Finset.mem_filter.1 hi).2
        · intro h
          exact ⟨j, Finset.mem_filter.2 ⟨Finset.mem_range.2 hj3, h⟩, rfl⟩
      rw [hx]
      have hidx : idx? [(-1 : Int), 0, 1] (j : Int) = some (j - 1 : Int) := by
        rcases (by omega : j = 0 ∨ j = 1 ∨ j = 2) with rfl | rfl | rfl <;> rfl
      simp only [hidx]
      simp only [clamp]
      generalize k + ((j : Int) - 1) = n
      split
      · simp
      · split
        · simp
        · split <;> simp
  · intro i hi
    have hi := Finset.mem_range.1 (Finset.mem_filter.1 hi).1
    have := C102_weightedChoice [a, b, c] hw i ([a, b, c][i]'hi) (by simp)
    rw [hsum] at this
    simpa [hi] using this
  · intro i _ j _ u h1 h2
    rw [h1] at h2
    injection h2 with h2; exact_mod_cast h2

/-- **C104 (moves).** With three non-negative weights `ProbaK` of positive sum and a number of clusters
within its bounds, the number proposed is one less, one more or the same with probabilities
proportional to the three weights, the moves out of bounds being replaced by staying. -/
theorem C104_nextK (conf : McmcConf ℝ R) (a b c : ℝ) (hp : conf.probaK = [a, b, c]) (ha : 0 ≤ a) (hb : 0 ≤ b)
    (hc : 0 ≤ c) (hs : 0 < a + b + c) (k : Int) (data : List E) (hk1 : 1 ≤ k) (hkM : k ≤ conf.maxK)
    (hkd : k ≤ data.length) :
    HasProb (fun u => nextK conf k data u = some (k - 1)) (if 1 < k then a / (a + b + c) else 0) ∧
    HasProb (fun u => nextK conf k data u = some (k + 1))
      (if k < conf.maxK ∧ k < data.length then c / (a + b + c) else 0) ∧
    HasProb (fun u => nextK conf k data u = some k)
      (((if 1 < k then 0 else a) + b + (if k < conf.maxK ∧ k < data.length then 0 else c)) / (a + b + c)) := by
  have h := nextK_prob conf a b c hp ha hb hc hs k data
  simp only at h
  refine ⟨?_, ?_, ?_⟩
  · convert h (k - 1) using 1
    by_cases h1 : 1 < k
    · rw [if_pos h1, if_pos (by split_ifs <;> omega), if_neg (by split_ifs <;> omega),
        if_neg (by split_ifs <;> omega)]
      ring
    · rw [if_neg h1, if_neg (by split_ifs <;> omega), if_neg (by split_ifs <;> omega),
        if_neg (by split_ifs <;> omega)]
      ring
  · convert h (k + 1) using 1
    by_cases h1 : k < conf.maxK ∧ k < data.length
    · rw [if_pos h1, if_neg (by split_ifs <;> omega), if_neg (by split_ifs <;> omega),
        if_pos (by split_ifs <;> omega)]
      ring
    · rw [if_neg h1, if_neg (by split_ifs <;> omega), if_neg (by split_ifs <;> omega),
        if_neg (by split_ifs <;> omega)]
      ring
  · convert h k using 1
    have hb' : (if (if k < 1 then (1 : Int) else if k > conf.maxK then conf.maxK
        else if k > data.length then (data.length : Int) else k) = k then b / (a + b + c) else 0) =
        b / (a + b + c) := if_pos (by split_ifs <;> omega)
    rw [hb']
    by_cases h1 : 1 < k <;> by_cases h2 : k < conf.maxK ∧ k < data.length
    · rw [if_pos h1, if_pos h2, if_neg (by split_ifs <;> omega), if_neg (by split_ifs <;> omega)]
      ring
    · rw [if_pos h1, if_neg h2, if_neg (by split_ifs <;> omega), if_pos (by split_ifs <;> omega)]
      ring
    · rw [if_neg h1, if_pos h2, if_pos (by split_ifs <;> omega), if_neg (by split_ifs <;> omega)]
      ring
    · rw [if_neg h1, if_neg h2, if_pos (by split_ifs <;> omega), if_pos (by split_ifs <;> omega)]
      ring

/-- **C104 (balance).** The probabilities of the moves of the number of clusters are not taken into
account by the acceptance: between a state with `k` centroids and one with `k + 1`, the detailed balance
of `C83_balance` holds for the moves weighted by their probabilities exactly when the weights for
removing and for adding a centroid are the same. -/
theorem C104_balance (conf : McmcConf ℝ R) (a b c : ℝ) (hp : conf.probaK = [a, b, c]) (ha : 0 ≤ a)
    (hb : 0 ≤ b) (hc : 0 ≤ c) (hs : 0 < a + b + c) (data : List E) (dim t : Nat) (x y : Proposal E ℝ)
    (hxy : y.k = x.k + 1) (hx : 1 ≤ x.k) (hyM : y.k ≤ conf.maxK) (hyd : y.k ≤ data.length) (m m' : ℝ)
    (hm : HasProb (fun u => nextK conf x.k data u = some y.k) m)
    (hm' : HasProb (fun u => nextK conf y.k data u = some x.k) m') :
    let π := fun z : Proposal E ℝ => Real.exp (logTarget conf.b conf.amp dim t z.k z.loss)
    let q := fun z : Proposal E ℝ => Real.exp z.pdf
    let α := fun u v => acceptProb (ratio conf dim u v t).2.1
    π x * (m * q y) * α x y = π y * (m' * q x) * α y x ↔ a = c := by
  intro π q α
  have e1 : m = c / (a + b + c) := by
    have := (C104_nextK conf a b c hp ha hb hc hs x.k data hx (by omega) (by omega)).2.1
    rw [if_pos ⟨by omega, by omega⟩, ← hxy] at this
    exact HasProb.unique hm this
  have e2 : m' = a / (a + b + c) := by
    have := (C104_nextK conf a b c hp ha hb hc hs y.k data (by omega) hyM hyd).1
    rw [if_pos (by omega), show y.k - 1 = x.k by omega] at this
    exact HasProb.unique hm' this
  have hbal : π x * q y * α x y = π y * q x * α y x := C83_balance conf dim t x y
  have hpos : 0 < π x * q y * α x y := by
    have hα : 0 < α x y := by
      simp only [α, acceptProb, ratio_target]
      exact lt_min one_pos (Real.exp_pos _)
    exact mul_pos (mul_pos (Real.exp_pos _) (Real.exp_pos _)) hα
  rw [e1, e2]
  have l : π x * (c / (a + b + c) * q y) * α x y = (π x * q y * α x y) * (c / (a + b + c)) := by ring
  have r : π y * (a / (a + b + c) * q x) * α y x = (π x * q y * α x y) * (a / (a + b + c)) := by
    rw [hbal]; ring
  rw [l, r, mul_right_inj' hpos.ne', div_left_inj' hs.ne']
  exact eq_comm

/-- With the default weights 1, 8, 1 and one centroid: two are proposed with probability 1/10, one with
probability 9/10. -/
example (conf : McmcConf ℝ R) (hp : conf.probaK = [1, 8, 1]) (hM : conf.maxK = 16) (data : List E)
    (hd : data.length = 5) :
    HasProb (fun u => nextK conf 1 data u = some 2) (1 / 10) ∧
    HasProb (fun u => nextK conf 1 data u = some 1) (9 / 10) := by
  have h := C104_nextK conf 1 8 1 hp (by norm_num) (by norm_num) (by norm_num) (by norm_num) 1 data
    (by norm_num) (by omega) (by omega)
  norm_num [hM, hd] at h
  exact h.2

end
end Distclus
