import Mathlib.Algebra.Order.BigOperators.Ring.Finset
import Mathlib.Algebra.Order.Chebyshev
import Mathlib.Algebra.BigOperators.Field
import Mathlib.NumberTheory.Harmonic.Bounds
import Mathlib.Data.Fintype.BigOperators
import Mathlib.Tactic.Linarith
import Mathlib.Tactic.FieldSimp
import Mathlib.Tactic.Positivity
import Mathlib.Tactic.Ring
/-!
# Choosing centres with probabilities proportional to the distances

Finite sums only: `δ i j` is the distance of two data, `D i` the distance of a datum to the nearest centre chosen
so far, `a i` its cluster in a clustering to compare with, and `r i` its distance to the centre of this cluster.
-/
namespace Distclus.Seeding
open Finset

variable {ι κ : Type} [Fintype ι] [DecidableEq κ]

/-- The mean of the sum of distances when `t` more centres are drawn, each with a probability proportional to its
distance to the centres before it. -/
noncomputable def expect (δ : ι → ι → ℝ) : Nat → (ι → ℝ) → ℝ
  | 0, D => ∑ i, D i
  | t + 1, D => ∑ j, D j / (∑ i, D i) * expect δ t fun i => min (D i) (δ i j)

/-- The harmonic numbers. -/
noncomputable def harm (t : Nat) : ℝ := ∑ i ∈ range t, 1 / ((i : ℝ) + 1)

theorem harm_nonneg (t : Nat) : 0 ≤ harm t := sum_nonneg fun i _ => by positivity

theorem expect_nonneg {δ : ι → ι → ℝ} (h0 : ∀ i j, 0 ≤ δ i j) :
    ∀ (t : Nat) (D : ι → ℝ), (∀ i, 0 ≤ D i) → 0 ≤ expect δ t D := by
  intro t
  induction t with
  | zero => intro D hD; exact sum_nonneg fun i _ => hD i
  | succ t ih =>
    intro D hD
    exact sum_nonneg fun j _ => mul_nonneg (div_nonneg (hD j) (sum_nonneg fun i _ => hD i))
      (ih _ fun i => le_min (hD i) (h0 i j))

omit [Fintype ι] in
/-- The sum of the distances from one cluster when a centre is drawn in it. -/
theorem within {δ : ι → ι → ℝ} {D r : ι → ℝ} (A : Finset ι) (h0 : ∀ i j, 0 ≤ δ i j)
    (hD : ∀ i, 0 ≤ D i) (hl : ∀ i j, D j ≤ D i + δ i j) 
    (hA : ∀ i ∈ A, ∀ j ∈ A, δ i j ≤ r i + r j) :
    ∑ j ∈ A, D j * ∑ i ∈ A, min (D i) (δ i j) ≤ 4 * (∑ i ∈ A, r i) * ∑ i ∈ A, D i := by
  rcases A.eq_empty_or_nonempty with rfl | hne
  · simp
  have hm : (0 : ℝ) < A.card := by exact_mod_cast hne.card_pos
  set DA := ∑ i ∈ A, D i with hDA
  set R := ∑ i ∈ A, r i with hR
  have hDA0 : 0 ≤ DA := sum_nonneg fun i _ => hD i
  have hΔ : ∑ j ∈ A, ∑ i ∈ A, δ i j ≤ 2 * A.card * R := by
    calc ∑ j ∈ A, ∑ i ∈ A, δ i j ≤ ∑ j ∈ A, ∑ i ∈ A, (r i + r j) :=
          sum_le_sum fun j hj => sum_le_sum fun i hi => hA i hi j hj
      _ = 2 * A.card * R := by
          simp only [sum_add_distrib, sum_const, nsmul_eq_mul, ← mul_sum, ← hR]
          ring
  have key : A.card * ∑ j ∈ A, D j * ∑ i ∈ A, min (D i) (δ i j) ≤ A.card * (4 * R * DA) := by
    calc A.card * ∑ j ∈ A, D j * ∑ i ∈ A, min (D i) (δ i j)
        = ∑ j ∈ A, (A.card * D j) * ∑ i ∈ A, min (D i) (δ i j) := by
          rw [mul_sum]; exact sum_congr rfl fun j _ => by ring
      _ ≤ ∑ j ∈ A, (DA * ∑ i ∈ A, δ i j + (∑ i ∈ A, δ i j) * DA) := by
          apply sum_le_sum
          intro j _
          have h1 : A.card * D j ≤ DA + ∑ i ∈ A, δ i j := by
            rw [hDA, ← sum_add_distrib, ← nsmul_eq_mul, ← sum_const]
            exact sum_le_sum fun i _ => hl i j
          have h2 : ∑ i ∈ A, min (D i) (δ i j) ≤ DA := sum_le_sum fun i _ => min_le_left _ _
          have h3 : ∑ i ∈ A, min (D i) (δ i j) ≤ ∑ i ∈ A, δ i j := sum_le_sum fun i _ => min_le_right _ _
          have h4 : 0 ≤ ∑ i ∈ A, min (D i) (δ i j) := sum_nonneg fun i _ => le_min (hD i) (h0 i j)
          have h5 : 0 ≤ ∑ i ∈ A, δ i j := sum_nonneg fun i _ => h0 i j
          calc A.card * D j * ∑ i ∈ A, min (D i) (δ i j)
              ≤ (DA + ∑ i ∈ A, δ i j) * ∑ i ∈ A, min (D i) (δ i j) := mul_le_mul_of_nonneg_right h1 h4
            _ = DA * ∑ i ∈ A, min (D i) (δ i j) + (∑ i ∈ A, δ i j) * ∑ i ∈ A, min (D i) (δ i j) := by ring
            _ ≤ _ := add_le_add (mul_le_mul_of_nonneg_left h3 hDA0) (mul_le_mul_of_nonneg_left h2 h5)
      _ = 2 * DA * ∑ j ∈ A, ∑ i ∈ A, δ i j := by
          rw [sum_add_distrib, ← mul_sum, ← sum_mul]; ring
      _ ≤ 2 * DA * (2 * A.card * R) := mul_le_mul_of_nonneg_left hΔ (by positivity)
      _ = A.card * (4 * R * DA) := by ring
  exact le_of_mul_le_mul_left key hm

/-- The end of the computation in `expect_le`. -/
theorem algebra {Dc DU R S h Q : ℝ} {u t : Nat} (hut : t + 1 ≤ u) (hDc : 0 ≤ Dc)
    (hS : Dc + DU = S) (hpos : 0 < S) (hQ : DU ^ 2 ≤ u * Q) :
    Dc / S * ((Dc + R) * h + ((u : ℝ) - t) / u * DU) +
      (h * (DU * (Dc + R)) + ((u : ℝ) - 1 - t) / ((u : ℝ) - 1) * (DU ^ 2 - Q)) / S ≤
      (Dc + R) * h + Dc / ((t : ℝ) + 1) + ((u : ℝ) - (t + 1)) / u * DU := by
  have hu : (0 : ℝ) < u := by exact_mod_cast (by omega : 0 < u)
  have hu1 : ((t : ℝ) + 1) ≤ u := by exact_mod_cast hut
  have ht : (0 : ℝ) ≤ t := by positivity
  have h1 : ((u : ℝ) - 1 - t) / ((u : ℝ) - 1) * (DU ^ 2 - Q) ≤ ((u : ℝ) - 1 - t) / u * DU ^ 2 := by
    rcases eq_or_lt_of_le (show (1 : ℝ) ≤ u by linarith) with e | e
    · have : (t : ℝ) = 0 := by linarith
      rw [← e, this]; simp
    · have hq : DU ^ 2 - Q ≤ ((u : ℝ) - 1) / u * DU ^ 2 := by
        have : DU ^ 2 / u ≤ Q := by rw [div_le_iff₀ hu]; linarith
        have e2 : ((u : ℝ) - 1) / u * DU ^ 2 = DU ^ 2 - DU ^ 2 / u := by field_simp
        linarith
      calc ((u : ℝ) - 1 - t) / ((u : ℝ) - 1) * (DU ^ 2 - Q)
          ≤ ((u : ℝ) - 1 - t) / ((u : ℝ) - 1) * (((u : ℝ) - 1) / u * DU ^ 2) :=
            mul_le_mul_of_nonneg_left hq (div_nonneg (by linarith) (by linarith))
        _ = ((u : ℝ) - 1 - t) / u * DU ^ 2 := by
            have : (u : ℝ) - 1 ≠ 0 := by linarith
            field_simp
  have h2 : Dc * DU / (u * S) ≤ Dc / ((t : ℝ) + 1) := by
    have e1 : Dc * DU / (u * S) = Dc / u * (DU / S) := by field_simp
    have e2 : DU / S ≤ 1 := by rw [div_le_one hpos]; linarith
    have e3 : Dc / u ≤ Dc / ((t : ℝ) + 1) := by gcongr
    rw [e1]
    calc Dc / u * (DU / S) ≤ Dc / u * 1 := mul_le_mul_of_nonneg_left e2 (by positivity)
      _ ≤ _ := by rw [mul_one]; exact e3
  have h3 : Dc / S * ((Dc + R) * h + ((u : ℝ) - t) / u * DU) +
      (h * (DU * (Dc + R)) + ((u : ℝ) - 1 - t) / u * DU ^ 2) / S =
      (Dc + R) * h + Dc * DU / (u * S) + ((u : ℝ) - (t + 1)) / u * DU := by
    have hS' := hpos.ne'
    have hu' := hu.ne'
    field_simp
    rw [← hS]
    ring
  have h4 : (h * (DU * (Dc + R)) + ((u : ℝ) - 1 - t) / ((u : ℝ) - 1) * (DU ^ 2 - Q)) / S ≤
      (h * (DU * (Dc + R)) + ((u : ℝ) - 1 - t) / u * DU ^ 2) / S := by
    gcongr
  linarith

/-- The sum over the data in some clusters. -/
noncomputable def over (a : ι → κ) (U : Finset κ) (f : ι → ℝ) : ℝ := ∑ i with a i ∈ U, f i
/-- The sum over the data of one cluster. -/
noncomputable def cell (a : ι → κ) (A : κ) (f : ι → ℝ) : ℝ := ∑ i with a i = A, f i

theorem over_cells (a : ι → κ) (U : Finset κ) (f : ι → ℝ) : over a U f = ∑ A ∈ U, cell a A f := by
  unfold over cell
  rw [← sum_fiberwise_of_maps_to (t := U) (g := a) (s := univ.filter fun i => a i ∈ U)
    (fun i hi => (mem_filter.1 hi).2)]
  refine sum_congr rfl fun A hA => ?_
  rw [filter_filter]
  refine sum_congr (filter_congr fun i _ => ?_) fun _ _ => rfl
  constructor
  · exact fun h => h.2
  · rintro rfl; exact ⟨hA, rfl⟩

theorem split (a : ι → κ) (U : Finset κ) (f : ι → ℝ) :
    ∑ i, f i = (∑ i with a i ∉ U, f i) + over a U f := by
  unfold over
  rw [add_comm, sum_filter_add_sum_filter_not]

theorem expect_le (δ : ι → ι → ℝ) (a : ι → κ) (r : ι → ℝ) (h0 : ∀ i j, 0 ≤ δ i j)
    (htri : ∀ i j l, δ j l ≤ δ i l + δ i j) (hr : ∀ i, 0 ≤ r i)
    (ha : ∀ i j, a i = a j → δ i j ≤ r i + r j) :
    ∀ (t : Nat) (D : ι → ℝ) (U : Finset κ), (∀ i, 0 ≤ D i) → (∀ i j, D j ≤ D i + δ i j) → t ≤ U.card →
      expect δ t D ≤ ((∑ i with a i ∉ U, D i) + 4 * over a U r) * (1 + harm t) +
        ((U.card : ℝ) - t) / U.card * over a U D := by
  intro t
  induction t with
  | zero =>
    intro D U hD _ _
    have hR : 0 ≤ over a U r := sum_nonneg fun i _ => hr i
    rw [expect, split a U D]
    rcases U.eq_empty_or_nonempty with rfl | hne
    · simp [over, harm]
    · have : (0 : ℝ) < U.card := by exact_mod_cast hne.card_pos
      simp only [harm, range_zero, sum_empty, Nat.cast_zero, sub_zero, div_self this.ne']
      linarith
  | succ t ih =>
    intro D U hD hl hut
    set u := U.card with hu
    set S := ∑ i, D i with hSdef
    set Dc := ∑ i with a i ∉ U, D i with hDcdef
    set DU := over a U D with hDUdef
    set R := over a U r with hRdef
    have hR : 0 ≤ R := sum_nonneg fun i _ => hr i
    have hDc : 0 ≤ Dc := sum_nonneg fun i _ => hD i
    have hDU : 0 ≤ DU := sum_nonneg fun i _ => hD i
    have hS : Dc + DU = S := (split a U D).symm
    have hup : (0 : ℝ) < u := by exact_mod_cast (by omega : 0 < u)
    have hut' : ((t : ℝ) + 1) ≤ u := by exact_mod_cast hut
    have hh := harm_nonneg t
    have hharm : harm (t + 1) = harm t + 1 / ((t : ℝ) + 1) := by simp [harm, sum_range_succ]
    rcases (show 0 ≤ S by linarith).eq_or_lt with hz | hpos
    · -- nothing left to draw
      have hx : expect δ (t + 1) D = 0 := by
        rw [expect]
        refine sum_eq_zero fun j _ => ?_
        rw [← hSdef, ← hz]; simp
      rw [hx]
      have h1 := harm_nonneg (t + 1)
      have h2 : 0 ≤ ((u : ℝ) - (t + 1 : ℕ)) / u := div_nonneg (by push_cast; linarith) hup.le
      have h3 := mul_nonneg (show 0 ≤ Dc + 4 * R by linarith) (show 0 ≤ 1 + harm (t + 1) by linarith)
      have h4 := mul_nonneg h2 hDU
      linarith
    set h := 1 + harm t with hhdef
    set c := ((u : ℝ) - 1 - t) / ((u : ℝ) - 1) with hcdef
    -- the two induction hypotheses
    have hD' : ∀ j i, 0 ≤ min (D i) (δ i j) := fun j i => le_min (hD i) (h0 i j)
    have hl' : ∀ l i j, min (D j) (δ j l) ≤ min (D i) (δ i l) + δ i j := by
      intro l i j
      rcases min_choice (D i) (δ i l) with e | e
      · rw [e]; exact (min_le_left _ _).trans (hl i j)
      · rw [e]; exact (min_le_right _ _).trans (htri i j l)
    have hout : ∀ j, expect δ t (fun i => min (D i) (δ i j)) ≤ (Dc + 4 * R) * h + ((u : ℝ) - t) / u * DU := by
      intro j
      refine (ih _ U (hD' j) (hl' j) (by omega)).trans ?_
      have e1 : ∑ i with a i ∉ U, min (D i) (δ i j) ≤ Dc := sum_le_sum fun i _ => min_le_left _ _
      have e2 : over a U (fun i => min (D i) (δ i j)) ≤ DU := sum_le_sum fun i _ => min_le_left _ _
      have e3 : 0 ≤ ((u : ℝ) - t) / u := div_nonneg (by linarith) hup.le
      have e4 : 0 ≤ h := by rw [hhdef]; linarith
      exact add_le_add (mul_le_mul_of_nonneg_right (by linarith) e4) (mul_le_mul_of_nonneg_left e2 e3)
    have hin : ∀ A ∈ U, ∀ j, a j = A → expect δ t (fun i => min (D i) (δ i j)) ≤
        (Dc + cell a A (fun i => min (D i) (δ i j)) + 4 * (R - cell a A r)) * h + c * (DU - cell a A D) := by
      intro A hA j hj
      have hcard : ((U.erase A).card : ℝ) = (u : ℝ) - 1 := by
        rw [card_erase_of_mem hA, Nat.cast_sub (by omega)]; simp [hu]
      have e0 := ih _ (U.erase A) (hD' j) (hl' j) (by rw [card_erase_of_mem hA]; omega)
      rw [hcard] at e0
      refine e0.trans ?_
      have hsplit : ∀ f : ι → ℝ, over a (U.erase A) f = over a U f - cell a A f := by
        intro f
        rw [over_cells, over_cells, sum_erase_eq_sub hA]
      have e1 : ∑ i with a i ∉ U.erase A, min (D i) (δ i j) ≤ Dc + cell a A (fun i => min (D i) (δ i j)) := by
        have p1 := split a (U.erase A) (fun i => min (D i) (δ i j))
        have p2 := split a U (fun i => min (D i) (δ i j))
        rw [hsplit] at p1
        have e1 : ∑ i with a i ∉ U, min (D i) (δ i j) ≤ Dc := sum_le_sum fun i _ => min_le_left _ _
        linarith
      have e2 : over a (U.erase A) (fun i => min (D i) (δ i j)) ≤ DU - cell a A D := by
        rw [hDUdef, ← hsplit]; exact sum_le_sum fun i _ => min_le_left _ _
      have e3 : 0 ≤ c := div_nonneg (by linarith) (by linarith)
      have e4 : 0 ≤ h := by rw [hhdef]; linarith
      have e5 : ((u : ℝ) - 1 - t) / ((u : ℝ) - 1) = c := rfl
      rw [e5, hsplit r]
      exact add_le_add (mul_le_mul_of_nonneg_right (by linarith) e4) (mul_le_mul_of_nonneg_left e2 e3)
    -- the draws outside the clusters of `U` and in each of them
    have hcov : ∑ j with a j ∉ U, D j / S * expect δ t (fun i => min (D i) (δ i j)) ≤
        Dc / S * ((Dc + 4 * R) * h + ((u : ℝ) - t) / u * DU) := by
      rw [hDcdef, sum_div, sum_mul]
      exact sum_le_sum fun j _ => mul_le_mul_of_nonneg_left (hout j) (div_nonneg (hD j) hpos.le)
    have hcell : ∀ A ∈ U, cell a A (fun j => D j / S * expect δ t (fun i => min (D i) (δ i j))) ≤
        (h * (cell a A D * (Dc + 4 * R)) + c * (cell a A D * DU - cell a A D ^ 2)) / S := by
      intro A hA
      have hw := within (δ := δ) (D := D) (r := r) (univ.filter fun i => a i = A) h0 hD hl
        (fun i hi j hj => ha i j ((mem_filter.1 hi).2.trans (mem_filter.1 hj).2.symm))
      have e4 : 0 ≤ h := by rw [hhdef]; linarith
      calc cell a A (fun j => D j / S * expect δ t (fun i => min (D i) (δ i j)))
          ≤ cell a A (fun j => D j / S *
              ((Dc + cell a A (fun i => min (D i) (δ i j)) + 4 * (R - cell a A r)) * h + c * (DU - cell a A D))) :=
            sum_le_sum fun j hj => mul_le_mul_of_nonneg_left (hin A hA j (mem_filter.1 hj).2)
              (div_nonneg (hD j) hpos.le)
        _ = (h * (cell a A D * (Dc + 4 * (R - cell a A r)) +
              cell a A (fun j => D j * cell a A (fun i => min (D i) (δ i j)))) +
              c * (cell a A D * DU - cell a A D ^ 2)) / S := by
            have e : ∀ j, D j / S *
              ((Dc + cell a A (fun i => min (D i) (δ i j)) + 4 * (R - cell a A r)) * h + c * (DU - cell a A D)) =
              D j * ((h * (Dc + 4 * (R - cell a A r)) + c * (DU - cell a A D)) / S) +
              (D j * cell a A (fun i => min (D i) (δ i j))) * (h / S) := by
              intro j; ring
            have e' : ∀ (x y : ℝ) (f g : ι → ℝ), cell a A (fun j => f j * x + g j * y) =
                cell a A f * x + cell a A g * y := by
              intro x y f g
              simp only [cell, sum_add_distrib, sum_mul]
            simp only [e]
            rw [e' _ _ D fun j => D j * cell a A (fun i => min (D i) (δ i j))]
            ring
        _ ≤ _ := by
            have : h * (cell a A D * (Dc + 4 * (R - cell a A r)) +
              cell a A (fun j => D j * cell a A (fun i => min (D i) (δ i j)))) ≤
              h * (cell a A D * (Dc + 4 * R)) := by
              refine mul_le_mul_of_nonneg_left ?_ e4
              have hw' : cell a A (fun j => D j * cell a A (fun i => min (D i) (δ i j))) ≤
                4 * cell a A r * cell a A D := hw
              nlinarith
            gcongr
    have hsum : over a U (fun j => D j / S * expect δ t (fun i => min (D i) (δ i j))) ≤
        (h * (DU * (Dc + 4 * R)) + c * (DU ^ 2 - ∑ A ∈ U, cell a A D ^ 2)) / S := by
      rw [over_cells]
      refine (sum_le_sum hcell).trans (le_of_eq ?_)
      rw [← sum_div, sum_add_distrib, ← mul_sum, ← mul_sum, ← sum_mul, sum_sub_distrib, ← sum_mul,
        ← over_cells]
      ring
    have hQ : DU ^ 2 ≤ u * ∑ A ∈ U, cell a A D ^ 2 := by
      rw [hDUdef, over_cells]; exact sq_sum_le_card_mul_sum_sq
    have halg := algebra (R := 4 * R) (h := h) hut hDc hS hpos hQ
    rw [expect, split a U]
    refine (add_le_add hcov hsum).trans (halg.trans ?_)
    rw [hharm]
    have e6 : Dc / ((t : ℝ) + 1) ≤ (Dc + 4 * R) * (1 / ((t : ℝ) + 1)) := by
      rw [mul_one_div]; gcongr; linarith
    push_cast
    rw [hhdef]
    linarith


/-- The first centre is drawn uniformly. -/
theorem first_le [Fintype κ] (δ : ι → ι → ℝ) (a : ι → κ) (r : ι → ℝ) (h0 : ∀ i j, 0 ≤ δ i j)
    (htri : ∀ i j l, δ j l ≤ δ i l + δ i j) (hr : ∀ i, 0 ≤ r i)
    (ha : ∀ i j, a i = a j → δ i j ≤ r i + r j) (t : Nat) (hk : Fintype.card κ = t + 1) :
    ∑ j, expect δ t (fun i => δ i j) ≤ Fintype.card ι * (4 * (1 + harm t) * ∑ i, r i) := by
  have hh := harm_nonneg t
  have key : ∀ j, expect δ t (fun i => δ i j) ≤
      ((cell a (a j) fun i => δ i j) + 4 * ((∑ i, r i) - cell a (a j) r)) * (1 + harm t) := by
    intro j
    have hc : (univ.erase (a j)).card = t := by rw [card_erase_of_mem (mem_univ _), card_univ, hk]; rfl
    have h := expect_le δ a r h0 htri hr ha t (fun i => δ i j) (univ.erase (a j)) (fun i => h0 i j)
      (fun i l => htri i l j) hc.ge
    rw [hc, sub_self, zero_div, zero_mul, add_zero] at h
    have e1 : over a (univ.erase (a j)) r = (∑ i, r i) - cell a (a j) r := by
      rw [split a univ r, over_cells, sum_erase_eq_sub (mem_univ _), ← over_cells]; simp
    have e2 : ∑ i with a i ∉ univ.erase (a j), δ i j = cell a (a j) fun i => δ i j := by
      unfold cell
      congr 1
      ext i
      simp
    rwa [e1, e2] at h
  have hcell : ∀ j, cell a (a j) r = ∑ i, if a i = a j then r i else 0 := fun j => by
    rw [cell, sum_filter]
  have hp : ∑ j, (cell a (a j) fun i => δ i j) ≤ 2 * ∑ j, cell a (a j) r := by
    calc ∑ j, (cell a (a j) fun i => δ i j) ≤ ∑ j, ∑ i, if a i = a j then r i + r j else 0 := by
          refine sum_le_sum fun j _ => ?_
          rw [cell, sum_filter]
          refine sum_le_sum fun i _ => ?_
          split
          · exact ha i j ‹_›
          · exact le_rfl
      _ = (∑ j, ∑ i, if a i = a j then r i else 0) + ∑ j, ∑ i, if a i = a j then r j else 0 := by
          rw [← sum_add_distrib]
          refine sum_congr rfl fun j _ => ?_
          rw [← sum_add_distrib]
          refine sum_congr rfl fun i _ => ?_
          split <;> simp
      _ = 2 * ∑ j, cell a (a j) r := by
          rw [sum_comm (f := fun j i => if a i = a j then r j else 0)]
          simp only [hcell, eq_comm]
          ring
  have hP : 0 ≤ ∑ j, cell a (a j) r := sum_nonneg fun j _ => sum_nonneg fun i _ => hr i
  calc ∑ j, expect δ t (fun i => δ i j)
      ≤ ∑ j, ((cell a (a j) fun i => δ i j) + 4 * ((∑ i, r i) - cell a (a j) r)) * (1 + harm t) :=
        sum_le_sum fun j _ => key j
    _ = ((∑ j, cell a (a j) fun i => δ i j) + 4 * (Fintype.card ι * (∑ i, r i) - ∑ j, cell a (a j) r)) *
          (1 + harm t) := by
        rw [← sum_mul, sum_add_distrib, ← mul_sum, sum_sub_distrib, sum_const, nsmul_eq_mul, card_univ]
    _ ≤ (4 * (Fintype.card ι * ∑ i, r i)) * (1 + harm t) :=
        mul_le_mul_of_nonneg_right (by linarith) (by linarith)
    _ = _ := by ring

theorem harm_le (t : Nat) : harm t ≤ 1 + Real.log (t + 1) := by
  have h1 : harm t = (harmonic t : ℝ) := by
    simp [harm, harmonic]
  rw [h1]
  refine (harmonic_le_one_add_log t).trans ?_
  rcases t.eq_zero_or_pos with rfl | h
  · simp
  · have : (0 : ℝ) < t := by exact_mod_cast h
    gcongr
    linarith

end Distclus.Seeding
