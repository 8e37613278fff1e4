import Verif.Spec.DtwRound
import Verif.Proof.FlLoss
import Verif.Proof.DtwMetric
import Verif.Props.Fl
/-!
# Proofs for C147: the DTW distance, rounded
-/
namespace Distclus
open Spec

theorem Spec.Warp.length_le {ok : Nat → Nat → Prop} {i j : Nat} {p : List (Nat × Nat)} (h : Warp ok i j p) :
    p.length ≤ i + j + 1 := by
  induction h with
  | start _ => simp
  | right _ _ ih => simp only [List.length_cons]; omega
  | down _ _ ih => simp only [List.length_cons]; omega
  | diag _ _ ih => simp only [List.length_cons]; omega

theorem Spec.Warp.inside {ok : Nat → Nat → Prop} {i j : Nat} {p : List (Nat × Nat)} (h : Warp ok i j p) :
    ∀ x ∈ p, x.1 ≤ i ∧ x.2 ≤ j := by
  induction h with
  | start _ => simp
  | right _ _ ih =>
    intro x hx
    rcases List.mem_cons.1 hx with rfl | hx
    · simp
    · have := ih x hx; omega
  | down _ _ ih =>
    intro x hx
    rcases List.mem_cons.1 hx with rfl | hx
    · simp
    · have := ih x hx; omega
  | diag _ _ ih =>
    intro x hx
    rcases List.mem_cons.1 hx with rfl | hx
    · simp
    · have := ih x hx; omega

section
variable {P : Type} {r : Rounding}

/-- The rounded distance of the points at two positions (0 beyond the ends). -/
def flCell (space : Space P (Fl r)) (s1 s2 : List P) (x : Nat × Nat) : Fl r :=
  match s1[x.1]?, s2[x.2]? with
  | some p, some q => space.dist p q
  | _, _ => 0

theorem pairDist_flCell (space : Space P (Fl r)) (s1 s2 : List P) (x : Nat × Nat) (h1 : x.1 < s1.length)
    (h2 : x.2 < s2.length) :
    pairDist (withInf space) s1 s2 x.1 x.2 = (flCell space s1 s2 x : WithTop (Fl r)) := by
  unfold pairDist flCell
  rw [List.getElem?_eq_getElem h1, List.getElem?_eq_getElem h2]
  rfl

/-- The cost the code computes for a path is a sum of the rounded distances of its cells. -/
theorem pathCost_sumOf (space : Space P (Fl r)) (s1 s2 : List P) : ∀ p : List (Nat × Nat), p ≠ [] →
    (∀ x ∈ p, x.1 < s1.length ∧ x.2 < s2.length) →
    ∃ z : Fl r, pathCost (pairDist (withInf space) s1 s2) p = some (z : WithTop (Fl r)) ∧
      SumOf (p.map (flCell space s1 s2)).reverse z
  | [], h, _ => absurd rfl h
  | [x], _, hx => by
    refine ⟨flCell space s1 s2 x, ?_, by simpa using SumOf.one _⟩
    have := hx x (by simp)
    simp only [pathCost]
    rw [pairDist_flCell space s1 s2 x this.1 this.2]
  | x :: y :: p, _, hx => by
    obtain ⟨z, hz, hs⟩ := pathCost_sumOf space s1 s2 (y :: p) (by simp) fun a ha => hx a (by simp [ha])
    have := hx x (by simp)
    refine ⟨z + flCell space s1 s2 x, ?_, ?_⟩
    · simp only [pathCost]
      rw [hz, Option.map_some, pairDist_flCell space s1 s2 x this.1 this.2]
      rfl
    · rw [List.map_cons, List.reverse_cons]
      exact SumOf.add hs (SumOf.one _)

/-- Sums of cells, rounded and exact. -/
theorem cells_bounds (space : Space P (Fl r)) (δ : P → P → ℝ) (s1 s2 : List P) {lo hi c : ℝ}
    (h : ∀ a ∈ s1, ∀ b ∈ s2, lo * δ a b - c ≤ (space.dist a b).val ∧ (space.dist a b).val ≤ hi * (δ a b + c)) :
    ∀ p : List (Nat × Nat), (∀ x ∈ p, x.1 < s1.length ∧ x.2 < s2.length) →
    lo * exactCost δ s1 s2 p - p.length * c ≤ (p.map fun x => (flCell space s1 s2 x).val).sum ∧
      (p.map fun x => (flCell space s1 s2 x).val).sum ≤ hi * (exactCost δ s1 s2 p + p.length * c) := by
  intro p
  induction p with
  | nil => intro _; simp [exactCost, cellSum]
  | cons x p ih =>
    intro hx
    obtain ⟨i1, i2⟩ := ih fun y hy => hx y (by simp [hy])
    obtain ⟨h1, h2⟩ := hx x (by simp)
    obtain ⟨k1, k2⟩ := h _ (List.getElem_mem h1) _ (List.getElem_mem h2)
    have e1 : flCell space s1 s2 x = space.dist s1[x.1] s2[x.2] := by
      unfold flCell; rw [List.getElem?_eq_getElem h1, List.getElem?_eq_getElem h2]
    have e2 : exactCost δ s1 s2 (x :: p) = δ s1[x.1] s2[x.2] + exactCost δ s1 s2 p := by
      unfold exactCost
      rw [cellSum_cons]
      unfold exactCell
      rw [List.getElem?_eq_getElem h1, List.getElem?_eq_getElem h2]
    rw [List.map_cons, List.sum_cons, e1, e2, List.length_cons]
    push_cast
    constructor <;> linarith

/-- The rounded cost of a path, against its exact cost. -/
theorem pathCost_fl (space : Space P (Fl r)) (δ : P → P → ℝ) (s1 s2 : List P) {lo hi c : ℝ} (hc : 0 ≤ c)
    (hhi : 0 ≤ hi) (h1 : s1 ≠ []) (h2 : s2 ≠ []) (hd : ∀ a ∈ s1, ∀ b ∈ s2, 0 ≤ (space.dist a b).val)
    (hδ : ∀ a ∈ s1, ∀ b ∈ s2, 0 ≤ δ a b)
    (h : ∀ a ∈ s1, ∀ b ∈ s2, lo * δ a b - c ≤ (space.dist a b).val ∧ (space.dist a b).val ≤ hi * (δ a b + c))
    {ok : Nat → Nat → Prop} {p : List (Nat × Nat)} (hp : Warp ok (s1.length - 1) (s2.length - 1) p) :
    ∃ z : Fl r, pathCost (pairDist (withInf space) s1 s2) p = some (z : WithTop (Fl r)) ∧ 0 ≤ z.val ∧
      (1 - r.u) ^ (s1.length + s2.length - 2) *
        (lo * exactCost δ s1 s2 p - (s1.length + s2.length - 1 : ℕ) * c) ≤ z.val ∧
      z.val ≤ (1 + r.u) ^ (s1.length + s2.length - 2) *
        (hi * (exactCost δ s1 s2 p + (s1.length + s2.length - 1 : ℕ) * c)) := by
  have p1 := List.length_pos_iff.2 h1
  have p2 := List.length_pos_iff.2 h2
  have hin : ∀ x ∈ p, x.1 < s1.length ∧ x.2 < s2.length := fun x hx => by
    have := hp.inside x hx; omega
  obtain ⟨z, hz, hs⟩ := pathCost_sumOf space s1 s2 p hp.ne_nil hin
  have hcell : ∀ x ∈ p, 0 ≤ (flCell space s1 s2 x).val := fun x hx => by
    obtain ⟨q1, q2⟩ := hin x hx
    unfold flCell
    rw [List.getElem?_eq_getElem q1, List.getElem?_eq_getElem q2]
    exact hd _ (List.getElem_mem q1) _ (List.getElem_mem q2)
  have hb := SumOf.fl hs (by
    intro v hv
    simp only [List.mem_reverse, List.mem_map] at hv
    obtain ⟨x, hx, rfl⟩ := hv
    exact hcell x hx)
  have hsum : ((p.map (flCell space s1 s2)).reverse.map Fl.val).sum =
      (p.map fun x => (flCell space s1 s2 x).val).sum := by
    rw [List.map_reverse, List.sum_reverse, List.map_map]; rfl
  rw [hsum, List.length_reverse, List.length_map] at hb
  have hS : 0 ≤ (p.map fun x => (flCell space s1 s2 x).val).sum := List.sum_nonneg (by
    simp only [List.mem_map]; rintro _ ⟨x, hx, rfl⟩; exact hcell x hx)
  obtain ⟨c1, c2⟩ := cells_bounds space δ s1 s2 h p hin
  set S := (p.map fun x => (flCell space s1 s2 x).val).sum
  have hlen := hp.length_le
  have hN : (p.length : ℝ) ≤ (s1.length + s2.length - 1 : ℕ) := by
    exact_mod_cast (by omega : p.length ≤ s1.length + s2.length - 1)
  have hNc : (p.length : ℝ) * c ≤ (s1.length + s2.length - 1 : ℕ) * c := by gcongr
  have hu0 := r.u_nonneg
  have hu1 : 0 ≤ 1 - r.u := by linarith [r.u_le_one]
  refine ⟨z, hz, le_trans (mul_nonneg (pow_nonneg hu1 _) hS) hb.1, ?_, ?_⟩
  · refine le_trans ?_ hb.1
    calc _ ≤ (1 - r.u) ^ (s1.length + s2.length - 2) * S :=
          mul_le_mul_of_nonneg_left (by linarith) (pow_nonneg hu1 _)
      _ ≤ _ := mul_le_mul_of_nonneg_right (pow_le_pow_of_le_one hu1 (by linarith) (by omega)) hS
  · refine le_trans hb.2 ?_
    calc _ ≤ (1 + r.u) ^ (s1.length + s2.length - 2) * S :=
          mul_le_mul_of_nonneg_right (pow_le_pow_right₀ (by linarith) (by omega)) hS
      _ ≤ _ := mul_le_mul_of_nonneg_left (by nlinarith) (by positivity)

end
end Distclus
