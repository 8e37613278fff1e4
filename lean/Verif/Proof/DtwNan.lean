import Verif.Spec.DtwNan
import Verif.Proof.Dtw
/-!
# Proofs for C148: the DTW distance when comparisons have no law
-/
namespace Distclus
open Spec

section
variable {P F : Type} [Top F] [Add F] [LE F] [DecidableLE F]

theorem decrPath_cases (ul u l : F) (i j : Nat) :
    decrPath ul u l ((i + 1 : Nat) : Int) ((j + 1 : Nat) : Int) = ((i : Int), (j : Int)) ∨
    decrPath ul u l ((i + 1 : Nat) : Int) ((j + 1 : Nat) : Int) = ((i : Int), ((j + 1 : Nat) : Int)) ∨
    decrPath ul u l ((i + 1 : Nat) : Int) ((j + 1 : Nat) : Int) = (((i + 1 : Nat) : Int), (j : Int)) := by
  unfold decrPath
  split
  · left; ext <;> simp
  · split
    · right; left; ext <;> simp
    · right; right; ext <;> simp

/-- The backward walk always ends at the first points, by single steps. -/
theorem pathLoop_any {c : CostConf P F} {W S : Nat} (h : CostOk c W S) {values : List F}
    (hs : Stored c W S c.s1.length 0 values) : ∀ (n i j : Nat), i + j < n → i < c.s1.length →
    j < c.s2.length →
    ∃ p, c.pathLoop values n i j = some (toEnds p) ∧ Warp (fun _ _ => True) i j p := by
  intro n
  induction n with
  | zero => intro i j hn; omega
  | succ n ih =>
    intro i j hn hi hj
    cases i with
    | zero =>
      cases j with
      | zero => exact ⟨[(0, 0)], by simp [CostConf.pathLoop, toEnds], .start trivial⟩
      | succ j =>
        obtain ⟨p, h1, h2⟩ := ih 0 j (by omega) hi (by omega)
        refine ⟨(0, j + 1) :: p, ?_, .right h2 trivial⟩
        have e : ((j + 1 : Nat) : Int) - 1 = (j : Int) := by omega
        rw [CostConf.pathLoop, if_pos (by omega)]
        simp only [Int.natCast_zero, if_true, e] at h1 ⊢
        rw [h1]
        simp [toEnds]
    | succ i =>
      cases j with
      | zero =>
        obtain ⟨p, h1, h2⟩ := ih i 0 (by omega) (by omega) hj
        refine ⟨(i + 1, 0) :: p, ?_, .down h2 trivial⟩
        have e : ((i + 1 : Nat) : Int) - 1 = (i : Int) := by omega
        have e' : ¬ ((i + 1 : Nat) : Int) = 0 := by omega
        rw [CostConf.pathLoop, if_pos (by omega)]
        simp only [Int.natCast_zero, if_true, e, e', if_false] at h1 ⊢
        rw [h1]
        simp [toEnds]
      | succ j =>
        have g1 := get_final h hs (a := i) (b := j + 1) (by omega) hj
        have g2 := get_final h hs (a := i + 1) (b := j) hi (by omega)
        have g3 := get_final h hs (a := i) (b := j) (by omega) (by omega)
        have e1 : ((i + 1 : Nat) : Int) - 1 = (i : Int) := by omega
        have e2 : ((j + 1 : Nat) : Int) - 1 = (j : Int) := by omega
        generalize (if Within W i (j + 1) then ideal W (cellDist c) i (j + 1) else ⊤) = l at g1
        generalize (if Within W (i + 1) j then ideal W (cellDist c) (i + 1) j else ⊤) = u at g2
        generalize (if Within W i j then ideal W (cellDist c) i j else ⊤) = ul at g3
        have hn' : c.neighborCosts values ((i + 1 : Nat) : Int) ((j + 1 : Nat) : Int) = some (l, u, ul) := by
          unfold CostConf.neighborCosts
          rw [e1, e2, g1, g2, g3]
        have hz1 : ¬ ((i + 1 : Nat) : Int) = 0 := by omega
        have hz2 : ¬ ((j + 1 : Nat) : Int) = 0 := by omega
        have step : ∀ (a b : Nat) (p : List (Nat × Nat)),
            decrPath ul u l ((i + 1 : Nat) : Int) ((j + 1 : Nat) : Int) = ((a : Int), (b : Int)) →
            c.pathLoop values n a b = some (toEnds p) →
            c.pathLoop values (n + 1) ((i + 1 : Nat) : Int) ((j + 1 : Nat) : Int) =
              some (toEnds ((i + 1, j + 1) :: p)) := by
          intro a b p hd hp
          rw [CostConf.pathLoop, if_pos (by omega)]
          simp only [hz1, hz2, if_false, hn', Option.map_some, hd, hp]
          simp [toEnds]
        rcases decrPath_cases ul u l i j with hd | hd | hd
        · obtain ⟨p, h1, h2⟩ := ih i j (by omega) (by omega) (by omega)
          exact ⟨_, step i j p hd h1, .diag h2 trivial⟩
        · obtain ⟨p, h1, h2⟩ := ih i (j + 1) (by omega) (by omega) hj
          exact ⟨_, step i (j + 1) p hd h1, .down h2 trivial⟩
        · obtain ⟨p, h1, h2⟩ := ih (i + 1) j (by omega) hi (by omega)
          exact ⟨_, step (i + 1) j p hd h1, .right h2 trivial⟩

variable {nan : F → Prop}

/-- `+Inf` or NaN. -/
def Lost (nan : F → Prop) (x : F) : Prop := x = ⊤ ∨ nan x

theorem Lost.add (h : NanCosts F nan) {a : F} (ha : Lost nan a) (b : F) : Lost nan (a + b) := by
  rcases ha with rfl | ha
  · exact h.top_add b
  · exact Or.inr (h.add_left b ha)

theorem Lost.min3 {a b c : F} (ha : Lost nan a) (hb : Lost nan b) (hc : Lost nan c) : Lost nan (min3 a b c) := by
  rcases min3_cases a b c with e | e | e <;> rw [e] <;> assumption

theorem Lost.band {x : F} {W i j : Nat} (hx : Lost nan x) : Lost nan (if Within W i j then x else ⊤) := by
  split
  · exact hx
  · exact Or.inl rfl

/-- After a row of NaN every cost is lost. -/
theorem ideal_row_lost (h : NanCosts F nan) (W : Nat) (d : Nat → Nat → F) (k : Nat) (m : Nat)
    (hk : ∀ j ≤ m, nan (d k j)) : ∀ i, k ≤ i → ∀ j ≤ m, Lost nan (ideal W d i j) := by
  intro i
  induction i with
  | zero =>
    intro hi j hj
    obtain rfl : k = 0 := by omega
    cases j with
    | zero => rw [ideal]; exact Or.inr (hk 0 hj)
    | succ j => rw [ideal]; exact Or.inr (h.add_right _ (hk _ hj))
  | succ i ih =>
    intro hi j
    rcases Nat.lt_or_ge i k with hlt | hge
    · obtain rfl : k = i + 1 := by omega
      intro hj
      cases j with
      | zero => rw [ideal]; exact Or.inr (h.add_right _ (hk _ hj))
      | succ j => rw [ideal]; exact Or.inr (h.add_right _ (hk _ hj))
    · induction j with
      | zero => intro hj; rw [ideal]; exact (ih hge 0 hj).add h _
      | succ j ihj =>
        intro hj
        rw [ideal]
        exact (Lost.min3 (ih hge j (by omega)) (Lost.band (ihj (by omega))) (Lost.band (ih hge (j + 1) hj))).add h _

/-- After a column of NaN every cost is lost. -/
theorem ideal_col_lost (h : NanCosts F nan) (W : Nat) (d : Nat → Nat → F) (k : Nat) (m : Nat)
    (hk : ∀ i ≤ m, nan (d i k)) : ∀ i ≤ m, ∀ j, k ≤ j → Lost nan (ideal W d i j) := by
  intro i
  induction i with
  | zero =>
    intro hi j
    induction j with
    | zero => intro hj; obtain rfl : k = 0 := by omega
              rw [ideal]; exact Or.inr (hk 0 hi)
    | succ j ihj =>
      intro hj
      rw [ideal]
      rcases Nat.lt_or_ge j k with hlt | hge
      · obtain rfl : k = j + 1 := by omega
        exact Or.inr (h.add_right _ (hk 0 hi))
      · exact (ihj hge).add h _
  | succ i ih =>
    intro hi j
    induction j with
    | zero => intro hj; obtain rfl : k = 0 := by omega
              rw [ideal]; exact Or.inr (h.add_right _ (hk _ hi))
    | succ j ihj =>
      intro hj
      rw [ideal]
      rcases Nat.lt_or_ge j k with hlt | hge
      · obtain rfl : k = j + 1 := by omega
        exact Or.inr (h.add_right _ (hk _ hi))
      · exact (Lost.min3 (ih (by omega) j hge) (Lost.band (ihj hge)) (Lost.band (ih (by omega) (j + 1) hj))).add h _

theorem min3_nan (h : NanCosts F nan) (a b : F) {c : F} (hc : nan c) : nan (min3 a b c) := by
  unfold min3
  rw [if_neg fun hh => h.le_right a hc hh.2, if_neg (h.le_right b hc)]
  exact hc

/-- When the window holds the second series, NaN stays NaN: row by row. -/
theorem ideal_row_nan (h : NanCosts F nan) (W : Nat) (d : Nat → Nat → F) (k : Nat) (m : Nat) (hm : m ≤ W)
    (hk : ∀ j ≤ m, nan (d k j)) : ∀ i, k ≤ i → ∀ j ≤ m, Within W i j → nan (ideal W d i j) := by
  intro i
  induction i with
  | zero =>
    intro hi j hj _
    obtain rfl : k = 0 := by omega
    cases j with
    | zero => rw [ideal]; exact hk 0 hj
    | succ j => rw [ideal]; exact h.add_right _ (hk _ hj)
  | succ i ih =>
    intro hi j hj hw
    rcases Nat.lt_or_ge i k with hlt | hge
    · obtain rfl : k = i + 1 := by omega
      cases j with
      | zero => rw [ideal]; exact h.add_right _ (hk _ hj)
      | succ j => rw [ideal]; exact h.add_right _ (hk _ hj)
    · have hw' : Within W i j := by unfold Within at *; omega
      cases j with
      | zero => rw [ideal]; exact h.add_left _ (ih hge 0 hj hw')
      | succ j =>
        rw [ideal, if_pos hw']
        exact h.add_left _ (min3_nan h _ _ (ih hge (j + 1) hj hw'))

theorem ideal_col_nan (h : NanCosts F nan) (W : Nat) (d : Nat → Nat → F) (k : Nat) (m n : Nat) (hn : n ≤ W)
    (hk : ∀ i ≤ m, nan (d i k)) : ∀ i ≤ m, ∀ j ≤ n, k ≤ j → Within W i j → nan (ideal W d i j) := by
  intro i
  induction i with
  | zero =>
    intro hi j
    induction j with
    | zero => intro _ hj _; obtain rfl : k = 0 := by omega
              rw [ideal]; exact hk 0 hi
    | succ j ihj =>
      intro hjn hj hw
      rw [ideal]
      rcases Nat.lt_or_ge j k with hlt | hge
      · obtain rfl : k = j + 1 := by omega
        exact h.add_right _ (hk 0 hi)
      · exact h.add_left _ (ihj (by omega) hge (by unfold Within at *; omega))
  | succ i ih =>
    intro hi j hjn hj hw
    have hw' : Within W i j := by unfold Within at *; omega
    cases j with
    | zero => obtain rfl : k = 0 := by omega
              rw [ideal]; exact h.add_right _ (hk _ hi)
    | succ j =>
      rw [ideal, if_pos hw']
      exact h.add_left _ (min3_nan h _ _ (ih (by omega) (j + 1) hjn hj hw'))

end
end Distclus
