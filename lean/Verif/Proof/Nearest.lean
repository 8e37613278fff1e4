import Verif.Model.Clust
import Verif.Spec.Float
import Verif.Spec.Nearest
import Mathlib.Tactic.Cases

set_option linter.unusedSectionVars false

namespace Distclus

@[simp] theorem idx?_natCast {α : Type} (l : List α) (n : Nat) : idx? l (n : Int) = l[n]? := by
  unfold idx?; rw [if_neg (by omega)]; simp

theorem idx?_of_nonneg {α : Type} (l : List α) {i : Int} (h : 0 ≤ i) : idx? l i = l[i.toNat]? := by
  unfold idx?; rw [if_neg (by omega)]

section
variable {E F : Type} [Zero F] [One F] [Neg F] [LT F] [DecidableLT F]

/-- The label is the initial one or an index of the scanned list, and the distance belongs to it. -/
theorem nearestLoop_mem (space : Space E F) (e : E) : ∀ (cs : List E) (i : Nat) (l : Int) (m : F),
    nearestLoop space e cs i l m = (l, m) ∨
      ∃ j x, cs[j]? = some x ∧
        nearestLoop space e cs i l m = (((i + j : Nat) : Int), space.dist e x) := by
  intro cs
  induction cs with
  | nil => intro i l m; exact Or.inl rfl
  | cons c cs ih =>
    intro i l m
    unfold nearestLoop
    simp only
    split
    · rcases ih (i + 1) (i : Int) (space.dist e c) with h | ⟨j, x, hj, h⟩
      · exact Or.inr ⟨0, c, by simp, by rw [h]; simp⟩
      · exact Or.inr ⟨j + 1, x, by simpa using hj, by rw [h]; congr 1; omega⟩
    · rcases ih (i + 1) l m with h | ⟨j, x, hj, h⟩
      · exact Or.inl h
      · exact Or.inr ⟨j + 1, x, by simpa using hj, by rw [h]; congr 1; omega⟩

theorem nearest_nil (space : Space E F) (e : E) : nearest space [] e = (-1, -1) := rfl

/-- With at least one centroid the label is in range and the distance is the centroid's. -/
theorem nearest_mem (hneg : (-1 : F) < 0) (space : Space E F) (c : List E) (e : E) (hc : c ≠ []) :
    ∃ (j : Nat) (x : E), c[j]? = some x ∧ nearest space c e = ((j : Int), space.dist e x) := by
  cases c with
  | nil => exact absurd rfl hc
  | cons c cs =>
    unfold nearest nearestLoop
    simp only [hneg, true_or, if_true]
    rcases nearestLoop_mem space e cs 1 ((0 : Nat) : Int) (space.dist e c) with h | ⟨j, x, hj, h⟩
    · exact ⟨0, c, by simp, h⟩
    · refine ⟨j + 1, x, by simpa using hj, ?_⟩
      rw [h]; congr 1; omega

theorem assign_eq (hneg : (-1 : F) < 0) (space : Space E F) (c : List E) (e : E) (hc : c ≠ []) :
    ∃ (j : Nat) (x : E), c[j]? = some x ∧ nearest space c e = ((j : Int), space.dist e x) ∧
      assign space c e = some (some x, (j : Int), space.dist e x) := by
  obtain ⟨j, x, hj, h⟩ := nearest_mem hneg space c e hc
  refine ⟨j, x, hj, h, ?_⟩
  unfold assign
  rw [h]
  simp [hj]

variable [FloatOrder F]

theorem not_lt_trans_of {a b c : F} (hb : ¬ isNaN b) (h1 : ¬ a < b) (h2 : ¬ b < c) : ¬ a < c := by
  intro h
  rcases FloatOrder.cotrans b hb h with h' | h'
  · exact h1 h'
  · exact h2 h'

/-- Scan of the remaining centroids when the current best `b`, at index `l`, is a genuine number
that is not negative: the result is the first minimum among the current best and the genuine
remaining ones. -/
theorem nearestLoop_spec (space : Space E F) (e : E) : ∀ (cs : List E) (i l : Nat) (b : E),
    ¬ isNaN (space.dist e b) → ¬ space.dist e b < 0 →
    (∀ y ∈ cs, ¬ space.dist e y < 0) → l < i →
    ∃ (k : Nat) (x : E), nearestLoop space e cs i (l : Int) (space.dist e b) =
        ((k : Int), space.dist e x) ∧
      ¬ isNaN (space.dist e x) ∧
      ((k = l ∧ x = b) ∨ (i ≤ k ∧ cs[k - i]? = some x ∧ space.dist e x < space.dist e b)) ∧
      (∀ y ∈ cs, ¬ isNaN (space.dist e y) → ¬ space.dist e y < space.dist e x) ∧
      (∀ j y, i + j < k → cs[j]? = some y → ¬ isNaN (space.dist e y) →
        space.dist e x < space.dist e y) := by
  intro cs
  induction cs with
  | nil =>
    intro i l b hb _ _ _
    exact ⟨l, b, rfl, hb, Or.inl ⟨rfl, rfl⟩, by simp, by simp⟩
  | cons c cs ih =>
    intro i l b hb hb0 h0 hli
    unfold nearestLoop
    simp only [hb0, false_or]
    have h0' : ∀ y ∈ cs, ¬ space.dist e y < 0 := fun y hy => h0 y (List.mem_cons_of_mem _ hy)
    split
    · rename_i hlt
      have hc : ¬ isNaN (space.dist e c) := fun h => FloatOrder.nan_not_lt h hlt
      obtain ⟨k, x, hk, hx, hor, hmin, hfst⟩ := ih (i + 1) i c hc (h0 c (by simp)) h0' (by omega)
      have hxc : x = c ∨ space.dist e x < space.dist e c := by
        rcases hor with ⟨_, h⟩ | ⟨_, _, h⟩
        · exact Or.inl h
        · exact Or.inr h
      refine ⟨k, x, hk, hx, ?_, ?_, ?_⟩
      · right
        rcases hor with ⟨rfl, rfl⟩ | ⟨h1, h2, h3⟩
        · exact ⟨Nat.le_refl _, by simp, hlt⟩
        · refine ⟨by omega, ?_, FloatOrder.trans h3 hlt⟩
          rw [show k - i = (k - (i + 1)) + 1 by omega]
          simpa using h2
      · intro y hy hny
        rcases List.mem_cons.1 hy with rfl | hy
        · rcases hxc with rfl | hlt2
          · exact FloatOrder.irrefl _
          · exact fun h => FloatOrder.irrefl _ (FloatOrder.trans h hlt2)
        · exact hmin y hy hny
      · intro j y hj hy hny
        cases j with
        | zero =>
          simp only [List.getElem?_cons_zero, Option.some.injEq] at hy
          subst hy
          rcases hor with ⟨h, _⟩ | ⟨_, _, h⟩
          · omega
          · exact h
        | succ j => exact hfst j y (by omega) (by simpa using hy) hny
    · rename_i hnlt
      obtain ⟨k, x, hk, hx, hor, hmin, hfst⟩ := ih (i + 1) l b hb hb0 h0' (by omega)
      refine ⟨k, x, hk, hx, ?_, ?_, ?_⟩
      · rcases hor with h | ⟨h1, h2, h3⟩
        · exact Or.inl h
        · right
          refine ⟨by omega, ?_, h3⟩
          rw [show k - i = (k - (i + 1)) + 1 by omega]
          simpa using h2
      · intro y hy hny
        rcases List.mem_cons.1 hy with rfl | hy
        · rcases hor with ⟨_, rfl⟩ | ⟨_, _, h⟩
          · exact hnlt
          · intro h'
            exact hnlt (FloatOrder.trans h' h)
        · exact hmin y hy hny
      · intro j y hj hy hny
        cases j with
        | zero =>
          simp only [List.getElem?_cons_zero, Option.some.injEq] at hy
          subst hy
          rcases hor with ⟨h, _⟩ | ⟨_, _, h⟩
          · omega
          · rcases FloatOrder.cotrans _ hny h with h' | h'
            · exact h'
            · exact absurd h' hnlt
        | succ j => exact hfst j y (by omega) (by simpa using hy) hny

/-- When the first distance is a number and no distance is negative, `nearest` returns the first
minimum among the centroids whose distance is a number. -/
theorem nearest_spec (hneg : (-1 : F) < 0) (space : Space E F) (c0 : E) (cs : List E) (e : E)
    (hnan : ¬ isNaN (space.dist e c0)) (h0 : ∀ y ∈ c0 :: cs, ¬ space.dist e y < 0) :
    ∃ (k : Nat) (x : E), nearest space (c0 :: cs) e = ((k : Int), space.dist e x) ∧
      Spec.IsNearest (space.dist e) (fun y => ¬ isNaN (space.dist e y)) (c0 :: cs) k x := by
  obtain ⟨k, x, hk, hx, hor, hmin, hfst⟩ := nearestLoop_spec space e cs 1 0 c0 hnan
    (h0 c0 (by simp)) (fun y hy => h0 y (List.mem_cons_of_mem _ hy)) (by omega)
  have hd : ¬ space.dist e c0 < space.dist e x := by
    rcases hor with ⟨_, rfl⟩ | ⟨_, _, h⟩
    · exact FloatOrder.irrefl _
    · exact fun h' => FloatOrder.irrefl _ (FloatOrder.trans h' h)
  refine ⟨k, x, ?_, ?_, hx, ?_, ?_⟩
  · unfold nearest nearestLoop
    simp only [hneg, true_or, if_true]
    exact hk
  · rcases hor with ⟨rfl, rfl⟩ | ⟨h1, h2, _⟩
    · simp
    · rw [show k = (k - 1) + 1 by omega]; simpa using h2
  · intro y hy hny
    rcases List.mem_cons.1 hy with rfl | hy
    · exact hd
    · exact hmin y hy hny
  · intro j y hj hy hny
    cases j with
    | zero =>
      simp only [List.getElem?_cons_zero, Option.some.injEq] at hy
      subst hy
      rcases hor with ⟨h, _⟩ | ⟨_, _, h⟩
      · omega
      · exact h
    | succ j => exact hfst j y (by omega) (by simpa using hy) hny

end
end Distclus
