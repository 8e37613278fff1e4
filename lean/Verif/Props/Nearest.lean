import Verif.Proof.Nearest
import Verif.Spec.Example
import Mathlib.Tactic.Set
/-!
# C03, C04, C05: `Assign`, `Predict`, `MapLabel`

`Predict` (core/ctrl.go:201-205) is `Assign` on the current centroids.  The order laws used are
those of `FloatOrder`, true of IEEE floats.
-/

set_option linter.unusedSectionVars false

namespace Distclus
section
variable {E F : Type} [Zero F] [One F] [Neg F] [LT F] [DecidableLT F]

/-- **C03.** `Assign` never panics; with distances that are genuine non-negative numbers it returns
the first nearest centroid, its label and its distance. -/
theorem C03_assign_nearest [FloatOrder F] (hneg : (-1 : F) < 0) (space : Space E F) (c : List E)
    (e : E) (hc : c ≠ [])
    (hnan : ∀ y ∈ c, ¬ isNaN (space.dist e y)) (h0 : ∀ y ∈ c, ¬ space.dist e y < 0) :
    ∃ (k : Nat) (x : E), assign space c e = some (some x, (k : Int), space.dist e x) ∧
      Spec.IsNearest (space.dist e) (fun _ => True) c k x := by
  cases c with
  | nil => exact absurd rfl hc
  | cons c0 cs =>
    obtain ⟨k, x, hk, hx⟩ := nearest_spec hneg space c0 cs e (hnan c0 (by simp)) h0
    obtain ⟨j, y, hj, h1, h2⟩ := assign_eq hneg space (c0 :: cs) e hc
    rw [hk] at h1
    have hkj : k = j := by
      have := congrArg Prod.fst h1; simp only at this; omega
    subst hkj
    have hxy : y = x := by
      have := hx.at_label; rw [hj] at this; simpa using this
    subst hxy
    exact ⟨k, y, h2, hx.at_label, trivial, fun z hz _ => hx.minimal z hz (hnan z hz),
      fun i z hi hz _ => hx.first i z hi hz (hnan z (List.mem_of_getElem? hz))⟩

/-- The same for a linearly ordered `F` (no NaN, one zero), the usual reading. -/
theorem C03_assign_nearest_linear {F : Type} [Zero F] [One F] [Neg F] [LinearOrder F]
    (hneg : (-1 : F) < 0) (space : Space E F) (c : List E) (e : E) (hc : c ≠ [])
    (h0 : ∀ y, 0 ≤ space.dist e y) :
    ∃ (k : Nat) (x : E), assign space c e = some (some x, (k : Int), space.dist e x) ∧
      c[k]? = some x ∧ (∀ y ∈ c, space.dist e x ≤ space.dist e y) ∧
      (∀ j y, j < k → c[j]? = some y → space.dist e x < space.dist e y) := by
  obtain ⟨k, x, h, hx⟩ := C03_assign_nearest hneg space c e hc (fun _ _ h => h)
    (fun y _ => not_lt.2 (h0 y))
  exact ⟨k, x, h, hx.at_label, fun y hy => not_lt.1 (hx.minimal y hy trivial),
    fun j y hj hy => hx.first j y hj hy trivial⟩

/-- **C03, empty clustering.** Label -1 and no centroid. -/
theorem C03_assign_empty (space : Space E F) (e : E) :
    assign space [] e = some (none, -1, -1) := rfl

example : assign exSpace [7, 3, 9, 3] 4 = some (some 3, 1, 1) := by decide

/-- **C04, NaN first.** If the first distance is NaN, the answer is label 0 with distance NaN, no
matter the other distances. -/
theorem C04_nan_first_sticks [FloatOrder F] (hneg : (-1 : F) < 0) (space : Space E F) (c0 : E)
    (cs : List E) (e : E) (hnan : isNaN (space.dist e c0)) :
    nearest space (c0 :: cs) e = (0, space.dist e c0) := by
  unfold nearest nearestLoop
  simp only [hneg, true_or, if_true]
  have : ∀ (l : List E) (i : Nat) (lab : Int),
      nearestLoop space e l i lab (space.dist e c0) = (lab, space.dist e c0) := by
    intro l
    induction l with
    | nil => intros; rfl
    | cons a l ih =>
      intro i lab
      unfold nearestLoop
      rw [if_neg]
      · exact ih _ _
      · rintro (h | h)
        · exact FloatOrder.nan_not_lt hnan h
        · exact FloatOrder.not_lt_nan hnan h
  exact this cs _ _

/-- **C04, NaN later.** If the first distance is a number and no distance is negative, centroids at
distance NaN are ignored: the answer is the first nearest among the others. -/
theorem C04_nan_later_ignored [FloatOrder F] (hneg : (-1 : F) < 0) (space : Space E F) (c0 : E)
    (cs : List E) (e : E) (hnan : ¬ isNaN (space.dist e c0))
    (h0 : ∀ y ∈ c0 :: cs, ¬ space.dist e y < 0) :
    ∃ (k : Nat) (x : E), nearest space (c0 :: cs) e = ((k : Int), space.dist e x) ∧
      Spec.IsNearest (space.dist e) (fun y => ¬ isNaN (space.dist e y)) (c0 :: cs) k x :=
  nearest_spec hneg space c0 cs e hnan h0

theorem nearestLoop_append (space : Space E F) (e : E) : ∀ (a b : List E) (i : Nat) (l : Int)
    (m : F), nearestLoop space e (a ++ b) i l m =
      nearestLoop space e b (i + a.length) (nearestLoop space e a i l m).1
        (nearestLoop space e a i l m).2 := by
  intro a
  induction a with
  | nil => intros; rfl
  | cons x a ih =>
    intro b i l m
    simp only [List.cons_append, nearestLoop, List.length_cons]
    split
    · rw [ih]; congr 1; omega
    · rw [ih]; congr 1; omega

/-- **C04, negative distances.** A centroid at a negative distance is never returned unless it is
the last one: the returned label is beyond it, even if it is the nearest. -/
theorem C04_negative_forgotten [FloatOrder F] (hneg : (-1 : F) < 0) (space : Space E F)
    (pre : List E) (x y : E) (post : List E) (e : E)
    (hnan : ∀ z ∈ pre, ¬ isNaN (space.dist e z)) (hx : space.dist e x < 0) :
    ((pre.length : Nat) : Int) < (nearest space (pre ++ x :: y :: post) e).1 := by
  unfold nearest
  rw [nearestLoop_append]
  set r := nearestLoop space e pre 0 (-1) (-1) with hr
  have hcond : r.2 < 0 ∨ space.dist e x < r.2 := by
    have hnum : ¬ isNaN r.2 := by
      rcases nearestLoop_mem space e pre 0 (-1) (-1) with h | ⟨j, z, hj, h⟩
      · rw [hr, h]; exact fun h' => FloatOrder.nan_not_lt h' hneg
      · rw [hr, h]; exact hnan z (List.mem_of_getElem? hj)
    rcases FloatOrder.cotrans r.2 hnum hx with h | h
    · exact Or.inr h
    · exact Or.inl h
  rw [nearestLoop]
  try simp only
  rw [if_pos hcond, nearestLoop]
  try simp only
  rw [if_pos (Or.inl hx)]
  rcases nearestLoop_mem space e post (0 + pre.length + 1 + 1)
    ((0 + pre.length + 1 : Nat) : Int) (space.dist e y) with h | ⟨j, z, _, h⟩
  · rw [h]; simp only; omega
  · rw [h]; simp only; omega

/-- A space with negative distances (like a cosine distance spoiled by rounding). -/
def negSpace : Space Int Int where
  dist a b := b - a
  combine a _ _ _ := a
  copy a := a
  dim _ := 1

/-- Witness: the distances of the three centroids to `0` are `-5, 3, 4`; the nearest is label 0 but
label 1 is returned. -/
example : nearest negSpace [-5, 3, 4] 0 = (1, 3) := by decide

/-- **C05.** `MapLabel` returns one label and one distance per element, in order, the same as
`Assign` on that element. -/
theorem C05_mapLabel_assign (hneg : (-1 : F) < 0) (space : Space E F) (c elemts : List E) :
    (mapLabel space c elemts).1.length = elemts.length ∧
    (mapLabel space c elemts).2.length = elemts.length ∧
    ∀ (i : Nat) (e : E), elemts[i]? = some e →
      ∃ x l d, assign space c e = some (x, l, d) ∧
        (mapLabel space c elemts).1[i]? = some l ∧ (mapLabel space c elemts).2[i]? = some d := by
  refine ⟨by simp [mapLabel], by simp [mapLabel], ?_⟩
  intro i e he
  by_cases hc : c = []
  · subst hc
    exact ⟨none, -1, -1, rfl, by simp [mapLabel, he, nearest_nil],
      by simp [mapLabel, he, nearest_nil]⟩
  · obtain ⟨j, x, _, h1, h2⟩ := assign_eq hneg space c e hc
    exact ⟨_, _, _, h2, by simp [mapLabel, he, h1], by simp [mapLabel, he, h1]⟩

example : (mapLabel exSpace [0, 10] [1, 9, 4]).1[1]? = some 1 := by decide

end
end Distclus
