import Verif.Spec.Vec
import Verif.Spec.Mean
import Verif.Model.RealMath
import Mathlib.Algebra.BigOperators.Fin
import Mathlib.Tactic.Ring
import Mathlib.Tactic.FieldSimp

namespace Distclus

theorem Vec.coords_inj {F : Type} {n : Nat} {a b : Vec F n} (h : a.coords = b.coords) : a = b := by
  apply Subtype.ext
  apply List.ext_getElem
  · rw [a.2, b.2]
  · intro i h1 h2
    exact congrFun h ⟨i, by rw [← a.2]; exact h1⟩

theorem Vec.coords_of {F : Type} {n : Nat} (f : Fin n → F) : (Vec.of f).coords = f := by
  funext i
  simp [Vec.coords, Vec.of]

/-- The Euclidean `Combine` in exact arithmetic is the weighted mean (as long as the weights do not
cancel). -/
theorem euclid_combine_coords {n : Nat} (a b : Vec ℝ n) (w v : Int) :
    ((euclidSpace ℝ n).combine a w b v).coords =
      ((w : ℝ) + v)⁻¹ • ((w : ℝ) • a.coords + (v : ℝ) • b.coords) := by
  funext i
  simp only [Vec.coords, euclidSpace, pointCombine, List.getElem_zipWith, GoMath.ofInt,
    Pi.smul_apply, Pi.add_apply, smul_eq_mul]
  rw [div_eq_inv_mul]
  ring

theorem euclid_barycentric (n : Nat) :
    Spec.Barycentric (euclidSpace ℝ n) (Vec.coords : Vec ℝ n → Fin n → ℝ) where
  inj _ _ h := Vec.coords_inj h
  copy _ := rfl
  combine a b w v _ _ := euclid_combine_coords a b w v

theorem cosinus_barycentric (n : Nat) :
    Spec.Barycentric (cosinusSpace ℝ n) (Vec.coords : Vec ℝ n → Fin n → ℝ) where
  inj _ _ h := Vec.coords_inj h
  copy _ := rfl
  combine a b w v _ _ := euclid_combine_coords a b w v

/-- The loop of `PointDist` as a sum over coordinates. -/
theorem foldl_zip_sum (f : ℝ → ℝ → ℝ) : ∀ (n : Nat) (l m : List ℝ) (hl : l.length = n)
    (hm : m.length = n) (s : ℝ),
    (List.zip l m).foldl (fun s ab => s + f ab.1 ab.2) s =
      s + ∑ i : Fin n, f (l[i.1]'(by rw [hl]; exact i.2)) (m[i.1]'(by rw [hm]; exact i.2)) := by
  intro n
  induction n with
  | zero =>
    intro l m hl hm s
    rw [List.length_eq_zero_iff] at hl hm
    subst hl hm
    simp
  | succ n ih =>
    intro l m hl hm s
    cases l with
    | nil => simp at hl
    | cons a l =>
      cases m with
      | nil => simp at hm
      | cons b m =>
        simp only [List.zip_cons_cons, List.foldl_cons]
        rw [ih l m (by simpa using hl) (by simpa using hm), Fin.sum_univ_succ, add_assoc]
        congr 2

theorem euclid_dist_eq {n : Nat} (a b : Vec ℝ n) :
    (euclidSpace ℝ n).dist a b = Real.sqrt (∑ i, (a.coords i - b.coords i) ^ 2) := by
  simp only [euclidSpace, pointDist, GoMath.sqrt]
  rw [foldl_zip_sum (fun x y => (x - y) * (x - y)) n a.1 b.1 a.2 b.2 0, zero_add]
  congr 1
  apply Finset.sum_congr rfl
  intro i _
  simp only [Vec.coords]
  ring

theorem scalarProduct_eq {n : Nat} (a b : Vec ℝ n) :
    scalarProduct a.1 b.1 = ∑ i, a.coords i * b.coords i := by
  simp only [scalarProduct]
  rw [foldl_zip_sum (fun x y => x * y) n a.1 b.1 a.2 b.2 0, zero_add]
  rfl

end Distclus
