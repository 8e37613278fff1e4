import Verif.Proof.Rounding
import Verif.Proof.Euclid
import Verif.Spec.Fl
import Mathlib.Tactic.GCongr
/-!
# Errors of the Euclidean operations in floating point
-/
namespace Distclus

namespace Fl
variable {r : Rounding}

theorem ext {x y : Fl r} (h : x.val = y.val) : x = y := Subtype.ext h
theorem val_add (x y : Fl r) : (x + y).val = r.rnd (x.val + y.val) := rfl
theorem val_sub (x y : Fl r) : (x - y).val = r.rnd (x.val - y.val) := rfl
theorem val_mul (x y : Fl r) : (x * y).val = r.rnd (x.val * y.val) := rfl
theorem val_div (x y : Fl r) : (x / y).val = r.rnd (x.val / y.val) := rfl
theorem val_zero : (0 : Fl r).val = 0 := rfl
theorem val_one : (1 : Fl r).val = 1 := rfl
theorem val_neg (x : Fl r) : (-x).val = -x.val := rfl
theorem val_sqrt (x : Fl r) : (GoMath.sqrt x).val = r.rnd (Real.sqrt x.val) := rfl
theorem val_ofInt (n : Int) : (GoMath.ofInt n : Fl r).val = r.rnd n := rfl
theorem rnd_val (x : Fl r) : r.rnd x.val = x.val := x.2
theorem le_iff {x y : Fl r} : x ≤ y ↔ x.val ≤ y.val := Iff.rfl
theorem lt_iff {x y : Fl r} : x < y ↔ x.val < y.val := by rw [lt_iff_not_ge, lt_iff_not_ge, le_iff]

theorem neg_one_lt_zero : (-1 : Fl r) < 0 := by
  rw [lt_iff, val_neg, val_one, val_zero]; norm_num

/-- Addition is monotone: what C44–C49 ask of the numbers. -/
theorem add_mono_left (a b x : Fl r) (h : a ≤ b) : a + x ≤ b + x := by
  rw [le_iff, val_add, val_add]
  exact r.mono (by have := le_iff.1 h; linarith)

theorem zero_add_zero : (0 : Fl r) + 0 = 0 := by
  apply ext; rw [val_add, val_zero, add_zero, r.zero]

theorem add_nonneg' {a b : Fl r} (ha : 0 ≤ a) (hb : 0 ≤ b) : 0 ≤ a + b := by
  rw [le_iff, val_zero, val_add, ← r.zero]
  exact r.mono (by have := le_iff.1 ha; have := le_iff.1 hb; rw [val_zero] at *; linarith)

end Fl

namespace Rounding
variable (r : Rounding)

theorem rnd_nonneg {x : ℝ} (h : 0 ≤ x) : 0 ≤ r.rnd x := by
  rw [← r.zero]; exact r.mono h

theorem add_le (x y : Fl r) (h : 0 ≤ x.val + y.val) :
    (1 - r.u) * (x.val + y.val) ≤ (x + y).val ∧ (x + y).val ≤ (1 + r.u) * (x.val + y.val) := by
  have := abs_le.1 (r.err_add x.val y.val x.2 y.2)
  rw [abs_of_nonneg h] at this
  rw [Fl.val_add]
  constructor <;> linarith [this.1, this.2]

/-- One term of the loop of `PointDist`. -/
theorem term_le (a b : Fl r) :
    (1 - r.u) ^ 3 * (a.val - b.val) ^ 2 - r.η ≤ ((a - b) * (a - b)).val ∧
    ((a - b) * (a - b)).val ≤ (1 + r.u) ^ 3 * (a.val - b.val) ^ 2 + r.η ∧
    0 ≤ ((a - b) * (a - b)).val := by
  have hu := r.u_nonneg
  have hu1 := r.u_le_one
  have hd := r.err_add a.val (-b).val a.2 (-b).2
  rw [Fl.val_neg, ← sub_eq_add_neg] at hd
  set v := (a - b).val with hv
  have hv' : v = r.rnd (a.val - b.val) := rfl
  rw [← hv'] at hd
  have hm := r.err (v * v)
  rw [abs_of_nonneg (mul_self_nonneg v)] at hm
  have hm := abs_le.1 hm
  have hval : ((a - b) * (a - b)).val = r.rnd (v * v) := rfl
  rw [hval]
  have h1 : |v| ≤ (1 + r.u) * |a.val - b.val| := by
    have := abs_sub_abs_le_abs_sub v (a.val - b.val)
    linarith
  have h2 : (1 - r.u) * |a.val - b.val| ≤ |v| := by
    have := abs_sub_abs_le_abs_sub (a.val - b.val) v
    rw [abs_sub_comm (a.val - b.val) v] at this
    linarith
  have e1 : v * v = |v| ^ 2 := by rw [sq_abs]; ring
  have e2 : (a.val - b.val) ^ 2 = |a.val - b.val| ^ 2 := (sq_abs _).symm
  have h1' : v * v ≤ (1 + r.u) ^ 2 * (a.val - b.val) ^ 2 := by
    rw [e1, e2, ← mul_pow]; gcongr
  have h2' : (1 - r.u) ^ 2 * (a.val - b.val) ^ 2 ≤ v * v := by
    rw [e1, e2, ← mul_pow]
    have : 0 ≤ (1 - r.u) * |a.val - b.val| := mul_nonneg (by linarith) (abs_nonneg _)
    gcongr
  refine ⟨?_, ?_, r.rnd_nonneg (mul_self_nonneg v)⟩
  · have : (1 - r.u) * ((1 - r.u) ^ 2 * (a.val - b.val) ^ 2) ≤ (1 - r.u) * (v * v) :=
      mul_le_mul_of_nonneg_left h2' (by linarith)
    nlinarith [hm.1]
  · have : (1 + r.u) * (v * v) ≤ (1 + r.u) * ((1 + r.u) ^ 2 * (a.val - b.val) ^ 2) :=
      mul_le_mul_of_nonneg_left h1' (by linarith)
    nlinarith [hm.2]

/-- The loop of `PointDist`. -/
theorem sum_le (l : List (Fl r × Fl r)) : ∀ s : Fl r, 0 ≤ s.val →
    let S := (l.map fun ab => (ab.1.val - ab.2.val) ^ 2).sum
    let R := l.foldl (fun s ab => s + (ab.1 - ab.2) * (ab.1 - ab.2)) s
    0 ≤ R.val ∧
    (1 - r.u) ^ l.length * (s.val + (1 - r.u) ^ 3 * S) - l.length * r.η ≤ R.val ∧
    R.val ≤ (1 + r.u) ^ l.length * (s.val + (1 + r.u) ^ 3 * S + l.length * r.η) := by
  have hu := r.u_nonneg
  have hu1 : 0 ≤ 1 - r.u := by linarith [r.u_le_one]
  have hη := r.η_nonneg
  induction l with
  | nil => intro s hs; simp [hs]
  | cons ab l ih =>
    intro s hs
    simp only [List.map_cons, List.sum_cons, List.foldl_cons, List.length_cons]
    obtain ⟨t1, t2, t3⟩ := r.term_le ab.1 ab.2
    set q := (ab.1 - ab.2) * (ab.1 - ab.2) with hq
    obtain ⟨s1, s2⟩ := r.add_le s q (by linarith)
    have hs' : 0 ≤ (s + q).val := r.rnd_nonneg (show 0 ≤ s.val + q.val by linarith)
    obtain ⟨h1, h2, h3⟩ := ih (s + q) hs'
    set S := (l.map fun ab => (ab.1.val - ab.2.val) ^ 2).sum
    set d := (ab.1.val - ab.2.val) ^ 2
    have hS : 0 ≤ S := List.sum_nonneg (by simp only [List.mem_map]; rintro _ ⟨x, _, rfl⟩; positivity)
    have hd : 0 ≤ d := by positivity
    refine ⟨h1, ?_, ?_⟩
    · refine le_trans ?_ h2
      have hp : 0 ≤ (1 - r.u) ^ l.length := pow_nonneg hu1 _
      have hp1 : (1 - r.u) ^ l.length ≤ 1 := pow_le_one₀ hu1 (by linarith)
      have hp3 : 0 ≤ (1 - r.u) ^ 3 := pow_nonneg hu1 _
      -- s' ≥ (1-u)(s + (1-u)^3 d) - η
      have k1 : (1 - r.u) * (s.val + (1 - r.u) ^ 3 * d) - r.η ≤ (s + q).val := by
        have : (1 - r.u) * (s.val + ((1 - r.u) ^ 3 * d - r.η)) ≤ (1 - r.u) * (s.val + q.val) :=
          mul_le_mul_of_nonneg_left (by linarith) hu1
        nlinarith
      have k2 : (1 - r.u) * ((1 - r.u) ^ 3 * S) ≤ (1 - r.u) ^ 3 * S := by
        have : 0 ≤ (1 - r.u) ^ 3 * S := mul_nonneg hp3 hS
        nlinarith
      have k3 : (1 - r.u) ^ l.length * ((1 - r.u) * (s.val + (1 - r.u) ^ 3 * (d + S)) - r.η) ≤
          (1 - r.u) ^ l.length * ((s + q).val + (1 - r.u) ^ 3 * S) :=
        mul_le_mul_of_nonneg_left (by linarith) hp
      have k4 : (1 - r.u) ^ l.length * r.η ≤ r.η := by nlinarith
      push_cast
      rw [pow_succ _ l.length]
      linarith
    · refine h3.trans ?_
      have hp : 0 ≤ (1 + r.u) ^ l.length := by positivity
      have k1 : (s + q).val ≤ (1 + r.u) * (s.val + (1 + r.u) ^ 3 * d + r.η) := by
        refine s2.trans (mul_le_mul_of_nonneg_left (by linarith) (by linarith))
      have k2 : (1 + r.u) ^ 3 * S + l.length * r.η ≤
          (1 + r.u) * ((1 + r.u) ^ 3 * S + l.length * r.η) := by
        have : 0 ≤ (1 + r.u) ^ 3 * S + l.length * r.η := by positivity
        nlinarith
      have k3 : (1 + r.u) ^ l.length * ((s + q).val + (1 + r.u) ^ 3 * S + l.length * r.η) ≤
          (1 + r.u) ^ l.length * ((1 + r.u) * (s.val + (1 + r.u) ^ 3 * (d + S) +
            (l.length + 1) * r.η)) :=
        mul_le_mul_of_nonneg_left (by linarith) hp
      push_cast
      rw [pow_succ _ l.length, mul_assoc ((1 + r.u) ^ l.length)]
      exact k3

end Rounding

theorem sqDist_nonneg {n : Nat} (x y : Fin n → ℝ) : 0 ≤ sqDist x y :=
  Finset.sum_nonneg fun _ _ => by positivity

theorem sqDist_list {r : Rounding} : ∀ (n : Nat) (a b : Vec (Fl r) n),
    ((List.zip a.1 b.1).map fun ab => (ab.1.val - ab.2.val) ^ 2).sum = sqDist a.real b.real := by
  intro n
  have key : ∀ (l m : List (Fl r)) (hl : l.length = n) (hm : m.length = n),
      ((List.zip l m).map fun ab => (ab.1.val - ab.2.val) ^ 2).sum =
        ∑ i : Fin n, ((l[i.1]'(by rw [hl]; exact i.2)).val - (m[i.1]'(by rw [hm]; exact i.2)).val) ^ 2 := by
    induction n with
    | zero =>
      intro l m hl hm
      rw [List.length_eq_zero_iff] at hl hm
      subst hl hm; simp
    | succ n ih =>
      intro l m hl hm
      cases l with
      | nil => simp at hl
      | cons a l =>
        cases m with
        | nil => simp at hm
        | cons b m =>
          rw [List.zip_cons_cons, List.map_cons, List.sum_cons, Fin.sum_univ_succ,
            ih l m (by simpa using hl) (by simpa using hm)]
          congr 1
  intro a b
  exact key a.1 b.1 a.2 b.2

/-- **The error of `Dist`**, in terms of the squares. -/
theorem fl_dist_err {r : Rounding} {n : Nat} (a b : Vec (Fl r) n) :
    let d := ((euclidSpace (Fl r) n).dist a b).val
    0 ≤ d ∧ (1 - r.u) ^ (n + 5) * sqDist a.real b.real - n * r.η ≤ d ^ 2 ∧
      d ^ 2 ≤ (1 + r.u) ^ (n + 5) * (sqDist a.real b.real + n * r.η) := by
  intro d
  have hu := r.u_nonneg
  have hu1 : 0 ≤ 1 - r.u := by linarith [r.u_le_one]
  have hη := r.η_nonneg
  have hlen : (List.zip a.1 b.1).length = n := by rw [List.length_zip, a.2, b.2, Nat.min_self]
  obtain ⟨h0, h1, h2⟩ := r.sum_le (List.zip a.1 b.1) 0 le_rfl
  rw [sqDist_list, hlen, Fl.val_zero, zero_add] at h1 h2
  set R := (List.zip a.1 b.1).foldl (fun s ab => s + (ab.1 - ab.2) * (ab.1 - ab.2)) (0 : Fl r)
  have hd : d = r.rnd (Real.sqrt R.val) := rfl
  have he := abs_le.1 (r.err_sqrt R.val R.2 h0)
  rw [← hd] at he
  have hs := Real.sqrt_nonneg R.val
  have hsq := Real.sq_sqrt h0
  have d1 : (1 - r.u) * Real.sqrt R.val ≤ d := by linarith [he.1]
  have d2 : d ≤ (1 + r.u) * Real.sqrt R.val := by linarith [he.2]
  have hd0 : 0 ≤ d := r.rnd_nonneg hs
  have hS := sqDist_nonneg a.real b.real
  set S := sqDist a.real b.real
  refine ⟨hd0, ?_, ?_⟩
  · have k : (1 - r.u) ^ 2 * R.val ≤ d ^ 2 := by
      rw [← hsq, ← mul_pow]
      exact pow_le_pow_left₀ (mul_nonneg hu1 hs) d1 2
    refine le_trans ?_ k
    have k1 := mul_le_mul_of_nonneg_left h1 (pow_nonneg hu1 2)
    refine le_trans ?_ k1
    have k2 : (1 - r.u) ^ 2 ≤ 1 := pow_le_one₀ hu1 (by linarith)
    have k3 : (1 - r.u) ^ 2 * (n * r.η) ≤ n * r.η := by
      have : 0 ≤ n * r.η := by positivity
      nlinarith
    have k4 : (1 - r.u) ^ (n + 5) * S = (1 - r.u) ^ 2 * ((1 - r.u) ^ n * ((1 - r.u) ^ 3 * S)) := by ring
    rw [mul_sub, k4]
    linarith
  · have k : d ^ 2 ≤ (1 + r.u) ^ 2 * R.val := by
      rw [← hsq, ← mul_pow]
      exact pow_le_pow_left₀ hd0 d2 2
    refine k.trans ((mul_le_mul_of_nonneg_left h2 (by positivity)).trans ?_)
    have k2 : (n : ℝ) * r.η ≤ (1 + r.u) ^ 3 * (n * r.η) := by
      have h1 : 1 ≤ (1 + r.u) ^ 3 := one_le_pow₀ (by linarith)
      have : 0 ≤ (n : ℝ) * r.η := by positivity
      nlinarith
    have k3 : (1 + r.u) ^ (n + 5) * (S + n * r.η) =
        (1 + r.u) ^ 2 * ((1 + r.u) ^ n * ((1 + r.u) ^ 3 * S + (1 + r.u) ^ 3 * (n * r.η))) := by ring
    rw [k3]
    gcongr

end Distclus
