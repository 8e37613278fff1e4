import Verif.Proof.FlLoss
import Verif.Props.Fl
import Verif.Props.KMeansInit
/-!
# Lemmas for C141: the weighted choice with rounding
-/
namespace Distclus
open Spec

section
variable {r : Rounding}

theorem Fl.sub_pos_iff (hu : r.u < 1) (a b : Fl r) : 0 < (a - b).val ↔ b.val < a.val := by
  have h := abs_le.1 (r.err_add a.val (-b.val) a.2 (by rw [r.neg]; exact congrArg _ b.2))
  rw [← sub_eq_add_neg] at h
  rw [Fl.val_sub]
  rcases lt_or_ge b.val a.val with hlt | hge
  · have hp : 0 < a.val - b.val := by linarith
    rw [abs_of_pos hp] at h
    refine ⟨fun _ => hlt, fun _ => ?_⟩
    nlinarith [h.1]
  · refine ⟨fun hp => ?_, fun hp => absurd hp (not_lt.2 hge)⟩
    have := r.mono (show a.val - b.val ≤ 0 by linarith)
    rw [r.zero] at this
    linarith

theorem Fl.sub_bounds (a b : Fl r) (h : b.val ≤ a.val) :
    (1 - r.u) * (a.val - b.val) ≤ (a - b).val ∧ (a - b).val ≤ (1 + r.u) * (a.val - b.val) := by
  have h' := abs_le.1 (r.err_add a.val (-b.val) a.2 (by rw [r.neg]; exact congrArg _ b.2))
  rw [← sub_eq_add_neg, abs_of_nonneg (by linarith : 0 ≤ a.val - b.val)] at h'
  rw [Fl.val_sub]
  constructor <;> nlinarith [h'.1, h'.2]

/-- The values of the weights. -/
def vals (ws : List (Fl r)) : List ℝ := ws.map Fl.val

theorem choiceLoop_fl (hu : r.u < 1) : ∀ (ws : List (Fl r)) (cursor : Fl r) (idx : Int),
    (∀ w ∈ ws, 0 ≤ w.val) → 0 < cursor.val →
    (choiceLoop ws cursor idx = none ∧ (vals ws).sum < (1 + r.u) ^ ws.length * cursor.val) ∨
    ∃ (j : Nat) (w : Fl r), choiceLoop ws cursor idx = some (idx + j) ∧ ws[j]? = some w ∧ 0 < w.val ∧
      ((vals ws).take j).sum < (1 + r.u) ^ j * cursor.val ∧
      (1 - r.u) ^ j * cursor.val ≤ ((vals ws).take (j + 1)).sum := by
  have hu0 := r.u_nonneg
  intro ws
  induction ws with
  | nil =>
    intro cursor idx _ hc
    left
    refine ⟨?_, by simpa [vals] using hc⟩
    rw [choiceLoop, if_pos (show (0 : Fl r) < cursor from hc)]
  | cons w ws ih =>
    intro cursor idx hw hc
    have hw0 : 0 ≤ w.val := hw w (by simp)
    have hc' : (0 : Fl r) < cursor := hc
    by_cases h : 0 < (cursor - w).val
    · have hlt := (Fl.sub_pos_iff hu cursor w).1 h
      obtain ⟨b1, b2⟩ := Fl.sub_bounds cursor w hlt.le
      have p1 : ∀ n : Nat, w.val + (1 + r.u) ^ n * (cursor - w).val ≤ (1 + r.u) ^ (n + 1) * cursor.val := by
        intro n
        have h1 : (1 : ℝ) ≤ (1 + r.u) ^ (n + 1) := one_le_pow₀ (by linarith)
        have h2 : 0 ≤ (1 + r.u) ^ n := by positivity
        have h3 := mul_le_mul_of_nonneg_left b2 h2
        have h4 : (1 + r.u) ^ n * ((1 + r.u) * (cursor.val - w.val)) =
            (1 + r.u) ^ (n + 1) * (cursor.val - w.val) := by ring
        nlinarith
      rcases ih (cursor - w) (idx + 1) (fun x hx => hw x (by simp [hx])) h with ⟨e1, e2⟩ | ⟨j, v, e1, e2, e3, e4, e5⟩
      · left
        refine ⟨by rw [choiceLoop, if_pos hc', e1], ?_⟩
        have := p1 ws.length
        simp only [vals, List.map_cons, List.sum_cons, List.length_cons] at e2 ⊢
        linarith
      · right
        refine ⟨j + 1, v, ?_, by simpa using e2, e3, ?_, ?_⟩
        · rw [choiceLoop, if_pos hc', e1]; congr 1; push_cast; ring
        · have := p1 j
          simp only [vals, List.map_cons, List.take_succ_cons, List.sum_cons] at e4 ⊢
          linarith
        · have h1 : (1 - r.u) ^ (j + 1) ≤ 1 := pow_le_one₀ (by linarith) (by linarith)
          have h2 : 0 ≤ (1 - r.u) ^ j := pow_nonneg (by linarith) _
          have h3 := mul_le_mul_of_nonneg_left b1 h2
          have h4 : (1 - r.u) ^ j * ((1 - r.u) * (cursor.val - w.val)) =
              (1 - r.u) ^ (j + 1) * (cursor.val - w.val) := by ring
          simp only [vals, List.map_cons, List.take_succ_cons, List.sum_cons] at e5 ⊢
          nlinarith
    · right
      have hle : cursor.val ≤ w.val := by
        by_contra hlt
        exact h ((Fl.sub_pos_iff hu cursor w).2 (not_le.1 hlt))
      refine ⟨0, w, ?_, by simp, by linarith, by simpa using hc, by simpa [vals] using hle⟩
      rw [choiceLoop, if_pos hc']
      have h' : ¬ (0 : Fl r) < cursor - w := h
      cases ws <;> simp only [choiceLoop, if_neg h'] <;> simp

theorem sumF_fl (ws : List (Fl r)) (hw : ∀ w ∈ ws, 0 ≤ w.val) :
    (1 - r.u) ^ (ws.length - 1) * (vals ws).sum ≤ (sumF ws).val ∧
      (sumF ws).val ≤ (1 + r.u) ^ (ws.length - 1) * (vals ws).sum :=
  SumOf.fl (by simpa [sumF] using sumOf_foldl ws [] 0 .zero) hw

theorem vals_nonneg {ws : List (Fl r)} (hw : ∀ w ∈ ws, 0 ≤ w.val) : ∀ w ∈ vals ws, 0 ≤ w := by
  intro w h
  obtain ⟨v, hv, rfl⟩ := List.mem_map.1 h
  exact hw v hv

theorem sumF_pos (hu : r.u < 1) (ws : List (Fl r)) (hw : ∀ w ∈ ws, 0 ≤ w.val) :
    0 < (sumF ws).val ↔ 0 < (vals ws).sum := by
  obtain ⟨h1, h2⟩ := sumF_fl ws hw
  have h3 : 0 ≤ (vals ws).sum := List.sum_nonneg (vals_nonneg hw)
  constructor
  · intro h
    rcases h3.eq_or_lt with h0 | h0
    · rw [← h0, mul_zero] at h2; linarith
    · exact h0
  · intro h
    have : 0 < (1 - r.u) ^ (ws.length - 1) * (vals ws).sum := by
      have : 0 < 1 - r.u := by linarith
      positivity
    linarith

/-- Exact choice, the draw being in (0,1]. -/
theorem weightedChoice_exact (ws : List ℝ) (hw : ∀ w ∈ ws, 0 ≤ w) (x : ℝ) (i : Nat) (hs : 0 < ws.sum)
    (h1 : (ws.take i).sum < x * ws.sum) (h2 : x * ws.sum ≤ (ws.take (i + 1)).sum) :
    weightedChoice ws x = .ok (i : Int) := by
  have h0 : 0 ≤ (ws.take i).sum := List.sum_nonneg fun y hy => hw y (List.mem_of_mem_take hy)
  have hle : (ws.take (i + 1)).sum ≤ ws.sum := by
    rcases le_total (i + 1) ws.length with h | h
    · have := sum_take_mono hw h
      rwa [List.take_length] at this
    · rw [List.take_of_length_le h]
  obtain ⟨j, e1, e2, e3, e4⟩ := choiceLoop_spec ws (x * ws.sum) 0 hw (by linarith) (by linarith)
  have hij : j = i := by
    rcases Nat.lt_trichotomy j i with h | h | h
    · have := sum_take_mono hw (show j + 1 ≤ i by omega); linarith
    · exact h
    · have := sum_take_mono hw (show i + 1 ≤ j by omega); linarith
  subst hij
  unfold weightedChoice
  have : (sumF ws == 0) = false := by
    rw [sumF_sum]; exact beq_eq_false_iff_ne.2 (ne_of_gt hs)
  simp only [this, Bool.false_eq_true, if_false]
  rw [sumF_sum, e1]
  simp

end

/-- A rounding of a positive number half-way between two numbers goes to the even one. -/
theorem binary64_tie {x : ℝ} (k m : ℤ) (hk : -1022 ≤ k) (h1 : 2 ^ k ≤ x) (h2 : x < 2 ^ (k + 1))
    (h : x / 2 ^ (k - 52) = m + 1 / 2) :
    binary64.rnd x = (if Even m then m else m + 1 : ℤ) * 2 ^ (k - 52) := by
  have h0 : 0 < x := lt_of_lt_of_le (two_zpow_pos k) h1
  have hl : Int.log 2 |x| = k := by
    rw [abs_of_pos h0]
    exact le_antisymm (log_le_of_lt h0 h2) (le_log_of_le h0 h1)
  have hu : ulpExp 53 (-1074) x = k - 52 := by
    unfold ulpExp; rw [hl]; push_cast; omega
  show roundTo 53 (-1074) x = _
  unfold roundTo
  rw [hu, h]
  have hf : ⌊(m : ℝ) + 1 / 2⌋ = m := by
    rw [Int.floor_eq_iff]; constructor <;> linarith
  congr 2
  unfold rne
  rw [hf, if_neg (by linarith), if_neg (by linarith)]

/-- Results which do not underflow have the relative error of `float64`. -/
theorem binary64_rel {x : ℝ} (h : 2 ^ (-1022 : ℤ) ≤ x) : |binary64.rnd x - x| ≤ binary64.u * x := by
  have h0 : 0 < x := lt_of_lt_of_le (two_zpow_pos _) h
  have hl : -1022 ≤ Int.log 2 |x| := by
    rw [abs_of_pos h0]; exact le_log_of_le h0 h
  have := roundTo_rel (p := 53) (emin := -1074) (x := x) (by unfold ulpExp; push_cast; omega)
  rwa [abs_of_pos h0] at this

end Distclus
