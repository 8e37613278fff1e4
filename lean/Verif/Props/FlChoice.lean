import Verif.Proof.FlChoice
import Verif.Props.Fl64
import Verif.Model.Mcmc
/-!
# C141: the weighted choice, k-means++ and the move of mcmc, with rounding
-/
namespace Distclus
open Spec

section
variable {r : Rounding}

/-- **C141.** With rounding, non-negative weights of positive sum and a draw whose product with the sum
does not underflow: an index which `WeightedChoice` returns is in range, has a positive weight, and is
the one exact arithmetic returns for a draw within a factor `(1 ± u)^(2N)`; an index panic needs a draw
above `1 / (1 + u)^(2N)`. -/
theorem C141_choice (hu : r.u < 1) (ws : List (Fl r)) (hw : ∀ w ∈ ws, 0 ≤ w.val) (x : Fl r)
    (hx : 0 < x.val) (hs : 0 < (ws.map Fl.val).sum)
    (hm : |(x * sumF ws).val - x.val * (sumF ws).val| ≤ r.u * (x.val * (sumF ws).val)) :
    weightedChoice ws x ≠ .nullSet ∧
    (weightedChoice ws x = .panic → 1 < (1 + r.u) ^ (2 * ws.length) * x.val) ∧
    ∀ i : Int, weightedChoice ws x = .ok i →
      (∃ (j : Nat) (w : Fl r), i = j ∧ ws[j]? = some w ∧ 0 < w.val) ∧
      ∃ x' : ℝ, (1 - r.u) ^ (2 * ws.length) * x.val ≤ x' ∧ x' ≤ (1 + r.u) ^ (2 * ws.length) * x.val ∧
        weightedChoice (ws.map Fl.val) x' = .ok i := by
  have hu0 := r.u_nonneg
  have hS := (sumF_pos hu ws hw).2 hs
  obtain ⟨s1, s2⟩ := sumF_fl ws hw
  have hN : 1 ≤ ws.length := by
    rcases ws with _ | ⟨w, ws⟩
    · simp at hs
    · simp
  have hne : (sumF ws == 0) = false := by
    apply beq_eq_false_iff_ne.2
    intro h
    rw [h] at hS
    exact lt_irrefl _ hS
  obtain ⟨m1, m2⟩ := abs_le.1 hm
  set c := x * sumF ws with hc
  set S := (vals ws).sum with hSdef
  have hsS : (ws.map Fl.val).sum = S := rfl
  rw [hsS] at hs
  have hxS : 0 < x.val * S := mul_pos hx hs
  have k1 : (1 - r.u) ^ ws.length * (x.val * S) ≤ c.val := by
    have e : (1 - r.u) ^ ws.length = (1 - r.u) * (1 - r.u) ^ (ws.length - 1) := by
      rw [← pow_succ', Nat.sub_add_cancel hN]
    have h1 := mul_le_mul_of_nonneg_left s1 hx.le
    have h2 : 0 ≤ 1 - r.u := by linarith
    have h3 := mul_le_mul_of_nonneg_left h1 h2
    rw [e]; linarith
  have k2 : c.val ≤ (1 + r.u) ^ ws.length * (x.val * S) := by
    have e : (1 + r.u) ^ ws.length = (1 + r.u) * (1 + r.u) ^ (ws.length - 1) := by
      rw [← pow_succ', Nat.sub_add_cancel hN]
    have h1 := mul_le_mul_of_nonneg_left s2 hx.le
    have h2 : 0 ≤ 1 + r.u := by linarith
    have h3 := mul_le_mul_of_nonneg_left h1 h2
    rw [e]; linarith
  have hc0 : 0 < c.val := by
    have : 0 < 1 - r.u := by linarith
    have : 0 < (1 - r.u) ^ ws.length * (x.val * S) := by positivity
    linarith
  have hwc : weightedChoice ws x = match choiceLoop ws c 0 with
      | none => .panic
      | some i => .ok i := by
    unfold weightedChoice
    simp only [hne, Bool.false_eq_true, if_false]
    rfl
  -- bounds of the cursor after `j` turns
  have up : ∀ j ≤ ws.length, (1 + r.u) ^ j * c.val ≤ (1 + r.u) ^ (2 * ws.length) * x.val * S := by
    intro j hj
    have h1 : (1 + r.u) ^ j * c.val ≤ (1 + r.u) ^ j * ((1 + r.u) ^ ws.length * (x.val * S)) := by gcongr
    have h2 : (1 + r.u) ^ (j + ws.length) ≤ (1 + r.u) ^ (2 * ws.length) :=
      pow_le_pow_right₀ (by linarith) (by omega)
    rw [pow_add] at h2
    nlinarith
  have lo : ∀ j ≤ ws.length, (1 - r.u) ^ (2 * ws.length) * x.val * S ≤ (1 - r.u) ^ j * c.val := by
    intro j hj
    have h0 : 0 ≤ (1 - r.u) ^ j := pow_nonneg (by linarith) _
    have h1 := mul_le_mul_of_nonneg_left k1 h0
    have h2 : (1 - r.u) ^ (2 * ws.length) ≤ (1 - r.u) ^ (j + ws.length) :=
      pow_le_pow_of_le_one (by linarith) (by linarith) (by omega)
    rw [pow_add] at h2
    nlinarith
  rcases choiceLoop_fl hu ws c 0 hw hc0 with ⟨e1, e2⟩ | ⟨j, w, e1, e2, e3, e4, e5⟩
  · rw [hwc, e1]
    refine ⟨by simp, fun _ => ?_, fun i h => by cases h⟩
    have := up ws.length le_rfl
    have : S * 1 < S * ((1 + r.u) ^ (2 * ws.length) * x.val) := by linarith
    exact lt_of_mul_lt_mul_left this hs.le
  · rw [hwc, e1]
    refine ⟨by simp, fun h => by simp at h, fun i h => ?_⟩
    have hij : i = j := by
      simp only [ChoiceRes.ok.injEq] at h; omega
    subst hij
    have hjl : j < ws.length := (List.getElem?_eq_some_iff.1 e2).1
    refine ⟨⟨j, w, rfl, e2, e3⟩, ?_⟩
    set P := ((vals ws).take j).sum with hP
    set Q := ((vals ws).take (j + 1)).sum with hQ
    have hPQ : P < Q := by
      have hj' : j < (vals ws).length := by simpa [vals] using hjl
      have hv : (vals ws)[j] = w.val := by
        have := (List.getElem?_eq_some_iff.1 e2).2
        simp [vals, this]
      rw [hQ, List.take_succ_eq_append_getElem hj', List.sum_append, hv]
      simp only [List.sum_cons, List.sum_nil]
      linarith
    have u1 := up j hjl.le
    have l1 := lo j hjl.le
    have ul : (1 - r.u) ^ (2 * ws.length) * x.val ≤ (1 + r.u) ^ (2 * ws.length) * x.val := by
      have : (1 - r.u) ^ (2 * ws.length) ≤ (1 + r.u) ^ (2 * ws.length) :=
        pow_le_pow_left₀ (by linarith) (by linarith) _
      gcongr
    refine ⟨min ((1 + r.u) ^ (2 * ws.length) * x.val) (Q / S), ?_, min_le_left _ _, ?_⟩
    · refine le_min ul ?_
      rw [le_div_iff₀ hs]
      linarith
    · refine weightedChoice_exact (vals ws) (vals_nonneg hw) _ j hs ?_ ?_
      · change P < _ * S
        rcases min_choice ((1 + r.u) ^ (2 * ws.length) * x.val) (Q / S) with h' | h' <;> rw [h']
        · linarith
        · rw [div_mul_cancel₀ _ hs.ne']; exact hPQ
      · change _ * S ≤ Q
        calc min ((1 + r.u) ^ (2 * ws.length) * x.val) (Q / S) * S ≤ Q / S * S := by
              gcongr; exact min_le_right _ _
          _ = Q := div_mul_cancel₀ _ hs.ne'

/-- The error of the null set is returned exactly when all the weights are zero. -/
theorem C141_null (hu : r.u < 1) (ws : List (Fl r)) (hw : ∀ w ∈ ws, 0 ≤ w.val) (x : Fl r) :
    weightedChoice ws x = .nullSet ↔ ∀ w ∈ ws, w.val = 0 := by
  have h0 : weightedChoice ws x = .nullSet ↔ (sumF ws).val = 0 := by
    unfold weightedChoice
    by_cases h : sumF ws = 0
    · simp only [h, beq_self_eq_true, if_true, true_iff]; exact Fl.val_zero
    · have hne : (sumF ws == 0) = false := beq_eq_false_iff_ne.2 h
      simp only [hne, Bool.false_eq_true, if_false]
      constructor
      · intro h'; split at h' <;> cases h'
      · intro h'; exact absurd (Fl.ext h') h
  rw [h0]
  have hn := List.sum_nonneg (vals_nonneg hw)
  have hp := sumF_pos hu ws hw
  have hb := sumF_fl ws hw
  constructor
  · intro h w hwm
    have hz : (vals ws).sum = 0 := by
      rcases hn.eq_or_lt with h' | h'
      · exact h'.symm
      · have := hp.2 h'; linarith
    exact (sum_eq_zero_iff' (vals_nonneg hw)).1 hz w.val (List.mem_map.2 ⟨w, hwm, rfl⟩)
  · intro h
    have hz : (vals ws).sum = 0 := (sum_eq_zero_iff' (vals_nonneg hw)).2 (by
      intro v hv; obtain ⟨w, hwm, rfl⟩ := List.mem_map.1 hv; exact h w hwm)
    rw [hz] at hb
    linarith [hb.1, hb.2]

/-- **C141 (k-means++).** With rounding and distances which are not negative: the null set error means
that every element is at a computed distance 0 of some centre; an element drawn is one of the data, at a
positive computed distance of all the centres; an index panic needs a draw above `1 / (1 + u)^(2N)`. -/
theorem C141_ppIter {E : Type} (hu : r.u < 1) (space : Space E (Fl r))
    (h0 : ∀ a b, 0 ≤ space.dist a b) (clust elemts : List E) (hc : clust ≠ []) (he : elemts ≠ [])
    (x : Fl r) (hx : 0 < x.val)
    (hm : let s := sumF (mapLabel space clust elemts).2
      |(x * s).val - x.val * s.val| ≤ r.u * (x.val * s.val)) :
    (ppIter space clust elemts x = .nullSet ↔ ∀ e ∈ elemts, ∃ c ∈ clust, space.dist e c = 0) ∧
    (ppIter space clust elemts x = .panic → 1 < (1 + r.u) ^ (2 * elemts.length) * x.val) ∧
    ∀ y, ppIter space clust elemts x = .ok y →
      ∃ e ∈ elemts, y = space.copy e ∧ ∀ c ∈ clust, 0 < space.dist e c := by
  have near : ∀ e, ∃ z ∈ clust, (nearest space clust e).2 = space.dist e z ∧
      ∀ y ∈ clust, space.dist e z ≤ space.dist e y := by
    intro e
    cases clust with
    | nil => exact absurd rfl hc
    | cons c0 cs =>
      obtain ⟨k, z, hk, hz⟩ := nearest_spec Fl.neg_one_lt_zero space c0 cs e (fun h => h)
        (fun z _ => not_lt.2 (h0 e z))
      exact ⟨z, List.mem_of_getElem? hz.at_label, by rw [hk],
        fun y hy => not_lt.1 (hz.minimal y hy (fun h => h))⟩
  set ws := (mapLabel space clust elemts).2 with hws
  have hlen : ws.length = elemts.length := by simp [hws, mapLabel]
  have hw : ∀ w ∈ ws, 0 ≤ w.val := by
    intro w hw
    simp only [hws, mapLabel, List.mem_map] at hw
    obtain ⟨e, _, rfl⟩ := hw
    obtain ⟨z, _, h2, _⟩ := near e
    rw [h2]; exact h0 e z
  have hzero : (∀ w ∈ ws, w.val = 0) ↔ ∀ e ∈ elemts, ∃ c ∈ clust, space.dist e c = 0 := by
    simp only [hws, mapLabel, List.forall_mem_map]
    refine forall₂_congr fun e _ => ?_
    obtain ⟨z, hz, h2, h3⟩ := near e
    rw [h2]
    constructor
    · intro h; exact ⟨z, hz, Fl.ext h⟩
    · rintro ⟨c, hcm, hd⟩
      have := h3 c hcm
      rw [hd] at this
      exact congrArg Fl.val (le_antisymm this (h0 e z))
  have hnull := C141_null hu ws hw x
  by_cases hz : ∀ w ∈ ws, w.val = 0
  · have hpp : ppIter space clust elemts x = .nullSet := by
      unfold ppIter
      rw [hnull.2 hz]
      simp [he]
    rw [hpp]
    exact ⟨⟨fun _ => hzero.1 hz, fun _ => rfl⟩, by simp, by simp⟩
  · have hs : 0 < (vals ws).sum := by
      rcases (List.sum_nonneg (vals_nonneg hw)).eq_or_lt with h | h
      · exact absurd (fun w hwm => (sum_eq_zero_iff' (vals_nonneg hw)).1 h.symm w.val
          (List.mem_map.2 ⟨w, hwm, rfl⟩)) hz
      · exact h
    obtain ⟨c1, c2, c3⟩ := C141_choice hu ws hw x hx hs hm
    rw [hlen] at c2
    unfold ppIter
    rw [← hws]
    cases hwc : weightedChoice ws x with
    | nullSet => exact absurd hwc c1
    | panic =>
      refine ⟨⟨fun h => by simp at h, fun h => absurd (hzero.2 h) hz⟩, fun _ => c2 hwc, fun y h => by simp at h⟩
    | ok i =>
      obtain ⟨⟨j, w, rfl, hjw, hpos⟩, _⟩ := c3 i hwc
      have hjw' := hjw
      simp only [hws, mapLabel, List.getElem?_map, Option.map_eq_some_iff] at hjw'
      obtain ⟨e, hei, rfl⟩ := hjw'
      have hidx : idx? elemts (j : Int) = some e := by
        unfold idx?; rw [if_neg (by omega), Int.toNat_natCast, hei]
      simp only [hidx]
      refine ⟨⟨fun h => by simp at h, fun h => absurd (hzero.2 h) hz⟩, fun h => by simp at h, ?_⟩
      intro y hy
      refine ⟨e, List.mem_of_getElem? hei, by simpa using hy.symm, fun c hcm => ?_⟩
      obtain ⟨z, _, h2, h3⟩ := near e
      rw [h2] at hpos
      exact lt_of_lt_of_le hpos (h3 c hcm)

end

/-- **C141 (`float64`).** For at most 2⁵⁰ weights and a product which is not subnormal, an index panic
needs a draw above `1 - N 2⁻⁵²`, and the index is the exact one for a draw `x'` with
`|x' - x| ≤ N 2⁻⁵¹ x`. -/
theorem C141_binary64 (ws : List (Fl binary64)) (hn : ws.length ≤ 2 ^ 50) (hw : ∀ w ∈ ws, 0 ≤ w.val)
    (x : Fl binary64) (hx : 0 < x.val) (hs : 0 < (ws.map Fl.val).sum)
    (hm : 2 ^ (-1022 : ℤ) ≤ x.val * (sumF ws).val) :
    (x.val ≤ 1 - ws.length * 2 ^ (-52 : ℤ) → weightedChoice ws x ≠ .panic) ∧
    ∀ i : Int, weightedChoice ws x = .ok i →
      ∃ x' : ℝ, |x' - x.val| ≤ ws.length * 2 ^ (-51 : ℤ) * x.val ∧
        weightedChoice (ws.map Fl.val) x' = .ok i := by
  have hu : binary64.u = 2 ^ (-53 : ℤ) := rfl
  have hu1 : binary64.u < 1 := by rw [hu]; norm_num
  obtain ⟨_, h2, h3⟩ := C141_choice hu1 ws hw x hx hs (by rw [Fl.val_mul]; exact binary64_rel hm)
  have hN : (ws.length : ℝ) ≤ 2 ^ 50 := by exact_mod_cast hn
  have ea : ((2 * ws.length : ℕ) : ℝ) * binary64.u = ws.length * 2 ^ (-52 : ℤ) := by
    rw [hu]; push_cast; norm_num; ring
  have hq : ((2 * ws.length : ℕ) : ℝ) * binary64.u ≤ 1 / 4 := by
    rw [ea, show (2 : ℝ) ^ (-52 : ℤ) = 1 / 4503599627370496 by norm_num]; linarith
  obtain ⟨p1, p2⟩ := pow_bounds binary64.u_nonneg (q := 2 * ws.length) (by linarith) binary64.u_le_one
  rw [ea] at p1 p2 hq
  set a : ℝ := ws.length * 2 ^ (-52 : ℤ) with ha
  have ha0 : 0 ≤ a := by positivity
  have e51 : (ws.length : ℝ) * 2 ^ (-51 : ℤ) = 2 * a := by rw [ha]; norm_num; ring
  refine ⟨fun hxle hp => ?_, fun i hi => ?_⟩
  · have h := h2 hp
    have h' : (1 + binary64.u) ^ (2 * ws.length) * x.val ≤ 1 / (1 - a) * (1 - a) := by
      apply mul_le_mul p2 hxle hx.le
      have : 0 < 1 - a := by linarith
      positivity
    rw [div_mul_cancel₀ _ (by linarith)] at h'
    linarith
  · obtain ⟨_, x', g1, g2, g3⟩ := h3 i hi
    refine ⟨x', ?_, g3⟩
    have p3 : 1 / (1 - a) ≤ 1 + 2 * a := by
      rw [div_le_iff₀ (by linarith)]
      nlinarith
    rw [e51, abs_le]
    constructor <;> nlinarith

/-- **C141 (integer weights).** Weights which are integers of sum at most 2⁵³, as the `ProbaK` by
default, never cause an index panic, whatever the draw up to 1. -/
theorem C141_integers (ns : List Nat) (ws : List (Fl binary64)) (hw : ws.map Fl.val = ns.map (Nat.cast : ℕ → ℝ))
    (hs : ns.sum ≤ 2 ^ 53) (x : Fl binary64) (hx1 : x.val ≤ 1) : weightedChoice ws x ≠ .panic := by
  have hint : ∀ n : Nat, n ≤ 2 ^ 53 → binary64.rnd n = n := by
    intro n hn
    have := binary64_int (n : ℤ) (by rw [Nat.abs_cast]; exact_mod_cast hn)
    simpa using this
  have hsum : ∀ (ns : List Nat) (ws : List (Fl binary64)) (m : Nat) (a : Fl binary64),
      ws.map Fl.val = ns.map (Nat.cast : ℕ → ℝ) → a.val = m → m + ns.sum ≤ 2 ^ 53 →
      (ws.foldl (· + ·) a).val = (m + ns.sum : Nat) := by
    intro ns
    induction ns with
    | nil => intro ws m a hw ha _; cases ws <;> simp_all
    | cons n ns ih =>
      intro ws m a hw ha hs
      cases ws with
      | nil => simp at hw
      | cons w ws =>
        simp only [List.map_cons, List.cons.injEq, List.sum_cons] at hw hs
        rw [List.foldl_cons, ih ws (m + n) (a + w) hw.2 ?_ (by omega), List.sum_cons, Nat.add_assoc]
        rw [Fl.val_add, ha, hw.1, ← Nat.cast_add, hint _ (by omega)]
  have hS : (sumF ws).val = (ns.sum : Nat) := by
    have := hsum ns ws 0 0 hw (by rw [Fl.val_zero]; simp) (by omega)
    simpa [sumF] using this
  have hloop : ∀ (ns : List Nat) (ws : List (Fl binary64)) (c : Fl binary64) (idx : Int),
      ws.map Fl.val = ns.map (Nat.cast : ℕ → ℝ) → c.val ≤ (ns.sum : Nat) → ns.sum ≤ 2 ^ 53 →
      choiceLoop ws c idx ≠ none := by
    intro ns
    induction ns with
    | nil =>
      intro ws c idx hw hc _
      obtain rfl : ws = [] := by cases ws <;> simp_all
      have : ¬ (0 : Fl binary64) < c := by
        rw [not_lt]
        show c.val ≤ (0 : Fl binary64).val
        rw [Fl.val_zero]; simpa using hc
      rw [choiceLoop, if_neg this]; simp
    | cons n ns ih =>
      intro ws c idx hw hc hs
      cases ws with
      | nil => simp at hw
      | cons w ws =>
        simp only [List.map_cons, List.cons.injEq, List.sum_cons] at hw hs hc
        rw [choiceLoop]
        split
        · refine ih ws _ _ hw.2 ?_ (by omega)
          rw [Fl.val_sub, hw.1, ← hint ns.sum (by omega)]
          apply binary64.mono
          push_cast at hc ⊢
          linarith
        · simp
  unfold weightedChoice
  by_cases h : (sumF ws == 0) = true
  · simp [h]
  · simp only [h, Bool.false_eq_true, if_false]
    have hc : (x * sumF ws).val ≤ (ns.sum : Nat) := by
      rw [Fl.val_mul, hS, ← hint ns.sum hs]
      apply binary64.mono
      rw [hint ns.sum hs]
      have : (0 : ℝ) ≤ ns.sum := by positivity
      nlinarith
    have := hloop ns ws (x * sumF ws) 0 hw hc hs
    revert this
    cases choiceLoop ws (x * sumF ws) 0 <;> simp

/-! ### The examined claim -/
namespace FlChoiceExample

/-- The largest value of `rand.Float64`: 1 - 2⁻⁵³. -/
noncomputable def top : Fl binary64 := Fl.of binary64 (1 - 2 ^ (-53 : ℤ))

theorem v_top : top.val = 9007199254740991 * 2 ^ (-53 : ℤ) := by
  have := binary64_eq (x := 1 - 2 ^ (-53 : ℤ)) (-1) 9007199254740991 (by norm_num) (by norm_num) (by norm_num)
    (by norm_num)
  refine Eq.trans this ?_
  norm_num

/-- The constants 0.29, 0.69 and 0.02 of a Go program. -/
noncomputable def p29 : Fl binary64 := Fl.of binary64 (29 / 100)
noncomputable def p69 : Fl binary64 := Fl.of binary64 (69 / 100)
noncomputable def p02 : Fl binary64 := Fl.of binary64 (2 / 100)

theorem v29 : p29.val = 5224175567749775 * 2 ^ (-54 : ℤ) := by
  have := binary64_eq (x := 29 / 100) (-2) 5224175567749775 (by norm_num) (by norm_num) (by norm_num)
    (by norm_num [abs_lt])
  refine Eq.trans this ?_
  norm_num

theorem v69 : p69.val = 6214967485771284 * 2 ^ (-53 : ℤ) := by
  have := binary64_eq (x := 69 / 100) (-1) 6214967485771284 (by norm_num) (by norm_num) (by norm_num)
    (by norm_num [abs_lt])
  refine Eq.trans this ?_
  norm_num

theorem v02 : p02.val = 5764607523034235 * 2 ^ (-58 : ℤ) := by
  have := binary64_eq (x := 2 / 100) (-6) 5764607523034235 (by norm_num) (by norm_num) (by norm_num)
    (by norm_num [abs_lt])
  refine Eq.trans this ?_
  norm_num

theorem sum1 : (p29 + p69).val = 8827055269646172 * 2 ^ (-53 : ℤ) := by
  rw [Fl.val_add, v29, v69]
  have := binary64_tie (x := 5224175567749775 * 2 ^ (-54 : ℤ) + 6214967485771284 * 2 ^ (-53 : ℤ)) (-1)
    8827055269646171 (by norm_num) (by norm_num) (by norm_num) (by norm_num)
  rw [this, if_neg (by decide)]
  norm_num

theorem sum2 : p29 + p69 + p02 = 1 := by
  apply Fl.ext
  rw [Fl.val_add, sum1, v02, Fl.val_one]
  have := binary64_eq (x := 8827055269646172 * 2 ^ (-53 : ℤ) + 5764607523034235 * 2 ^ (-58 : ℤ)) (-1)
    9007199254740992 (by norm_num) (by norm_num) (by norm_num) (by norm_num [abs_lt])
  rw [this]
  norm_num

theorem cur1 : (top - p29).val = 6395111470866104 * 2 ^ (-53 : ℤ) := by
  rw [Fl.val_sub, v29, v_top]
  have := binary64_tie (x := 9007199254740991 * 2 ^ (-53 : ℤ) - 5224175567749775 * 2 ^ (-54 : ℤ)) (-1)
    6395111470866103 (by norm_num) (by norm_num) (by norm_num) (by norm_num)
  rw [this, if_neg (by decide)]
  norm_num

theorem cur2 : (top - p29 - p69).val = 5764607523034240 * 2 ^ (-58 : ℤ) := by
  rw [Fl.val_sub, cur1, v69]
  have := binary64_eq (x := 6395111470866104 * 2 ^ (-53 : ℤ) - 6214967485771284 * 2 ^ (-53 : ℤ)) (-6)
    5764607523034240 (by norm_num) (by norm_num) (by norm_num) (by norm_num [abs_lt])
  rw [this]
  norm_num

theorem cur3 : (top - p29 - p69 - p02).val = 5 * 2 ^ (-58 : ℤ) := by
  rw [Fl.val_sub, cur2, v02]
  have := binary64_eq (x := 5764607523034240 * 2 ^ (-58 : ℤ) - 5764607523034235 * 2 ^ (-58 : ℤ)) (-56)
    5629499534213120 (by norm_num) (by norm_num) (by norm_num) (by norm_num [abs_lt])
  rw [this]
  norm_num

theorem top_mul_one : top * 1 = top := by
  apply Fl.ext
  rw [Fl.val_mul, Fl.val_one, mul_one]
  exact top.2

theorem choice_panics : weightedChoice [p29, p69, p02] top = .panic := by
  have hs : sumF [p29, p69, p02] = 1 := by
    have h0 : (0 : Fl binary64) + p29 = p29 := by
      apply Fl.ext
      rw [Fl.val_add, Fl.val_zero, zero_add]; exact p29.2
    show 0 + p29 + p69 + p02 = 1
    rw [h0, sum2]
  have hne : ((1 : Fl binary64) == 0) = false := by
    apply beq_eq_false_iff_ne.2
    intro h
    have := congrArg Fl.val h
    rw [Fl.val_zero, Fl.val_one] at this
    norm_num at this
  have pos : ∀ {a : Fl binary64}, 0 < a.val → (0 : Fl binary64) < a := fun h => h
  unfold weightedChoice
  simp only [hs, hne, Bool.false_eq_true, if_false, top_mul_one]
  rw [choiceLoop, if_pos (pos (by rw [v_top]; norm_num)), choiceLoop, if_pos (pos (by rw [cur1]; norm_num)),
    choiceLoop, if_pos (pos (by rw [cur2]; norm_num)), choiceLoop, if_pos (pos (by rw [cur3]; norm_num))]

end FlChoiceExample

open FlChoiceExample in
/-- **C141 (claim examined).** In exact arithmetic no draw below 1 makes `WeightedChoice` panic.  In
`float64` the weights 0.29, 0.69, 0.02 and the largest draw of `rand.Float64`, 1 - 2⁻⁵³, do: with these
`ProbaK`, mcmc panics in `nextK`, whatever the number of centres and the data. -/
theorem C141_panics {R E : Type} (conf : McmcConf (Fl binary64) R)
    (hp : conf.probaK = [Fl.of binary64 (29 / 100), Fl.of binary64 (69 / 100), Fl.of binary64 (2 / 100)])
    (k : Int) (data : List E) :
    (Fl.of binary64 (1 - 2 ^ (-53 : ℤ))).val = 1 - 2 ^ (-53 : ℤ) ∧
    weightedChoice conf.probaK (Fl.of binary64 (1 - 2 ^ (-53 : ℤ))) = .panic ∧
    nextK conf k data (Fl.of binary64 (1 - 2 ^ (-53 : ℤ))) = none ∧
    ∀ x : ℝ, 0 < x → x < 1 → weightedChoice (conf.probaK.map Fl.val) x ≠ .panic := by
  have hc : weightedChoice conf.probaK (Fl.of binary64 (1 - 2 ^ (-53 : ℤ))) = .panic := by
    rw [hp]; exact choice_panics
  refine ⟨by rw [show (Fl.of binary64 (1 - 2 ^ (-53 : ℤ))).val = _ from v_top]; norm_num, hc, ?_, ?_⟩
  · unfold nextK
    simp only [hc]
  · intro x h0 h1
    have hv : conf.probaK.map Fl.val = [p29.val, p69.val, p02.val] := by rw [hp]; rfl
    rw [hv, v29, v69, v02]
    obtain ⟨⟨i, hi⟩, _⟩ := C29_weightedChoice [5224175567749775 * (2 : ℝ) ^ (-54 : ℤ),
      6214967485771284 * 2 ^ (-53 : ℤ), 5764607523034235 * 2 ^ (-58 : ℤ)] x (by
        intro w hw
        simp only [List.mem_cons, List.not_mem_nil, or_false] at hw
        rcases hw with rfl | rfl | rfl <;> positivity) (by simp only [List.sum_cons, List.sum_nil]; positivity) h0 h1
    rw [hi]
    simp

/-- **C141 (default).** With the default `ProbaK` {1, 8, 1} and any draw which `rand.Float64` returns
other than 0 (the multiples of 2⁻⁵³ below 1), `nextK` does not panic. -/
theorem C141_default {R E : Type} (conf : McmcConf (Fl binary64) R)
    (hp : conf.probaK.map Fl.val = [1, 8, 1]) (k : Int) (data : List E) (x : Fl binary64)
    (hx0 : 2 ^ (-53 : ℤ) ≤ x.val) (hx1 : x.val ≤ 1) : nextK conf k data x ≠ none := by
  have hlen : conf.probaK.length = 3 := by
    have := congrArg List.length hp
    simpa using this
  have hw : ∀ w ∈ conf.probaK, 0 ≤ w.val := by
    intro w hw
    have : w.val ∈ conf.probaK.map Fl.val := List.mem_map.2 ⟨w, hw, rfl⟩
    rw [hp] at this
    simp only [List.mem_cons, List.not_mem_nil, or_false] at this
    rcases this with h | h | h <;> rw [h] <;> norm_num
  have hs : (conf.probaK.map Fl.val).sum = 10 := by rw [hp]; norm_num
  have hu1 : binary64.u < 1 := by rw [show binary64.u = 2 ^ (-53 : ℤ) from rfl]; norm_num
  have hx : 0 < x.val := lt_of_lt_of_le (by positivity) hx0
  obtain ⟨b1, _⟩ := sumF_fl conf.probaK hw
  have hS : 1 ≤ (sumF conf.probaK).val := by
    rw [show vals conf.probaK = conf.probaK.map Fl.val from rfl, hs, hlen,
      show binary64.u = 2 ^ (-53 : ℤ) from rfl] at b1
    refine le_trans ?_ b1
    norm_num
  have hm : 2 ^ (-1022 : ℤ) ≤ x.val * (sumF conf.probaK).val := by
    calc (2 : ℝ) ^ (-1022 : ℤ) ≤ 2 ^ (-53 : ℤ) := zpow_le_zpow_right₀ (by norm_num) (by norm_num)
      _ ≤ x.val * (sumF conf.probaK).val := by nlinarith
  obtain ⟨c1, _, c3⟩ := C141_choice hu1 conf.probaK hw x hx (by rw [hs]; norm_num)
    (by rw [Fl.val_mul]; exact binary64_rel hm)
  have hnp := C141_integers [1, 8, 1] conf.probaK (by rw [hp]; simp) (by norm_num) x hx1
  unfold nextK
  cases hwc : weightedChoice conf.probaK x with
  | nullSet => exact absurd hwc c1
  | panic => exact absurd hwc hnp
  | ok i =>
    obtain ⟨⟨j, w, rfl, hj, _⟩, _⟩ := c3 i hwc
    have hjl := (List.getElem?_eq_some_iff.1 hj).1
    rw [hlen] at hjl
    have : ∃ d, idx? [(-1 : Int), 0, 1] (j : Int) = some d := by
      interval_cases j <;> exact ⟨_, rfl⟩
    obtain ⟨d, hd⟩ := this
    simp only [hd]
    repeat' split
    all_goals simp

namespace FlChoiceExample
open Fl64

noncomputable def w54 : Fl binary64 := fpow 54 (by norm_num)
noncomputable def w3 : Fl binary64 := ⟨3, by exact_mod_cast binary64_int 3 (by norm_num)⟩

theorem v_w54 : w54.val = 18014398509481984 := by show (2 : ℝ) ^ (54 : ℤ) = _; norm_num

/-- The rounding of a number between 2⁵⁴ and 2⁵⁵. -/
theorem rnd54 (x : ℝ) (m : ℤ) (h1 : 18014398509481984 ≤ x) (h2 : x < 36028797018963968)
    (h : |x / 4 - m| < 1 / 2) : binary64.rnd x = m * 4 := by
  have := binary64_eq (x := x) 54 m (by norm_num) (by norm_num; linarith) (by norm_num; linarith)
    (by norm_num at h ⊢; exact h)
  rw [this]; norm_num

theorem sum54 : (sumF [w54, w3, w3, w3, w3, w3]).val = 18014398509482004 := by
  have e0 : (0 : Fl binary64) + w54 = w54 := by
    apply Fl.ext
    rw [Fl.val_add, Fl.val_zero, zero_add]; exact w54.2
  have v3 : w3.val = 3 := rfl
  have step : ∀ (a : Fl binary64) (t m : ℤ), 4503599627370496 ≤ m → m ≤ 4503599627370506 → a.val = m * 4 →
      (a + w3).val = (m + 1 : ℤ) * 4 := by
    intro a _ m h1 h2 ha
    have h1' : (4503599627370496 : ℝ) ≤ m := by exact_mod_cast h1
    have h2' : (m : ℝ) ≤ 4503599627370506 := by exact_mod_cast h2
    rw [Fl.val_add, ha, v3]
    refine rnd54 _ (m + 1) (by linarith) (by linarith) ?_
    push_cast
    rw [show ((m : ℝ) * 4 + 3) / 4 - (m + 1) = -(1 / 4) by ring]
    norm_num
  show (0 + w54 + w3 + w3 + w3 + w3 + w3).val = _
  rw [e0]
  have a1 := step w54 0 4503599627370496 (by norm_num) (by norm_num) (by rw [v_w54]; norm_num)
  have a2 := step _ 0 _ (by norm_num) (by norm_num) a1
  have a3 := step _ 0 _ (by norm_num) (by norm_num) a2
  have a4 := step _ 0 _ (by norm_num) (by norm_num) a3
  have a5 := step _ 0 _ (by norm_num) (by norm_num) a4
  rw [a5]; norm_num

theorem choice_panics54 : weightedChoice [w54, w3, w3, w3, w3, w3] top = .panic := by
  have hne : (sumF [w54, w3, w3, w3, w3, w3] == 0) = false := by
    apply beq_eq_false_iff_ne.2
    intro h
    have := congrArg Fl.val h
    rw [Fl.val_zero, sum54] at this
    norm_num at this
  have hc : (top * sumF [w54, w3, w3, w3, w3, w3]).val = 18014398509482000 := by
    rw [Fl.val_mul, v_top, sum54]
    rw [rnd54 _ 4503599627370500 (by norm_num) (by norm_num) (by norm_num [abs_lt])]
    norm_num
  set c := top * sumF [w54, w3, w3, w3, w3, w3] with hcdef
  have hsub : ∀ (a b : Fl binary64) (m n : ℤ), a.val = m → b.val = n → |m - n| ≤ 2 ^ 53 → (a - b).val = (m - n : ℤ) := by
    intro a b m n ha hb h
    rw [Fl.val_sub, ha, hb, ← Int.cast_sub]
    exact binary64_int _ h
  have c1 := hsub c w54 18014398509482000 18014398509481984 (by rw [hc]; norm_num) (by rw [v_w54]; norm_num) (by norm_num)
  have v3 : w3.val = (3 : ℤ) := by show (3 : ℝ) = _; norm_num
  have c2 := hsub _ w3 _ 3 c1 v3 (by norm_num)
  have c3 := hsub _ w3 _ 3 c2 v3 (by norm_num)
  have c4 := hsub _ w3 _ 3 c3 v3 (by norm_num)
  have c5 := hsub _ w3 _ 3 c4 v3 (by norm_num)
  have c6 := hsub _ w3 _ 3 c5 v3 (by norm_num)
  have pos : ∀ {a : Fl binary64}, 0 < a.val → (0 : Fl binary64) < a := fun h => h
  unfold weightedChoice
  simp only [hne, Bool.false_eq_true, if_false, ← hcdef]
  rw [choiceLoop, if_pos (pos (by rw [hc]; norm_num)), choiceLoop, if_pos (pos (by rw [c1]; norm_num)),
    choiceLoop, if_pos (pos (by rw [c2]; norm_num)), choiceLoop, if_pos (pos (by rw [c3]; norm_num)),
    choiceLoop, if_pos (pos (by rw [c4]; norm_num)), choiceLoop, if_pos (pos (by rw [c5]; norm_num)),
    choiceLoop, if_pos (pos (by rw [c6]; norm_num))]

/-- One far point and five near ones. -/
noncomputable def far : List (Vec (Fl binary64) 1) := [pt w54, pt w3, pt w3, pt w3, pt w3, pt w3]

theorem near54 (w : Fl binary64) (hd : (euclidSpace (Fl binary64) 1).dist (pt w) (pt 0) = w) :
    (nearest (euclidSpace (Fl binary64) 1) [pt 0] (pt w)).2 = w := by
  unfold nearest nearestLoop
  simp only [Fl.neg_one_lt_zero, true_or, if_true, nearestLoop, hd]

theorem dist_self_sq (w : Fl binary64) (h0 : 0 ≤ w.val) (h : binary64.rnd (w.val * w.val) = w.val * w.val) :
    (euclidSpace (Fl binary64) 1).dist (pt w) (pt 0) = w := by
  apply Fl.ext
  show (GoMath.sqrt ((0 : Fl binary64) + (w - 0) * (w - 0))).val = w.val
  rw [Fl.val_sqrt, Fl.val_add, Fl.val_mul, Fl.val_sub, Fl.val_zero, sub_zero, zero_add, Fl.rnd_val, h, h,
    Real.sqrt_mul_self h0, Fl.rnd_val]

theorem pp_panics : ppIter (euclidSpace (Fl binary64) 1) [pt 0] far top = .panic := by
  have d54 := dist_self_sq w54 (by rw [v_w54]; norm_num) (by
    show binary64.rnd ((2 : ℝ) ^ (54 : ℤ) * 2 ^ (54 : ℤ)) = (2 : ℝ) ^ (54 : ℤ) * 2 ^ (54 : ℤ)
    rw [← zpow_add₀ (by norm_num)]
    exact rnd_pow (54 + 54) (by norm_num))
  have d3 := dist_self_sq w3 (by show (0 : ℝ) ≤ 3; norm_num) (by
    show binary64.rnd ((3 : ℝ) * 3) = 3 * 3
    have := binary64_int 9 (by norm_num)
    norm_num at this ⊢
    exact this)
  have hd : (mapLabel (euclidSpace (Fl binary64) 1) [pt 0] far).2 = [w54, w3, w3, w3, w3, w3] := by
    simp only [mapLabel, far, List.map_cons, List.map_nil, near54 _ d54, near54 _ d3]
  unfold ppIter
  rw [hd, choice_panics54]

end FlChoiceExample

open FlChoiceExample Fl64 in
/-- **C141 (claim examined, k-means++).** On the line, with the centre 0 and the data 2⁵⁴, 3, 3, 3, 3, 3,
the draw 1 - 2⁻⁵³ makes `PPIter` panic. -/
theorem C141_pp_panics : ∃ data : List (Vec (Fl binary64) 1),
    data.map (fun v => v.1.map Fl.val) = [[2 ^ (54 : ℤ)], [3], [3], [3], [3], [3]] ∧
    ppIter (euclidSpace (Fl binary64) 1) [pt 0] data (Fl.of binary64 (1 - 2 ^ (-53 : ℤ))) = .panic :=
  ⟨far, rfl, pp_panics⟩

open FlChoiceExample in
/-- The theorems apply to these weights: the bound of the panics, and a draw below it. -/
example : weightedChoice [p29, p69, p02] (Fl64.half) ≠ .panic := by
  refine (C141_binary64 _ (by norm_num) ?_ _ ?_ ?_ ?_).1 ?_
  · intro w hw
    simp only [List.mem_cons, List.not_mem_nil, or_false] at hw
    rcases hw with rfl | rfl | rfl
    · rw [v29]; positivity
    · rw [v69]; positivity
    · rw [v02]; positivity
  · show (0 : ℝ) < 2 ^ (-1 : ℤ); positivity
  · simp only [List.map_cons, List.map_nil, List.sum_cons, List.sum_nil, v29, v69, v02]; positivity
  · have : sumF [p29, p69, p02] = 1 := by
      have h0 : (0 : Fl binary64) + p29 = p29 := by
        apply Fl.ext
        rw [Fl.val_add, Fl.val_zero, zero_add]; exact p29.2
      show 0 + p29 + p69 + p02 = 1
      rw [h0, sum2]
    rw [this, Fl.val_one, mul_one]
    exact zpow_le_zpow_right₀ (by norm_num) (by norm_num)
  · show (2 : ℝ) ^ (-1 : ℤ) ≤ _
    norm_num

end Distclus
