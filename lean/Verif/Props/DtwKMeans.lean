import Verif.Model.DtwKMeans
import Verif.Proof.DtwKMeans
import Verif.Props.DtwCombine
import Mathlib.Algebra.Order.AddGroupWithTop
import Mathlib.Algebra.Order.Field.Rat
/-!
# C129: k-means on series

The iterations of k-means (`KStrategy.iterateP`, the model of C124) in the space `dtw` (`dtwP`).
-/
namespace Distclus
open Spec PSpace

section
variable {P F : Type} [LinearOrder F] [OrderTop F] [Add F] [Zero F]

/-- Series of lengths from `m` to `n` with points in a set `C`: what `Combine` stays in. -/
theorem dtw_safeOn (hadd : ∀ a b x : F, a ≤ b → a + x ≤ b + x) (sp : DtwSpace P F) (m n : Nat) (hm : 1 ≤ m)
    (hwin : 0 < sp.window ∨ (sp.window = 0 ∧ n ≤ 2 * m)) (C : P → Prop)
    (hC : ∀ p q a b, C p → C q → 0 ≤ a → 0 ≤ b → 0 < a + b → C (sp.inner.combine p a q b)) :
    SafeOn (dtwP sp) fun s => m ≤ s.length ∧ s.length ≤ n ∧ ∀ p ∈ s, C p := by
  have ne : ∀ {s : List P}, m ≤ s.length → s ≠ [] := fun h e => by subst e; simp at h; omega
  refine ⟨fun {a b} ha hb => ?_, fun {a b w v} ha hb hw hv => ?_, fun {a} ha => ⟨a, rfl, ha⟩⟩
  · refine Option.ne_none_iff_exists'.1 fun h => ?_
    have := (C47_dist_panics_iff hadd sp a b (ne ha.1) (ne hb.1)).1 h
    have := ha.2.1; have := hb.1
    omega
  · obtain ⟨r, -, -, e, -, -, h1, h2, -, h3⟩ := C52_combine hadd sp a b (ne ha.1) (ne hb.1) w v (by omega) (by omega)
      (by omega) (by have := ha.2.1; have := hb.1; omega)
    refine ⟨r, e, ?_, ?_, h3 C hC ha.2.2 hb.2.2⟩
    · have := ha.1; have := hb.1; omega
    · have := ha.2.1; have := hb.2.1; omega

variable [One F] [Neg F]

/-- **C129.** Series (and initial centroids) of lengths from `m ≥ 1` to `n` with points in a set closed under
combination, with a positive window, or without window if `n ≤ 2 * m`: no iteration of k-means panics nor ends the
process, sequential or parallel, however many are made, and the centroids are as many as at the start, with lengths from
`m` to `n` and points in the set. -/
theorem C129_safe (hneg : (-1 : F) < 0) (hadd : ∀ a b x : F, a ≤ b → a + x ≤ b + x) (sp : DtwSpace P F) (m n : Nat)
    (hm : 1 ≤ m) (hwin : 0 < sp.window ∨ (sp.window = 0 ∧ n ≤ 2 * m)) (C : P → Prop)
    (hC : ∀ p q a b, C p → C q → 0 ≤ a → 0 ≤ b → 0 < a + b → C (sp.inner.combine p a q b))
    (s : KStrategy) (hs : ∀ d, s = .par d → 1 ≤ d) (c data : List (List P)) (hc : c ≠ [])
    (hin : ∀ x ∈ c ++ data, m ≤ x.length ∧ x.length ≤ n ∧ ∀ p ∈ x, C p) :
    ∃ x : Nat → List (List P), x 0 = c ∧
      (∀ t, s.iterateP (dtwP sp) (x t) data = .ok ((x (t + 1)).map some)) ∧
      ∀ t, (x t).length = c.length ∧ ∀ y ∈ x t, m ≤ y.length ∧ y.length ≤ n ∧ ∀ p ∈ y, C p := by
  have hsafe := dtw_safeOn hadd sp m n hm hwin C hC
  let G : List P → Prop := fun s => m ≤ s.length ∧ s.length ≤ n ∧ ∀ p ∈ s, C p
  have next : ∀ y : {y : List (List P) // y.length = c.length ∧ ∀ e ∈ y, G e},
      ∃ z : {y : List (List P) // y.length = c.length ∧ ∀ e ∈ y, G e},
        s.iterateP (dtwP sp) y.1 data = .ok (z.1.map some) := by
    rintro ⟨y, hl, hg⟩
    have hy : y ≠ [] := fun h => by subst h; exact hc (List.length_eq_zero_iff.1 hl.symm)
    obtain ⟨r, hr, hl', hg'⟩ := SafeOn.iterate hneg hsafe s hs (data := data) hy hg fun e he => hin e (by simp [he])
    exact ⟨⟨r, hl'.trans hl, hg'⟩, hr⟩
  choose f hf using next
  let x : Nat → {y : List (List P) // y.length = c.length ∧ ∀ e ∈ y, G e} := fun t =>
    Nat.rec ⟨c, rfl, fun e he => hin e (by simp [he])⟩ (fun _ y => f y) t
  exact ⟨fun t => (x t).1, rfl, fun t => hf (x t), fun t => (x t).2⟩

end

/-! ### Witnesses -/

/-- The numbers with the distance `|a - b|` and exact means. -/
def ratSpace : Space ℚ (WithTop ℚ) where
  dist a b := ((if a ≤ b then b - a else a - b : ℚ) : WithTop ℚ)
  combine a w b v := (a * w + b * v) / (w + v)
  copy a := a
  dim _ := 1

/-- Series of numbers, without window. -/
def ratSeries : PSpace (List ℚ) (WithTop ℚ) := dtwP ⟨0, ratSpace⟩

instance : DecidableEq (WithTop ℚ) := inferInstanceAs (DecidableEq (Option ℚ))

/-- The hypotheses of `C129_safe` hold of series of lengths 3 to 5 of numbers between 0 and 9. -/
example : (-1 : WithTop ℚ) < 0 ∧ (∀ a b x : WithTop ℚ, a ≤ b → a + x ≤ b + x) ∧
    ∀ p q (a b : Int), (0 ≤ p ∧ p ≤ 9) → (0 ≤ q ∧ q ≤ 9) → 0 ≤ a → 0 ≤ b → 0 < a + b →
      0 ≤ ratSpace.combine p a q b ∧ ratSpace.combine p a q b ≤ 9 := by
  refine ⟨by decide +kernel, fun a b x h => by gcongr, fun p q a b hp hq ha hb hab => ?_⟩
  have ha' : (0 : ℚ) ≤ a := by exact_mod_cast ha
  have hb' : (0 : ℚ) ≤ b := by exact_mod_cast hb
  have hab' : (0 : ℚ) < a + b := by exact_mod_cast hab
  simp only [ratSpace]
  constructor
  · have := mul_nonneg hp.1 ha'; have := mul_nonneg hq.1 hb'; positivity
  · rw [div_le_iff₀ hab']
    nlinarith [mul_nonneg (sub_nonneg.2 hp.2) ha', mul_nonneg (sub_nonneg.2 hq.2) hb']

/-- **C129, witness.** Without window and with series of lengths 1 and 3 the sequential iteration panics, and the parallel
one ends the process. -/
theorem C129_panics :
    KStrategy.seq.iterateP ratSeries [[0]] [[0], [1, 2, 3]] = .panic ∧
    (KStrategy.par 2).iterateP ratSeries [[0]] [[0], [1, 2, 3]] = .crash := by decide +kernel

/-- Four series. -/
def fourSeries : List (List ℚ) := [[0, 2, 3], [0, 0, 3], [0, 3, 3], [1, 0, 3]]

/-- The centroids after each iteration on `fourSeries`, from the last two series. -/
def wander : Nat → List (List ℚ)
  | 0 => [[0, 3, 3], [1, 0, 3]]
  | n + 1 => if n % 2 = 0 then [[0, 14/9, 3], [1, 0, 3]] else [[0, 2, 3], [1/3, 1, 3]]

theorem wander_step : ∀ t, KStrategy.seq.iterateP ratSeries (wander t) fourSeries = .ok ((wander (t + 1)).map some) ∧
    wander t ≠ wander (t + 1) := by
  have h0 : KStrategy.seq.iterateP ratSeries [[0, 3, 3], [1, 0, 3]] fourSeries =
      .ok [some [0, 14/9, 3], some [1, 0, 3]] := by decide +kernel
  have h1 : KStrategy.seq.iterateP ratSeries [[0, 14/9, 3], [1, 0, 3]] fourSeries =
      .ok [some [0, 2, 3], some [1/3, 1, 3]] := by decide +kernel
  have h2 : KStrategy.seq.iterateP ratSeries [[0, 2, 3], [1/3, 1, 3]] fourSeries =
      .ok [some [0, 14/9, 3], some [1, 0, 3]] := by decide +kernel
  intro t
  match t with
  | 0 => exact ⟨h0, by decide +kernel⟩
  | n + 1 =>
    rcases Nat.mod_two_eq_zero_or_one n with h | h
    · simp only [wander, h, show (n + 1) % 2 ≠ 0 by omega, if_true, if_false]
      exact ⟨h1, by decide +kernel⟩
    · simp only [wander, h, show (n + 1) % 2 = 0 by omega, if_true, if_neg (show ¬ (1 = 0) by omega)]
      exact ⟨h2, by decide +kernel⟩

/-- **C129, witness.** On four series of the same length, from two of them, the centroids never settle: each iteration
changes them, for ever, although the arithmetic is exact and the sequence returns to the same centroids every second
iteration (in the space `vectors` this cannot happen, C89). -/
theorem C129_never_settles :
    ∃ x : Nat → List (List ℚ), (∀ e ∈ x 0, e ∈ fourSeries) ∧
      ∀ t, KStrategy.seq.iterateP ratSeries (x t) fourSeries = .ok ((x (t + 1)).map some) ∧ x t ≠ x (t + 1) ∧
        x (t + 3) = x (t + 1) := by
  refine ⟨wander, by decide +kernel, fun t => ⟨(wander_step t).1, (wander_step t).2, ?_⟩⟩
  simp [wander, show (t + 2) % 2 = t % 2 by omega]

theorem lossLoopP_congr {E F : Type} [Zero F] [One F] [Neg F] [LT F] [DecidableLT F] [Add F] (i j : GoMath F)
    (norm : F) (h : ∀ x : F, i.pow x norm = j.pow x norm) (sp : PSpace E F) (c : List E) :
    ∀ (es : List E) (st : List F × List Int),
      @lossLoopP E F _ _ _ _ _ _ i sp c norm es st = @lossLoopP E F _ _ _ _ _ _ j sp c norm es st
  | [], _ => rfl
  | e :: es, st => by
    simp only [lossLoopP]
    cases nearestP sp c e with
    | none => rfl
    | some r =>
      simp only [h]
      cases lossStep st r.1 (j.pow r.2 norm) with
      | none => rfl
      | some st' => exact lossLoopP_congr i j norm h sp c es st'

/-- `math.Pow` for the exponent one. -/
@[instance_reducible] def powOne : GoMath (WithTop ℚ) := ⟨fun n => ((n : ℚ) : WithTop ℚ), id, fun x _ => x, id, id, ⊤⟩

/-- **C129, witness.** Each of the first two iterations makes the loss larger, for the norm 1 (the sum of the
distances): 1, then 22/9, then 11/3. -/
theorem C129_loss_grows [g : GoMath (WithTop ℚ)] (h1 : ∀ x : WithTop ℚ, GoMath.pow x 1 = x) :
    KStrategy.seq.lossP ratSeries (wander 0) fourSeries 1 = .ok ((1 : ℚ) : WithTop ℚ) ∧
    KStrategy.seq.lossP ratSeries (wander 1) fourSeries 1 = .ok ((22/9 : ℚ) : WithTop ℚ) ∧
    KStrategy.seq.lossP ratSeries (wander 2) fourSeries 1 = .ok ((11/3 : ℚ) : WithTop ℚ) := by
  simp only [KStrategy.lossP, reduceLossP, lossLoopP_congr g powOne 1 (fun x => h1 x)]
  decide +kernel

/-- `math.Pow` for the exponent two. -/
@[instance_reducible] def powTwo : GoMath (WithTop ℚ) := ⟨fun n => ((n : ℚ) : WithTop ℚ), id, fun x _ => x * x, id, id, ⊤⟩

/-- **C129, witness.** The same for the norm 2 (the sum of the squared distances): 1, then 178/81, then 43/9. -/
theorem C129_loss_grows_two [g : GoMath (WithTop ℚ)] (h2 : ∀ x : WithTop ℚ, GoMath.pow x (1 + 1) = x * x) :
    KStrategy.seq.lossP ratSeries (wander 0) fourSeries (1 + 1) = .ok ((1 : ℚ) : WithTop ℚ) ∧
    KStrategy.seq.lossP ratSeries (wander 1) fourSeries (1 + 1) = .ok ((178/81 : ℚ) : WithTop ℚ) ∧
    KStrategy.seq.lossP ratSeries (wander 2) fourSeries (1 + 1) = .ok ((43/9 : ℚ) : WithTop ℚ) := by
  simp only [KStrategy.lossP, reduceLossP, lossLoopP_congr g powTwo (1 + 1) (fun x => h2 x)]
  decide +kernel

/-- **C129, witness.** The mean of a cluster of series depends on the order in which they were pushed: with one centroid,
three series in one order and in the other. -/
theorem C129_order :
    KStrategy.seq.iterateP ratSeries [[0, 2, 0]] [[0, 2, 0], [3, 3, 3], [3, 1, 0]] = .ok [some [2, 20/9, 1]] ∧
    KStrategy.seq.iterateP ratSeries [[0, 2, 0]] [[3, 1, 0], [3, 3, 3], [0, 2, 0]] = .ok [some [2, 2, 1]] := by
  decide +kernel

/-- **C129, witness.** The parallel iteration does not compute what the sequential one does. -/
theorem C129_par_differs :
    KStrategy.seq.iterateP ratSeries [[0, 3, 3]] [[0, 3, 3], [0, 3, 2], [1, 0, 2], [0, 0, 0]] =
      .ok [some [1/4, 4/3, 7/4]] ∧
    (KStrategy.par 2).iterateP ratSeries [[0, 3, 3]] [[0, 3, 3], [0, 3, 2], [1, 0, 2], [0, 0, 0]] =
      .ok [some [1/4, 1, 7/4]] := by
  decide +kernel

end Distclus
