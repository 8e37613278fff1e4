import Verif.Model.Finish
import Mathlib.Tactic.Common
import Mathlib.Tactic.Tauto
import Mathlib.Order.Nat
import Mathlib.Algebra.Order.Ring.Int
/-!
# C19, C20: finishing conditions and waiting
-/
namespace Distclus

theorem andLoop_eq (m : ModelView) (l : List Finishing) (c : Bool) :
    andLoop m l c = if l = [] then c else l.all (isFinished m) := by
  induction l generalizing c with
  | nil => simp [andLoop]
  | cons f l ih =>
    unfold andLoop
    cases h : isFinished m f
    · simp [h]
    · simp only [ih]
      by_cases hl : l = []
      · simp [hl, h]
      · simp [hl, h]

theorem orLoop_eq (m : ModelView) (l : List Finishing) (c : Bool) :
    orLoop m l c = if l = [] then c else l.any (isFinished m) := by
  induction l generalizing c with
  | nil => simp [orLoop]
  | cons f l ih =>
    unfold orLoop
    cases h : isFinished m f
    · simp only [ih]
      by_cases hl : l = []
      · simp [hl, h]
      · simp [hl, h]
    · simp [h]

theorem statusLoop_eq (v : ClustStatus) (l : List ClustStatus) :
    statusLoop v l false = decide (v ∈ l) := by
  induction l with
  | nil => simp [statusLoop]
  | cons s l ih =>
    unfold statusLoop
    by_cases h : s = v
    · simp [h]
    · simp only [h, if_false, ih, List.mem_cons]
      have : v ≠ s := fun e => h e.symm
      simp [this]

/-- **C19** (nil). A nil condition is never finished. -/
theorem C19_nil (m : ModelView) : isFinished m .nil = false := by simp [isFinished]

/-- **C19** (and). Finished iff there is at least one member and all members are finished; the
members are arbitrary conditions, possibly nested or nil. -/
theorem C19_and (m : ModelView) (l : List Finishing) :
    isFinished m (.and l) = true ↔ l ≠ [] ∧ ∀ f ∈ l, isFinished m f = true := by
  rw [isFinished, andLoop_eq]
  by_cases hl : l = []
  · simp [hl]
  · simp [hl]

/-- **C19** (or). Finished iff some member is. -/
theorem C19_or (m : ModelView) (l : List Finishing) :
    isFinished m (.or l) = true ↔ ∃ f ∈ l, isFinished m f = true := by
  rw [isFinished, orLoop_eq]
  by_cases hl : l = []
  · simp [hl]
  · simp [hl]

/-- **C19** (iterations). Finished iff a limit is set and the number of iterations reached it. -/
theorem C19_iter (m : ModelView) (a b : Int) :
    isFinished m (.iter a b) = true ↔
      (0 < a ∨ 0 < b) ∧ a + m.pushedData * b ≤ m.iterations := by
  rw [isFinished, iterFinished]
  split
  · rename_i h; simp; intro _; simpa using h
  · rename_i h; simp at h ⊢; omega

/-- **C19** (status). Finished iff the status is listed or, when asked, an error is set. -/
theorem C19_status (m : ModelView) (e : Bool) (l : List ClustStatus) :
    isFinished m (.status e l) = true ↔
      m.status.value ∈ l ∨ (e = true ∧ m.status.error ≠ none) := by
  rw [isFinished, statusFinished]
  cases hc : (e && m.status.error.isSome)
  · have hno : ¬ (e = true ∧ m.status.error ≠ none) := by
      rintro ⟨h1, h2⟩
      rw [h1, Bool.true_and] at hc
      cases h : m.status.error
      · exact h2 h
      · rw [h] at hc; cases hc
    cases l with
    | nil => simp [hno]
    | cons s l => simp [statusLoop_eq, hno]
  · have : e = true ∧ m.status.error ≠ none := by
      rw [Bool.and_eq_true] at hc
      refine ⟨hc.1, ?_⟩
      intro h; rw [h] at hc; exact absurd hc.2 (by decide)
    simp [this]

/-- Non-vacuity: a nested condition, true in one state and false in another. -/
example :
    let f := Finishing.or [.nil, .and [.iter 10 0, .status false [.running]], .and []]
    isFinished ⟨⟨.running, none⟩, 10, 0⟩ f = true ∧ isFinished ⟨⟨.running, none⟩, 9, 0⟩ f = false ∧
    isFinished ⟨⟨.ready, none⟩, 10, 0⟩ f = false := by decide

/-- **C20** (when and what). The loop ends at turn `i` with result `e` iff `i` is the first turn at
which the condition holds or the deadline has passed; the result is then the status error if the
condition holds, the time-out error otherwise. -/
theorem waitLoop_iff (f : Finishing) (d dl : Int) (t : Timeline) (fuel k i : Nat)
    (e : Option Err) :
    waitLoop f d dl t fuel k = some (i, e) ↔
      k ≤ i ∧ i < k + fuel ∧
      (∀ j, k ≤ j → j < i →
        isFinished (t.model j) f = false ∧ (d ≤ 0 ∨ t.clock j ≤ dl)) ∧
      ((isFinished (t.model i) f = true ∧ e = (t.last i).status.error) ∨
       (isFinished (t.model i) f = false ∧ 0 < d ∧ dl < t.clock i ∧ e = some .timeout)) := by
  induction fuel generalizing k with
  | zero => simp [waitLoop]; omega
  | succ fuel ih =>
    unfold waitLoop
    cases hf : isFinished (t.model k) f
    · cases ht : isTimeout d dl (t.clock k)
      · simp only [Bool.false_eq_true, if_false]
        rw [ih]
        have hnot : d ≤ 0 ∨ t.clock k ≤ dl := by
          simp [isTimeout] at ht; omega
        constructor
        · rintro ⟨h1, h2, h3, h4⟩
          refine ⟨by omega, by omega, ?_, h4⟩
          intro j hj1 hj2
          by_cases hjk : j = k
          · subst hjk; exact ⟨hf, hnot⟩
          · exact h3 j (by omega) hj2
        · rintro ⟨h1, h2, h3, h4⟩
          have hne : k ≠ i := by
            rintro rfl
            rcases h4 with h4 | h4
            · rw [hf] at h4; cases h4.1
            · omega
          exact ⟨by omega, by omega, fun j hj1 hj2 => h3 j (by omega) hj2, h4⟩
      · have hyes : 0 < d ∧ dl < t.clock k := by simpa [isTimeout] using ht
        simp only [Bool.false_eq_true, if_false, if_true, Option.some.injEq, Prod.mk.injEq]
        constructor
        · rintro ⟨rfl, rfl⟩
          exact ⟨by omega, by omega, fun j _ _ => by omega, Or.inr ⟨hf, hyes.1, hyes.2, rfl⟩⟩
        · rintro ⟨h1, h2, h3, h4⟩
          have : k = i := by
            by_contra hne
            have := (h3 k (Nat.le_refl _) (by omega)).2
            omega
          subst this
          refine ⟨rfl, ?_⟩
          rcases h4 with h4 | h4
          · rw [hf] at h4; cases h4.1
          · exact h4.2.2.2.symm
    · simp only [if_true, Option.some.injEq, Prod.mk.injEq]
      constructor
      · rintro ⟨rfl, rfl⟩
        exact ⟨by omega, by omega, fun j _ _ => by omega, Or.inl ⟨hf, rfl⟩⟩
      · rintro ⟨h1, h2, h3, h4⟩
        have : k = i := by
          by_contra hne
          have := (h3 k (Nat.le_refl _) (by omega)).1
          rw [hf] at this; cases this
        subst this
        refine ⟨rfl, ?_⟩
        rcases h4 with h4 | h4
        · exact h4.2.symm
        · rw [hf] at h4; cases h4.1

/-- The condition waited for: an explicit one, or "ready, idle, finished or failed" for nil. -/
def waited (f : Finishing) (m : ModelView) : Prop :=
  match f with
  | .nil => m.status.value = .ready ∨ m.status.value = .idle ∨ m.status.value = .finished ∨
      m.status.error ≠ none
  | f => isFinished m f = true

theorem waitTimeout_waited (f : Finishing) (d start : Int) (t : Timeline) (fuel : Nat) :
    ∃ g, waitTimeout f d start t fuel = waitLoop g d (start + d) t fuel 0 ∧
      ∀ m, isFinished m g = true ↔ waited f m := by
  cases f with
  | nil =>
    refine ⟨_, rfl, ?_⟩
    intro m
    rw [C19_status]
    simp only [waited, List.mem_cons, List.not_mem_nil, or_false, true_and]
    tauto
  | and l => exact ⟨_, rfl, fun m => Iff.rfl⟩
  | or l => exact ⟨_, rfl, fun m => Iff.rfl⟩
  | iter a b => exact ⟨_, rfl, fun m => Iff.rfl⟩
  | status e l => exact ⟨_, rfl, fun m => Iff.rfl⟩
  | custom f => exact ⟨_, rfl, fun m => Iff.rfl⟩

/-- **C20** (when and what). Waiting ends at turn `i` with result `e` iff `i` is the first turn at
which the condition holds or a positive time-out has elapsed; the result is the status error if the
condition holds at that turn, the time-out error otherwise. -/
theorem C20_wait_iff (f : Finishing) (d start : Int) (t : Timeline) (fuel i : Nat)
    (e : Option Err) :
    waitTimeout f d start t fuel = some (i, e) ↔
      i < fuel ∧
      (∀ j, j < i → ¬ waited f (t.model j) ∧ (d ≤ 0 ∨ t.clock j ≤ start + d)) ∧
      ((waited f (t.model i) ∧ e = (t.last i).status.error) ∨
       (¬ waited f (t.model i) ∧ 0 < d ∧ start + d < t.clock i ∧ e = some .timeout)) := by
  obtain ⟨g, hg, hw⟩ := waitTimeout_waited f d start t fuel
  rw [hg, waitLoop_iff]
  have hw' : ∀ m, isFinished m g = false ↔ ¬ waited f m := by
    intro m; rw [← hw m]; simp
  simp only [hw, hw', Nat.zero_le, true_and, Nat.zero_add, forall_true_left]

/-- **C20** (termination with a deadline). If the clock advances by at least `step > 0` between two
turns (the turns are separated by a sleep of 100 ms) and `0 < d`, waiting ends within
`d / step + 2` turns. -/
theorem C20_deadline_returns (f : Finishing) (d start step : Int) (t : Timeline) (hd : 0 < d)
    (hs : 0 < step) (h0 : start ≤ t.clock 0) (hstep : ∀ i, t.clock i + step ≤ t.clock (i + 1)) :
    (waitTimeout f d start t ((d / step).toNat + 2)).isSome := by
  by_contra hnone
  have hnone : waitTimeout f d start t ((d / step).toNat + 2) = none := by
    cases h : waitTimeout f d start t ((d / step).toNat + 2)
    · rfl
    · rw [h] at hnone; exact absurd rfl hnone
  have hclk : ∀ i : Nat, start + i * step ≤ t.clock i := by
    intro i
    induction i with
    | zero => simpa using h0
    | succ i ih =>
      have := hstep i
      have e : ((i + 1 : Nat) : Int) * step = i * step + step := by
        rw [Int.natCast_add, Int.add_mul]; simp
      rw [e]; omega
  obtain ⟨g, hg, hw⟩ := waitTimeout_waited f d start t ((d / step).toNat + 2)
  rw [hg] at hnone
  have hall : ∀ (fuel k : Nat), waitLoop g d (start + d) t fuel k = none →
      ∀ j, k ≤ j → j < k + fuel → t.clock j ≤ start + d := by
    intro fuel
    induction fuel with
    | zero => intro k _ j h1 h2; omega
    | succ fuel ih =>
      intro k h j h1 h2
      unfold waitLoop at h
      split at h
      · cases h
      · split at h
        · cases h
        · rename_i hto
          by_cases hjk : j = k
          · subst hjk
            simp [isTimeout] at hto; omega
          · exact ih (k + 1) h j (by omega) (by omega)
  have hlast := hall _ _ hnone ((d / step).toNat + 1) (by omega) (by omega)
  have h1 := hclk ((d / step).toNat + 1)
  have h2 : 0 ≤ d / step := Int.ediv_nonneg (by omega) (by omega)
  have h3 : (((d / step).toNat + 1 : Nat) : Int) = d / step + 1 := by omega
  rw [h3] at h1
  have h4 := Int.lt_ediv_add_one_mul_self d hs
  omega

/-- **C20** (no deadline). With `d ≤ 0` waiting ends iff the condition holds at some turn, and never
with a time-out (unless the status error itself is the time-out of the algorithm). -/
theorem C20_no_deadline (f : Finishing) (d start : Int) (t : Timeline) (hd : d ≤ 0) :
    (∃ fuel, (waitTimeout f d start t fuel).isSome) ↔ ∃ i, waited f (t.model i) := by
  classical
  constructor
  · rintro ⟨fuel, h⟩
    obtain ⟨⟨i, e⟩, hr⟩ := Option.isSome_iff_exists.1 h
    rw [C20_wait_iff] at hr
    obtain ⟨_, _, h3⟩ := hr
    rcases h3 with h3 | h3
    · exact ⟨i, h3.1⟩
    · omega
  · intro h
    refine ⟨Nat.find h + 1, ?_⟩
    rw [Option.isSome_iff_exists]
    refine ⟨(Nat.find h, (t.last (Nat.find h)).status.error), ?_⟩
    rw [C20_wait_iff]
    exact ⟨by omega, fun j hj => ⟨Nat.find_min h hj, Or.inl hd⟩, Or.inl ⟨Nat.find_spec h, rfl⟩⟩

/-- **C20** (algorithm). `Wait` only waits when the algorithm is running; it refuses to wait for ever
when neither the caller nor the configuration gives any condition; otherwise it answers at once
according to the status. -/
theorem C20_algo_wait (c : WaitConf) (s : ClustStatus) (f : Finishing) (d start : Int)
    (t : Timeline) (fuel : Nat) :
    (s = .idle → algoWait c s f d start t fuel = some (some .idle)) ∧
    (s = .ready ∨ s = .finished → algoWait c s f d start t fuel = some none) ∧
    (s = .created ∨ s = .initializing →
      algoWait c s f d start t fuel = some (some .notRunning)) ∧
    (s = .running →
      ((f = .nil ∧ d ≤ 0 ∧ c.finishing = .nil ∧ c.timeout ≤ 0 ∧ c.iter = 0 ∧ c.iterPerData = 0) →
        algoWait c s f d start t fuel = some (some .neverFinish)) ∧
      (¬ (f = .nil ∧ d ≤ 0 ∧ c.finishing = .nil ∧ c.timeout ≤ 0 ∧ c.iter = 0 ∧ c.iterPerData = 0) →
        algoWait c s f d start t fuel = (waitTimeout f d start t fuel).map (·.2))) := by
  have hc : canNeverFinish c f d = true ↔
      (f = .nil ∧ d ≤ 0 ∧ c.finishing = .nil ∧ c.timeout ≤ 0 ∧ c.iter = 0 ∧ c.iterPerData = 0) := by
    have hn : ∀ g : Finishing, g.isNil = true ↔ g = .nil := by
      intro g; cases g <;> simp [Finishing.isNil]
    simp [canNeverFinish, and_assoc, hn]
  refine ⟨?_, ?_, ?_, ?_⟩
  · rintro rfl; rfl
  · rintro (rfl | rfl) <;> rfl
  · rintro (rfl | rfl) <;> rfl
  · rintro rfl
    rw [← hc]
    constructor
    · intro h; simp [algoWait, h]
    · intro h; simp [algoWait, h]

/-- A limitation of the code: `Wait` on an algorithm that already failed reports success. -/
theorem C20_wait_hides_error (c : WaitConf) (f : Finishing) (d start : Int) (t : Timeline)
    (fuel : Nat) : algoWait c .finished f d start t fuel = some none := rfl

/-- Non-vacuity: a timeline finishing at turn 2, and the same one with an earlier deadline. -/
example :
    let t : Timeline :=
      { model := fun i => ⟨⟨if i < 2 then .running else .finished, none⟩, 0, 0⟩
        clock := fun i => 100 * i
        last := fun _ => ⟨⟨.finished, some (.other 3)⟩, 0, 0⟩ }
    waitTimeout .nil 0 0 t 10 = some (2, some (.other 3)) ∧
    waitTimeout .nil 250 0 t 10 = some (2, some (.other 3)) ∧
    waitTimeout .nil 50 0 t 10 = some (1, some .timeout) := by decide

end Distclus
