import Verif.Proof.CtrlCount
import Verif.Spec.CtrlTrace
/-!
# C55, C64, C66: counters, notifications, automatic play
-/
namespace Distclus
open Ctrl Spec Algo

variable {C : Type} {conf : Conf} {s : Algo C}

theorem wsum_sub (P Q : Event C → Bool) (w : Event C → Int)
    (h : ∀ e, w e = (if P e then 1 else 0) - (if Q e then 1 else 0)) (l : List (Event C)) :
    wsum w l = (events P l : Int) - events Q l := by
  induction l with
  | nil => rfl
  | cons a l ih =>
    simp only [wsum, events, List.map_cons, List.sum_cons, List.countP_cons, h] at *
    cases P a <;> cases Q a <;> simp at * <;> omega

theorem tot_waiting (P : PC C → Bool) (f : PC C → Nat) (h : ∀ p, f p = if P p then 1 else 0)
    (s : Algo C) : tot f s = waiting P s := by
  unfold tot waiting
  generalize List.range s.n = l
  induction l with
  | nil => rfl
  | cons a l ih =>
    simp only [List.map_cons, List.sum_cons, List.countP_cons, h] at *
    omega

/-- **C55.** In every reachable state `iterations` and `pushedData` are the numbers of iterations
saved and of pushes counted since the last reset of the counters; the figures agree with them when
nobody is writing the model. -/
theorem C55_counters (h : Reachable conf s) :
    s.iterations = savedSince s.log ∧ s.pushedData = pushedSince s.log ∧
    s.figIter = s.iterations ∧ (s.ma = none → s.figPushed = s.pushedData) := by
  refine ⟨h.count.it, h.count.pd, h.count.fi, fun hm => ?_⟩
  have := h.lock.noPu4 (fun j _ => by rw [hm]; rintro ⟨⟩)
  have := h.count.fp
  omega

/-- **C55.** In every execution, whatever the interleaving, every result of `RuntimeFigures()` is
exact. -/
theorem C55_figures (h : Reachable conf s) : FiguresOk s.log := h.count.figures

/-- **C55.** No push accepted by the implementation is lost or counted twice: the accepted ones not
yet counted are those whose goroutine is waiting for the model lock. -/
theorem C55_pushes (h : Reachable conf s) :
    events isImplPushed s.log = events isPushed s.log +
      waiting (fun p => p matches .pu2 | .pu3) s := by
  have := h.bal (f := fun p => if p matches .pu2 | .pu3 then 1 else 0)
    (w := fun e => (if isImplPushed e then 1 else 0) - (if isPushed e then 1 else 0))
    { z := fun p h => by cases p <;> first | rfl | cases h
      wz := fun e h => by cases e <;> first | rfl | cases h
      push := rfl
      pu23 := rfl
      pushed := rfl
      counted := fun _ => rfl
      iter := fun _ _ => rfl
      rS := fun _ => rfl
      saved := fun _ => rfl
      set := fun p st h => by cases p <;> first | rfl | cases h
      notified := fun _ => rfl }
  rw [wsum_sub isImplPushed isPushed _ (fun _ => rfl), tot_waiting _ _ (fun _ => rfl)] at this
  omega

/-- **C55.** No successful iteration is lost or counted twice: those not yet saved are those whose run
is waiting for the model lock. -/
theorem C55_iterations (h : Reachable conf s) :
    events isIterOk s.log = events isSaved s.log +
      waiting (fun p => p matches .rS _ | .rS' _) s := by
  have := h.bal (f := fun p => if p matches .rS _ | .rS' _ then 1 else 0)
    (w := fun e => (if isIterOk e then 1 else 0) - (if isSaved e then 1 else 0))
    { z := fun p h => by cases p <;> first | rfl | cases h
      wz := fun e h => by cases e <;> first | rfl | cases h
      push := rfl
      pu23 := rfl
      pushed := rfl
      counted := fun _ => rfl
      iter := fun _ _ => rfl
      rS := fun _ => rfl
      saved := fun _ => rfl
      set := fun p st h => by cases p <;> first | rfl | cases h
      notified := fun _ => rfl }
  rw [wsum_sub isIterOk isSaved _ (fun _ => rfl), tot_waiting _ _ (fun _ => rfl)] at this
  omega

/-- A push during a run with two iterations: the figures observed by another client. -/
example : ((exec Trace.plain (new : Algo Nat)
      (Trace.init ++ Trace.play ++ Trace.iterate 6 ++
        [.client, Trace.call 3 .push, Trace.g 3, .act 3 (.pushRet none), Trace.g 3, Trace.g 3] ++
        [Trace.g 3, Trace.g 3, Trace.g 3] ++ Trace.iterate 7 ++
        [Trace.call 3 .figures, Trace.g 3])).map
      fun s => (s.log.head?, s.iterations, s.pushedData)) =
    some (some (.ret 3 (.figures 2 1)), 2, 1) := by decide +kernel

/-- **C64.** Every status assigned is handed over to the notification loop exactly once: in every
reachable state the number of times a status was received by the loop, plus the number of goroutines
waiting to hand it over, is the number of times it was assigned. -/
theorem C64_notified (h : Reachable conf s) (st : OCStatus) :
    events (isSetTo st) s.log = events (isNotified st) s.log +
      waiting (fun p => decide ((notifying p).map (·.1) = some st)) s := by
  have := h.bal (f := fun p => if decide ((notifying p).map (·.1) = some st) then 1 else 0)
    (w := fun e => (if isSetTo st e then 1 else 0) - (if isNotified st e then 1 else 0))
    { z := fun p h => by
        have : notifying p = none := by
          have : (notifying p).isSome = false := by
            cases p <;> first | rfl | exact h
          simpa using this
        simp [this]
      wz := fun e h => by cases e <;> first | rfl | cases h
      push := rfl
      pu23 := rfl
      pushed := rfl
      counted := fun _ => rfl
      iter := fun _ _ => rfl
      rS := fun _ => rfl
      saved := fun _ => rfl
      set := fun p st' h => by
        simp only [h, isSetTo, isNotified]
        by_cases hc : st' = st <;> simp [hc]
      notified := fun st' => by simp [isSetTo, isNotified] }
  rw [wsum_sub (isSetTo st) (isNotified st) _ (fun _ => rfl), tot_waiting _ _ (fun _ => rfl)] at this
  omega

/-- **C64.** Hence when no goroutine is waiting to hand a status over, every status has been received
as many times as it was assigned; and at any time never more. -/
theorem C64_all (h : Reachable conf s) (st : OCStatus) :
    events (isNotified st) s.log ≤ events (isSetTo st) s.log ∧
    ((∀ t, t < s.n → notifying (s.thr t).pc = none) →
      events (isNotified st) s.log = events (isSetTo st) s.log) := by
  have := C64_notified h st
  refine ⟨by omega, fun hn => ?_⟩
  have hz : waiting (fun p => decide ((notifying p).map (·.1) = some st)) s = 0 := by
    unfold waiting
    rw [List.countP_eq_zero]
    intro j hj
    simp [hn j (List.mem_range.1 hj)]
  omega

/-- Not vacuous: after a play Running was assigned and received once. -/
example : ((exec Trace.plain (new : Algo Nat) (Trace.init ++ Trace.play)).map fun s =>
    (events (isSetTo (.new .running)) s.log, events (isNotified (.new .running)) s.log,
      events (isNotified (.new .idle)) s.log)) = some (1, 1, 0) := by decide +kernel

/-- **C66.** In every execution every counted push decides for an automatic start iff the algorithm is
Ready, `DataPerIter` is positive and at least `DataPerIter` pushes were counted since the last
automatic start; `newData` is the number of pushes counted since. -/
theorem C66_decision (h : Reachable conf s) :
    AutoOk conf.dataPerIter s.log ∧ s.newData = countedSince s.log :=
  ⟨h.count.auto, h.count.nd⟩

/-- **C66.** After counting, `Push` plays iff no push was counted since the last decision for an
automatic start (in particular, when pushes do not overlap, iff its own decision was a start). -/
theorem C66_start (h : Reachable conf s) {t : Nat} {s' : Algo C} (hp : (s.thr t).pc = .pu5)
    (hn : s.next conf (.act t .go) = some s') :
    (s'.thr t).pc = if countedSince s.log = 0 then .pl0 else .pu6 := by
  have hnd := h.count.nd
  simp only [next, step, hp, stepPush] at hn
  split at hn
  · split at hn
    · cases hn
      dsimp only
      rw [if_pos rfl, hnd]
      split <;> rfl
    · cases hn
  · cases hn

/-- **C66.** While the algorithm is Ready, the automatic starts come exactly every `DataPerIter + 1`
pushes. -/
theorem C66_period {d : Nat} (hd : 0 < d) (l : List (Event C)) (h : AutoOk d l)
    (hr : CountedReady l) : countedSince l = events isCounted l % (d + 1) := by
  induction l with
  | nil => simp [countedSince, events]
  | cons e l ih =>
    cases e
    case counted b =>
      have ih := ih h.2 hr.2
      have h1 := h.1
      have h2 := hr.1
      simp only [events, List.countP_cons, isCounted, if_true] at ih ⊢
      have hlt := Nat.mod_lt (List.countP isCounted l) (Nat.succ_pos d)
      rw [Nat.succ_eq_add_one, ← ih] at hlt
      cases b
      · have : ¬ d ≤ countedSince l := fun hc => by simpa using h1.2 ⟨h2, hd, hc⟩
        show countedSince l + 1 = _
        rw [Nat.add_mod, ← ih, Nat.mod_eq_of_lt (a := 1) (by omega), Nat.mod_eq_of_lt (by omega)]
      · have : d ≤ countedSince l := (h1.1 rfl).2.2
        show 0 = _
        rw [Nat.add_mod, ← ih, Nat.mod_eq_of_lt (a := 1) (by omega)]
        have : countedSince l = d := by omega
        rw [this, Nat.mod_self]
    all_goals exact ih h hr

/-- A push by goroutine `t` up to its decision. -/
def pushTrace (t : Nat) : List (Act Nat) :=
  [Trace.call t .push, Trace.g t, .act t (.pushRet none), Trace.g t, Trace.g t, Trace.g t]

/-- With `DataPerIter = 1`, the second push on a Ready algorithm starts a run. -/
example : ((exec ⟨0, 0, 1, false, false, false⟩ (new : Algo Nat)
      (Trace.init ++ pushTrace 0 ++ [Trace.g 0, Trace.g 0] ++ pushTrace 0 ++
        [Trace.g 0, Trace.g 0, Trace.g 0])).map fun s =>
      (s.log.filterMap fun | .counted b => some b | _ => none,
       s.log.any fun | .runStart _ => true | _ => false, s.newData)) =
    some ([true, false], true, 0) := by decide +kernel

/-- **C66 (claim examined).** The decision alone is not enough: when two pushes overlap, the one which
decided for an automatic start can find the counter already incremented by the other; both return and
no run is started. -/
theorem C66_overlap_loses_start : ∃ (conf : Conf) (s : Algo Nat), Reachable conf s ∧
    s.log.filterMap (fun | .counted b => some b | _ => none) = [false, true, false] ∧
    s.log.filterMap (fun | .ret t r => some (t, r) | _ => none) =
      [(2, .err none), (0, .err none), (0, .err none), (0, .err none)] ∧
    (s.log.any fun | .runStart _ => true | _ => false) = false ∧ s.status = ⟨.ready, none⟩ := by
  obtain ⟨s, hr, hs⟩ := Algo.reach (conf := ⟨0, 0, 1, false, false, false⟩)
    (Trace.init ++ pushTrace 0 ++ [Trace.g 0, Trace.g 0, .client] ++ pushTrace 0 ++ pushTrace 2 ++
        [Trace.g 0, Trace.g 0, Trace.g 2, Trace.g 2])
    (fun s => decide (s.log.filterMap (fun | .counted b => some b | _ => none) = [false, true, false] ∧
      s.log.filterMap (fun | .ret t r => some (t, r) | _ => none) =
        [(2, .err none), (0, .err none), (0, .err none), (0, .err none)] ∧
      (s.log.any fun | .runStart _ => true | _ => false) = false ∧ s.status = ⟨.ready, none⟩))
    (by decide +kernel)
  exact ⟨_, s, hr, of_decide_eq_true hs⟩

end Distclus
