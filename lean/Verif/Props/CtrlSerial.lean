import Verif.Proof.CtrlSerial
import Verif.Props.CtrlBatch
import Verif.Props.CtrlBlock
/-!
# C85, C86: one client uses the implementation sequentially

C85: `Init` and `Iterate` of the implementation are called one at a time and each `Iterate` is given the
last centroids.  C86: after the run has been waited for, `Centroids()` is the composition of the
iterations, as many as the limit says, on the initial centroids.
-/
namespace Distclus
open Ctrl Algo Spec

variable {C : Type} {conf : Conf} {s : Algo C}

theorem Solo.serial (h : Solo conf s) : ∃ d, Serial s.log d ∧
    ((∀ t, inside (s.thr t).pc = false) → s.centroids = d.cur ∧ s.iterations = d.count) := by
  obtain ⟨d, hd⟩ := h.serInv
  refine ⟨d, hd.log, fun ho => ?_⟩
  obtain ⟨h1, h2⟩ := hd.rest fun u => inside_iff.1 (ho u)
  exact ⟨h1.symm, h2.symm⟩

/-- **C85 (without limit).** In every execution with one client, whatever the schedule, the calls of `Init`
and `Iterate` of the implementation are sequential and each `Iterate` is given the centroids returned by the
last call which returned some; when no goroutine is in such a call or recording its result, the centroids
and the iterations of the controller are the last returned and their number. -/
theorem C85_serial (hc : Endless conf) (h : OneClient conf s) (hP : Peaceful s.log) :
    ∃ d, Serial s.log d ∧
    ((∀ t, inside (s.thr t).pc = false) → s.centroids = d.cur ∧ s.iterations = d.count) :=
  Solo.serial (OneClient.soloE hc h hP)

/-- **C85 (with a limit).** The same, for a client which plays until the limit. -/
theorem C85_serial_batch (hc : Limited conf) (h : OneClient conf s) (hP : Rebatching s.log) :
    ∃ d, Serial s.log d ∧
    ((∀ t, inside (s.thr t).pc = false) → s.centroids = d.cur ∧ s.iterations = d.count) :=
  Solo.serial (OneClient.soloL hc h hP)

/-- A test of `Serial`. -/
def serialF [DecidableEq C] : List (Event C) → Option (Desk C)
  | [] => some ⟨none, none, none, 0⟩
  | e :: l =>
    match serialF l with
    | none => none
    | some d =>
      match e with
      | .initRet c _ => if d.busy = none then some ⟨none, c, c, 0⟩ else none
      | .iterCall r _ c => if d.busy = none ∧ c = d.cur then some { d with busy := some r } else none
      | .iterNil r => if d.busy = some r then some { d with busy := none } else none
      | .iterErr r _ => if d.busy = some r then some { d with busy := none } else none
      | .iterPanic r _ => if d.busy = some r then some { d with busy := none } else none
      | .iterOk r c =>
        if d.busy = some r then some { d with busy := none, cur := some c, count := d.count + 1 } else none
      | _ => some d

theorem serial_test [DecidableEq C] : ∀ {l : List (Event C)} {d : Desk C},
    Serial l d ↔ serialF l = some d := by
  intro l
  induction l with
  | nil => intro d; exact ⟨fun h => by cases h; rfl, fun h => by cases h; rfl⟩
  | cons e l ih =>
    intro d
    constructor
    · rintro ⟨d0, h, hn⟩
      rw [ih] at h
      simp only [serialF, h]
      cases e
      case initRet => obtain ⟨h1, rfl⟩ := hn; simp only; rw [if_pos h1]
      case iterCall => obtain ⟨h1, h2, rfl⟩ := hn; simp only; rw [if_pos ⟨h1, h2⟩]
      case iterNil => obtain ⟨h1, rfl⟩ := hn; simp only; rw [if_pos h1]
      case iterErr => obtain ⟨h1, rfl⟩ := hn; simp only; rw [if_pos h1]
      case iterPanic => obtain ⟨h1, rfl⟩ := hn; simp only; rw [if_pos h1]
      case iterOk => obtain ⟨h1, rfl⟩ := hn; simp only; rw [if_pos h1]
      all_goals cases hn; rfl
    · intro h
      simp only [serialF] at h
      cases hl : serialF l with
      | none => rw [hl] at h; cases h
      | some d0 =>
        rw [hl] at h
        refine ⟨d0, ih.2 hl, ?_⟩
        cases e
        all_goals
          simp only at h
          first
          | (split at h
             · rename_i hc; cases h; first | exact ⟨hc, rfl⟩ | exact ⟨hc.1, hc.2, rfl⟩
             · cases h)
          | (cases h; rfl)

/-- **C85 (claim examined).** With two clients it is false: two overlapping `Play` start two runs, which
call `Iterate` while the other one is in it. -/
theorem C85_two_clients : ∃ (conf : Conf) (s : Algo Nat), Endless conf ∧ Reachable conf s ∧
    ∀ d, ¬ Serial s.log d := by
  obtain ⟨s, hr, hs⟩ := Algo.reach (conf := Trace.plain) twoPlays
    (fun s => (serialF s.log).isNone) (by decide +kernel)
  refine ⟨_, s, ⟨rfl, rfl, rfl, rfl, rfl⟩, hr, fun d h => ?_⟩
  rw [serial_test.1 h] at hs
  cases hs

/-- **C86.** Once the client has waited for the last run, and until it initialises, pushes or plays again, the
centroids of the controller are the initial centroids iterated as many times as the limit says, if the
implementation computes its `n`-th iteration since the initialisation by `f n`. -/
theorem C86_composition {f : Nat → C → Option C} (hc : Limited conf) (h : OneClient conf s)
    (hP : Rebatching s.log) (hf : Computes f s.log)
    (hp : settled s.log = true) (hv : followsL (session s.log).2 ≠ some .running) :
    s.centroids = (initial s.log).bind (times f (conf.iter + s.pushedData * conf.iterPerData)) := by
  have hI := RunsInv.of_oneClient hc h hP
  obtain ⟨d, h1, h2⟩ := C85_serial_batch hc h hP
  obtain ⟨h3, h4⟩ := h2 (hI.ended hP hp hv).2
  rw [h3, (Serial.computed h1 hf).1, (Serial.desk h1).1, ← h4]
  exact congrArg (fun n => (initial s.log).bind (times f n)) (C82_limit hc h hP hp hv)

/-- **C86 (observed).** Hence every result of `Centroids()` after that is the initial centroids iterated as
many times as the limit says. -/
theorem C86_centroids {f : Nat → C → Option C} (hc : Limited conf) (h : OneClient conf s)
    (hP : Rebatching s.log) {t : Nat} {c : Option C} {l1 l2 : List (Event C)}
    (hl : s.log = l1 ++ .ret t (.centroids c) :: l2) (hf : Computes f l2)
    (hp : settled l2 = true) (hv : followsL (session l2).2 ≠ some .running) :
    c = (initial l2).bind (times f (conf.iter + pushedSince l2 * conf.iterPerData)) := by
  obtain ⟨s0, s1, h0, rfl, hst, h1⟩ := OneClient.past h hl
  have hb : Rebatching s0.log := by
    rw [hl] at hP; exact (rebatching_drop hP).2
  rcases hst.log with ⟨e, _⟩ | ⟨e, h2, _, h3⟩
  · rw [e] at h1
    exact absurd (congrArg List.length h1) (by simp)
  · rw [h1] at h2
    cases h2
    have hr : Reachable conf s0 := by obtain ⟨as, _, he⟩ := h0; exact ⟨_, he⟩
    rw [h3.2.1, C86_composition hc h0 hb hf hp hv, hr.count.pd]

/-! ## An execution which meets the hypotheses -/

/-- A test of `Computes`. -/
def computesB [DecidableEq C] (f : Nat → C → Option C) : List (Event C) → Bool
  | [] => true
  | .iterOk r c :: l => (match given r l with
    | some (some c0) => decide (f (doneSince l) c0 = some c)
    | _ => false) && computesB f l
  | _ :: l => computesB f l

theorem computes_of_test [DecidableEq C] {f : Nat → C → Option C} : ∀ {l : List (Event C)},
    computesB f l = true → Computes f l := by
  intro l
  induction l with
  | nil => intro _; trivial
  | cons e l ih =>
    intro h
    cases e
    case iterOk r c =>
      simp only [computesB, Bool.and_eq_true] at h
      refine ⟨?_, ih h.2⟩
      have h1 := h.1
      split at h1
      · rename_i c0 hg; exact ⟨c0, hg, of_decide_eq_true h1⟩
      · cases h1
    all_goals exact ih h

/-- `Batch` twice, then `Centroids()`: the iterations add 1, and the result is 8 + 1 + 1. -/
example : ∃ (s : Algo Nat) (l2 : List (Event Nat)), Limited ⟨2, 0, 0, false, false, false⟩ ∧
    OneClient ⟨2, 0, 0, false, false, false⟩ s ∧ Rebatching s.log ∧ Computes (fun _ n => some (n + 1)) l2 ∧
    s.log = [] ++ .ret 0 (.centroids (some 10)) :: l2 ∧ settled l2 = true ∧
    followsL (session l2).2 ≠ some .running ∧ initial l2 = some 8 := by
  have key : (exec ⟨2, 0, 0, false, false, false⟩ (new : Algo Nat)
      (batchAgain ++ [Trace.call 0 .centroids, Trace.g 0])).any (fun s =>
      rebatchingB s.log && computesB (fun _ n => some (n + 1)) s.log &&
      decide (s.log.head? = some (.ret 0 (.centroids (some 10))) ∧ settled s.log.tail = true ∧
        followsL (session s.log.tail).2 ≠ some .running ∧ initial s.log.tail = some 8)) = true := by
    decide +kernel
  cases he : exec ⟨2, 0, 0, false, false, false⟩ (new : Algo Nat)
      (batchAgain ++ [Trace.call 0 .centroids, Trace.g 0]) with
  | none => rw [he] at key; cases key
  | some s =>
    rw [he, Option.any_some, Bool.and_eq_true, Bool.and_eq_true] at key
    obtain ⟨h1, h2, h3, h4⟩ := of_decide_eq_true key.2
    refine ⟨s, s.log.tail, ⟨⟨rfl, rfl, rfl⟩, .inl (by decide)⟩,
      ⟨(batchAgain ++ [Trace.call 0 .centroids, Trace.g 0]).tail, by decide, he⟩, rebatching_of_test key.1.1,
      ?_, ?_, h2, h3, h4⟩
    · cases hl : s.log with
      | nil => rw [hl] at h1; cases h1
      | cons e l =>
        have h5 := computes_of_test key.1.2
        rw [hl] at h5
        exact computes_drop (l1 := [e]) h5
    · cases hl : s.log with
      | nil => rw [hl] at h1; cases h1
      | cons e l => rw [hl] at h1; cases h1; rfl

end Distclus
