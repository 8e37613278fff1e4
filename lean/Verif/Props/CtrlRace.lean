import Verif.Proof.CtrlAccess
import Verif.Proof.CtrlRace
import Verif.Props.CtrlBatch
import Verif.Props.CtrlUse
/-!
# C92: data races of the controller
-/
namespace Distclus
open Ctrl Algo Spec
variable {C : Type} {conf : Conf} {s s' v : Algo C} {i j t : Nat} {a b : Access} {c : Choice C} {x : Loc}

/-! ## The table of the accesses agrees with the model -/

/-- C92. An action which is not listed as an access to a variable goes the same way whatever the value of
the variable, and leaves it as it is: with another value, the same action gives the same state with that
other value. (For the content of the figures: an action which does not take their address either, since
`RuntimeFigures()` hands it over.) -/
theorem C92_reads (h : ∀ a ∈ accesses conf s.status.value (s.thr t).pc, a.loc ≠ x)
    (h' : x = .map → ∀ a ∈ accesses conf s.status.value (s.thr t).pc, a.loc ≠ .figures) :
    step conf (patch x v s) t c = (step conf s t c).map (patch x v) := blind h h'

/-- C92. An action which is not listed as a write to a variable does not change it. -/
theorem C92_writes (h : ∀ a ∈ accesses conf s.status.value (s.thr t).pc, a.loc = x → a.write = false)
    (he : step conf s t c = some s') : patch x s s' = s' := kept h he

/-- In a new algorithm with a client about to read the status, the action is not listed as an access to the
centroids, and is possible. -/
example : ∃ s : Algo Nat, Reachable Trace.plain s ∧
    (∀ a ∈ accesses Trace.plain s.status.value (s.thr 0).pc, a.loc ≠ .centroids) ∧
    (step Trace.plain s 0 .go).isSome = true := by
  have key : (exec Trace.plain (new : Algo Nat) [.client, Trace.call 0 .status]).any (fun s : Algo Nat =>
      decide (∀ a ∈ accesses Trace.plain s.status.value (s.thr 0).pc, a.loc ≠ .centroids) &&
      (step Trace.plain s 0 .go).isSome) = true := by decide +kernel
  obtain ⟨s, hr, hs⟩ := Algo.reach _ _ key
  rw [Bool.and_eq_true] at hs
  exact ⟨s, hr, of_decide_eq_true hs.1, hs.2⟩

/-! ## Any number of clients -/

/-- C92. However many goroutines use the algorithm: the counters and `notifChannel` are never in a data
race; a data race involves one of the accesses listed as `lockless`; and two writes race only on
`ackChannel` or on the time-out. -/
theorem C92_races (hr : Reachable conf s) (h : Race conf s i j a b) :
    (lockless a.loc (s.thr i).pc = true ∨ lockless a.loc (s.thr j).pc = true) ∧
    a.loc ≠ .counters ∧ a.loc ≠ .notif ∧
    (a.write = true → b.write = true → a.loc = .ack ∨ a.loc = .timeout) := by
  have hl := Race.lockless hr h
  have hc := (clash_iff.1 h.2.2.2).1
  refine ⟨hl, ?_, ?_, ?_⟩
  · intro hx
    rw [hx] at hl
    rcases hl with hl | hl <;> revert hl <;> cases (s.thr _).pc <;> rintro ⟨⟩
  · intro hx
    rw [hx] at hl
    rcases hl with hl | hl <;> revert hl <;> cases (s.thr _).pc <;> rintro ⟨⟩
  · intro ha hb
    rcases hl with hl | hl
    · rcases lockless_read h.2.1.2.1 hl with h1 | h1 | h1
      · exact .inl h1
      · exact .inr h1
      · rw [h1] at ha; cases ha
    · rcases lockless_read h.2.2.1.2.1 (hc ▸ hl) with h1 | h1 | h1
      · exact .inl (hc ▸ h1)
      · exact .inr (hc ▸ h1)
      · rw [h1] at hb; cases hb

/-! ## One client -/

/-- C92. Without limit on the iterations, time-out, finishing condition and automatic start, a client
alone which follows the workflow meets no data race. -/
theorem C92_workflow (hc : Endless conf) (h : OneClient conf s) (hP : Peaceful s.log) : RaceFree conf s := by
  have hr : Reachable conf s := by obtain ⟨as, _, he⟩ := h; exact ⟨_, he⟩
  exact (UseInv.of_oneClient hc h hP).2.2.raceFree hc.2.2 hr (.inl ⟨hc.1, hc.2.1⟩)

/-- C92. With a limit on the iterations and nothing else, a client alone which plays until the limit and
waits for the end of the run before it does anything else meets no data race. -/
theorem C92_batch (hc : Limited conf) (h : OneClient conf s) (hP : Rebatching s.log) : RaceFree conf s := by
  have hr : Reachable conf s := by obtain ⟨as, _, he⟩ := h; exact ⟨_, he⟩
  rcases (RunsInv.of_oneClient hc h hP).phase with hI | hI
  · refine hI.use.raceFree hc.1 hr (.inr fun hp => ?_)
    rcases (rebatching_current hP hp).1 with h | h | h
    · exact h
    · cases h
    · cases h
  · exact hI.raceFree hc.1 hr

/-! ## Decidability, for the executions below -/

instance (s : Algo Nat) (t : Nat) (k : Lock) : Decidable (holdable s t k) := by
  cases k <;> unfold holdable <;> infer_instance

instance (conf : Conf) (s : Algo Nat) (t : Nat) (a : Access) : Decidable (About conf s t a) := by
  unfold About; infer_instance

instance (conf : Conf) (s : Algo Nat) (i j : Nat) (a b : Access) : Decidable (Race conf s i j a b) := by
  unfold Race; infer_instance

/-- The hypotheses of `C92_workflow` hold when the client is in `Stop` and waits for the acknowledgement of
the run, which is about to read the status without lock. -/
example : ∃ s : Algo Nat, Endless Trace.plain ∧ OneClient Trace.plain s ∧ Peaceful s.log ∧
    About Trace.plain s 0 ⟨.ack, false, []⟩ ∧ About Trace.plain s 2 ⟨.status, false, []⟩ := by
  have key : (exec Trace.plain (new : Algo Nat) (Trace.init ++ Trace.play ++ Trace.iterate 6 ++
      Trace.stop.take 9)).any (fun s => peacefulB s.log &&
      decide (About Trace.plain s 0 ⟨.ack, false, []⟩ ∧ About Trace.plain s 2 ⟨.status, false, []⟩)) = true := by
    decide +kernel
  cases he : exec Trace.plain (new : Algo Nat) (Trace.init ++ Trace.play ++ Trace.iterate 6 ++
      Trace.stop.take 9) with
  | none => rw [he] at key; cases key
  | some s =>
    rw [he, Option.any_some, Bool.and_eq_true] at key
    exact ⟨s, ⟨rfl, rfl, rfl, rfl, rfl⟩, ⟨(Trace.init ++ Trace.play ++ Trace.iterate 6 ++
      Trace.stop.take 9).tail, by decide, he⟩, peaceful_of_test key.1,
      of_decide_eq_true key.2⟩

/-- The hypotheses of `C92_batch` hold when the client is about to read the status in `Wait` while the run
is about to write it at its limit. -/
example : ∃ s : Algo Nat, Limited ⟨2, 0, 0, false, false, false⟩ ∧
    OneClient ⟨2, 0, 0, false, false, false⟩ s ∧ Rebatching s.log ∧
    About ⟨2, 0, 0, false, false, false⟩ s 0 ⟨.status, false, [.status]⟩ ∧
    About ⟨2, 0, 0, false, false, false⟩ s 3 ⟨.status, true, [.status]⟩ := by
  have key : (exec ⟨2, 0, 0, false, false, false⟩ (new : Algo Nat)
      (batchAgain.take 108)).any (fun s => rebatchingB s.log &&
      decide (About ⟨2, 0, 0, false, false, false⟩ s 0 ⟨.status, false, [.status]⟩ ∧
        About ⟨2, 0, 0, false, false, false⟩ s 3 ⟨.status, true, [.status]⟩)) = true := by
    decide +kernel
  cases he : exec ⟨2, 0, 0, false, false, false⟩ (new : Algo Nat)
      (batchAgain.take 108) with
  | none => rw [he] at key; cases key
  | some s =>
    rw [he, Option.any_some, Bool.and_eq_true] at key
    exact ⟨s, ⟨⟨rfl, rfl, rfl⟩, .inl (by decide)⟩, ⟨(batchAgain.take 108).tail, by decide, he⟩, rebatching_of_test key.1,
      of_decide_eq_true key.2⟩

/-! ## Races which do happen -/

namespace Races
open Trace

/-- One iteration. -/
def once : Conf := ⟨1, 0, 0, false, false, false⟩
/-- Five iterations. -/
def five : Conf := ⟨5, 0, 0, false, false, false⟩
/-- One iteration for each data. -/
def perData : Conf := ⟨0, 1, 0, false, false, false⟩
/-- A time-out. -/
def timed : Conf := ⟨0, 0, 0, true, false, false⟩

/-- The client pushes a data. -/
def push : List (Act Nat) := [call 0 .push, g 0, .act 0 (.pushRet none), g 0, g 0, g 0, g 0, g 0]
/-- The first run reaches its limit and sets the status to Ready. -/
def ended : List (Act Nat) := iterate 7 ++ [g 2, g 2, g 2, g 2, recv 1 2, g 1]
/-- The client plays again; the second run is in its loop. -/
def again : List (Act Nat) := [call 0 .play, g 0, g 0, g 3, g 0, recv 3 0, g 3, recv 1 3, g 1, g 0, g 3,
  recv 0 3, g 0, g 0]

/-- The client plays twice: the first run is about to close `ackChannel` when the second one makes a new
one. -/
def ackRace : List (Act Nat) :=
  init ++ play ++ ended ++ again.take 3 ++ [g 2, g 2, g 2, .act 2 .default]

/-- The client plays twice and calls `Pause`: the first run is about to set the status when the second one
reads it. -/
def statusRace : List (Act Nat) :=
  init ++ play ++ ended ++ again ++ [call 0 .pause, g 0, g 0, g 2, g 2, g 2]

/-- The client pushes a data while the run evaluates its limit. -/
def mapRace : List (Act Nat) :=
  init ++ play ++ iterate 7 ++ [call 0 .push, g 0, .act 0 (.pushRet none), g 2, g 0, g 0]

/-- The client plays twice and calls `Stop`, then `Init`: the first run has taken the status Finished, the
second one goes on and calls `Iterate` while `Init` resets the figures. -/
def figuresRace : List (Act Nat) :=
  init ++ push ++ play ++ ended ++ push ++ again ++ [g 3, g 3, call 0 .stop, g 0, g 0, g 2, g 2, g 2, recv 2 0,
    recv 1 2, g 1, g 0, .act 2 .default, g 2, g 2, g 0, g 0, call 0 .init, g 0, g 0]

/-- ... and while `Init` sets the centroids. -/
def centroidsRace : List (Act Nat) :=
  figuresRace ++ [g 0, g 0, recv 1 0, g 1, .act 0 (.initRet (some 8) none), g 0]

/-- Two clients play at the same time, with a time-out. -/
def timeoutRace : List (Act Nat) :=
  init ++ [.client, call 0 .play, call 2 .play, g 0, g 0, g 2, g 2,
    g 3, g 4, g 0, recv 3 0, g 3, recv 1 3, g 1, g 0, g 3, recv 0 3,
    g 2, recv 4 2, g 4, recv 1 4, g 1, g 2, g 4, recv 2 4, g 0]

theorem oneClient_of {P : Algo Nat → Bool} (as : List (Act Nat))
    (h : (exec conf (new : Algo Nat) (.client :: as)).any P = true)
    (hc : Act.client ∉ as) : ∃ s, OneClient conf s ∧ P s = true := by
  cases he : exec conf (new : Algo Nat) (.client :: as) with
  | none => simp [he] at h
  | some s => exact ⟨s, ⟨as, hc, he⟩, by simpa [he] using h⟩

end Races
open Races

/-- C92. The claim that one client, without time-out and finishing condition, meets no data race is false: there are races on `ackChannel`, on the status, on the content
of the figures, on the figures and on the centroids. -/
theorem C92_not_one :
    (∃ s : Algo Nat, OneClient once s ∧ ∃ i j, Race once s i j ⟨.ack, true, []⟩ ⟨.ack, false, [.status]⟩) ∧
    (∃ s : Algo Nat, OneClient once s ∧ ∃ i j, Race once s i j ⟨.status, true, [.status]⟩ ⟨.status, false, []⟩) ∧
    (∃ s : Algo Nat, OneClient five s ∧ ∃ i j, Race five s i j ⟨.map, true, [.modelW]⟩ ⟨.map, false, []⟩) ∧
    (∃ s : Algo Nat, OneClient perData s ∧
      ∃ i j, Race perData s i j ⟨.figures, true, [.status, .modelW]⟩ ⟨.figures, false, []⟩) ∧
    (∃ s : Algo Nat, OneClient perData s ∧
      ∃ i j, Race perData s i j ⟨.centroids, true, [.status, .modelW]⟩ ⟨.centroids, false, []⟩) := by
  refine ⟨?_, ?_, ?_, ?_, ?_⟩
  · obtain ⟨s, h, hs⟩ := oneClient_of (conf := once)
      (P := fun s => decide (Race once s 3 2 ⟨.ack, true, []⟩ ⟨.ack, false, [.status]⟩))
      ackRace.tail (by decide +kernel) (by decide)
    exact ⟨s, h, 3, 2, of_decide_eq_true hs⟩
  · obtain ⟨s, h, hs⟩ := oneClient_of (conf := once)
      (P := fun s => decide (Race once s 2 3 ⟨.status, true, [.status]⟩ ⟨.status, false, []⟩))
      statusRace.tail (by decide +kernel) (by decide)
    exact ⟨s, h, 2, 3, of_decide_eq_true hs⟩
  · obtain ⟨s, h, hs⟩ := oneClient_of (conf := five)
      (P := fun s => decide (Race five s 0 2 ⟨.map, true, [.modelW]⟩ ⟨.map, false, []⟩))
      mapRace.tail (by decide +kernel) (by decide)
    exact ⟨s, h, 0, 2, of_decide_eq_true hs⟩
  · obtain ⟨s, h, hs⟩ := oneClient_of (conf := perData)
      (P := fun s => decide (Race perData s 0 3 ⟨.figures, true, [.status, .modelW]⟩ ⟨.figures, false, []⟩))
      figuresRace.tail (by decide +kernel) (by decide)
    exact ⟨s, h, 0, 3, of_decide_eq_true hs⟩
  · obtain ⟨s, h, hs⟩ := oneClient_of (conf := perData)
      (P := fun s => decide (Race perData s 0 3 ⟨.centroids, true, [.status, .modelW]⟩ ⟨.centroids, false, []⟩))
      centroidsRace.tail (by decide +kernel) (by decide)
    exact ⟨s, h, 0, 3, of_decide_eq_true hs⟩

/-- C92. Two clients which play at the same time race on the time-out. -/
theorem C92_not_two : ∃ s : Algo Nat, Reachable timed s ∧
    ∃ i j, Race timed s i j ⟨.timeout, true, []⟩ ⟨.timeout, false, []⟩ := by
  obtain ⟨s, h, hs⟩ := Algo.reach (conf := timed) timeoutRace
    (fun s => decide (Race timed s 0 2 ⟨.timeout, true, []⟩ ⟨.timeout, false, []⟩)) (by decide +kernel)
  exact ⟨s, h, 0, 2, of_decide_eq_true hs⟩

end Distclus
