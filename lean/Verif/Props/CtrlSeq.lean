import Verif.Props.CtrlBlock
/-!
# C80, C81: a single client which waits for the end of each call can fail too
-/
namespace Distclus
open Ctrl Algo Spec Trace

/-- The client stops the paused run and gets its answer; the run has not looked at the status yet. -/
def stopIdle : List (Act Nat) :=
  [call 0 .stop, g 0, g 0, recv 2 0, g 2, recv 1 2, g 1, g 0, g 2, recv 0 2, g 0]

/-- The client plays the finished algorithm; `mid` happens between the start of the new run, goroutine
3, and the send of Running. -/
def replayFinished (mid : List (Act Nat)) : List (Act Nat) :=
  [call 0 .play, g 0, g 0, g 0, g 0, recv 1 0, g 1, .act 0 (.initRet (some 5) none), g 0, g 0, g 0,
    recv 1 0, g 1, g 0, g 0, g 3, g 0] ++ mid

/-- The calls made, last first. -/
def callsMade (l : List (Event Nat)) : List (Nat × Op) :=
  l.filterMap fun | .call t op => some (t, op) | _ => none

/-- The old run sees the status Running set by the new one. -/
def twoRunsSeq : List (Act Nat) :=
  init ++ play ++ pause ++ stopIdle ++ replayFinished [recv 3 0, g 3, recv 1 3, g 1, g 3, g 0, recv 0 3,
    g 0, g 0, g 2, g 2, .act 2 .default, g 3, g 3, .act 3 .default]

/-- **C80 (claim examined).** A single client which calls Init, Play, Pause, Stop and Play one after the
other, all successful, can end up with two runs iterating at the same time. -/
theorem C80_two_runs : ∃ s : Algo Nat, Reachable plain s ∧
    callsMade s.log = [(0, .play), (0, .stop), (0, .pause), (0, .play), (0, .init)] ∧
    rets 0 s.log = [.err none, .err none, .err none, .err none, .err none] ∧
    (s.thr 0).pc = .home ∧ (s.thr 2).pc = .rI ∧ (s.thr 3).pc = .rI := by
  obtain ⟨s, hr, hs⟩ := Algo.reach (conf := plain) twoRunsSeq
    (fun s => decide (callsMade s.log = [(0, .play), (0, .stop), (0, .pause), (0, .play), (0, .init)] ∧
    rets 0 s.log = [.err none, .err none, .err none, .err none, .err none] ∧
    (s.thr 0).pc = .home ∧ (s.thr 2).pc = .rI ∧ (s.thr 3).pc = .rI)) (by decide +kernel)
  exact ⟨s, hr, of_decide_eq_true hs⟩

/-- The old run takes the command meant for the new one, and closes its channel. -/
def lostPlaySeq : List (Act Nat) :=
  init ++ play ++ pause ++ stopIdle ++ [g 2, g 2] ++ replayFinished [g 2, g 2, g 2, recv 2 0, recv 1 2,
    g 1, .act 2 .default, g 2, g 2, g 0, g 0, g 0, g 0]

/-- **C80 (claim examined).** With the same calls it can also end up with the status Running while its
only run waits for a command which was already consumed: nothing iterates. The next `Pause` kills that
run with a send on a closed channel, and reports that the algorithm is not running. -/
theorem C80_lost_play : ∃ s s' : Algo Nat, Reachable plain s ∧
    callsMade s.log = [(0, .play), (0, .stop), (0, .pause), (0, .play), (0, .init)] ∧
    rets 0 s.log = [.err none, .err none, .err none, .err none, .err none] ∧
    s.status = ⟨.running, none⟩ ∧ (s.thr 0).pc = .home ∧ (s.thr 2).pc = .dead ∧ (s.thr 3).pc = .r1 ∧
    exec plain s [call 0 .pause, g 0, g 0, recv 3 0, g 0, g 3, recv 1 3, g 1, g 3, g 3, g 3, recv 1 3,
      g 1, g 0] = some s' ∧
    s'.status = ⟨.finished, some sendOnClosed⟩ ∧ (s'.thr 0).pc = .home ∧
    rets 0 s'.log = .err (some .notRunning) :: rets 0 s.log := by
  obtain ⟨s, hr, hs⟩ := Algo.reach (conf := plain) lostPlaySeq
    (fun s => decide (callsMade s.log = [(0, .play), (0, .stop), (0, .pause), (0, .play), (0, .init)] ∧
    rets 0 s.log = [.err none, .err none, .err none, .err none, .err none] ∧
    s.status = ⟨.running, none⟩ ∧ (s.thr 0).pc = .home ∧ (s.thr 2).pc = .dead ∧ (s.thr 3).pc = .r1) &&
      (exec plain s [call 0 .pause, g 0, g 0, recv 3 0, g 0, g 3, recv 1 3, g 1, g 3, g 3, g 3, recv 1 3,
      g 1, g 0]).any (fun x : Algo Nat => decide (x.status = ⟨.finished, some sendOnClosed⟩ ∧
        (x.thr 0).pc = .home ∧ rets 0 x.log = .err (some .notRunning) :: rets 0 s.log)))
    (by decide +kernel)
  rw [Bool.and_eq_true] at hs
  obtain ⟨h1, h2⟩ := hs
  obtain ⟨a, b, c, d, e, f⟩ := of_decide_eq_true h1
  cases he : exec plain s [call 0 .pause, g 0, g 0, recv 3 0, g 0, g 3, recv 1 3, g 1, g 3, g 3, g 3,
      recv 1 3, g 1, g 0] with
  | none => rw [he] at h2; cases h2
  | some s' =>
    rw [he] at h2
    exact ⟨s, s', hr, a, b, c, d, e, f, he, of_decide_eq_true h2⟩

/-- The second `Push` starts a run, which completes its first iteration before `Push` returns. -/
def pushIterate : List (Act Nat) :=
  init ++ pushOne 0 ++ [g 0, g 0] ++ pushOne 0 ++ [g 0, g 0, g 0, g 2, g 0, recv 2 0, g 2,
    recv 1 2, g 1, g 2, g 0, recv 0 2, g 0, g 2, g 2, .act 2 .default, .act 2 (.iterOk 6), g 2]

/-- **C81 (claim examined).** A single client which only calls Init and Push can block for ever: the
automatic `Play` of its `Push` waits for the run it started, which waits for this `Push`. -/
theorem C81_push_alone : ∃ (conf : Conf) (s : Algo Nat), Reachable conf s ∧
    callsMade s.log = [(0, .push), (0, .push), (0, .init)] ∧
    rets 0 s.log = [.err none, .err none] ∧
    NeverReturns conf s 0 ∧ (s.thr 2).pc = .rS' 6 ∧
    ∀ as s', exec conf s as = some s' → (s'.thr 2).pc = .rS' 6 := by
  obtain ⟨s, hr, hs⟩ := Algo.reach (conf := ⟨0, 0, 1, false, false, false⟩) pushIterate
    (fun s => decide (callsMade s.log = [(0, .push), (0, .push), (0, .init)] ∧
    rets 0 s.log = [.err none, .err none] ∧ (s.thr 0).pc = .pl3 ∧ (s.thr 0).inPush = true ∧
    (s.thr 2).pc = .rS' 6)) (by decide +kernel)
  obtain ⟨a, b, c, d, e⟩ := of_decide_eq_true hs
  have := C78_push_writer hr c d (.inr ⟨_, e⟩)
  exact ⟨_, s, hr, a, b, this.1, e, fun as s' hx => ((this.2.2 as s' hx).2.1).trans e⟩

end Distclus
