import Verif.Proof.CtrlBlame
import Verif.Spec.CtrlTrace
import Verif.Spec.CtrlUse
/-!
# C156: a time-out which wakes up when the run is over

`Timeout` starts a goroutine which sleeps, then interrupts the algorithm unless a later `Play` has disabled it.  The
end of the run does not disable it.
-/
namespace Distclus
open Ctrl Algo Spec

variable {C : Type} {conf : Conf} {s s' : Algo C}

/-- **C156 (blame).** In every execution, whatever the clients do: the error of the status is the panic of a send on a
channel which has been closed, the time-out when one has fired, or was returned by `Init` or `Iterate` or is a panic of `Iterate`; no
time-out fires unless the configuration asks for one.  So Stop, Pause and the conditions never leave an error. -/
theorem C156_blame (h : Reachable conf s) :
    (∀ e, s.status.error = some e → Blamed s.log e) ∧ ((∃ i, .fired i ∈ s.log) → conf.timeout = true) :=
  ⟨h.blamed.1.1, h.timerConf.2⟩

/-- **C156 (what it does).** A time-out which interrupts the algorithm: a Ready algorithm becomes Finished with the
time-out as error; a running or paused one is sent this status; otherwise nothing changes. -/
theorem C156_interrupts {i : Nat} {e : Option Err} (hi : i < s.n) (hp : (s.thr i).pc = .it0 e)
    (hu : (s.thr i).inPush = false) (hn : s.next conf (.act i .go) = some s') :
    (s.status.value = .ready → s'.status = ⟨.finished, e⟩ ∧ s'.log = .set ⟨.finished, e⟩ :: s.log) ∧
    (s.status.value = .idle ∨ s.status.value = .running →
      s'.status = s.status ∧ (s'.thr i).pc = .sd0 ⟨.finished, e⟩ .interrupt ∧ s'.log = s.log) ∧
    (s.status.value = .created ∨ s.status.value = .initializing ∨ s.status.value = .finished →
      s'.status = s.status ∧ (s'.thr i).pc = .home ∧ s'.log = .ret i (.err (some .notAlive)) :: s.log) ∧
    s'.iterations = s.iterations ∧ s'.centroids = s.centroids := by
  simp only [next, step, if_pos hi, hp, stepInterrupt] at hn
  split at hn
  case isFalse => cases hn
  cases hv : s.status.value <;> rw [hv] at hn <;> cases hn <;>
    simp [go, put, ret, ev, hu, OCStatus.ofError]

/-- **C156 (Ready).** Whatever has happened before, when the algorithm is Ready and a notification loop waits, a
time-out which has not been disabled can make it Finished with an error, nobody else doing anything. -/
theorem C156_ready {i j : Nat} (hi : i < s.n) (hp : (s.thr i).pc = .ti0) (hd : i ∉ s.disabled)
    (hj : j < s.n) (hl : (s.thr j).pc = .nl0) (hm : s.sm = none) (hv : s.status.value = .ready) :
    ∃ s', exec conf s [.act i .go, .act i .go, .act j (.recv i)] = some s' ∧
      s'.status = ⟨.finished, some .timeout⟩ ∧ .notified ⟨.finished, some .timeout⟩ ∈ s'.log ∧
      s'.iterations = s.iterations ∧ s'.centroids = s.centroids := by
  have hij : j ≠ i := by rintro rfl; rw [hp] at hl; cases hl
  have h1 : s.next conf (.act i .go) = some ((s.ev (.fired i)).go i (.it0 (some .timeout))) := by
    simp only [next, step, if_pos hi, hp, stepTimer, if_neg hd]
  have h2 : ((s.ev (.fired i)).go i (.it0 (some .timeout))).next conf (.act i .go) =
      some (({ (s.ev (.fired i)).go i (.it0 (some .timeout)) with sm := some i }.put
        (.ofError (some .timeout))).go i (.it1 (some .timeout))) := by
    have e1 : (((s.ev (.fired i)).go i (.it0 (some .timeout))).thr i).pc = .it0 (some .timeout) := by
      rw [go_pc, if_pos rfl]
    simp only [next, step, e1, stepInterrupt]
    rw [if_pos (show i < ((s.ev (.fired i)).go i (.it0 (some .timeout))).n from hi),
      if_pos (show ((s.ev (.fired i)).go i (.it0 (some .timeout))).sm = none from hm)]
    have e2 : ((s.ev (.fired i)).go i (.it0 (some .timeout))).status.value = .ready := hv
    rw [e2]
  generalize hs2 : ({ (s.ev (.fired i)).go i (.it0 (some .timeout)) with sm := some i }.put
        (.ofError (some .timeout))).go i (.it1 (some .timeout)) = s2 at h2
  have e3 : (s2.thr i).pc = .it1 (some .timeout) := by rw [← hs2, go_pc, if_pos rfl]
  have e4 : (s2.thr j).pc = .nl0 := by
    rw [← hs2, go_pc, if_neg hij]
    change (((s.ev (.fired i)).go i (.it0 (some .timeout))).thr j).pc = _
    rw [go_pc, if_neg hij]; exact hl
  have e5 : s2.n = s.n := by rw [← hs2]; rfl
  have h3 : s2.next conf (.act j (.recv i)) = some (((s2.ev (.notified (.ofError (some .timeout)))).go i .it2).go j
      (.nl1 (.ofError (some .timeout)))) := by
    simp only [next, step, e4, stepNotif, e3, notifying]
    rw [if_pos (by rw [e5]; exact hj), if_pos (by rw [e5]; exact hi)]
  refine ⟨((s2.ev (.notified (.ofError (some .timeout)))).go i .it2).go j (.nl1 (.ofError (some .timeout))), ?_, ?_, ?_, ?_, ?_⟩
  · simp only [exec, h1, h2, h3]
  · rw [← hs2]; rfl
  · exact List.mem_cons_self
  · rw [← hs2]; rfl
  · rw [← hs2]; rfl

/-- Two iterations, and a time-out. -/
def twoTimed : Conf := ⟨2, 0, 0, true, false, false⟩

open Trace in
/-- The client plays and waits, the run makes its two iterations and ends, `Wait` sees Ready. -/
def bothDone : List (Act Nat) :=
  init ++ play ++ iterate 6 ++ [call 0 (.wait false false), g 0, g 0] ++ iterate 7 ++
  [g 2, g 2, g 2, g 2, recv 1 2, g 1, g 2, g 2, g 2, .act 2 .default, .act 2 .default, g 2, g 2, g 0]

open Trace in
/-- The time-out wakes up. -/
def wakes : List (Act Nat) := [g 3, g 3, recv 1 3, g 1, g 3]

open Trace in
/-- **C156 (too late; claim examined: a run which reaches its limit in time is not interrupted).** `Wait` has returned
nil, the two iterations asked for are made, the run is over; then the time-out makes the algorithm Finished with an
error. -/
theorem C156_late : ∃ s : Algo Nat, Reachable twoTimed s ∧ s.iterations = 2 ∧
    (session s.log).2.head? = some (.wait false false, .err none) ∧ .runEnd 2 ∈ s.log ∧
    s.status = ⟨.finished, some .timeout⟩ := by
  obtain ⟨s, hr, hs⟩ := Algo.reach (conf := twoTimed) (bothDone ++ [g 0] ++ wakes)
    (fun s => decide (s.iterations = 2 ∧ (session s.log).2.head? = some (.wait false false, .err none) ∧
      .runEnd 2 ∈ s.log ∧ s.status = ⟨.finished, some .timeout⟩)) (by decide +kernel)
  exact ⟨s, hr, of_decide_eq_true hs⟩

open Trace in
/-- **C156 (restart).** The next `Play` then starts afresh: the iterations are forgotten and the centroids are those
of another initialisation. -/
theorem C156_restart : ∃ s s' : Algo Nat, Reachable twoTimed s ∧ s.iterations = 2 ∧ s.centroids = some 7 ∧
    exec twoTimed s [call 0 .play, g 0, g 0, g 0, g 0, recv 1 0, g 1, .act 0 (.initRet (some 5) none), g 0, g 0] =
      some s' ∧ s'.iterations = 0 ∧ s'.centroids = some 5 := by
  obtain ⟨s, hr, hs⟩ := Algo.reach (conf := twoTimed) (bothDone ++ [g 0] ++ wakes)
    (fun s => decide (s.iterations = 2 ∧ s.centroids = some 7) &&
      (exec twoTimed s [call 0 .play, g 0, g 0, g 0, g 0, recv 1 0, g 1, .act 0 (.initRet (some 5) none), g 0,
        g 0]).any (fun x : Algo Nat => decide (x.iterations = 0 ∧ x.centroids = some 5))) (by decide +kernel)
  rw [Bool.and_eq_true] at hs
  obtain ⟨h1, h2⟩ := hs
  cases he : exec twoTimed s [call 0 .play, g 0, g 0, g 0, g 0, recv 1 0, g 1, .act 0 (.initRet (some 5) none), g 0,
        g 0] with
  | none => rw [he] at h2; cases h2
  | some s' =>
    rw [he] at h2
    have h3 := of_decide_eq_true h1
    have h4 := of_decide_eq_true (p := s'.iterations = 0 ∧ s'.centroids = some 5) h2
    exact ⟨s, s', hr, h3.1, h3.2, he, h4.1, h4.2⟩

open Trace in
/-- **C156 (Wait; claim examined: Wait returns an error only if the run was interrupted).** The run is over, the status
is Ready, every iteration was made and `Wait` has seen it; the time-out wakes up before `Wait` reads the error: `Wait`
returns the time-out. -/
theorem C156_wait : ∃ s s' : Algo Nat, Reachable twoTimed s ∧ s.iterations = 2 ∧ .runEnd 2 ∈ s.log ∧
    s.status = ⟨.ready, none⟩ ∧ (session s.log).1 = some (.wait false false) ∧
    exec twoTimed s (wakes ++ [g 0]) = some s' ∧ s'.iterations = 2 ∧
    (session s'.log).2.head? = some (.wait false false, .err (some .timeout)) := by
  obtain ⟨s, hr, hs⟩ := Algo.reach (conf := twoTimed) bothDone
    (fun s => decide (s.iterations = 2 ∧ .runEnd 2 ∈ s.log ∧ s.status = ⟨.ready, none⟩ ∧
      (session s.log).1 = some (.wait false false)) &&
      (exec twoTimed s (wakes ++ [g 0])).any (fun x : Algo Nat => decide (x.iterations = 2 ∧
        (session x.log).2.head? = some (.wait false false, .err (some .timeout))))) (by decide +kernel)
  rw [Bool.and_eq_true] at hs
  obtain ⟨h1, h2⟩ := hs
  cases he : exec twoTimed s (wakes ++ [g 0]) with
  | none => rw [he] at h2; cases h2
  | some s' =>
    rw [he] at h2
    have h3 := of_decide_eq_true h1
    have h4 := of_decide_eq_true (p := s'.iterations = 2 ∧
        (session s'.log).2.head? = some (.wait false false, .err (some .timeout))) h2
    exact ⟨s, s', hr, h3.1, h3.2.1, h3.2.2.1, h3.2.2.2, he, h4.1, h4.2⟩

/-- A state where the hypotheses of `C156_ready` hold: the run of `bothDone` is over and its time-out (3) sleeps. -/
example : ∃ s : Algo Nat, Reachable twoTimed s ∧ 3 < s.n ∧ (s.thr 3).pc = .ti0 ∧ 3 ∉ s.disabled ∧
    (s.thr 1).pc = .nl0 ∧ s.sm = none ∧ s.status.value = .ready := by
  obtain ⟨s, hr, hs⟩ := Algo.reach (conf := twoTimed) bothDone
    (fun s => decide (3 < s.n ∧ (s.thr 3).pc = .ti0 ∧ 3 ∉ s.disabled ∧ (s.thr 1).pc = .nl0 ∧ s.sm = none ∧
      s.status.value = .ready)) (by decide +kernel)
  exact ⟨s, hr, of_decide_eq_true hs⟩

end Distclus
