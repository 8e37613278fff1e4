import Verif.Proof.CtrlIter
import Verif.Spec.CtrlTrace
/-!
# C56, C57, C65, C68: runs, iterations, channels and time-outs
-/
namespace Distclus
open Ctrl Spec Algo Trace

variable {C : Type} {conf : Conf} {s s' s'' : Algo C}

/-! ## C65: channels and locks -/

/-- **C65.** In every execution the acknowledgement channels closed are all different, and a run about
to close one finds it open: no `close` of a closed channel. -/
theorem C65_close (h : Reachable conf s) :
    (closedChans s.log).Nodup ∧
    ∀ t, (s.thr t).pc = .c7 → s.ack ∉ closedChans s.log := by
  have := h.ack
  rw [this.log]
  exact ⟨this.nodup, this.c7⟩

/-- **C65.** In every execution a goroutine about to unlock a mutex holds it. -/
theorem C65_unlock (h : Reachable conf s) (t : Nat) :
    (unlocksS (s.thr t).pc = true → s.sm = some t) ∧
    (unlocksM (s.thr t).pc = true → s.ma = some t) ∧
    ((s.thr t).pc = .pu6 → t ∈ s.mr) := by
  refine ⟨fun hp => h.lock.hS t ?_, fun hp => (h.lock.hM t).1 ?_, fun hp => ?_⟩
  · revert hp; cases (s.thr t).pc <;> first | exact fun hp => hp | exact fun _ => rfl
  · revert hp; cases (s.thr t).pc <;> first | (intro hp; cases hp; done) | exact fun _ => rfl
  · exact List.count_pos_iff.1 (by rw [h.lock.hR t, if_pos (h.lock.notPush t hp)]; decide)

/-- **C65.** A mutex is only unlocked by its holder, at one of these program counters. -/
theorem C65_holder (h : Reachable conf s) {a : Act C} (hn : s.next conf a = some s') :
    (∀ t, s.sm = some t → s'.sm = none → unlocksS (s.thr t).pc = true) ∧
    (∀ t, s.ma = some t → s'.ma = none → unlocksM (s.thr t).pc = true) ∧
    (∀ t, t ∈ s.mr → t ∉ s'.mr → (s.thr t).pc = .pu6) := by
  have hs := Step.of_next hn
  refine ⟨fun t h1 h2 => ?_, fun t h1 h2 => ?_, fun t h1 h2 => ?_⟩
  · rcases hs.smFact with e | ⟨e, -⟩ | ⟨-, u, hu⟩
    · rw [h2, h1] at e; cases e
    · rw [h1] at e; cases e
    · have : holdsS (s.thr u).pc = true := by rcases hu with ⟨e, hu⟩ | hu | hu | hu <;> rw [hu] <;> rfl
      have := h.lock.hS u this
      rw [h1] at this; cases this
      rcases hu with ⟨e, hu⟩ | hu | hu | hu <;> rw [hu] <;> rfl
  · rcases hs.maHolder with e | e | ⟨u, hu⟩
    · rw [h2, h1] at e; cases e
    · rw [h1] at e; cases e
    · have := (C65_unlock h u).2.1 hu
      rw [h1] at this; cases this
      exact hu
  · by_contra hc; exact h2 (hs.keepsR h1 hc)

/-- A run ends: its channel is closed, both locks are free. -/
example : ((exec plain (new : Algo Nat) (init ++ play ++ stop)).map fun s =>
    (closedChans s.log, s.sm, s.ma, s.acks)) = some ([1], none, none, 2) := by decide +kernel

/-! ## C56: the iteration limit -/

/-- **C56.** With `Iter` or `IterPerData` set, as long as at most `m` goroutines at a time are between
the test of the limit and the record of an iteration, or about to reset the counters, there are never
more than `Iter + PushedData * IterPerData + (m - 1)` iterations. -/
theorem C56_limit {m : Nat} (hc : 0 < conf.iter ∨ 0 < conf.iterPerData) (h : Bounded conf m s) :
    s.iterations ≤ conf.iter + s.pushedData * conf.iterPerData + (m - 1) :=
  Nat.le_trans (Nat.le_add_right _ _) (Bounded.limit hc h).2.2

/-- **C56.** One run at a time: the limit is respected. -/
theorem C56_one_run (hc : 0 < conf.iter ∨ 0 < conf.iterPerData) (h : Bounded conf 1 s) :
    s.iterations ≤ conf.iter + s.pushedData * conf.iterPerData := C56_limit hc h

/-- An execution with at most `m` such goroutines. -/
def boundedExec (conf : Conf) (m : Nat) (s : Algo Nat) : List (Act Nat) → Option (Algo Nat)
  | [] => some s
  | a :: as => match s.next conf a with
    | none => none
    | some s' => if waiting looping s' ≤ m then boundedExec conf m s' as else none

theorem boundedExec_sound {conf : Conf} {m : Nat} (as : List (Act Nat)) {s s' : Algo Nat}
    (h : Bounded conf m s) (he : boundedExec conf m s as = some s') : Bounded conf m s' := by
  induction as generalizing s with
  | nil => cases he; exact h
  | cons a as ih =>
    simp only [boundedExec] at he
    split at he
    · cases he
    · rename_i s1 h1
      split at he
      · exact ih (.next a h h1 ‹_›) he
      · cases he

/-- Two iterations, the limit, and the run ends by itself: the hypotheses of C56 are met and the bound
is reached. -/
example : ∃ s : Algo Nat, Bounded ⟨2, 0, 0, false, false, false⟩ 1 s ∧ s.iterations = 2 ∧
    s.status.value = .ready := by
  have h : ((boundedExec ⟨2, 0, 0, false, false, false⟩ 1 new
      (init ++ play ++ iterate 6 ++ iterate 7 ++ [g 2, g 2, g 2, g 2, recv 1 2])).any
      fun s => decide (s.iterations = 2 ∧ s.status.value = .ready)) = true := by decide +kernel
  cases he : boundedExec ⟨2, 0, 0, false, false, false⟩ 1 new
      (init ++ play ++ iterate 6 ++ iterate 7 ++ [g 2, g 2, g 2, g 2, recv 1 2]) with
  | none => rw [he] at h; cases h
  | some s => rw [he] at h; exact ⟨s, boundedExec_sound _ .new he, of_decide_eq_true h⟩

/-- Two clients play a Ready algorithm, and both runs go through an iteration. -/
def twoPlaysIterate : List (Act Nat) :=
  init ++ [.client, call 0 .play, g 0, g 0, call 2 .play, g 2, g 2, g 3, g 4, g 0, g 2, recv 3 0,
    recv 4 2, g 3, recv 1 3, g 1, g 4, recv 1 4, g 1, g 3, g 4, g 0, g 2, recv 0 3, recv 2 4, g 0, g 0,
    g 2, g 2, g 3, g 3, .act 3 .default, g 4, g 4, .act 4 .default, .act 3 (.iterOk 6), g 3, g 3,
    .act 4 (.iterOk 7), g 4, g 4]

/-- **C56 (claim examined).** Without that condition the limit can be exceeded: two overlapping `Play`
calls make two iterations where `Iter` is 1. -/
theorem C56_overlap : ∃ s : Algo Nat, Reachable ⟨1, 0, 0, false, false, false⟩ s ∧
    s.iterations = 2 ∧ s.pushedData = 0 := by
  obtain ⟨s, hr, hs⟩ := Algo.reach (conf := ⟨1, 0, 0, false, false, false⟩) twoPlaysIterate
    (fun s => decide (s.iterations = 2 ∧ s.pushedData = 0)) (by decide +kernel)
  exact ⟨s, hr, of_decide_eq_true hs⟩

/-! ## C57: iterations and their failures -/

/-- **C57.** In every execution every call of `Iterate` comes after a successful initialisation. -/
theorem C57_after_init (h : Reachable conf s) : IterAfterInit s.log := h.initInv.log

/-- **C57.** In every execution all centroids saved are those of the last iteration of a run, which
succeeded. -/
theorem C57_saved (h : Reachable conf s) : SavedOk s.log := h.save.log

/-- What follows a failed iteration of run `t` with error `e`. -/
theorem failed_run (hR : Reachable conf s) {t : Nat} {e : Err}
    (hp : (s.thr t).pc = .r15 e ∨ (s.thr t).pc = .c0 (some e)) {as : List (Act C)}
    (ha : exec conf s as = some s') :
    iterCalls t s'.log = iterCalls t s.log ∧
    ((s'.thr t).pc = (s.thr t).pc ∨
      ∃ l, s'.log = l ++ s.log ∧ .set ⟨.finished, some e⟩ ∈ l) := by
  have ht : t < s.n := hR.lock.lt (by rcases hp with hp | hp <;> rw [hp] <;> rintro ⟨⟩)
  have := exec_induction (conf := conf) (P := fun x => LockInv x ∧ t < x.n ∧ ending (x.thr t).pc = true ∧
      iterCalls t x.log = iterCalls t s.log ∧ ∃ l, x.log = l ++ s.log ∧
      ((x.thr t).pc = (s.thr t).pc ∨ .set ⟨.finished, some e⟩ ∈ l)) ?_ as s s' ?_ ha
  · obtain ⟨-, -, -, h1, l, h2, h3⟩ := this
    exact ⟨h1, h3.imp_right fun h3 => ⟨l, h2, h3⟩⟩
  · rintro a b ⟨hL, hn, he, hc, l, hl, hd⟩ hs
    refine ⟨hL.step hs, by rcases hs.nFact with h | h <;> omega, hs.ending hL hn he,
      (hs.iterCalls he).trans hc, ?_⟩
    rcases hs.log with ⟨h, -⟩ | ⟨x, h, -, -⟩
    · refine ⟨l, h.trans hl, ?_⟩
      rcases hd with hd | hd
      · rcases hs.failed hL (e := e) (u := t) (by rw [hd]; exact hp) with h1 | h1
        · exact .inl (h1.trans hd)
        · rw [h] at h1; exact absurd (congrArg List.length h1) (by simp)
      · exact .inr hd
    · refine ⟨x :: l, by rw [h, hl]; rfl, ?_⟩
      rcases hd with hd | hd
      · rcases hs.failed hL (e := e) (u := t) (by rw [hd]; exact hp) with h1 | h1
        · exact .inl (h1.trans hd)
        · rw [h] at h1
          rw [(List.cons.inj h1).1]
          exact .inr (List.mem_cons_self ..)
      · exact .inr (List.mem_cons_of_mem _ hd)
  · exact ⟨hR.lock, ht, by rcases hp with hp | hp <;> rw [hp] <;> rfl, rfl, [], rfl, .inl rfl⟩

theorem next_iterErr {t : Nat} {e : Err} (hn : s.next conf (.act t (.iterErr e)) = some s') :
    s' = (s.ev (.iterErr t e)).go t (.r15 e) := by
  simp only [next, step] at hn
  split at hn
  · split at hn <;> simp_all [stepHome, stepPush, stepInit, stepPlay, stepPause, stepInterrupt, stepSend,
      stepWait, stepRun, stepRecover, stepNotif, stepTimer]
  · cases hn

theorem next_iterPanic {t : Nat} {e : Err} (hn : s.next conf (.act t (.iterPanic e)) = some s') :
    s' = (s.ev (.iterPanic t e)).go t (.c0 (some e)) := by
  simp only [next, step] at hn
  split at hn
  · split at hn <;> simp_all [stepHome, stepPush, stepInit, stepPlay, stepPause, stepInterrupt, stepSend,
      stepWait, stepRun, stepRecover, stepNotif, stepTimer]
  · cases hn

/-- **C57.** When an iteration of run `t` returns an error, nothing is saved; whatever happens then,
the run never calls `Iterate` again, and the only thing it can do next is to set the status to Finished
with that error. -/
theorem C57_error (h : Reachable conf s) {t : Nat} {e : Err}
    (hn : s.next conf (.act t (.iterErr e)) = some s') :
    s'.centroids = s.centroids ∧ s'.iterations = s.iterations ∧ s'.status = s.status ∧
    ∀ as s'', exec conf s' as = some s'' → iterCalls t s''.log = iterCalls t s'.log ∧
      ((s''.thr t).pc = .r15 e ∨ ∃ l, s''.log = l ++ s'.log ∧ .set ⟨.finished, some e⟩ ∈ l) := by
  have hR := h.next hn
  have e1 := next_iterErr hn
  have hp : (s'.thr t).pc = .r15 e := by rw [e1, go_pc, if_pos rfl]
  refine ⟨by rw [e1]; rfl, by rw [e1]; rfl, by rw [e1]; rfl, fun as s'' ha => ?_⟩
  have := failed_run hR (.inl hp) ha
  rwa [hp] at this

/-- **C57.** The same for an iteration which panics: the run goroutine recovers. -/
theorem C57_panic (h : Reachable conf s) {t : Nat} {e : Err}
    (hn : s.next conf (.act t (.iterPanic e)) = some s') :
    s'.centroids = s.centroids ∧ s'.iterations = s.iterations ∧ s'.status = s.status ∧
    ∀ as s'', exec conf s' as = some s'' → iterCalls t s''.log = iterCalls t s'.log ∧
      ((s''.thr t).pc = .c0 (some e) ∨
        ∃ l, s''.log = l ++ s'.log ∧ .set ⟨.finished, some e⟩ ∈ l) := by
  have hR := h.next hn
  have e1 := next_iterPanic hn
  have hp : (s'.thr t).pc = .c0 (some e) := by rw [e1, go_pc, if_pos rfl]
  refine ⟨by rw [e1]; rfl, by rw [e1]; rfl, by rw [e1]; rfl, fun as s'' ha => ?_⟩
  have := failed_run hR (.inr hp) ha
  rwa [hp] at this

/-- An iteration fails while a client is stopping the algorithm. -/
def errorStop : List (Act Nat) :=
  init ++ play ++ [g 2, g 2, .act 2 .default, call 0 .stop, g 0, g 0, .act 2 (.iterErr (.other 7)),
    g 2, recv 1 2, g 1, g 2, g 2, g 2, recv 2 0, recv 1 2, g 1, .act 2 .default, g 2, g 2, g 0, g 0, g 0]

/-- **C57 (claim examined).** The error does not always remain: a `Stop` in progress when the iteration
fails overwrites it. The run has ended, the status is Finished without error, and `Stop` returned
nil. -/
theorem C57_error_lost : ∃ s : Algo Nat, Reachable plain s ∧ .iterErr 2 (.other 7) ∈ s.log ∧
    s.status = ⟨.finished, none⟩ ∧ (s.thr 2).pc = .dead ∧
    rets 0 s.log = [.err none, .err none, .err none] := by
  obtain ⟨s, hr, hs⟩ := Algo.reach (conf := plain) errorStop
    (fun s => decide (.iterErr 2 (.other 7) ∈ s.log ∧
    s.status = ⟨.finished, none⟩ ∧ (s.thr 2).pc = .dead ∧
    rets 0 s.log = [.err none, .err none, .err none])) (by decide +kernel)
  exact ⟨s, hr, of_decide_eq_true hs⟩

/-- An iteration fails while nobody else acts: the run ends, the status is Finished with the error and
the centroids are still those of the previous iteration. -/
example : ((exec plain (new : Algo Nat) (init ++ play ++ iterate 6 ++ [g 2, g 2, .act 2 .default,
    .act 2 (.iterErr (.other 7)), g 2, recv 1 2, g 1, g 2, g 2, g 2, .act 2 .default, .act 2 .default, g 2,
    g 2])).map fun s => (s.status, s.centroids, s.iterations, (s.thr 2).pc)) =
    some (⟨.finished, some (.other 7)⟩, some 6, 1, .dead) := by decide +kernel

/-- The same with a panic. -/
example : ((exec plain (new : Algo Nat) (init ++ play ++ iterate 6 ++ [g 2, g 2, .act 2 .default,
    .act 2 (.iterPanic (.other 7)), g 2, recv 1 2, g 1, g 2, g 2, .act 2 .default, .act 2 .default, g 2,
    g 2])).map fun s => (s.status, s.centroids, s.iterations, (s.thr 2).pc)) =
    some (⟨.finished, some (.other 7)⟩, some 6, 1, .dead) := by decide +kernel

/-! ## C68: time-outs -/

/-- **C68.** In every execution a time-out interrupts at most once, and not after it was disabled. -/
theorem C68_fired (h : Reachable conf s) : FiredOk s.log := h.timer.log

/-- A configuration with a time-out. -/
def timed : Conf := ⟨0, 0, 0, true, false, false⟩

/-- The client plays with a time-out, which is goroutine 3, stops, and initialises again. -/
def replay : List (Act Nat) :=
  init ++ play ++ stop ++ [call 0 .init, g 0, g 0, g 0, g 0, recv 1 0, g 1,
    .act 0 (.initRet (some 5) none), g 0, g 0, g 0, recv 1 0, g 1, g 0]

/-- **C68 (claim examined).** A time-out concerns only the run it was started for. False: stopping does
not disable it, so that it can finish an algorithm which was initialised again and has not been
played since. -/
theorem C68_stale : ∃ s s' : Algo Nat, Reachable timed s ∧
    s.status = ⟨.ready, none⟩ ∧ exec timed s [g 3, g 3, recv 1 3, g 1, g 3] = some s' ∧
    s'.status = ⟨.finished, some .timeout⟩ := by
  obtain ⟨s, hr, hs⟩ := Algo.reach (conf := timed) replay
    (fun s => decide (s.status = ⟨.ready, none⟩) &&
      (exec timed s [g 3, g 3, recv 1 3, g 1, g 3]).any
        (fun x : Algo Nat => decide (x.status = ⟨.finished, some .timeout⟩))) (by decide +kernel)
  rw [Bool.and_eq_true] at hs
  obtain ⟨h1, h2⟩ := hs
  cases he : exec timed s [g 3, g 3, recv 1 3, g 1, g 3] with
  | none => rw [he] at h2; cases h2
  | some s' => rw [he] at h2; exact ⟨s, s', hr, of_decide_eq_true h1, he, of_decide_eq_true h2⟩

/-- The client plays again, and the old time-out wakes up before this second `Play` ends. -/
def replayPlay : List (Act Nat) :=
  replay ++ [call 0 .play, g 0, g 0, g 4, g 0, recv 4 0, g 4, recv 1 4, g 1, g 0, g 4, recv 0 4,
    g 3, g 3, g 3, g 4, g 4, recv 4 3, g 4, recv 1 4, g 1]

/-- **C68 (claim examined).** It can also interrupt a later run, before the `Play` which started that
run disables it. -/
theorem C68_stale_run : ∃ s : Algo Nat, Reachable timed s ∧ (s.thr 4).pc = .r6 ∧
    s.status = ⟨.finished, some .timeout⟩ ∧
    (s.log.filterMap fun | .fired i => some i | .disabled i => some (100 + i) | _ => none) = [3] := by
  obtain ⟨s, hr, hs⟩ := Algo.reach (conf := timed) replayPlay
    (fun s => decide ((s.thr 4).pc = .r6 ∧ s.status = ⟨.finished, some .timeout⟩ ∧
    (s.log.filterMap fun | .fired i => some i | .disabled i => some (100 + i) | _ => none) = [3]))
    (by decide +kernel)
  exact ⟨s, hr, of_decide_eq_true hs⟩

/-- A second `Play` disables the time-out of the first one, which then ends without interrupting. -/
example : ((exec timed (new : Algo Nat) (replay ++ [call 0 .play, g 0, g 0, g 4, g 0, recv 4 0, g 4,
    recv 1 4, g 1, g 0, g 4, recv 0 4, g 0, g 0, g 3])).map fun s =>
    ((s.thr 3).pc, s.timeout, s.status, s.log.filterMap fun
      | .fired i => some i | .disabled i => some (100 + i) | _ => none)) =
    some (.dead, some 5, ⟨.running, none⟩, [103]) := by decide +kernel

/-- And the second time-out interrupts the second run. -/
example : ((exec timed (new : Algo Nat) (replay ++ [call 0 .play, g 0, g 0, g 4, g 0, recv 4 0, g 4,
    recv 1 4, g 1, g 0, g 4, recv 0 4, g 0, g 0, g 5, g 5, g 5, g 4, g 4, recv 4 5, g 4])).map fun s =>
    (s.status, s.log.filterMap fun
      | .fired i => some i | .disabled i => some (100 + i) | _ => none)) =
    some (⟨.finished, some .timeout⟩, [5, 103]) := by decide +kernel

end Distclus
