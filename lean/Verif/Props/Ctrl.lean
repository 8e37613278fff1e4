import Verif.Proof.CtrlHistory
import Verif.Spec.CtrlTrace
/-!
# C53, C54: the status of the controller, refused commands
-/
namespace Distclus
open Ctrl Spec Algo

variable {C : Type} {conf : Conf} {s : Algo C}

/-- **C53.** In every reachable state, whatever the clients do and however the goroutines interleave:
an error is set only on Finished. -/
theorem C53_coherent (h : Reachable conf s) : Coherent s.status := h.hist.st.err

/-- **C53.** In every execution every assignment of the status is an allowed one: the status never
comes back to Created, Created is followed by Initializing, Initializing by Ready or by Finished with
an error; and Initializing follows only Created and Finished. The status is the last one assigned. -/
theorem C53_history (h : Reachable conf s) : HistoryOk s.log ∧ current s.log = s.status :=
  ⟨h.hist.hist, h.hist.cur⟩

/-- **C53.** In every execution `Status()` returns the last status assigned, coherent, and never
Initializing. -/
theorem C53_observed (h : Reachable conf s) : ObservedOk s.log := h.hist.obs

/-- A history: Created, Initializing, Ready, Running, Idle, Running, Finished; the iteration in the
middle is counted. -/
example : ((exec Trace.plain (new : Algo Nat)
      (Trace.init ++ Trace.play ++ Trace.iterate 6 ++ Trace.pause ++ Trace.resume ++
        [.client, Trace.call 3 .status, Trace.g 3] ++ Trace.stop)).map
      fun s => (s.status, s.centroids, s.iterations, (s.log.filterMap fun
        | .set st => some st.value
        | .ret 3 (.status st) => some st.value
        | _ => none).reverse)) =
    some (⟨.finished, none⟩, some 6, 1,
      [.initializing, .ready, .running, .idle, .running, .running, .finished]) := by decide +kernel

/-- A failed initialisation: Finished with its error. -/
example : ((exec Trace.plain (new : Algo Nat)
      [.client, Trace.call 0 .init, Trace.g 0, Trace.g 0, Trace.recv 1 0,
        .act 0 (.initRet none (some (.other 3)))
        , Trace.g 0, Trace.g 0, Trace.g 0, Trace.g 1, Trace.recv 1 0, Trace.g 0]).map
      fun s => (s.status, s.log.head?)) =
    some (⟨.finished, some (.other 3)⟩, some (.ret 0 (.err (some (.other 3))))) := by decide +kernel

/-- **C54.** A refused `Init`, `Play`, `Pause` or `Stop` returns its error and changes nothing: in
every reachable state where the client is between two calls and nobody is inside a section of the
status lock, the call returns its error in at most two actions of the client, after which the whole
state is as before. -/
theorem C54_refused (h : Reachable conf s) {t : Nat} {op : Op} {e : Err} (ht : t < s.n)
    (hk : (s.thr t).kind = .client) (hp : (s.thr t).pc = .home) (hs : s.sm = none)
    (hr : refusal op s.status.value = some e) :
    ∃ k, k ≤ 2 ∧ ∃ s', exec conf s (.act t (.call op) :: List.replicate k (.act t .go)) = some s' ∧
      s'.log = .ret t (.err (some e)) :: .call t op :: s.log ∧ Same s s' := by
  have hip : (s.thr t).inPush = false := by
    by_contra hc
    have := h.lock.push t (by simpa using hc)
    rw [hp] at this; cases this
  have hne := h.hist.st.notMid h.lock hs
  have hT : s.thr t = ⟨.client, .home, false⟩ := by
    generalize s.thr t = x at hk hp hip
    cases x; simp_all
  have hsame : Same s { s with log := .ret t (.err (some e)) :: .call t op :: s.log } := by
    constructor <;> rfl
  refine ⟨if op = .init then 2 else 1, by split <;> decide, _, ?_, rfl, hsame⟩
  cases op <;> cases hv : s.status.value <;> simp only [hv, refusal, reduceCtorEq] at hr hne <;>
    cases hr <;>
    simp [exec, next, step, ht, hp, hs, hv, hk, hip, stepHome, entry, stepInit, stepPlay, stepPause,
      stepInterrupt, beginPc, Algo.go, Algo.ev, Algo.ret, List.replicate]
  all_goals
    funext j
    by_cases hj : j = t
    · simp [hj, hT]
    · simp [hj]

/-- **C54.** The same in the middle of any interleaving: when a refused command reads the status, the
action returns its error, or (`Init`) leads to the point where it releases the lock and returns its
error; nothing else changes. -/
theorem C54_interleaved {s' : Algo C} {t : Nat} {c : Choice C} {op : Op} {e : Err}
    (hp : (s.thr t).pc = entry op) (hi : (s.thr t).inPush = false)
    (hr : refusal op s.status.value = some e) (hn : s.next conf (.act t c) = some s') :
    SameBut t s s' ∧ s.sm = none ∧
    ((s'.log = .ret t (.err (some e)) :: s.log ∧ (s'.thr t).pc = .home ∧ s'.sm = none) ∨
     (op = .init ∧ s'.log = s.log ∧ (s'.thr t).pc = .in10 .init (some e) ∧ s'.sm = some t)) := by
  have key : ∀ p l m, SameBut t s (({ s with log := l, sm := m } : Algo C).go t p) := by
    intro p l m
    exact ⟨rfl, rfl, rfl, rfl, rfl, rfl, rfl, rfl, rfl, rfl, rfl, rfl, rfl, rfl, rfl,
      fun j hj => by simp [Algo.go, hj], rfl⟩
  have hret : ∀ (r : Res C), s.ret t r = ({ s with log := .ret t r :: s.log, sm := s.sm } : Algo C).go t .home := by
    intro r; simp [Algo.ret, hi, Algo.ev]
  have ht : t < s.n := by
    by_contra hc
    simp [next, step, hc] at hn
  cases op <;> cases hv : s.status.value <;> simp only [hv, refusal, reduceCtorEq] at hr <;>
    cases hr <;> cases c <;>
    simp only [next, step, ht, hp, entry, if_true, stepInit, stepPlay, stepPause, stepInterrupt, hv,
      beginPc, reduceCtorEq, if_false] at hn <;>
    (try split at hn) <;> (try cases hn) <;> rename_i hs
  all_goals first
    | exact ⟨key _ _ _, hs, .inr ⟨rfl, rfl, by rw [go_pc, if_pos rfl], rfl⟩⟩
    | (rw [hret]; exact ⟨key _ _ _, hs, .inl ⟨rfl, by rw [go_pc, if_pos rfl], hs⟩⟩)

/-- **C54.** The end of a refused `Init`: the lock is released and the error returned. -/
theorem C54_init_end {s' : Algo C} {t : Nat} {c : Choice C} {e : Option Err}
    (hp : (s.thr t).pc = .in10 .init e) (hi : (s.thr t).inPush = false)
    (hn : s.next conf (.act t c) = some s') :
    SameBut t s s' ∧ s'.log = .ret t (.err e) :: s.log ∧ (s'.thr t).pc = .home ∧ s'.sm = none := by
  have ht : t < s.n := by
    by_contra hc
    simp [next, step, hc] at hn
  cases c <;> simp only [next, step, ht, hp, if_true, stepInit, reduceCtorEq] at hn
  cases hn
  refine ⟨⟨ret_status .., ret_ma .., ret_mr .., ret_notif .., ret_ack .., ret_acks .., ret_closed ..,
    ret_centroids .., ret_iterations .., ret_pushedData .., ret_newData .., ret_figIter ..,
    ret_figPushed .., ret_timeout .., ret_disabled .., ?_, ret_n ..⟩, ?_, ?_, ret_sm ..⟩
  · intro j hj; simp [Algo.ret, Algo.go, Algo.ev, hi, hj]
  · rw [ret_log]; simp [hi]
  · rw [ret_pc]; simp [hi]

/-- **C54.** Conversely a command which is not to be refused is not: whatever the interleaving, the
action in which it reads the status does not end the call. -/
theorem C54_accepted (h : Reachable conf s) {s' : Algo C} {t : Nat} {c : Choice C} {op : Op}
    (hop : op = .init ∨ op = .play ∨ op = .pause ∨ op = .stop)
    (hp : (s.thr t).pc = entry op) (hr : refusal op s.status.value = none)
    (hn : s.next conf (.act t c) = some s') :
    (s'.thr t).pc ≠ .home ∧ (s'.thr t).pc ≠ .pu6 ∧ ∀ r, s'.log ≠ .ret t r :: s.log := by
  have ht : t < s.n := by
    by_contra hc
    simp [next, step, hc] at hn
  have hne := h.hist.st.notMid h.lock
  have hll : ∀ (e : Event C) l, l ≠ e :: l := by
    intro e l h; have := congrArg List.length h; simp at this
  rcases hop with rfl | rfl | rfl | rfl <;> cases hv : s.status.value <;>
    simp only [hv, refusal, reduceCtorEq] at hr <;>
    cases c <;>
    simp only [next, step, ht, hp, entry, if_true, stepInit, stepPlay, stepPause, stepInterrupt, hv,
      beginPc, reduceCtorEq, if_false] at hn <;>
    (try split at hn) <;> (try cases hn) <;> rename_i hs
  all_goals first
    | exact absurd hv (hne hs)
    | (refine ⟨by rw [go_pc, if_pos rfl]; rintro ⟨⟩, by rw [go_pc, if_pos rfl]; rintro ⟨⟩, ?_⟩
       intro r h
       first
       | exact hll _ _ h
       | cases h)

/-- The hypotheses are met: `Init`, `Pause` and `Stop` are refused in their turn. -/
example : ((exec Trace.plain (new : Algo Nat)
      (Trace.init ++ [Trace.call 0 .init, Trace.g 0, Trace.g 0, Trace.call 0 .pause, Trace.g 0] ++
        Trace.play ++ [Trace.call 0 .play, Trace.g 0])).map
      fun s => (s.status, s.log.filterMap fun | .ret 0 r => some r | _ => none)) =
    some (⟨.running, none⟩, [.err (some .running), .err none, .err (some .notRunning),
      .err (some .alreadyCreated), .err none]) := by decide +kernel


end Distclus
