import Verif.Proof.CtrlTell
import Verif.Props.CtrlTwice
/-!
# C113: what the result of a call says, whatever the other goroutines do
-/
namespace Distclus
open Ctrl Algo Spec Trace

instance {C : Type} (t : Nat) (P : List (Event C) → Prop) [DecidablePred P] :
    ∀ l, Decidable (During t P l)
  | [] => .isFalse id
  | e :: l =>
    have : Decidable (During t P l) := instDecidableDuringOfDecidablePredListEvent t P l
    inferInstanceAs (Decidable (P (e :: l) ∨ (callBy t e = false ∧ During t P l)))

instance {C : Type} (v : ClustStatus) : DecidablePred (showing (C := C) v) := fun l =>
  inferInstanceAs (Decidable ((current l).value = v))

section
variable {C : Type} {conf : Conf} {s : Algo C} {l1 l2 : List (Event C)} {t : Nat} {r : Option Err}

/-- **C113 (`Init`).** Either it is refused, and the algorithm was neither Created nor Finished when it returned; or the
implementation was initialised during the call, its error is the one returned, and the status says so: Ready, or
Finished with this error. -/
theorem C113_init (h : Reachable conf s) (hl : s.log = l1 ++ .ret t (.err r) :: l2)
    (hp : pending t l2 = some .init) :
    (r = some .alreadyCreated ∧ (current l2).value ≠ .created ∧ (current l2).value ≠ .finished) ∨
    Initialised t l2 r :=
  h.tells hl hp

/-- **C113 (`Play`, success).** The algorithm was Idle at some moment of the call, or the call started a run. -/
theorem C113_play (h : Reachable conf s) (hl : s.log = l1 ++ .ret t (.err none) :: l2)
    (hp : pending t l2 = some .play) : During t (showing .idle) l2 ∨ During t starting l2 :=
  h.tells hl hp

/-- **C113 (`Play`, error).** Either the algorithm was already Running when it returned; or the implementation refused to
be initialised during the call, with this error, and the algorithm is Finished with it. -/
theorem C113_play_err {e : Err} (h : Reachable conf s) (hl : s.log = l1 ++ .ret t (.err (some e)) :: l2)
    (hp : pending t l2 = some .play) : (e = .running ∧ (current l2).value = .running) ∨
    (During t (initReturns (some e)) l2 ∧ current l2 = ⟨.finished, some e⟩) :=
  h.tells hl hp

/-- **C113 (`Pause`).** It succeeds only if the algorithm was Running at some moment of the call; its only error is that
the algorithm is not running. -/
theorem C113_pause (h : Reachable conf s) (hl : s.log = l1 ++ .ret t (.err r) :: l2)
    (hp : pending t l2 = some .pause) :
    (r = none ∧ During t (showing .running) l2) ∨ r = some .notRunning := by
  have := h.tells hl hp
  cases r with
  | none => exact .inl ⟨rfl, this⟩
  | some e => exact .inr (by rw [show e = _ from this])

/-- **C113 (`Stop`).** It fails with "not alive" only if the algorithm was Created or Finished when it returned. Otherwise
the algorithm was Ready, Running or Idle at some moment of the call, and the result is the error of the status: none, or
that with which the algorithm is Finished. -/
theorem C113_stop (h : Reachable conf s) (hl : s.log = l1 ++ .ret t (.err r) :: l2)
    (hp : pending t l2 = some .stop) :
    (r = some .notAlive ∧ ((current l2).value = .created ∨ (current l2).value = .finished)) ∨
    (During t showingAlive l2 ∧ (current l2).error = r ∧ (r ≠ none → (current l2).value = .finished)) := by
  have := h.tells hl hp
  cases r with
  | none => exact .inr ⟨this.2, this.1, fun h => absurd rfl h⟩
  | some e =>
    rcases this with ⟨rfl, h⟩ | ⟨h1, h2⟩
    · exact .inl ⟨rfl, h⟩
    · exact .inr ⟨h2, by rw [h1], fun _ => by rw [h1]⟩

/-- **C113 (`Wait`, success).** Either the algorithm was Ready or Finished when it returned; or it was Running at some
moment of the call and, without a condition of the client, Ready, Idle or Finished at another. -/
theorem C113_wait {c d : Bool} (h : Reachable conf s) (hl : s.log = l1 ++ .ret t (.err none) :: l2)
    (hp : pending t l2 = some (.wait c d)) : ((current l2).value = .ready ∨ (current l2).value = .finished) ∨
    ((current l2).error = none ∧ During t (showing .running) l2 ∧ (c = false → During t showingEnd l2)) :=
  h.tells hl hp

/-- **C113 (`Wait`, error).** The algorithm was Idle when it returned, or it was Created; or it was Running at some moment
of the call, and: it can never finish (no limit is configured, and no condition or time-out was given); or the given
time-out expired; or the algorithm is Finished with this error. -/
theorem C113_wait_err {c d : Bool} {e : Err} (h : Reachable conf s)
    (hl : s.log = l1 ++ .ret t (.err (some e)) :: l2) (hp : pending t l2 = some (.wait c d)) :
    (e = .idle ∧ (current l2).value = .idle) ∨ (e = .notRunning ∧ (current l2).value = .created) ∨
    (During t (showing .running) l2 ∧
      ((e = .neverFinish ∧ c = false ∧ d = false ∧ conf.finishing = false ∧ conf.timeout = false ∧
          conf.iter = 0 ∧ conf.iterPerData = 0) ∨
        (e = .timeout ∧ d = true) ∨ current l2 = ⟨.finished, some e⟩)) :=
  h.tells hl hp

end

/-- The calls of client 0, of which the last is a `Play` on the Finished algorithm: the new run has set Running and is
about to acknowledge; the old run sees Running, and takes the command of `Pause`, which takes the acknowledgement meant
for `Play`. -/
def stolenAck : List (Act Nat) :=
  init ++ play ++ pause ++ stopIdle ++ replayFinished [recv 3 0, g 3, recv 1 3, g 1, g 3, g 2, g 2,
    .client, call 4 .pause, g 4, g 4, recv 2 4, g 4, recv 4 3]

/-- **C113 (claim examined, `Pause`).** "When `Pause` succeeds, the algorithm was Idle at some moment of the call" does not
hold with two clients. -/
theorem C113_pause_false : ∃ (s : Algo Nat) (l : List (Event Nat)), Reachable plain s ∧
    s.log = .ret 4 (.err none) :: l ∧ pending 4 l = some .pause ∧ ¬ During 4 (showing .idle) l := by
  obtain ⟨s, hr, hs⟩ := Algo.reach (conf := plain) stolenAck
    (fun s => decide (s.log = .ret 4 (.err none) :: s.log.tail ∧ pending 4 s.log.tail = some .pause ∧
      ¬ During 4 (showing .idle) s.log.tail)) (by decide +kernel)
  exact ⟨s, s.log.tail, hr, of_decide_eq_true hs⟩

/-- After a first `Batch`, the first run takes the command of the second `Play` and closes the acknowledgements: the next
`Stop` is answered before its command is obeyed. -/
def earlyStop : List (Act Nat) :=
  batchOnce ++ [call 0 .stop, g 0] ++ replayFinished [g 2, g 2, g 2, recv 2 0, recv 1 2, g 1, .act 2 .default,
    g 2, g 2, g 0, g 0, g 0, g 0] ++ [call 0 .stop, g 0, g 0, recv 3 0, g 0, g 0, g 0]

/-- **C113 (claim examined, `Stop`).** "When `Stop` succeeds, the algorithm was Finished at some moment of the call" does
not hold, even for one client: the algorithm is still Running. -/
theorem C113_stop_false : ∃ (s : Algo Nat) (l : List (Event Nat)), OneClient ⟨1, 0, 0, false, false, false⟩ s ∧
    s.log = .ret 0 (.err none) :: l ∧ pending 0 l = some .stop ∧ s.status = ⟨.running, none⟩ ∧
    ¬ During 0 (showing .finished) l := by
  have key : (exec ⟨1, 0, 0, false, false, false⟩ (new : Algo Nat) earlyStop).any (fun s : Algo Nat =>
    decide (s.log = .ret 0 (.err none) :: s.log.tail ∧ pending 0 s.log.tail = some .stop ∧
      s.status = ⟨.running, none⟩ ∧ ¬ During 0 (showing .finished) s.log.tail)) = true := by decide +kernel
  cases he : exec ⟨1, 0, 0, false, false, false⟩ (new : Algo Nat) earlyStop with
  | none => rw [he] at key; cases key
  | some s =>
    rw [he] at key
    exact ⟨s, s.log.tail, ⟨earlyStop.tail, by decide, he⟩, of_decide_eq_true key⟩

/-! ## The hypotheses are met -/

/-- The last result of a trace. -/
theorem lastTold {conf : Conf} (as : List (Act Nat)) (t : Nat) (r : Option Err) (op : Op)
    (h : (exec conf (new : Algo Nat) as).any (fun s : Algo Nat =>
      decide (s.log = .ret t (.err r) :: s.log.tail ∧ pending t s.log.tail = some op)) = true) :
    ∃ (s : Algo Nat) (l1 l2 : List (Event Nat)), Reachable conf s ∧ s.log = l1 ++ .ret t (.err r) :: l2 ∧
      pending t l2 = some op := by
  obtain ⟨s, hr, hs⟩ := Algo.reach (conf := conf) as _ h
  exact ⟨s, [], s.log.tail, hr, of_decide_eq_true hs⟩

example : ∃ (s : Algo Nat) (l1 l2 : List (Event Nat)), Reachable plain s ∧
    s.log = l1 ++ .ret 0 (.err none) :: l2 ∧ pending 0 l2 = some .init :=
  lastTold init _ _ _ (by decide +kernel)

/-- `Init` refused by the implementation. -/
example : ∃ (s : Algo Nat) (l1 l2 : List (Event Nat)), Reachable plain s ∧
    s.log = l1 ++ .ret 0 (.err (some (.other 7))) :: l2 ∧ pending 0 l2 = some .init :=
  lastTold [.client, call 0 .init, g 0, g 0, recv 1 0, g 1, .act 0 (.initRet none (some (.other 7))), g 0, g 0, g 0,
    recv 1 0, g 1, g 0] _ _ _ (by decide +kernel)

example : ∃ (s : Algo Nat) (l1 l2 : List (Event Nat)), Reachable plain s ∧
    s.log = l1 ++ .ret 0 (.err none) :: l2 ∧ pending 0 l2 = some .play :=
  lastTold (init ++ play) _ _ _ (by decide +kernel)

/-- `Play` by a second client while the algorithm is Running. -/
example : ∃ (s : Algo Nat) (l1 l2 : List (Event Nat)), Reachable plain s ∧
    s.log = l1 ++ .ret 3 (.err (some .running)) :: l2 ∧ pending 3 l2 = some .play :=
  lastTold (init ++ play ++ [.client, call 3 .play, g 3]) _ _ _ (by decide +kernel)

example : ∃ (s : Algo Nat) (l1 l2 : List (Event Nat)), Reachable plain s ∧
    s.log = l1 ++ .ret 0 (.err none) :: l2 ∧ pending 0 l2 = some .pause :=
  lastTold (init ++ play ++ pause) _ _ _ (by decide +kernel)

example : ∃ (s : Algo Nat) (l1 l2 : List (Event Nat)), Reachable plain s ∧
    s.log = l1 ++ .ret 0 (.err none) :: l2 ∧ pending 0 l2 = some .stop :=
  lastTold (init ++ play ++ pause ++ stopIdle) _ _ _ (by decide +kernel)

example : ∃ (s : Algo Nat) (l1 l2 : List (Event Nat)), Reachable plain s ∧
    s.log = l1 ++ .ret 0 (.err none) :: l2 ∧ pending 0 l2 = some (.wait false false) :=
  lastTold (init ++ play ++ pause ++ stopIdle ++ [call 0 (.wait false false), g 0]) _ _ _ (by decide +kernel)

example : ∃ (s : Algo Nat) (l1 l2 : List (Event Nat)), Reachable plain s ∧
    s.log = l1 ++ .ret 0 (.err (some .neverFinish)) :: l2 ∧ pending 0 l2 = some (.wait false false) :=
  lastTold (init ++ play ++ [call 0 (.wait false false), g 0, g 0]) _ _ _ (by decide +kernel)

end Distclus
