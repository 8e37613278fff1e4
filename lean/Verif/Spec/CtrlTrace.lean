import Verif.Model.Ctrl
/-!
# Executions used by the examples and the counter-examples

Goroutine 0 is a client; goroutine 1 is the notification loop, started by the first initialisation;
goroutine 2 is the first run.
-/
namespace Distclus
open Ctrl Algo
namespace Trace

/-- `t` acts. -/
abbrev g (t : Nat) : Act Nat := .act t .go
/-- `t` calls. -/
abbrev call (t : Nat) (op : Op) : Act Nat := .act t (.call op)
/-- `t` receives from `j`. -/
abbrev recv (t j : Nat) : Act Nat := .act t (.recv j)

/-- The plain configuration: no limit, no time-out, no notifier. -/
def plain : Conf := ⟨0, 0, 0, false, false, false⟩

/-- A client appears and initialises the algorithm, with centroids 5. -/
def init : List (Act Nat) :=
  [.client, call 0 .init, g 0, g 0, recv 1 0, g 1, .act 0 (.initRet (some 5) none), g 0, g 0, g 0,
   recv 1 0, g 1, g 0]

/-- The client plays; the run starts and waits in its loop. -/
def play : List (Act Nat) :=
  [call 0 .play, g 0, g 0, g 2, g 0, recv 2 0, g 2, recv 1 2, g 1, g 0, g 2, recv 0 2, g 0, g 0]

/-- The run goes through one iteration, which yields the centroids `c`. -/
def iterate (c : Nat) : List (Act Nat) :=
  [g 2, g 2, .act 2 .default, .act 2 (.iterOk c), g 2, g 2]

/-- The client pauses the run, which is in its loop. -/
def pause : List (Act Nat) :=
  [call 0 .pause, g 0, g 0, g 2, g 2, recv 2 0, g 2, recv 1 2, g 1, g 0, g 2, recv 0 2]

/-- The client resumes the paused run. -/
def resume : List (Act Nat) :=
  [call 0 .play, g 0, g 0, recv 2 0, g 2, recv 1 2, g 1, g 0, g 2, recv 0 2]

/-- The client stops the run, which is in its loop, and the run ends. -/
def stop : List (Act Nat) :=
  [call 0 .stop, g 0, g 0, g 2, g 2, recv 2 0, g 2, recv 1 2, g 1, g 0, g 2, g 2, g 2, g 2, g 2,
   .act 2 .default, .act 2 .default, g 2, g 2, g 0, g 0]

end Trace

/-- A state with a given property is reached by a given execution. -/
theorem Algo.reach {C : Type} {conf : Conf} (as : List (Act C)) (P : Algo C → Bool)
    (h : (exec conf new as).any P = true) : ∃ s, Reachable conf s ∧ P s = true := by
  cases he : exec conf (new : Algo C) as with
  | none => simp [he] at h
  | some s => exact ⟨s, ⟨as, he⟩, by simpa [he] using h⟩

end Distclus
