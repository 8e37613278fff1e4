import Verif.Spec.Ctrl
/-!
# The documented workflow, for a client which uses the algorithm alone

The calls of goroutine 0 and their results are read off the record; `follows` replays them on the
documented workflow (README and the comments of core/ctrl.go): Created, Ready, Running, Idle, Finished.
-/
namespace Distclus
open Ctrl
namespace Spec
variable {C : Type}

/-- The call goroutine 0 is in, and its completed calls with their results, last first. -/
def session : List (Event C) → Option Op × List (Op × Res C)
  | [] => (none, [])
  | .call 0 op :: l => (some op, (session l).2)
  | .ret 0 r :: l =>
    match (session l).1 with
    | some op => (none, (op, r) :: (session l).2)
    | none => (none, (session l).2)
  | _ :: l => session l

/-- The documented answer of a call in a given status. -/
def answer (v : ClustStatus) : Op → Option Err
  | .wait _ _ =>
    match v with
    | .running => some .neverFinish
    | .idle => some .idle
    | .ready | .finished => none
    | _ => some .notRunning
  | op => refusal op v

/-- The documented status after a call. -/
def after (v : ClustStatus) (op : Op) : ClustStatus :=
  if answer v op = none then
    match op with
    | .init => .ready
    | .play => .running
    | .pause => .idle
    | .stop => .finished
    | _ => v
  else v

/-- The result is the documented one (`Push` returns what the implementation says; the values of
`Centroids()` and of `RuntimeFigures()` are specified elsewhere). -/
def right (v : ClustStatus) : Op → Res C → Bool
  | .status, .status st => decide (st = ⟨v, none⟩)
  | .centroids, .centroids _ => true
  | .figures, .figures _ _ => true
  | .conf, .unit => true
  | .push, .err _ => true
  | .init, .err e => decide (e = answer v .init)
  | .play, .err e => decide (e = answer v .play)
  | .pause, .err e => decide (e = answer v .pause)
  | .stop, .err e => decide (e = answer v .stop)
  | .wait c d, .err e => decide (e = answer v (.wait c d))
  | _, _ => false

/-- The documented status after a list of completed calls (last first), if all results are right. -/
def follows : List (Op × Res C) → Option ClustStatus
  | [] => some .created
  | (op, r) :: l =>
    match follows l with
    | some v => if right v op r then some (after v op) else none
    | none => none

/-- The hypotheses on the client and on the implementation, read off the record: only goroutine 0
calls, it does not use `Wait` with a condition or a time-out, it does not call `Stop` when the
documented status is Idle, and the implementation's `Init` and `Iterate` never fail. -/
def Peaceful : List (Event C) → Prop
  | [] => True
  | e :: l => (match e with
    | .call t op => t = 0 ∧ (∀ c d, op = .wait c d → c = false ∧ d = false) ∧
        (op = .stop → follows (session l).2 ≠ some .idle)
    | .initRet _ e => e = none
    | .iterErr _ _ => False
    | .iterPanic _ _ => False
    | _ => True) ∧ Peaceful l

/-- No automatic start, no time-out, no finishing condition. -/
def Tame (conf : Conf) : Prop := conf.dataPerIter = 0 ∧ conf.timeout = false ∧ conf.finishing = false

/-- No limit on the iterations, no time-out, no finishing condition, no automatic start. -/
def Endless (conf : Conf) : Prop :=
  conf.iter = 0 ∧ conf.iterPerData = 0 ∧ Tame conf

/-- The states reached when there is one client, goroutine 0. -/
def OneClient (conf : Conf) (s : Algo C) : Prop :=
  ∃ as, Algo.Act.client ∉ as ∧ Algo.exec conf (Algo.new : Algo C) (.client :: as) = some s

end Spec
end Distclus
