import Verif.Model.Basic
/-!
# Status, finishing conditions and waiting (core/status.go, core/finish.go, core/timeout.go)
-/
namespace Distclus

/-- `ClustStatus` (core/status.go:7-14). -/
inductive ClustStatus where
  | created | initializing | ready | running | idle | finished
deriving DecidableEq, Repr

/-- The errors of core/error.go returned by the modelled code, and any other error. -/
inductive Err where
  | notRunning | running | alreadyCreated | idle | timeout | neverFinish | notAlive
  | other (code : Nat)
deriving DecidableEq, Repr

/-- `OCStatus` (core/status.go:31-34). -/
structure OCStatus where
  value : ClustStatus
  error : Option Err
deriving DecidableEq, Repr

/-- `NewOCStatus` (core/status.go:47-49). -/
def OCStatus.new (v : ClustStatus) : OCStatus := ⟨v, none⟩

/-- `NewOCStatusError` (core/status.go:52-57). -/
def OCStatus.ofError (e : Option Err) : OCStatus := ⟨.finished, e⟩

/-- `OCStatus.Running` (core/status.go:42-44). -/
def OCStatus.isRunning (s : OCStatus) : Bool := s.value == .running || s.value == .idle

/-- `OCStatus.Alive` (core/status.go:37-39). -/
def OCStatus.alive (s : OCStatus) : Bool := s.value == .ready || s.isRunning

/-- What the finishing conditions read of an `OCModel`: its status and the two runtime figures
`Iterations` and `PushedData` (absent figures read as 0).  The figures are integers stored as
`float64` and converted back by `int(...)`; they are integers here. -/
structure ModelView where
  status : OCStatus
  iterations : Int
  pushedData : Int
deriving DecidableEq, Repr

/-- `Finishing` (core/finish.go:4-6) with its implementations `AndFinishing` (9-11), `OrFinishing`
(14-16), `IterFinishing` (56-59), `StatusFinishing` (82-85); `custom` is any user implementation,
`nil` the nil interface. -/
inductive Finishing where
  | nil
  | and (l : List Finishing)
  | or (l : List Finishing)
  | iter (iter iterPerData : Int)
  | status (error : Bool) (l : List ClustStatus)
  | custom (f : ModelView → Bool)

/-- The loop of `StatusFinishing.IsFinished` (core/finish.go:92-96). -/
def statusLoop (v : ClustStatus) : List ClustStatus → Bool → Bool
  | [], cond => cond
  | s :: rest, _ => if s = v then true else statusLoop v rest false

/-- `StatusFinishing.IsFinished` (core/finish.go:88-99). -/
def statusFinished (error : Bool) (l : List ClustStatus) (m : ModelView) : Bool :=
  let cond := error && m.status.error.isSome
  if !cond && decide (l.length > 0) then statusLoop m.status.value l cond else cond

/-- `IterFinishing.IsFinished` (core/finish.go:62-71). -/
def iterFinished (iter iterPerData : Int) (m : ModelView) : Bool :=
  if iter > 0 ∨ iterPerData > 0 then
    decide (m.iterations ≥ iter + m.pushedData * iterPerData)
  else false

mutual
/-- `IsFinished` (core/finish.go:29-31) and the methods `IsFinished`. -/
def isFinished (m : ModelView) : Finishing → Bool
  | .nil => false
  | .and l => andLoop m l false
  | .or l => orLoop m l false
  | .iter a b => iterFinished a b m
  | .status e l => statusFinished e l m
  | .custom f => f m
/-- The loop of `AndFinishing.IsFinished` (core/finish.go:34-42). -/
def andLoop (m : ModelView) : List Finishing → Bool → Bool
  | [], cond => cond
  | f :: rest, _ =>
    let cond := isFinished m f
    if !cond then cond else andLoop m rest cond
/-- The loop of `OrFinishing.IsFinished` (core/finish.go:45-53). -/
def orLoop (m : ModelView) : List Finishing → Bool → Bool
  | [], cond => cond
  | f :: rest, _ =>
    let cond := isFinished m f
    if cond then cond else orLoop m rest cond
end

/-- What the polling goroutine sees over time: at its `i`-th turn the model read by `isFinished`, the
clock read by `isTimeout` (nanoseconds) and the model read after the loop if it ends there. -/
structure Timeline where
  model : Nat → ModelView
  clock : Nat → Int
  last : Nat → ModelView

/-- `timeout.isTimeout` (core/timeout.go:65-67). -/
def isTimeout (duration deadline now : Int) : Bool := decide (duration > 0) && decide (now > deadline)

/-- The loop and the end of `timeout.wait` (core/timeout.go:73-87) from turn `i`, observed for at
most `fuel` turns: `none` is "still waiting". -/
def waitLoop (f : Finishing) (duration deadline : Int) (t : Timeline) :
    Nat → Nat → Option (Nat × Option Err)
  | 0, _ => none
  | fuel + 1, i =>
    if isFinished (t.model i) f then some (i, (t.last i).status.error)
    else if isTimeout duration deadline (t.clock i) then some (i, some .timeout)
    else waitLoop f duration deadline t fuel (i + 1)

/-- `WaitTimeout` (core/timeout.go:42-52, 69-71) called at clock `start`. -/
def waitTimeout (f : Finishing) (duration start : Int) (t : Timeline) (fuel : Nat) :
    Option (Nat × Option Err) :=
  let f := match f with
    | .nil => .status true [.ready, .idle, .finished]
    | f => f
  waitLoop f duration (start + duration) t fuel 0

/-- The part of `CtrlConf` read by `Wait` (core/conf.go:16-24). -/
structure WaitConf where
  finishing : Finishing
  timeout : Int
  iter : Int
  iterPerData : Int

/-- Comparison of an interface value with `nil`. -/
def Finishing.isNil : Finishing → Bool
  | .nil => true
  | _ => false

/-- `CanNeverFinish` (core/ctrl.go:150-153). -/
def canNeverFinish (c : WaitConf) (f : Finishing) (timeout : Int) : Bool :=
  f.isNil && decide (timeout ≤ 0) && c.finishing.isNil && decide (c.timeout ≤ 0) &&
    decide (c.iter = 0) && decide (c.iterPerData = 0)

/-- `Algo.Wait` (core/ctrl.go:156-173): `status` is the status read at the beginning. The result is
`none` while waiting. -/
def algoWait (c : WaitConf) (status : ClustStatus) (f : Finishing) (timeout start : Int)
    (t : Timeline) (fuel : Nat) : Option (Option Err) :=
  match status with
  | .running =>
    if canNeverFinish c f timeout then some (some .neverFinish)
    else (waitTimeout f timeout start t fuel).map (·.2)
  | .idle => some (some .idle)
  | .ready => some none
  | .finished => some none
  | .created => some (some .notRunning)
  | .initializing => some (some .notRunning)

end Distclus
