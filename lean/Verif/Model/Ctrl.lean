import Verif.Model.Finish
/-!
# The controller (core/algo.go, core/ctrl.go, core/model.go, core/timeout.go) as a transition system

One `Algo` object, used by any number of client goroutines, with the goroutines it starts itself: run
goroutines, the notification loop and the interruption time-outs.  A state is the content of the
object, of its locks and channels, and the program counter of every goroutine; `step` is one atomic
action of one goroutine (or of two of them meeting on a channel).

Simplifications (all listed in DESIGN.md):

* Memory is sequentially consistent.  Following Lipton's reduction, an access made between taking and
  releasing a lock is merged with the release when nothing blocking lies between them; a read under
  `RLock`/`RUnlock` is one action, possible when no writer holds or waits for the lock.  Everything
  blocking (lock, channel operation, call of the implementation) is a separate action, and so is every
  access made without a lock.
* `statusMutex` is never read-held across a blocking action, so it is a plain mutex (`sm`).
  `modelMutex` is held for reading by `Push` while it plays, so it is an `RWMutex` with Go's writer
  preference: a writer announces itself (`ma`), which stops new readers, then waits until there are no
  readers (`mr`).
* Time is not modelled: a sleep is an action which may happen at any time; `duration` and
  `lastDataTime` are dropped, and of the runtime figures only `Iterations` and `PushedData` are kept
  (an absent figure reads as 0).
* The implementation (`Impl`) is an adversary: `Init`, `Iterate` and `Push` return any result at any
  time, `Iterate` may panic.  A panic in `Init` or `Push` (which happens in the client's goroutine) is
  not modelled.  `conf.Finishing` is an adversary too: it returns any answer.
* `log` is a ghost variable: it records what happened, newest first, and is never read.
-/
namespace Distclus
namespace Ctrl

/-- The fields of `CtrlConf` (core/conf.go:16-24) used by the controller; `timeout`,
`finishing` and `notifier` say whether they are set. -/
structure Conf where
  iter : Nat
  iterPerData : Nat
  dataPerIter : Nat
  timeout : Bool
  finishing : Bool
  notifier : Bool
deriving DecidableEq, Repr

/-- The calls a client can make: the methods of `OCCtrl` (core/ctrl.go:9-19) and the readers of
`OCModel` (core/model.go:4-11), except `Predict`, `Batch` and `Copy`. -/
inductive Op where
  | status | centroids | figures | conf
  | init | play | pause | stop | push | wait (custom timed : Bool)
deriving DecidableEq, Repr

/-- Results of the calls. -/
inductive Res (C : Type) where
  | err (e : Option Err)
  | status (st : OCStatus)
  | centroids (c : Option C)
  | figures (iterations pushed : Nat)
  | unit
deriving DecidableEq, Repr

/-- Who called the inner `init` (core/ctrl.go:63 or 110). -/
inductive InitFrom where
  | init | play
deriving DecidableEq, Repr

/-- Who called `sendStatus`: `Play` on Idle (core/ctrl.go:106), `Play` on Ready (119), `Pause` (139),
`interrupt` (186). -/
inductive SendFrom where
  | playIdle | playRun | pause | interrupt
deriving DecidableEq, Repr

/-- Program counters; the comment of each step of `step` gives the lines. -/
inductive PC (C : Type) where
  /-- a client between calls; a notification loop inside the notifier, between calls; a finished
  time-out -/
  | home
  | dead
  -- readers
  | rdStatus | rdCentroids | rdFigures | rdConf
  -- Push
  | pu0 | pu1 | pu2 | pu3 | pu4 | pu5 | pu6
  -- Init and init
  | in0
  | in1 (k : InitFrom) | in2 (k : InitFrom) | in3 (k : InitFrom) | in4 (k : InitFrom)
  | in5 (k : InitFrom)
  | in6 (k : InitFrom) (c : Option C) (e : Option Err)
  | in7 (k : InitFrom) (c : Option C) (e : Option Err)
  | in8 (k : InitFrom) (e : Option Err)
  | in9 (k : InitFrom) (e : Option Err)
  | in10 (k : InitFrom) (e : Option Err)
  -- Play
  | pl0 | pl1 | pl2 | pl3
  -- Pause
  | pa0
  -- interrupt
  | it0 (e : Option Err) | it1 (e : Option Err) | it2 | it3
  -- sendStatus
  | sd0 (st : OCStatus) (k : SendFrom) | sd1 (st : OCStatus) (k : SendFrom) | sd2 (k : SendFrom)
  | sd3 (a : Nat) (k : SendFrom)
  -- Wait
  | wa0 (custom timed : Bool) | wa1 (custom timed : Bool) | wa2 (custom timed : Bool) | wa3
  -- run; `idle` in `r4` and `r5` says that the acknowledged status was Idle, received in the loop
  | r0 | r1 | r2 (st : OCStatus) | r3 (st : OCStatus) | r4 (idle : Bool) | r5 (idle : Bool) (a : Nat)
  | r6 | r7 | r8 | r9 | r10 (st : OCStatus) | r11 (st : OCStatus) | rI
  | rS (c : C) | rS' (c : C)
  | r12 | r13 | r14 | r15 (e : Err) | r16 (e : Err)
  -- recover; the argument is the value of the panic
  | c0 (p : Option Err) | c1 (p : Option Err) | c2 (p : Option Err) | c3 (p : Option Err)
  | c4 (p : Option Err) | c5 (st : OCStatus) | c6 | c7 | c8
  -- notification loop
  | nl0 | nl1 (st : OCStatus)
  -- time-out goroutine
  | ti0
deriving DecidableEq, Repr

/-- What a goroutine is. -/
inductive Kind where
  | client | run | notifier | timer
deriving DecidableEq, Repr

/-- A goroutine. `inPush`: it is inside the `Play` called by `Push` (core/ctrl.go:40), holding
`modelMutex` for reading. -/
structure Thread (C : Type) where
  kind : Kind
  pc : PC C
  inPush : Bool
deriving DecidableEq, Repr

/-- What is recorded in the ghost log. -/
inductive Event (C : Type) where
  /-- a call by goroutine `t`, and its result -/
  | call (t : Nat) (op : Op)
  | ret (t : Nat) (r : Res C)
  /-- an assignment to `algo.status` -/
  | set (st : OCStatus)
  /-- a status received by the notification loop -/
  | notified (st : OCStatus)
  /-- the implementation's `Init` ends -/
  | initRet (c : Option C) (e : Option Err)
  /-- the implementation's `Iterate` is called with this status and these centroids, and ends -/
  | iterCall (r : Nat) (st : OCStatus) (c : Option C)
  | iterNil (r : Nat)
  | iterOk (r : Nat) (c : C)
  | iterErr (r : Nat) (e : Err)
  | iterPanic (r : Nat) (e : Err)
  /-- `algo.iterations++` with these centroids saved -/
  | saved (c : C)
  /-- the implementation's `Push` succeeded -/
  | implPushed
  /-- `algo.pushedData++` -/
  | pushed
  /-- `algo.newData` is reset (`true`) or incremented -/
  | counted (auto : Bool)
  /-- the counters are reset by `init` on Finished -/
  | reset
  /-- start and end of a run goroutine -/
  | runStart (r : Nat)
  | runEnd (r : Nat)
  /-- `close` of an acknowledgement channel -/
  | closed (a : Nat)
  /-- an interruption time-out is disabled, and calls its interruption -/
  | disabled (i : Nat)
  | fired (i : Nat)
deriving DecidableEq, Repr

end Ctrl

open Ctrl

/-- The `Algo` object (core/algo.go:18-37), its locks, channels and goroutines. -/
structure Algo (C : Type) where
  status : OCStatus
  /-- holder of `statusMutex` -/
  sm : Option Nat
  /-- writer which holds `modelMutex` or waits for its readers -/
  ma : Option Nat
  /-- goroutines holding `modelMutex` for reading across actions -/
  mr : List Nat
  /-- `notifChannel` has been made -/
  notif : Bool
  /-- `ackChannel`: channels are numbered in order of creation -/
  ack : Nat
  /-- number of acknowledgement channels made so far -/
  acks : Nat
  /-- closed acknowledgement channels -/
  closed : List Nat
  centroids : Option C
  iterations : Nat
  pushedData : Nat
  newData : Nat
  /-- `runtimeFigures[Iterations]` and `runtimeFigures[PushedData]` -/
  figIter : Nat
  figPushed : Nat
  /-- `algo.timeout`: the time-out is named by its goroutine -/
  timeout : Option Nat
  /-- time-outs whose field `enabled` is false -/
  disabled : List Nat
  /-- goroutines `0 .. n-1` -/
  thr : Nat → Thread C
  n : Nat
  log : List (Event C)

namespace Algo
variable {C : Type}

/-- `NewAlgo` (core/algo.go:40-58) on an accepted configuration. -/
def new : Algo C where
  status := .new .created
  sm := none
  ma := none
  mr := []
  notif := false
  ack := 0
  acks := 1
  closed := []
  centroids := none
  iterations := 0
  pushedData := 0
  newData := 0
  figIter := 0
  figPushed := 0
  timeout := none
  disabled := []
  thr := fun _ => ⟨.client, .dead, false⟩
  n := 0
  log := []

/-- Goroutine `t` moves to `p`. -/
def go (s : Algo C) (t : Nat) (p : PC C) : Algo C :=
  { s with thr := fun j => if j = t then { s.thr t with pc := p } else s.thr j }

/-- Start a goroutine. -/
def spawn (s : Algo C) (k : Kind) (p : PC C) : Algo C :=
  { s with thr := fun j => if j = s.n then ⟨k, p, false⟩ else s.thr j, n := s.n + 1 }

/-- Record an event. -/
def ev (s : Algo C) (e : Event C) : Algo C := { s with log := e :: s.log }

/-- The assignment `algo.status = status` of `setStatus` (core/algo.go:64 and 67). -/
def put (s : Algo C) (st : OCStatus) : Algo C := { s with status := st, log := .set st :: s.log }

/-- End of a call with its result. Inside the `Play` called by `Push` the result is dropped
(core/ctrl.go:40) and `Push` goes on. -/
def ret (s : Algo C) (t : Nat) (r : Res C) : Algo C :=
  if (s.thr t).inPush then s.go t .pu6 else (s.ev (.ret t r)).go t .home

/-- End of `sendStatus` with the value of `ok` (core/algo.go:82-83) and what its caller does
(core/ctrl.go:106, 119-120, 139-141, 186-187). -/
def sent (s : Algo C) (t : Nat) (ok : Bool) : SendFrom → Algo C
  | .playIdle => s.ret t (.err none)
  | .playRun => s.go t .pl2
  | .pause => s.ret t (.err (if ok then none else some .notRunning))
  | .interrupt => s.go t .it3

/-- A goroutine blocked in `algo.statusChannel <- status` (core/algo.go:81). -/
def sending : PC C → Option (OCStatus × SendFrom)
  | .sd1 st k => some (st, k)
  | _ => none

/-- No goroutine is blocked in a send on `statusChannel`. -/
def noSender (s : Algo C) : Bool := decide (∀ j < s.n, (sending (s.thr j).pc).isNone)

/-- A goroutine blocked in `algo.notifChannel <- status` (core/algo.go:69): the status and what
follows the call of `setStatus`. -/
def notifying : PC C → Option (OCStatus × PC C)
  | .in4 k => some (.new .initializing, .in5 k)
  | .in9 k none => some (.new .ready, .in10 k none)
  | .in9 k (some e) => some (.ofError (some e), .in10 k (some e))
  | .it1 e => some (.ofError e, .it2)
  | .r3 st => some (st, .r4 false)
  | .r11 st => some (st, if st.value = .idle then .r4 true else .r6)
  | .r14 => some (.new .ready, .c0 none)
  | .r16 e => some (.ofError (some e), .c0 none)
  | .c1 p => some (.ofError p, .c2 p)
  | .c5 st => some (st, .c6)
  | _ => none

/-- A goroutine blocked in `algo.ackChannel <- true` (core/algo.go:76, core/ctrl.go:274) on a given
channel, and what follows. -/
def acking : PC C → Option (Nat × PC C)
  | .r5 idle a => some (a, if idle then .r1 else .r6)
  | _ => none

end Algo

/-- What the environment decides in an action. -/
inductive Ctrl.Choice (C : Type) where
  /-- the next action of a goroutine -/
  | go
  /-- a client, or the notifier, makes a call -/
  | call (op : Op)
  /-- the goroutine receives on a channel from that other goroutine -/
  | recv (from_ : Nat)
  /-- `default` of a `select` -/
  | default
  /-- results of the implementation -/
  | initRet (c : Option C) (e : Option Err)
  | iterNil | iterOk (c : C) | iterErr (e : Err) | iterPanic (e : Err)
  | pushRet (e : Option Err)
  /-- answer of a user's finishing condition; `wait` gives up (true) or polls again (false) -/
  | answer (b : Bool)
deriving DecidableEq, Repr

namespace Algo
variable {C : Type}

/-- First program counter of a call. -/
def entry : Op → PC C
  | .status => .rdStatus
  | .centroids => .rdCentroids
  | .figures => .rdFigures
  | .conf => .rdConf
  | .init => .in0
  | .play => .pl0
  | .pause => .pa0
  | .stop => .it0 none
  | .push => .pu0
  | .wait c d => .wa0 c d

/-- Clients, and the notification loop inside the notifier, between two calls: begin a call, or (loop)
return from the notifier (core/algo.go:90-93 and 96). -/
def stepHome (s : Algo C) (t : Nat) : Choice C → Option (Algo C)
  | .call op =>
    if (s.thr t).kind = .client ∨ (s.thr t).kind = .notifier then
      some ((s.ev (.call t op)).go t (entry op))
    else none
  | .go => if (s.thr t).kind = .notifier then some (s.go t .nl0) else none
  | _ => none

/-- The readers of core/model.go: `Status` (49-53), `Centroids` (14-18), `RuntimeFigures` (28-32),
`Conf` (35-39). -/
def stepRead (s : Algo C) (t : Nat) : PC C → Option (Algo C)
  | .rdStatus => if s.sm = none then some (s.ret t (.status s.status)) else none
  | .rdCentroids => if s.ma = none then some (s.ret t (.centroids s.centroids)) else none
  | .rdFigures => if s.ma = none then some (s.ret t (.figures s.figIter s.figPushed)) else none
  | .rdConf => if s.ma = none then some (s.ret t .unit) else none
  | _ => none

/-- The condition of core/ctrl.go:29. -/
def autoPlay (conf : Conf) (s : Algo C) : Bool :=
  decide (s.status.value = .ready ∧ conf.dataPerIter > 0 ∧ conf.dataPerIter ≤ s.newData)

/-- `Push` (core/ctrl.go:22-44). The implementation may call `Status()` first (kmeans/impl.go:34-36 and mcmc/impl.go:79-81 do,
streaming/impl.go:77-84 does not), then may block. -/
def stepPush (conf : Conf) (s : Algo C) (t : Nat) : PC C → Choice C → Option (Algo C)
  -- 23: impl.Push reads Status(), or not
  | .pu0, .go => if s.sm = none then some (s.go t .pu1) else none
  | .pu0, .default => some (s.go t .pu1)
  -- 23-24: impl.Push returns
  | .pu1, .pushRet e =>
    match e with
    | none => some ((s.ev .implPushed).go t .pu2)
    | some e => some (s.ret t (.err (some e)))
  -- 25: modelMutex.Lock() announces the writer
  | .pu2, .go => if s.ma = none then some ({ s with ma := some t }.go t .pu3) else none
  -- 25-26: the lock is taken, pushedData++
  | .pu3, .go =>
    if s.mr = [] then
      some (({ s with pushedData := s.pushedData + 1 }.ev .pushed).go t .pu4)
    else none
  -- 29-35: Status(), newData, updateRuntimeFigures (313-317), Unlock
  | .pu4, .go =>
    if s.sm = none then
      some (({ s with
        newData := if s.autoPlay conf then 0 else s.newData + 1
        figIter := s.iterations
        figPushed := s.pushedData
        ma := none }.ev (.counted (s.autoPlay conf))).go t .pu5)
    else none
  -- 37-40: RLock; Play if newData == 0
  | .pu5, .go =>
    if s.ma = none then
      some { s with
        mr := t :: s.mr
        thr := fun j => if j = t then
            (if s.newData = 0 then { s.thr t with pc := .pl0, inPush := true }
             else { s.thr t with pc := .pu6, inPush := true })
          else s.thr j }
    else none
  -- 38, 43: RUnlock, return nil
  | .pu6, .go =>
    some { s with
      mr := s.mr.erase t
      thr := fun j => if j = t then { s.thr t with pc := .home, inPush := false } else s.thr j
      log := .ret t (.err none) :: s.log }
  | _, _ => none

/-- The `switch` of `init` (core/ctrl.go:67, 94-95) with `statusMutex` held: first program counter, or
the refusal. -/
def beginPc (v : ClustStatus) (k : InitFrom) : PC C :=
  match v with
  | .finished => .in1 k
  | .created => .in3 k
  | _ => .in10 k (some .alreadyCreated)

/-- `Init` (core/ctrl.go:60-64) and `init` (66-98). -/
def stepInit (s : Algo C) (t : Nat) : PC C → Choice C → Option (Algo C)
  -- 61: statusMutex.Lock(); 63, 67: switch
  | .in0, .go => if s.sm = none then some ({ s with sm := some t }.go t (beginPc s.status.value .init)) else none
  -- 69: modelMutex.Lock() announces the writer
  | .in1 k, .go => if s.ma = none then some ({ s with ma := some t }.go t (.in2 k)) else none
  -- 69-76: the lock is taken, counters and figures reset, Unlock
  | .in2 k, .go =>
    if s.mr = [] then
      some (({ s with pushedData := 0, iterations := 0, figIter := 0, figPushed := 0, ma := none
        }.ev .reset).go t (.in3 k))
    else none
  -- 79-83: the notification loop is started on Created; the status is Initializing
  | .in3 k, .go =>
    let s1 := if s.status.value = .created then { s with notif := true }.spawn .notifier .nl0 else s
    some ((s1.put (.new .initializing)).go t (.in4 k))
  -- 85: the implementation's Init reads the model (Conf(), Space()) under modelMutex.RLock
  | .in5 k, .go => if s.ma = none then some (s.go t (.in5 k)) else none
  -- 85: ... and returns
  | .in5 k, .initRet c e => some ((s.ev (.initRet c e)).go t (.in6 k c e))
  -- 86: modelMutex.Lock()
  | .in6 k c e, .go => if s.ma = none then some ({ s with ma := some t }.go t (.in7 k c e)) else none
  -- 86-88
  | .in7 k c e, .go =>
    if s.mr = [] then some ({ s with centroids := c, ma := none }.go t (.in8 k e)) else none
  -- 89-93
  | .in8 k e, .go =>
    match e with
    | none => some ((s.put (.new .ready)).go t (.in9 k none))
    | some e => some ((s.put (.ofError (some e))).go t (.in9 k (some e)))
  -- end of init: Init unlocks and returns (62-63); Play returns the error without unlocking
  -- (111-113) or goes on (114-117)
  | .in10 .init e, .go => some ({ s with sm := none }.ret t (.err e))
  | .in10 .play e, .go =>
    if e ≠ none ∧ e ≠ some .alreadyCreated then some (s.ret t (.err e)) else some (s.go t .pl1)
  | _, _ => none

/-- `Play` (core/ctrl.go:101-132) outside `init` and `sendStatus`. -/
def stepPlay (conf : Conf) (s : Algo C) (t : Nat) : PC C → Choice C → Option (Algo C)
  -- 102-103: statusMutex.Lock(), switch
  | .pl0, .go =>
    if s.sm = none then
      match s.status.value with
      -- 105-106: Unlock, sendStatus(Running)
      | .idle => some (s.go t (.sd0 (.new .running) .playIdle))
      -- 107-110
      | .finished => some ({ s with sm := some t }.go t (beginPc s.status.value .play))
      | .created => some ({ s with sm := some t }.go t (beginPc s.status.value .play))
      -- 116
      | .ready => some ({ s with sm := some t }.go t .pl1)
      -- 127-129
      | .running => some (s.ret t (.err (some .running)))
      -- no case: returns with the lock held
      | .initializing => some ({ s with sm := some t }.ret t (.err none))
    else none
  -- 117-119: go algo.run(); Unlock; sendStatus(Running)
  | .pl1, .go =>
    some (((({ s with sm := none } : Algo C).ev (.runStart s.n)).spawn .run .r0).go t
      (.sd0 (.new .running) .playRun))
  -- 120-122: the previous time-out is disabled
  | .pl2, .go =>
    match s.timeout with
    | none => some (s.go t .pl3)
    | some i => some (({ s with disabled := i :: s.disabled }.ev (.disabled i)).go t .pl3)
  -- 123-126: Conf(), a new time-out is started (core/timeout.go:31-39)
  | .pl3, .go =>
    if s.ma = none then
      if conf.timeout then
        some (({ s with timeout := some s.n }.spawn .timer .ti0).ret t (.err none))
      else some (s.ret t (.err none))
    else none
  | _, _ => none

/-- `Pause` (core/ctrl.go:135-147) outside `sendStatus`. -/
def stepPause (s : Algo C) (t : Nat) : PC C → Choice C → Option (Algo C)
  -- 136-145
  | .pa0, .go =>
    if s.sm = none then
      if s.status.value = .running then some (s.go t (.sd0 (.new .idle) .pause))
      else some (s.ret t (.err (some .notRunning)))
    else none
  | _, _ => none

/-- `interrupt` (core/ctrl.go:176-193) outside `sendStatus`; `Stop` (196-198) is `interrupt(nil)`. -/
def stepInterrupt (s : Algo C) (t : Nat) : PC C → Choice C → Option (Algo C)
  | .it0 e, .go =>
    if s.sm = none then
      match s.status.value with
      -- 179-180: the lock is kept, status Finished
      | .ready => some (({ s with sm := some t }.put (.ofError e)).go t (.it1 e))
      -- 182-186
      | .idle => some (s.go t (.sd0 (.ofError e) .interrupt))
      | .running => some (s.go t (.sd0 (.ofError e) .interrupt))
      -- 188-190
      | _ => some (s.ret t (.err (some .notAlive)))
    else none
  -- 181: Unlock, return nil
  | .it2, .go => some ({ s with sm := none }.ret t (.err none))
  -- 187: algo.status.Error, read without lock
  | .it3, .go => some (s.ret t (.err s.status.error))
  | _, _ => none

/-- `sendStatus` (core/algo.go:80-84). The meeting with the receiver is an action of the receiver. -/
def stepSend (s : Algo C) (t : Nat) : PC C → Choice C → Option (Algo C)
  -- 81: the goroutine blocks in the send
  | .sd0 st k, .go => some (s.go t (.sd1 st k))
  -- 82: evaluates algo.ackChannel
  | .sd2 k, .go => some (s.go t (.sd3 s.ack k))
  -- 82: receives from a closed channel
  | .sd3 a k, .go => if a ∈ s.closed then some (s.sent t false k) else none
  -- 82: receives an acknowledgement
  | .sd3 a k, .recv j =>
    match acking (s.thr j).pc with
    | some (a', p) =>
      if j < s.n ∧ a' = a ∧ a ∉ s.closed then some ((s.go j p).sent t true k) else none
    | none => none
  | _, _ => none

/-- `Wait` (core/ctrl.go:156-173) and `WaitTimeout` (core/timeout.go:42-52, 69-88). -/
def stepWait (conf : Conf) (s : Algo C) (t : Nat) : PC C → Choice C → Option (Algo C)
  -- 157-171
  | .wa0 c d, .go =>
    if s.sm = none then
      match s.status.value with
      | .running => some (s.go t (.wa1 c d))
      | .idle => some (s.ret t (.err (some .idle)))
      | .ready => some (s.ret t (.err none))
      | .finished => some (s.ret t (.err none))
      | _ => some (s.ret t (.err (some .notRunning)))
    else none
  -- 159-163: CanNeverFinish (150-153)
  | .wa1 c d, .go =>
    if s.ma = none then
      if !c && !d && !conf.finishing && !conf.timeout && conf.iter == 0 && conf.iterPerData == 0 then
        some (s.ret t (.err (some .neverFinish)))
      else some (s.go t (.wa2 c d))
    else none
  -- core/timeout.go:74-75: the finishing condition, by default Ready, Idle, Finished or an error
  | .wa2 false d, .go =>
    if s.sm = none then
      if s.status.error.isSome ∨ s.status.value = .ready ∨ s.status.value = .idle ∨
          s.status.value = .finished then some (s.go t .wa3)
      else some (s.go t (.wa2 false d))
    else none
  | .wa2 true d, .answer b => some (s.go t (if b then .wa3 else .wa2 true d))
  -- core/timeout.go:76-78: the time has elapsed
  | .wa2 _ true, .default => some (s.ret t (.err (some .timeout)))
  -- core/timeout.go:84-86
  | .wa3, .go => if s.sm = none then some (s.ret t (.err s.status.error)) else none
  | _, _ => none

/-- `iterFinished` on the figures (core/finish.go:62-71). -/
def iterDone (conf : Conf) (s : Algo C) : Bool :=
  decide (conf.iter > 0 ∨ conf.iterPerData > 0) &&
    decide (s.figIter ≥ conf.iter + s.figPushed * conf.iterPerData)

/-- The value of the panic raised by a send on a closed channel. -/
def sendOnClosed : Err := .other 0

/-- `run` (core/ctrl.go:242-311). -/
def stepRun (conf : Conf) (s : Algo C) (t : Nat) : PC C → Choice C → Option (Algo C)
  -- 243: a new acknowledgement channel
  | .r0, .go => some ({ s with ack := s.acks, acks := s.acks + 1 }.go t .r1)
  -- receiveStatus (core/algo.go:73-77), called at 267 and 275
  | .r1, .recv j =>
    match sending (s.thr j).pc with
    | some (st, k) => if j < s.n then some ((s.go j (.sd2 k)).go t (.r2 st)) else none
    | none => none
  | .r2 st, .go => if s.sm = none then some ((s.put st).go t (.r3 st)) else none
  -- core/algo.go:76 and 274: evaluates algo.ackChannel
  | .r4 idle, .go => some (s.go t (.r5 idle s.ack))
  -- send on a closed channel: panic
  | .r5 _ a, .go => if a ∈ s.closed then some (s.go t (.c0 (some sendOnClosed))) else none
  -- 269: algo.status.Value, read without lock
  | .r6, .go => some (s.go t (if s.status.value = .running then .r7 else .r12))
  -- 269: IsFinished of the IterFinishing of 260
  | .r7, .go =>
    if s.ma = none then
      some (s.go t (if iterDone conf s then .r12 else if conf.finishing then .r8 else .r9))
    else none
  -- 261-263, 269: conf.Finishing
  | .r8, .answer b => some (s.go t (if b then .r12 else .r9))
  -- 270-272
  | .r9, .recv j =>
    match sending (s.thr j).pc with
    | some (st, k) => if j < s.n then some ((s.go j (.sd2 k)).go t (.r10 st)) else none
    | none => none
  | .r10 st, .go => if s.sm = none then some ((s.put st).go t (.r11 st)) else none
  -- 277-284: Iterate is called
  | .r9, .default =>
    if s.noSender then some ((s.ev (.iterCall t s.status s.centroids)).go t .rI) else none
  -- 280-301: ... and returns
  | .rI, .iterNil => some ((s.ev (.iterNil t)).go t .r6)
  | .rI, .iterOk c => some ((s.ev (.iterOk t c)).go t (.rS c))
  | .rI, .iterErr e => some ((s.ev (.iterErr t e)).go t (.r15 e))
  | .rI, .iterPanic e => some ((s.ev (.iterPanic t e)).go t (.c0 (some e)))
  -- 288: modelMutex.Lock()
  | .rS c, .go => if s.ma = none then some ({ s with ma := some t }.go t (.rS' c)) else none
  -- 288-293, 319-327
  | .rS' c, .go =>
    if s.mr = [] then
      some (({ s with
        iterations := s.iterations + 1
        centroids := some c
        figIter := s.iterations + 1
        figPushed := s.pushedData
        ma := none }.ev (.saved c)).go t .r6)
    else none
  -- 304-305: algo.status.Value, read without lock
  | .r12, .go => some (s.go t (if s.status.value = .running then .r13 else .c0 none))
  | .r13, .go => if s.sm = none then some ((s.put (.new .ready)).go t .r14) else none
  -- 308-310
  | .r15 e, .go => if s.sm = none then some ((s.put (.ofError (some e))).go t (.r16 e)) else none
  | _, _ => none

/-- `recover` (core/ctrl.go:207-239), deferred by `run` (265). -/
def stepRecover (s : Algo C) (t : Nat) : PC C → Choice C → Option (Algo C)
  -- 208-214: statusMutex.Lock(); after a panic the status is Finished with an error
  | .c0 p, .go =>
    if s.sm = none then
      match p with
      | none => some ({ s with sm := some t }.go t (.c2 none))
      | some e => some (({ s with sm := some t }.put (.ofError (some e))).go t (.c1 (some e)))
    else none
  -- 216-218: sleep, modelMutex.Lock()
  | .c2 p, .go => if s.ma = none then some ({ s with ma := some t }.go t (.c3 p)) else none
  -- 218-223
  | .c3 p, .go => if s.mr = [] then some ({ s with ma := none }.go t (.c4 p)) else none
  -- 225-230: takes the status of a client blocked in a send
  | .c4 p, .recv j =>
    match sending (s.thr j).pc with
    | some (st, k) =>
      if j < s.n then
        if p = none then some (((s.go j (.sd2 k)).put st).go t (.c5 st))
        else some ((s.go j (.sd2 k)).go t .c6)
      else none
    | none => none
  -- 231
  | .c4 _, .default => if s.noSender then some (s.go t .c6) else none
  -- 234-235: receives from a closed channel, or from another run blocked in its acknowledgement
  | .c6, .go => if s.ack ∈ s.closed then some (s.go t .c8) else none
  | .c6, .recv j =>
    match acking (s.thr j).pc with
    | some (a, p) =>
      if j < s.n ∧ a = s.ack ∧ a ∉ s.closed then some ((s.go j p).go t .c8) else none
    | none => none
  -- 236
  | .c6, .default =>
    if s.ack ∉ s.closed ∧ ∀ j < s.n, (acking (s.thr j).pc).map (·.1) ≠ some s.ack then
      some (s.go t .c7)
    else none
  -- 237: close(algo.ackChannel)
  | .c7, .go => some (({ s with closed := s.ack :: s.closed }.ev (.closed s.ack)).go t .c8)
  -- 209: Unlock; the goroutine ends
  | .c8, .go => some (({ s with sm := none }.ev (.runEnd t)).go t .dead)
  | _, _ => none

/-- `notificationLoop` (core/algo.go:95-103) and `notify` (86-93). -/
def stepNotif (conf : Conf) (s : Algo C) (t : Nat) : PC C → Choice C → Option (Algo C)
  -- 97: receives from a goroutine in setStatus
  | .nl0, .recv j =>
    match notifying (s.thr j).pc with
    | some (st, p) =>
      if j < s.n then some (((s.ev (.notified st)).go j p).go t (.nl1 st)) else none
    | none => none
  -- 87-92: Conf under RLock, then the notifier is called
  | .nl1 _, .go =>
    if s.ma = none then some (s.go t (if conf.notifier then .home else .nl0)) else none
  | _, _ => none

/-- `timeout.interrupt` (core/timeout.go:54-59): after the sleep, `interruption(ErrTimeout)` unless
disabled. -/
def stepTimer (s : Algo C) (t : Nat) : PC C → Choice C → Option (Algo C)
  | .ti0, .go =>
    if t ∈ s.disabled then some (s.go t .dead)
    else some ((s.ev (.fired t)).go t (.it0 (some .timeout)))
  | _, _ => none

/-- One action of goroutine `t`. -/
def step (conf : Conf) (s : Algo C) (t : Nat) (c : Choice C) : Option (Algo C) :=
  if t < s.n then
    match (s.thr t).pc with
    | .home => s.stepHome t c
    | .dead => none
    | .rdStatus | .rdCentroids | .rdFigures | .rdConf =>
      match c with
      | .go => s.stepRead t (s.thr t).pc
      | _ => none
    | .pu0 | .pu1 | .pu2 | .pu3 | .pu4 | .pu5 | .pu6 => s.stepPush conf t (s.thr t).pc c
    | .in0 | .in1 _ | .in2 _ | .in3 _ | .in4 _ | .in5 _ | .in6 _ _ _ | .in7 _ _ _ | .in8 _ _
    | .in9 _ _ | .in10 _ _ => s.stepInit t (s.thr t).pc c
    | .pl0 | .pl1 | .pl2 | .pl3 => s.stepPlay conf t (s.thr t).pc c
    | .pa0 => s.stepPause t (s.thr t).pc c
    | .it0 _ | .it1 _ | .it2 | .it3 => s.stepInterrupt t (s.thr t).pc c
    | .sd0 _ _ | .sd1 _ _ | .sd2 _ | .sd3 _ _ => s.stepSend t (s.thr t).pc c
    | .wa0 _ _ | .wa1 _ _ | .wa2 _ _ | .wa3 => s.stepWait conf t (s.thr t).pc c
    | .r0 | .r1 | .r2 _ | .r3 _ | .r4 _ | .r5 _ _ | .r6 | .r7 | .r8 | .r9 | .r10 _ | .r11 _ | .rI
    | .rS _ | .rS' _ | .r12 | .r13 | .r14 | .r15 _ | .r16 _ => s.stepRun conf t (s.thr t).pc c
    | .c0 _ | .c1 _ | .c2 _ | .c3 _ | .c4 _ | .c5 _ | .c6 | .c7 | .c8 =>
      s.stepRecover t (s.thr t).pc c
    | .nl0 | .nl1 _ => s.stepNotif conf t (s.thr t).pc c
    | .ti0 => s.stepTimer t (s.thr t).pc c
  else none

/-- An action of the system: one goroutine acts, or a new client goroutine appears. -/
inductive Act (C : Type) where
  | act (t : Nat) (c : Choice C)
  | client
deriving DecidableEq, Repr

/-- One action of the system. -/
def next (conf : Conf) (s : Algo C) : Act C → Option (Algo C)
  | .act t c => s.step conf t c
  | .client => some (s.spawn .client .home)

/-- A sequence of actions: `none` if one of them is not possible. -/
def exec (conf : Conf) (s : Algo C) : List (Act C) → Option (Algo C)
  | [] => some s
  | a :: as => match s.next conf a with
    | none => none
    | some s' => s'.exec conf as

/-- The states an algorithm can reach. -/
def Reachable (conf : Conf) (s : Algo C) : Prop := ∃ as, exec conf (new : Algo C) as = some s

end Algo
end Distclus
