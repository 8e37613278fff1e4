/-!
# The runtime figures as a shared Go map

The controller keeps its figures in a Go map, `algo.runtimeFigures`.  The methods below take
`modelMutex` to fetch or to replace the map, but the callers of `RuntimeFigures()` read the map they got
after the lock is released (core/finish.go:64-66).  A Go map detects a read, or a write, which begins
while a write is in progress, and then the runtime ends the process (`fatal error: concurrent map read
and map write`), which `recover` cannot prevent.

This model has any number of goroutines, each of which runs any sequence of the operations on the
figures; it over-approximates the controller of `Verif.Model.Ctrl`, where these operations are merged
into single steps.  One step is one lock operation, the beginning or the end of one assignment to a map,
or one read of a map.

Simplifications: values are natural numbers (they are converted from `int` by the code); times and
durations are given by the environment; a waiting writer does not keep new readers out.
-/
namespace Distclus
namespace Fig

/-- The keys (core/figures.go:6-15); `other` are those of the implementations. -/
inductive Key where
  | iterations | pushedData | lastDataTime | duration
  | other (n : Nat)
deriving DecidableEq, Repr

/-- What is assigned to a key: a counter of the controller, or a value given by the environment. -/
inductive Src where
  | iterations | pushedData
  | val (v : Nat)
deriving DecidableEq, Repr

/-- One action of a goroutine. `reg` is the map the goroutine has at hand. -/
inductive Instr where
  /-- modelMutex -/
  | lock | unlock | rlock | runlock
  /-- fetch `algo.runtimeFigures` -/
  | load
  /-- read a key of the map at hand -/
  | read (k : Key)
  /-- assign to a key of the map at hand: the beginning and the end -/
  | writeBegin (k : Key) (v : Src) | writeEnd (k : Key) (v : Src)
  /-- a new map is at hand -/
  | fresh
  /-- `algo.runtimeFigures = ` the map at hand -/
  | publish
  /-- `algo.pushedData++`, `algo.iterations++`, and both set to 0 -/
  | incPushed | incIter | zero
deriving DecidableEq, Repr

/-- `m[k] = v`. -/
def assign (k : Key) (v : Src) : List Instr := [.writeBegin k v, .writeEnd k v]

/-- `updateRuntimeFigures` (core/ctrl.go:313-317). -/
def update (now : Nat) : List Instr :=
  assign .iterations .iterations ++ assign .pushedData .pushedData ++ assign .lastDataTime (.val now)

/-- The operations on the figures. -/
inductive Op where
  /-- `Push` (core/ctrl.go:25-35) at a given time -/
  | push (now : Nat)
  /-- `IterFinishing.IsFinished` (core/finish.go:62-71), by a run or by `Wait` -/
  | finished
  /-- the end of an iteration (core/ctrl.go:288-294, 319-327); the figures of the implementation, and
  the duration, are written in a map which nobody else has, so it does not matter that the model makes
  this map after the lock is taken, and the implementation before -/
  | save (own : List (Nat × Nat)) (duration now : Nat)
  /-- the end of a run (core/ctrl.go:218-223) -/
  | recover (duration : Nat)
  /-- the initialisation of a finished algorithm (core/ctrl.go:69-76) -/
  | reset
  /-- a client calls `RuntimeFigures()` (core/model.go:28-32) and reads some keys -/
  | figures (ks : List Key)
deriving DecidableEq, Repr

/-- The actions of each operation. -/
def code : Op → List Instr
  | .push now => [.lock, .incPushed, .load] ++ update now ++ [.unlock]
  | .finished => [.rlock, .load, .runlock, .read .iterations, .read .pushedData]
  | .save own duration now =>
    [.lock, .incIter, .fresh] ++ (own.flatMap fun p => assign (.other p.1) (.val p.2)) ++
      assign .duration (.val duration) ++ [.publish] ++ update now ++ [.unlock]
  | .recover duration => [.lock, .load] ++ assign .duration (.val duration) ++ [.unlock]
  | .reset => [.lock, .zero, .fresh, .publish] ++ update 0 ++ [.unlock]
  | .figures ks => [.rlock, .load, .runlock] ++ ks.map .read

/-- A map; an absent key reads as 0. -/
abbrev Map := Key → Nat

/-- A goroutine: what remains of its operation, the map at hand, and the values it has read, last
first. -/
structure Thread where
  code : List Instr
  reg : Nat
  seen : List Nat

/-- The two faults detected by the Go runtime. -/
inductive Fault where
  | readWrite | writeWrite
deriving DecidableEq, Repr

/-- The state. -/
structure State where
  /-- the maps made so far -/
  maps : List Map
  /-- `algo.runtimeFigures` -/
  cur : Nat
  /-- the maps which are being written (`hashWriting`), once for each write -/
  writing : List Nat
  /-- modelMutex -/
  writer : Option Nat
  readers : List Nat
  /-- the counters of the controller -/
  iterations : Nat
  pushedData : Nat
  thr : Nat → Thread
  /-- the process has been ended by the runtime -/
  fault : Option Fault

/-- `NewAlgo` (core/algo.go:54): an empty map; every goroutine is idle. -/
def new : State :=
  ⟨[fun _ => 0], 0, [], none, [], 0, 0, fun _ => ⟨[], 0, []⟩, none⟩

/-- The goroutine `t` becomes `x`. -/
def State.set (s : State) (t : Nat) (x : Thread) : State :=
  { s with thr := fun u => if u = t then x else s.thr u }

/-- The value of a source. -/
def State.value (s : State) : Src → Nat
  | .iterations => s.iterations
  | .pushedData => s.pushedData
  | .val v => v

/-- `m[k] = v` done. -/
def Map.put (m : Map) (k : Key) (v : Nat) : Map := fun x => if x = k then v else m x

/-- The map `i`. -/
def State.map (s : State) (i : Nat) : Map := s.maps.getD i (fun _ => 0)

/-- The goroutine `t`, whose remaining actions are `i :: c`, does `i`. -/
def State.instr (s : State) (t : Nat) (x : Thread) (i : Instr) (c : List Instr) : Option State :=
  match i with
  | .lock =>
    if s.writer = none ∧ s.readers = [] then some ({ s with writer := some t }.set t { x with code := c })
    else none
  | .unlock => some ({ s with writer := none }.set t { x with code := c })
  | .rlock =>
    if s.writer = none then some ({ s with readers := t :: s.readers }.set t { x with code := c })
    else none
  | .runlock => some ({ s with readers := s.readers.erase t }.set t { x with code := c })
  | .load => some (s.set t { x with code := c, reg := s.cur })
  | .read k =>
    if x.reg ∈ s.writing then some { s with fault := some .readWrite }
    else some (s.set t { x with code := c, seen := s.map x.reg k :: x.seen })
  | .writeBegin _ _ =>
    if x.reg ∈ s.writing then some { s with fault := some .writeWrite }
    else some ({ s with writing := x.reg :: s.writing }.set t { x with code := c })
  | .writeEnd k v =>
    some ({ s with
      maps := s.maps.set x.reg ((s.map x.reg).put k (s.value v))
      writing := s.writing.erase x.reg }.set t { x with code := c })
  | .fresh =>
    some ({ s with maps := s.maps ++ [fun _ => 0] }.set t { x with code := c, reg := s.maps.length })
  | .publish => some ({ s with cur := x.reg }.set t { x with code := c })
  | .incPushed => some ({ s with pushedData := s.pushedData + 1 }.set t { x with code := c })
  | .incIter => some ({ s with iterations := s.iterations + 1 }.set t { x with code := c })
  | .zero => some ({ s with iterations := 0, pushedData := 0 }.set t { x with code := c })

/-- What happens: an idle goroutine begins an operation, or a goroutine goes on. -/
inductive Act where
  | start (t : Nat) (op : Op)
  | go (t : Nat)
deriving DecidableEq, Repr

/-- One step. Nothing happens once the process is dead. -/
def State.step (s : State) : Act → Option State
  | .start t op =>
    if s.fault = none ∧ (s.thr t).code = [] then some (s.set t { s.thr t with code := code op, seen := [] })
    else none
  | .go t =>
    if s.fault = none then
      match (s.thr t).code with
      | [] => none
      | i :: c => s.instr t (s.thr t) i c
    else none

/-- An execution. -/
def exec : State → List Act → Option State
  | s, [] => some s
  | s, a :: as =>
    match s.step a with
    | some s' => exec s' as
    | none => none

end Fig
end Distclus
