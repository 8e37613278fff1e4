import Verif.Model.Basic
/-!
# `mcmc.LateDistrib` (mcmc/latedistrib.go) under concurrency

Any number of goroutines (numbered by `Nat`) call `Sample` or `Pdf`; a state machine interleaves their
steps.  Memory is sequentially consistent, the unlocked read of `initialized` is one atomic step.  The
builder may return any value or panic.
-/
namespace Distclus

/-- Where a goroutine is in `Sample`/`Pdf` (mcmc/latedistrib.go:29-53). -/
inductive LatePC (E D : Type) where
  /-- not in a call -/
  | idle
  /-- about to read `d.initialized` without the lock (:41) -/
  | check (e : E)
  /-- about to lock (:47) -/
  | lock (e : E)
  /-- holding the lock, about to read `d.initialized` again (:49) -/
  | recheck (e : E)
  /-- holding the lock, the builder is running (:50) -/
  | build (e : E)
  /-- holding the lock, about to store the result `b` of the builder (:50) -/
  | write (b : D)
  /-- holding the lock, about to set `d.initialized` (:51) -/
  | setFlag
  /-- holding the lock, about to run the deferred unlock (:48), `true` if the builder panicked -/
  | unlock (panicking : Bool)
  /-- about to read `d.distrib` and forward the call (:31, :37) -/
  | use
deriving DecidableEq, Repr

/-- The fields of `LateDistrib` (mcmc/latedistrib.go:13-18), the goroutines, and a log: number of
builder calls and of builder panics, values built, values used by the calls (`none` is nil). -/
structure LateState (E D : Type) where
  initialized : Bool
  distrib : Option D
  /-- the goroutine holding the mutex -/
  mu : Option Nat
  pc : Nat → LatePC E D
  calls : Nat
  panics : Nat
  built : List D
  used : List (Option D)

variable {E D : Type}

/-- `NewLateDistrib` (mcmc/latedistrib.go:21-26). -/
def LateState.new : LateState E D :=
  { initialized := false, distrib := none, mu := none, pc := fun _ => .idle, calls := 0, panics := 0,
    built := [], used := [] }

/-- Move the goroutine `t`. -/
def LateState.goto (s : LateState E D) (t : Nat) (pc : LatePC E D) : LateState E D :=
  { s with pc := fun i => if i = t then pc else s.pc i }

/-- What is not determined by the state: the argument of a new call, the result of the builder. -/
inductive LateChoice (E D : Type) where
  | call (e : E)
  | builds (b : D)
  | panics
  | go

/-- One step of the goroutine `t`; `none` if it is not possible. -/
def LateState.step (s : LateState E D) (t : Nat) (c : LateChoice E D) : Option (LateState E D) :=
  match s.pc t, c with
  | .idle, .call e => some (s.goto t (.check e))
  | .check e, .go => some (s.goto t (if s.initialized then .use else .lock e))
  | .lock e, .go =>
    if s.mu = none then some { s.goto t (.recheck e) with mu := some t } else none
  | .recheck e, .go =>
    if s.initialized then some (s.goto t (.unlock false))
    else some { s.goto t (.build e) with calls := s.calls + 1 }
  | .build _, .builds b => some { s.goto t (.write b) with built := s.built ++ [b] }
  | .build _, .panics => some { s.goto t (.unlock true) with panics := s.panics + 1 }
  | .write b, .go => some { s.goto t .setFlag with distrib := some b }
  | .setFlag, .go => some { s.goto t (.unlock false) with initialized := true }
  | .unlock panicking, .go =>
    some { s.goto t (if panicking then .idle else .use) with mu := none }
  | .use, .go => some { s.goto t .idle with used := s.used ++ [s.distrib] }
  | _, _ => none

/-- A schedule. -/
def LateState.run : LateState E D → List (Nat × LateChoice E D) → Option (LateState E D)
  | s, [] => some s
  | s, (t, c) :: l =>
    match s.step t c with
    | none => none
    | some s' => LateState.run s' l

end Distclus
