import Mathlib.Data.Rat.Floor
/-!
# The clock of a run: iteration frequency and duration

Model of the parts of core/ctrl.go which read the clock: `run` (lines 242-305), `recover` (207-239),
`saveIterContext` (319-327) and the reset in `init` (66-76).  A run is a sequence of turns of its loop; how
long each of them takes is chosen by the environment.

Simplifications: times are natural numbers of nanoseconds of a monotonic clock (Go's `time.Now` has a
monotonic reading, which `Sub` uses); `time.Sleep` lasts at least what it is asked; runs follow one another
(one client, see C85).  What the turns do to the status and the centroids is in Model/Ctrl.lean.
-/
namespace Distclus
namespace Clock

/-- What `Iterate` of the implementation returns (core/ctrl.go:276-282): centroids, nil, or an error. -/
inductive Outcome where
  | clust | nil | fail
deriving DecidableEq, Repr

/-- A turn of the loop (core/ctrl.go:267-304). -/
inductive Turn where
  /-- a status is received and set, which takes `d` (a pause and what follows until it ends, too) -/
  | status (d : Nat)
  /-- an iteration: `Iterate` is called after `pre`, and takes `dur`; then `save` passes until the clock is
  read at line 296; `over` is the time from the end of the required sleep to the reading at line 298 -/
  | iter (pre dur save over : Nat) (res : Outcome)
deriving DecidableEq, Repr

/-- `time.Second` -/
def second : Nat := 1000000000

/-- The sleep in `recover` (core/ctrl.go:216). -/
def rest : Nat := 100000000

/-- `iterFreq` (core/ctrl.go:249-252). The rounding of the division is not modelled. The conversion of a float
which is not in the range of `int64` has an unspecified result, `bad`. A negative period is no period
(line 295), as zero. -/
def period (bad : Int) (freq : ℚ) : Nat :=
  if 0 < freq then
    let q : ℚ := second / freq
    if q < 2 ^ 63 then ⌊q⌋.toNat else bad.toNat
  else 0

/-- The variables of a run and of the algorithm which depend on the clock. -/
structure State where
  /-- the time -/
  now : Nat
  /-- `lastIterationTime` and `start` in `run` -/
  last : Nat
  start : Nat
  /-- `err != nil` in `run` -/
  failed : Bool
  /-- `algo.duration` -/
  total : Nat
  /-- `algo.runtimeFigures[Duration]`; `none`: no such key -/
  figure : Option Nat
  /-- when `Iterate` was called, the last first (ghost) -/
  starts : List Nat
deriving DecidableEq, Repr

/-- Start of a run (core/ctrl.go:253-258): the clock is read for `lastIterationTime`, and after `gap` for
`start`. -/
def State.enter (s : State) (gap : Nat) : State :=
  { s with last := s.now, start := s.now + gap, now := s.now + gap, failed := false, starts := [] }

/-- A turn of the loop, with the period `P`; there is none after a failure (core/ctrl.go:266). -/
def State.turn (P : Nat) (s : State) : Turn → Option State
  | .status d => if s.failed then none else some { s with now := s.now + d }
  | .iter pre dur save over res =>
    if s.failed then none
    else
      let b := s.now + pre
      -- line 283: `duration = time.Now().Sub(start)`
      let e := b + dur
      let s1 := { s with now := e, starts := b :: s.starts }
      match res with
      | .fail => some { s1 with failed := true }
      | _ =>
        -- line 288: `saveIterContext`
        let s2 := if res = .clust then { s1 with figure := some (s.total + (e - s.start)) } else s1
        let t := e + save
        -- lines 295-299
        if 0 < P then
          let diff : Int := P - ((t : Int) - s.last)
          let wake := t + diff.toNat + over
          some { s2 with now := wake, last := wake }
        else some { s2 with now := t }

/-- The turns of the loop. -/
def State.turns (P : Nat) (s : State) : List Turn → Option State
  | [] => some s
  | t :: ts => (s.turn P t).bind fun s' => s'.turns P ts

/-- End of a run, which takes `d` besides the sleep (`recover`, core/ctrl.go:216-222). -/
def State.leave (s : State) (d : Nat) : State :=
  let now := s.now + rest + d
  { s with now := now, total := s.total + (now - s.start), figure := some (s.total + (now - s.start)) }

/-- What happens to the algorithm: time passes between the runs, a whole run, or an `init` on Finished
(core/ctrl.go:66-76). -/
inductive Phase where
  | idle (d : Nat)
  | run (gap : Nat) (ts : List Turn) (d : Nat)
  | reset
deriving DecidableEq, Repr

/-- A phase. -/
def State.phase (P : Nat) (s : State) : Phase → Option State
  | .idle d => some { s with now := s.now + d }
  | .run gap ts d => ((s.enter gap).turns P ts).map (·.leave d)
  | .reset => some { s with total := 0, figure := none }

/-- Successive phases. -/
def State.phases (P : Nat) (s : State) : List Phase → Option State
  | [] => some s
  | p :: ps => (s.phase P p).bind fun s' => s'.phases P ps

/-- A new algorithm (core/algo.go: the counters are zero and the figures empty). -/
def State.new (now : Nat) : State := ⟨now, 0, 0, false, 0, none, []⟩

end Clock
end Distclus
