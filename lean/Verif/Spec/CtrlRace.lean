import Verif.Model.CtrlAccess
/-!
# Data races

Two goroutines race when both are about to access the same variable, one of them to write it, and no lock
keeps them apart (the definition of the Go memory model, and of its race detector).
-/
namespace Distclus
open Ctrl
namespace Spec
variable {C : Type}

/-- Goroutine `t` has the lock, or can take it now. -/
def holdable (s : Algo C) (t : Nat) : Lock → Prop
  | .status => s.sm = none ∨ s.sm = some t
  | .modelR => s.ma = none
  | .modelW => s.ma = some t ∧ s.mr = []

/-- Goroutine `t` can make the access now. -/
def About (conf : Conf) (s : Algo C) (t : Nat) (a : Access) : Prop :=
  t < s.n ∧ a ∈ accesses conf s.status.value (s.thr t).pc ∧ ∀ k ∈ a.locks, holdable s t k

/-- Two locks which exclude each other. -/
def excludes : Lock → Lock → Bool
  | .status, .status => true
  | .modelR, .modelW => true
  | .modelW, .modelR => true
  | .modelW, .modelW => true
  | _, _ => false

/-- Some lock keeps the two accesses apart. -/
def apart (a b : Access) : Bool := a.locks.any fun k => b.locks.any fun l => excludes k l

/-- Two accesses to the same variable, at least one of them a write, which nothing keeps apart. -/
def clash (a b : Access) : Bool := decide (a.loc = b.loc) && (a.write || b.write) && !apart a b

/-- A data race between goroutines `i` and `j`, on their accesses `a` and `b`. -/
def Race (conf : Conf) (s : Algo C) (i j : Nat) (a b : Access) : Prop :=
  i ≠ j ∧ About conf s i a ∧ About conf s j b ∧ clash a b = true

/-- No data race. -/
def RaceFree (conf : Conf) (s : Algo C) : Prop := ∀ i j a b, ¬ Race conf s i j a b

/-- The accesses made without the lock of the variable: the status is read so by `interrupt` and by the run
(core/ctrl.go:187, 269, 282, 305), the centroids and the figures by the run (247, 282), the content of the
figures by the finishing condition (core/finish.go:63-68); the acknowledgement channel
(core/ctrl.go:235-243, core/algo.go:76 and 82) and the time-out (core/ctrl.go:120-125) have no lock. -/
def lockless : Loc → PC C → Bool
  | .status, .it3 | .status, .r6 | .status, .r9 | .status, .r12 => true
  | .centroids, .r0 | .centroids, .r9 => true
  | .figures, .r9 => true
  | .map, .r7 => true
  | .ack, _ => true
  | .timeout, _ => true
  | _, _ => false

/-- The state `s` with the variable of the state `v`; the model has the content of the figures (`map`),
not their address (`figures`), and `duration` and `lastDataTime` are not in it. -/
abbrev patch : Loc → Algo C → Algo C → Algo C
  | .status, v, s => { s with status := v.status }
  | .centroids, v, s => { s with centroids := v.centroids }
  | .counters, v, s =>
    { s with iterations := v.iterations, pushedData := v.pushedData, newData := v.newData }
  | .figures, _, s => s
  | .map, v, s => { s with figIter := v.figIter, figPushed := v.figPushed }
  | .ack, v, s => { s with ack := v.ack }
  | .notif, v, s => { s with notif := v.notif }
  | .timeout, v, s => { s with timeout := v.timeout }

end Spec
end Distclus
