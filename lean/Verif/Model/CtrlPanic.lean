import Verif.Model.Ctrl
/-!
# A panic of the implementation during `Init`

`impl.Init` runs in the goroutine of the caller of `Init` or `Play` (core/ctrl.go:83), where nothing recovers
a panic: it goes on to the caller, which may recover it.  The next definition is what the controller is left
with then.
-/
namespace Distclus
open Ctrl
namespace Algo
variable {C : Type}

/-- Goroutine `t` leaves `impl.Init` by a panic, which its code recovers.  `Init` (core/ctrl.go:60-64) defers
the release of `statusMutex`; `Play` (101-132) does not, and keeps it; `Push` (22-44) defers that of
`modelMutex`. -/
def initPanic (s : Algo C) (t : Nat) : Option (Algo C) :=
  match (s.thr t).pc with
  | .in5 k =>
    some { s with
      sm := match k with
        | .init => none
        | .play => s.sm
      mr := if (s.thr t).inPush then s.mr.erase t else s.mr
      thr := fun j => if j = t then { s.thr t with pc := .home, inPush := false } else s.thr j }
  | _ => none

end Algo
end Distclus
