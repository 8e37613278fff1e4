import Verif.Model.Ctrl
/-!
# Model: panics of the code of the user

`Verif.Model.Ctrl` has a panic of `Iterate`, and `Verif.Model.CtrlPanic` one of `impl.Init`. The other calls the
controller makes of code it does not own are `impl.Push` (core/ctrl.go:23), the finishing condition of the
configuration, evaluated by the run (269), and the finishing condition given to `Wait` (166, core/timeout.go:73).
They are added here.

Out of reach: a panic of the notifier. It is called by the notification loop (core/algo.go:90), a goroutine
of its own where nothing recovers: it ends the process.
-/
namespace Distclus
open Ctrl
namespace Algo
variable {C : Type}

/-- The code of the user called by goroutine `t` panics, with value `e`.
* `impl.Push` is called first in `Push` (core/ctrl.go:22-24), with no lock: the panic goes on to the caller of
  `Push`, which recovers it;
* the same for the condition given to `Wait` (core/ctrl.go:156-173, core/timeout.go:69-88), evaluated with no lock;
* the condition of the configuration is evaluated inside `run` (269), whose deferred `recover` (265) gets the
  panic, as for `Iterate`. -/
def userPanic (s : Algo C) (t : Nat) (e : Err) : Option (Algo C) :=
  if t < s.n then
    match (s.thr t).pc with
    | .pu1 => some (s.go t .home)
    | .wa2 true _ => some (s.go t .home)
    | .r8 => some (s.go t (.c0 (some e)))
    | _ => none
  else none

/-- An action of the system, or a panic of the code of the user. -/
inductive UserAct (C : Type) where
  | act (a : Act C)
  | panic (t : Nat) (e : Err)
deriving DecidableEq, Repr

/-- One of them. -/
def userNext (conf : Conf) (s : Algo C) : UserAct C → Option (Algo C)
  | .act a => s.next conf a
  | .panic t e => s.userPanic t e

/-- A sequence of them. -/
def userExec (conf : Conf) (s : Algo C) : List (UserAct C) → Option (Algo C)
  | [] => some s
  | a :: as => match s.userNext conf a with
    | none => none
    | some s' => s'.userExec conf as

/-- The states an algorithm can reach when the code of the user may panic. -/
def UserReachable (conf : Conf) (s : Algo C) : Prop := ∃ as, userExec conf (new : Algo C) as = some s

end Algo
end Distclus
