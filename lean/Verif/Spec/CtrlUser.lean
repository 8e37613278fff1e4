import Verif.Model.CtrlUser
/-!
# Spec: what a panic of the code of the user may change
-/
namespace Distclus.Spec
open Ctrl
variable {C : Type}

/-- A `Wait` given a condition is made a `Wait` given this condition and a duration. -/
def timedPc : PC C → PC C
  | .wa0 true _ => .wa0 true true
  | .wa1 true _ => .wa1 true true
  | .wa2 true _ => .wa2 true true
  | p => p

/-- The same for the calls of the log. -/
def timedEv : Event C → Event C
  | .call t (.wait true _) => .call t (.wait true true)
  | e => e

/-- The same state, with another log, and where the calls of `Wait` given a condition are given a duration. -/
def timed (s : Algo C) (l : List (Event C)) : Algo C :=
  { s with thr := fun j => { s.thr j with pc := timedPc (s.thr j).pc }, log := l }

/-- The events an execution without a panic may have more: a call which returns an error, an iteration which is
called and panics. -/
def standsFor : Event C → Bool
  | .ret _ (.err (some _)) => true
  | .iterCall _ _ _ => true
  | .iterPanic _ _ => true
  | _ => false

/-- `l` is the log `l0`, with some of these events added. -/
def LogLike (l0 l : List (Event C)) : Prop :=
  (l0.map timedEv).Sublist l ∧
    l.filter (fun e => !standsFor e) = (l0.map timedEv).filter (fun e => !standsFor e)

end Distclus.Spec
