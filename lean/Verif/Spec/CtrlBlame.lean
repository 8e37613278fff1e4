import Verif.Model.Ctrl
/-!
# Where the errors of the status come from
-/
namespace Distclus
open Ctrl
namespace Spec
/-- Where the error of a status comes from: the panic of a run which sends on a channel, one having been closed, a
time-out which has fired, a result of `Init` or `Iterate`, a panic of `Iterate`. -/
def Blamed {C : Type} (l : List (Event C)) (e : Err) : Prop :=
  (e = Algo.sendOnClosed ∧ ∃ a, .closed a ∈ l) ∨ (e = .timeout ∧ ∃ i, .fired i ∈ l) ∨ (∃ c, .initRet c (some e) ∈ l) ∨
    (∃ r, .iterErr r e ∈ l) ∨ ∃ r, .iterPanic r e ∈ l

/-- The documented errors of the calls which change the status (comments of core/ctrl.go, core/error.go); the second
argument of `wait` says whether the client gave a duration. -/
def Usual : Op → Err → Prop
  | .init, e => e = .alreadyCreated
  | .play, e => e = .running
  | .pause, e => e = .notRunning
  | .stop, e => e = .notAlive
  | .wait c d, e => e = .idle ∨ e = .notRunning ∨ (e = .neverFinish ∧ c = false ∧ d = false) ∨ (e = .timeout ∧ d = true)
  | _, _ => False

/-- The implementation has returned no error from `Init` and `Iterate`, and `Iterate` has not panicked. -/
def Faultless {C : Type} (l : List (Event C)) : Prop :=
  (∀ c e, .initRet c (some e) ∉ l) ∧ (∀ r e, .iterErr r e ∉ l) ∧ ∀ r e, .iterPanic r e ∉ l

end Spec
end Distclus
