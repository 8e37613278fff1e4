import Verif.Spec.CtrlBatch
/-!
# Infinite executions

Specification for C117.
-/
namespace Distclus
open Ctrl
namespace Spec
variable {C : Type}

/-- An execution of an algorithm used by one client, goroutine 0, seen by its state at all times: at each time
an action happens, or nothing does. -/
structure Forever (conf : Conf) (σ : Nat → Algo C) : Prop where
  start : OneClient conf (σ 0)
  next : ∀ i, σ (i + 1) = σ i ∨ ∃ t c, (σ i).step conf t c = some (σ (i + 1))

/-- Something can happen: an action is possible which changes the state. -/
def CanChange (conf : Conf) (s : Algo C) : Prop := ∃ t c s', s.step conf t c = some s' ∧ s' ≠ s

/-- As long as the client is in a call and something can happen, something happens: the goroutines which can
work, and the calls of the implementation, do not all rest forever. Nothing is said of each goroutine. -/
def Progress (conf : Conf) (σ : Nat → Algo C) : Prop :=
  ∀ i, (session (σ i).log).1 ≠ none → CanChange conf (σ i) → ∃ j, i < j ∧ σ j ≠ σ i

/-- An `Iterate` without result. -/
def isIterNil : Event C → Bool
  | .iterNil _ => true
  | _ => false

end Spec
end Distclus
