import Verif.Spec.CtrlLive
/-!
# Fair executions

Specification for C119.
-/
namespace Distclus
open Ctrl
namespace Spec
variable {C : Type}

/-- Goroutine `t` can move: an action of it is possible, with an answer of the implementation when it calls it,
after which it is elsewhere in its program. To begin a call does not count: nobody has to call. -/
def Able (conf : Conf) (t : Nat) (s : Algo C) : Prop :=
  ∃ c s', (∀ op, c ≠ .call op) ∧ s.step conf t c = some s' ∧ (s'.thr t).pc ≠ (s.thr t).pc

/-- A goroutine which can move again and again moves again and again: the scheduler forgets no
goroutine, a lock is given in the end to a goroutine which waits for it, and the calls of the implementation return. -/
def Fair (conf : Conf) (σ : Nat → Algo C) : Prop :=
  ∀ t, (∀ i, ∃ j, i ≤ j ∧ Able conf t (σ j)) →
    ∀ i, ∃ j, i ≤ j ∧ ((σ (j + 1)).thr t).pc ≠ ((σ j).thr t).pc

end Spec
end Distclus
