import Verif.Model.CtrlTime
/-!
# Iteration frequency and duration: specification

Times are given with the last first.
-/
namespace Distclus
namespace Spec

/-- Between two of the times which are `i + 1` apart there are at least `i` periods. -/
def Gapped (P : Nat) : List Nat → Prop
  | [] => True
  | x :: l => (∀ i y, l[i]? = some y → y + i * P ≤ x) ∧ Gapped P l

/-- The times in the window of width `w` from `a`. -/
def within (a w : Nat) (l : List Nat) : List Nat := l.filter fun b => decide (a ≤ b ∧ b ≤ a + w)

open Clock

/-- The time spent in `Iterate`. -/
def iterating : List Turn → Nat
  | [] => 0
  | .status _ :: ts => iterating ts
  | .iter _ dur _ _ _ :: ts => dur + iterating ts

/-- The time spent with the status changes, hence in pause. -/
def paused : List Turn → Nat
  | [] => 0
  | .status d :: ts => d + paused ts
  | _ :: ts => paused ts

/-- The time spent in `Iterate` and in pause during the runs. -/
def occupied : List Phase → Nat
  | [] => 0
  | .run _ ts _ :: ps => iterating ts + paused ts + occupied ps
  | _ :: ps => occupied ps

/-- The number of runs. -/
def runs : List Phase → Nat
  | [] => 0
  | .run _ _ _ :: ps => runs ps + 1
  | _ :: ps => runs ps

end Spec
end Distclus
