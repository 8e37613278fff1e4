import Verif.Spec.CtrlPlan
/-!
# What the iterations see

`views ts`: how many of the elements pushed each iteration since the last `Init` sees, when the implementation gets
the calls `ts` (last first): those which had been pushed when the call of `Init` or `Iterate` before it was made.
-/
namespace Distclus
open Ctrl
namespace Spec
variable {C E : Type}

/-- The elements pushed. -/
def total : List Tag → Nat
  | [] => 0
  | .push _ :: ts => total ts + 1
  | .init :: ts => total ts
  | .iter :: ts => total ts

/-- The elements which an iteration after these calls sees. -/
def seen : List Tag → Nat
  | [] => 0
  | .push _ :: ts => seen ts
  | .init :: ts => total ts
  | .iter :: ts => total ts

/-- The elements which the last `Init` sees. -/
def atInit : List Tag → Nat
  | [] => 0
  | .push _ :: ts => atInit ts
  | .init :: ts => total ts
  | .iter :: ts => atInit ts

/-- The elements which the iterations since the last `Init` see, the first iteration first. -/
def views : List Tag → List Nat
  | [] => []
  | .push _ :: ts => views ts
  | .init :: _ => []
  | .iter :: ts => views ts ++ [seen ts]

/-- The iterations one after the other, on these data. -/
def runOn (step : List E → C → Option C) : List (List E) → C → Option C
  | [], c => some c
  | d :: ds, c => (step d c).bind (runOn step ds)

/-- `D m` is what a buffer of this size keeps of the first data and of the first `m` elements pushed. -/
def WindowOf (size : Int) (data pushed : List E) (D : Nat → List E) : Prop :=
  ∀ m, m ≤ pushed.length → ∃ S : List E, S.Perm (data ++ pushed.take m) ∧ (D m).Perm (window size S)

/-- Does the call start a run or initialise? -/
def starts : Op → Bool
  | .init | .play => true
  | _ => false

/-- The elements which have been pushed. -/
def pushes : List (Op × Res C) → Nat
  | [] => 0
  | (.push, .err none) :: l => pushes l + 1
  | _ :: l => pushes l

end Spec
end Distclus
