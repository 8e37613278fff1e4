import Verif.Model.Figures
/-!
# Specification: the figures, one operation after the other
-/
namespace Distclus
namespace Fig

/-- What an observer sees: the number of iterations, of pushed data, and the figures. -/
structure View where
  iterations : Nat
  pushedData : Nat
  figures : Map

/-- What each operation does when it is alone. -/
def View.apply (v : View) : Op → View
  | .push now => ⟨v.iterations, v.pushedData + 1, fun
      | .iterations => v.iterations
      | .pushedData => v.pushedData + 1
      | .lastDataTime => now
      | k => v.figures k⟩
  | .save own duration now => ⟨v.iterations + 1, v.pushedData, fun
      | .iterations => v.iterations + 1
      | .pushedData => v.pushedData
      | .lastDataTime => now
      | .duration => duration
      | .other n => ((own.reverse.find? (·.1 = n)).map (·.2)).getD 0⟩
  | .recover d => ⟨v.iterations, v.pushedData, fun
      | .duration => d
      | k => v.figures k⟩
  | .reset => ⟨0, 0, fun _ => 0⟩
  | .finished | .figures _ => v

/-- The operations of an execution which have released the lock, in this order; `g` tells what each
goroutine is doing. -/
def done : State → (Nat → Option Op) → List Act → List Op
  | _, _, [] => []
  | s, g, a :: as =>
    match s.step a with
    | none => []
    | some s' =>
      match a with
      | .start t op => done s' (fun u => if u = t then some op else g u) as
      | .go t =>
        (if (s.thr t).code.head? = some .unlock then (g t).toList else []) ++ done s' g as

/-- The number of operations of a kind since the last reset. -/
def since (p : Op → Bool) (ops : List Op) : Nat :=
  (ops.reverse.takeWhile fun op => op != .reset).countP p

end Fig
end Distclus
