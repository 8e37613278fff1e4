import Verif.Model.Streaming
import Verif.Model.Euclid
import Mathlib.Data.Real.Basic
/-!
# Feeding the streaming algorithm
-/
namespace Distclus
namespace Spec

/-- Each element is pushed and then consumed by an iteration with the given draw. -/
def feedOps {E F : Type} : List E → List F → List (StreamOp E F)
  | e :: es, t :: ts => .push e :: .iterate t :: feedOps es ts
  | _, _ => []

/-- The point of the real line of coordinate `x`. -/
def onLine (x : ℝ) : Vec ℝ 1 := ⟨[x], rfl⟩

end Spec
end Distclus
