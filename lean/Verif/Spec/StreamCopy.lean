import Verif.Model.StreamCopy
import Verif.Proof.StreamHeap
/-!
# What a copy of a streaming algorithm may hold: specification for C153
-/
namespace Distclus.Spec

section
variable {E F R : Type} [Inhabited E] [Zero F] [One F] [Neg F] [LT F] [DecidableLT F] [BEq F] [Div F]

/-- The calls of a history, in order. -/
def callsDuring : List (StreamCopyOp E F) → List (StreamHOp E F)
  | [] => []
  | .send :: ops => callsDuring ops
  | .call op :: ops => op :: callsDuring ops

/-- The number of elements the loop was allowed to send. -/
def sendsDuring : List (StreamCopyOp E F) → Nat
  | [] => 0
  | .send :: ops => sendsDuring ops + 1
  | .call _ :: ops => sendsDuring ops

/-- The centres of the original after the first `k` of these calls. -/
def centresAfter (space : Space E F) (i : StreamHeap E F R) (calls : List (StreamHOp E F)) (k : Nat) :
    Option (List E) :=
  (StreamHeap.run space i (calls.take k)).map fun r => r.1.abs.clust

/-- A call which is not `Push`. -/
def NotPush : StreamHOp E F → Bool
  | .push _ => false
  | _ => true

end
end Distclus.Spec
