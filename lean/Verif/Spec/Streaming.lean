import Verif.Model.Streaming
import Verif.Spec.Mean
/-!
# Specification: what a history of calls shows from outside
-/
namespace Distclus.Spec
section
variable {E F R : Type}

/-- The elements whose push succeeded, in order. -/
def accepted : List (StreamOp E F) → List (StreamRes E F) → List E
  | .push e :: ops, .push false :: rs => e :: accepted ops rs
  | _ :: ops, _ :: rs => accepted ops rs
  | _, _ => []

/-- The number of calls of `Init` and `Iterate` that returned a clustering. -/
def consumptions : List (StreamRes E F) → Nat
  | [] => 0
  | .init (some _) :: rs => consumptions rs + 1
  | .iterate (some _) _ :: rs => consumptions rs + 1
  | _ :: rs => consumptions rs

/-- The clusters and cardinalities are those of a labelling of the elements `els` by the cluster
numbers: every cluster has members, the cardinality is their number and the centre their running
combination, in order. -/
structure Accounts (space : Space E F) (els : List E) (labels : List Int) (clust : List E)
    (cards : List Int) : Prop where
  labelled : labels.length = els.length
  range : ∀ l ∈ labels, 0 ≤ l ∧ l < clust.length
  card_len : cards.length = clust.length
  nonempty : ∀ l, l < clust.length → members (els.zip labels) l ≠ []
  card : ∀ l, l < clust.length → cards[l]? = some ((members (els.zip labels) l).length : Int)
  center : ∀ l, l < clust.length → clust[l]? = running space (members (els.zip labels) l)

end
end Distclus.Spec
