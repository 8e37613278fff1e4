/-!
# Specification: an even, contiguous partition of an interval
-/
namespace Distclus.Spec

/-- `parts`, a list of intervals `[start, stop)`, cuts `[0, size)` into `degree` consecutive
intervals: read one after the other they enumerate `0, 1, ..., size-1`, each number exactly once
and in order. -/
structure EvenPartition (size degree : Nat) (parts : List (Nat × Nat)) : Prop where
  count : parts.length = degree
  ordered : ∀ p ∈ parts, p.1 ≤ p.2 ∧ p.2 ≤ size
  covers : parts.flatMap (fun p => List.range' p.1 (p.2 - p.1)) = List.range size
  even : ∀ p ∈ parts, ∀ q ∈ parts, p.2 - p.1 ≤ (q.2 - q.1) + 1

end Distclus.Spec
