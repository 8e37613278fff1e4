/-!
# Specification: warping paths
-/
namespace Distclus.Spec

/-- `Warp ok i j p`: `p` is a warping path from `(0,0)` to `(i,j)` listed backwards (from `(i,j)` to
`(0,0)`), all its cells satisfying `ok`; each step increases one index, or both, by one. -/
inductive Warp (ok : Nat → Nat → Prop) : Nat → Nat → List (Nat × Nat) → Prop where
  | start : ok 0 0 → Warp ok 0 0 [(0, 0)]
  | right {i j p} : Warp ok i j p → ok i (j + 1) → Warp ok i (j + 1) ((i, j + 1) :: p)
  | down {i j p} : Warp ok i j p → ok (i + 1) j → Warp ok (i + 1) j ((i + 1, j) :: p)
  | diag {i j p} : Warp ok i j p → ok (i + 1) (j + 1) →
      Warp ok (i + 1) (j + 1) ((i + 1, j + 1) :: p)

/-- The costs `d` of the cells of a path, accumulated from its start (the end of the list). -/
def pathCost {F : Type} [Add F] (d : Nat → Nat → F) : List (Nat × Nat) → Option F
  | [] => none
  | [x] => some (d x.1 x.2)
  | x :: p => (pathCost d p).map (· + d x.1 x.2)

/-- At most `w` apart. -/
def Within (w : Nat) (i j : Nat) : Prop := i ≤ j + w ∧ j ≤ i + w

end Distclus.Spec
