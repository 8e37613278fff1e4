import Verif.Spec.Warp
/-!
# Specification: the DTW distance as a distance between series
-/
namespace Distclus.Spec

/-- One more point at the end of a series, unless it repeats the last one. -/
def appendNew {P : Type} [DecidableEq P] (l : List P) (a : P) : List P :=
  if l.getLast? = some a then l else l ++ [a]

/-- A series without the points that repeat the one just before. -/
def collapse {P : Type} [DecidableEq P] (l : List P) : List P := l.foldl appendNew []

/-- The lengths of two series for which `Dist` neither resizes one of them nor panics. -/
def NoResize (window : Int) (l1 l2 : Nat) : Prop :=
  (0 < window ∧ (l1 : Int) ≤ l2 + window ∧ (l2 : Int) ≤ l1 + window) ∨ (window = 0 ∧ l1 ≤ 2 * l2)

/-- All pairs of positions of series of lengths `l1` and `l2` are at most `w` apart. -/
def Wide (w l1 l2 : Nat) : Prop := l1 ≤ w + 1 ∧ l2 ≤ w + 1

/-- How many cells of a path are in row `i` (first index `i`). -/
def inRow (p : List (Nat × Nat)) (i : Nat) : Nat := p.countP fun x => x.1 = i

/-- How many cells of a path are in column `j` (second index `j`). -/
def inCol (p : List (Nat × Nat)) (j : Nat) : Nat := p.countP fun x => x.2 = j

/-- The sum of the costs of the cells of a path. -/
def cellSum {F : Type} [Add F] [Zero F] (d : Nat → Nat → F) (p : List (Nat × Nat)) : F :=
  (p.map fun x => d x.1 x.2).sum

example : collapse [1, 1, 2, 2, 2, 1, 3] = [1, 2, 1, 3] := by decide

end Distclus.Spec
