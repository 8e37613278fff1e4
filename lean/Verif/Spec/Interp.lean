import Verif.Model.Basic
/-!
# Specification: linear interpolation in an indexed series
-/
namespace Distclus.Spec

/-- `r` is the point at position `x` of the series `s` whose points have the positions `idx`: a point
of the series, or the combination of the two points around, each weighted by the gap to the other. -/
structure PointAt {P F : Type} (space : Space P F) (s : List P) (idx : List Int) (x : Int) (r : P) :
    Prop where
  ex : ∃ (j : Nat) (a b : Int) (p q : P), idx[j]? = some a ∧ idx[j + 1]? = some b ∧
    s[j]? = some p ∧ s[j + 1]? = some q ∧ a < x ∧ x ≤ b ∧
    r = if b = x then q else space.combine p (b - x) q (x - a)

end Distclus.Spec
