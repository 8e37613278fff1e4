/-!
# Specification: the nearest element of a list
-/
namespace Distclus.Spec

/-- `x`, at position `label` of `c`, is the first of the elements of `c` satisfying `ok` whose
distance (given by `dist`) is minimal. -/
structure IsNearest {E F : Type} [LT F] (dist : E → F) (ok : E → Prop) (c : List E) (label : Nat)
    (x : E) : Prop where
  at_label : c[label]? = some x
  valid : ok x
  minimal : ∀ y ∈ c, ok y → ¬ dist y < dist x
  first : ∀ j y, j < label → c[j]? = some y → ok y → dist x < dist y

end Distclus.Spec
