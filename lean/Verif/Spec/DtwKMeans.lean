import Verif.Model.ParPanic
/-!
# Specification: elements on which the operations do not panic
-/
namespace Distclus
namespace Spec

/-- On the elements which are `G` the operations of the space do not panic, with positive weights, and lead to elements
which are `G`. -/
structure SafeOn {E F : Type} (sp : PSpace E F) (G : E → Prop) : Prop where
  dist : ∀ {a b}, G a → G b → ∃ d, sp.dist a b = some d
  combine : ∀ {a b} {w v : Int}, G a → G b → 0 < w → 0 < v → ∃ r, sp.combine a w b v = some r ∧ G r
  copy : ∀ {a}, G a → ∃ b, sp.copy a = some b ∧ G b

end Spec
end Distclus
