import Verif.Model.StreamPanic
/-!
# Specification: streaming with operations which panic
-/
namespace Distclus

/-- The same state and the same result with other elements. -/
def StreamImpl.image {E E' F R : Type} (φ : E' → E) (impl : StreamImpl E' F R) : StreamImpl E F R :=
  ⟨impl.maxDistance, impl.clust.map φ, impl.cards, impl.c.map φ, impl.conf, impl.count⟩

def StreamRes.image {E E' F : Type} (φ : E' → E) : StreamRes E' F → StreamRes E F
  | .push err => .push err
  | .init cl => .init (cl.map (List.map φ))
  | .iterate cl m => .iterate (cl.map (List.map φ)) m

def StreamOp.image {E E' F : Type} (φ : E' → E) : StreamOp E' F → StreamOp E F
  | .push e => .push (φ e)
  | .init => .init
  | .iterate t => .iterate t

namespace Spec
variable {E F R : Type}

/-- The elements which wait and the centres are `G`, there is a centre, and each centre has a positive count. -/
structure StreamSteady (G : E → Prop) (impl : StreamImpl E F R) : Prop where
  started : impl.clust ≠ []
  centres : ∀ x ∈ impl.clust, G x
  waiting : ∀ x ∈ impl.c, G x
  cards : impl.cards.length = impl.clust.length
  positive : ∀ k ∈ impl.cards, 0 < k

/-- The elements which are pushed are `G`. -/
def Pushes (G : E → Prop) (ops : List (StreamOp E F)) : Prop := ∀ e, .push e ∈ ops → G e

/-- With the draw `t`, an element at the distance `d` of its nearest centre is merged with it: it is neither an outlier
nor a new centre. -/
def Merges [Zero F] [LT F] [BEq F] [Div F] (impl : StreamImpl E F R) (t d : F) : Prop :=
  ¬ (impl.conf.outAfter ≤ impl.count ∧ impl.conf.outRatio < d / (if impl.maxDistance == 0 then d else impl.maxDistance)) ∧
  ¬ t < d / (if impl.maxDistance == 0 then d else impl.maxDistance)

end Spec
end Distclus
