import Verif.Model.ParPanic
/-!
# Specification: elements of different sizes
-/
namespace Distclus

/-- The operations of `sp` where they do not panic, and anything elsewhere. -/
def PSpace.total {E F : Type} [Zero F] (sp : PSpace E F) : Space E F :=
  ⟨fun a b => (sp.dist a b).getD 0, fun a w b v => (sp.combine a w b v).getD a, fun a => (sp.copy a).getD a, fun _ => 0⟩

namespace Spec

/-- Elements have a size (the dimension of a point) and an operation on `a` and `b` panics when `b` is smaller than
`a`; a combination has the size of its first argument. -/
structure Sized {E F : Type} (sp : PSpace E F) (size : E → Nat) : Prop where
  dist : ∀ a b, sp.dist a b = none ↔ size b < size a
  combine : ∀ a w b v, sp.combine a w b v = none ↔ size b < size a
  combined : ∀ {a w b v r}, sp.combine a w b v = some r → size r = size a
  copy : ∀ a, ∃ b, sp.copy a = some b ∧ size b = size a

/-- The first element is not larger than the others. -/
def FirstLeast {E : Type} (size : E → Nat) : List E → Prop
  | [] => True
  | e :: es => ∀ x ∈ es, size e ≤ size x

/-- No element is larger than a centroid, and in each cluster the first element is not larger than the others. -/
def Fits {E F : Type} [Zero F] [One F] [Neg F] [LT F] [DecidableLT F] (size : E → Nat) (sp : PSpace E F)
    (c data : List E) : Prop :=
  (∀ e ∈ data, ∀ x ∈ c, size e ≤ size x) ∧
  ∀ l < c.length, FirstLeast size (data.filter fun e => (nearest sp.total c e).1 == (l : Int))

end Spec
end Distclus
