import Verif.Model.Basic
import Mathlib.Algebra.Module.Basic
import Mathlib.Algebra.BigOperators.Group.List.Basic
import Mathlib.Data.Real.Basic
/-!
# Specification: members of a cluster, running combination, mean
-/
namespace Distclus.Spec

/-- The elements carrying label `l`, in order. -/
def members {E : Type} (els : List (E × Int)) (l : Nat) : List E :=
  (els.filter fun p => p.2 == (l : Int)).map (·.1)

/-- The running combination of a list: the first element copied, then each following one combined
with weight 1 against the number of elements already merged; nothing for an empty list. -/
def running {E F : Type} (space : Space E F) : List E → Option E
  | [] => none
  | e :: es => some (es.foldl (fun mw x => (space.combine mw.1 mw.2 x 1, mw.2 + 1))
      (space.copy e, (1 : Int))).1

/-- Arithmetic mean of a non-empty list. -/
noncomputable def mean {V : Type} [AddCommGroup V] [Module ℝ V] (l : List V) : V :=
  ((l.length : ℝ))⁻¹ • l.sum

/-- Weighted mean `(Σ wᵢ xᵢ) / Σ wᵢ`. -/
noncomputable def wmean {V : Type} [AddCommGroup V] [Module ℝ V] (l : List (V × Int)) : V :=
  ((l.map fun p => (p.2 : ℝ)).sum)⁻¹ • (l.map fun p => (p.2 : ℝ) • p.1).sum

/-- The elements are vectors (through the injective reading `φ`), `Copy` is the identity and
`Combine` is the weighted mean for positive weights.  Established for the Euclidean and cosine
spaces in exact arithmetic in `Props/Euclid.lean`. -/
structure Barycentric {E F V : Type} [AddCommGroup V] [Module ℝ V] (space : Space E F)
    (φ : E → V) : Prop where
  inj : ∀ a b, φ a = φ b → a = b
  copy : ∀ a, space.copy a = a
  combine : ∀ (a b : E) (w v : Int), 0 < w → 0 < v →
    φ (space.combine a w b v) = ((w : ℝ) + v)⁻¹ • ((w : ℝ) • φ a + (v : ℝ) • φ b)

end Distclus.Spec
