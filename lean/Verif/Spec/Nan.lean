import Verif.Model.Basic
import Verif.Model.Euclid
import Verif.Spec.Float
/-!
# Elements with a NaN

`bad` elements are those of which nothing can be computed: a distance from or to a bad element is
NaN, what is combined with a bad element is bad.  The bad points of the Euclidean and cosine spaces are
those with a NaN coordinate, if NaN is absorbing for the operations of the arithmetic (`NanLaws`), as
it is in IEEE 754.
-/
namespace Distclus
namespace Spec

/-- NaN is absorbing. -/
structure NanLaws (F : Type) [LT F] [FloatOrder F] [BEq F] [Zero F] [Add F] [Sub F] [Mul F] [Div F]
    [GoMath F] : Prop where
  add_left : ∀ {a : F} (b : F), isNaN a → isNaN (a + b)
  add_right : ∀ (a : F) {b : F}, isNaN b → isNaN (a + b)
  sub_left : ∀ {a : F} (b : F), isNaN a → isNaN (a - b)
  sub_right : ∀ (a : F) {b : F}, isNaN b → isNaN (a - b)
  mul_left : ∀ {a : F} (b : F), isNaN a → isNaN (a * b)
  mul_right : ∀ (a : F) {b : F}, isNaN b → isNaN (a * b)
  div_left : ∀ {a : F} (b : F), isNaN a → isNaN (a / b)
  sqrt : ∀ {a : F}, isNaN a → isNaN (GoMath.sqrt a)
  exp : ∀ {a : F}, isNaN a → isNaN (GoMath.exp a)
  beq : ∀ {a : F}, isNaN a → (a == 0) = false

/-- Nothing can be computed of the bad elements. -/
structure Taints {E F : Type} [LT F] [FloatOrder F] (space : Space E F) (bad : E → Prop) : Prop where
  dist : ∀ {a b : E}, bad a ∨ bad b → isNaN (space.dist a b)
  combine : ∀ {a b : E} (w v : Int), bad a ∨ bad b → bad (space.combine a w b v)
  copy : ∀ {a : E}, bad a → bad (space.copy a)

/-- A coordinate is NaN. -/
def HasNaN {F : Type} [LT F] [FloatOrder F] {n : Nat} (p : Vec F n) : Prop := ∃ x ∈ p.1, isNaN x

end Spec
end Distclus
