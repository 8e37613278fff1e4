/-!
# Specification: a sum in some order
-/
namespace Distclus.Spec

/-- `x` is obtained by adding the numbers of the list two by two, in some order of additions, every
sum being computed by the `+` of `F` (rounded, for floating-point numbers). -/
inductive SumOf {F : Type} [Zero F] [Add F] : List F → F → Prop
  | zero : SumOf [] 0
  | one (v : F) : SumOf [v] v
  | add {a b : List F} {x y : F} : SumOf a x → SumOf b y → SumOf (a ++ b) (x + y)

end Distclus.Spec
