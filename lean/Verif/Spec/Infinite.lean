import Verif.Model.Basic
import Verif.Model.Euclid
import Verif.Model.XReal
/-!
# Elements with an infinite coordinate

`good` elements are at finite distances from each other, `bad` ones are infinitely far from the good ones, and nothing
can be said of the distance of two bad ones (`Inf - Inf` is NaN).  What is combined with a bad element is bad.
-/
namespace Distclus
namespace Spec

/-- The bad elements are out of reach of the good ones. -/
structure Strays {E F : Type} [LT F] [Zero F] (space : Space E F) (good bad : E → Prop) (inf : F) : Prop where
  top : ∀ x, ¬ inf < x
  near : ∀ {a b}, good a → good b → space.dist a b < inf
  nonneg : ∀ {a b}, good a → good b → ¬ space.dist a b < 0
  far : ∀ {a b}, good a → bad b → space.dist a b = inf
  far' : ∀ {a b}, bad a → good b → space.dist a b = inf
  wild : ∀ {a b}, bad a → bad b → ∀ x, ¬ space.dist a b < x
  combine_good : ∀ {a b} {w v : Int}, good a → good b → 0 < w → 0 < v → good (space.combine a w b v)
  combine_bad : ∀ {a b} {w v : Int}, (bad a ∧ (good b ∨ bad b)) ∨ (good a ∧ bad b) → 0 < w → 0 < v →
    bad (space.combine a w b v)
  copy_good : ∀ {a}, good a → good (space.copy a)
  copy_bad : ∀ {a}, bad a → bad (space.copy a)

/-- What the streaming algorithm does with an infinite distance: `Inf / Inf` and `NaN / Inf` are NaN, `d / Inf` is zero
and `Inf / m` is `Inf`. -/
structure InfDiv (F : Type) [LT F] [Zero F] [Div F] [BEq F] (inf : F) : Prop where
  nan : ∀ {d : F}, (∀ x, ¬ d < x) → ∀ x : F, ¬ x < d / inf
  zero : ∀ {d : F}, d < inf → ¬ d < 0 → d / inf = 0
  keep : ∀ {m : F}, 0 < m → m < inf → inf / m = inf
  ne : (inf == (0 : F)) = false
  pos : ∀ {m : F}, 0 < m → (m == (0 : F)) = false

/-- All coordinates are finite. -/
def FinitePoint {n : Nat} (p : Vec XReal n) : Prop := ∀ x ∈ p.1, ∃ r, x = .fin r

/-- A coordinate is `+Inf`, the others are finite or `+Inf`. -/
def InfPoint {n : Nat} (p : Vec XReal n) : Prop := (∀ x ∈ p.1, (∃ r, x = .fin r) ∨ x = .posInf) ∧ XReal.posInf ∈ p.1

/-- A coordinate is not finite. -/
def NotFinite {n : Nat} (p : Vec XReal n) : Prop := ∃ x ∈ p.1, ∀ r, x ≠ .fin r

end Spec
end Distclus
