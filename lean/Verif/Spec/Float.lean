import Mathlib.Order.Defs.LinearOrder
import Mathlib.Order.Basic
/-!
# The order laws of floating point numbers

`FloatOrder F` states what is true of `<` on IEEE-754 numbers, including NaN and signed zeros:
NaN is comparable with nothing and the other values are strictly weakly ordered (not linearly:
`-0` and `+0` are different values, none smaller than the other).
-/
namespace Distclus

class FloatOrder (F : Type) [LT F] where
  isNaN : F → Prop
  nan_not_lt : ∀ {a b : F}, isNaN a → ¬ a < b
  not_lt_nan : ∀ {a b : F}, isNaN b → ¬ a < b
  irrefl : ∀ a : F, ¬ a < a
  trans : ∀ {a b c : F}, a < b → b < c → a < c
  cotrans : ∀ {a b : F} (c : F), ¬ isNaN c → a < b → a < c ∨ c < b

export FloatOrder (isNaN)

/-- A linear order has no NaN. -/
instance (priority := low) FloatOrder.ofLinearOrder {F : Type} [LinearOrder F] : FloatOrder F where
  isNaN _ := False
  nan_not_lt h := h.elim
  not_lt_nan h := h.elim
  irrefl a := lt_irrefl a
  trans := lt_trans
  cotrans c _ h := lt_or_lt_of_lt h c
where
  lt_or_lt_of_lt {F : Type} [LinearOrder F] {a b : F} (h : a < b) (c : F) : a < c ∨ c < b := by
    rcases lt_or_ge a c with h1 | h1
    · exact Or.inl h1
    · exact Or.inr (lt_of_le_of_lt h1 h)

end Distclus
