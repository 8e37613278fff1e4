import Mathlib.Order.Notation
/-!
# Specification: NaN in sums and comparisons

What the sums and the comparisons of the DTW costs do with NaN in IEEE 754; `⊤` is `math.Inf(1)`.
-/
namespace Distclus.Spec

/-- NaN compares with nothing and absorbs sums; `+Inf` plus anything is `+Inf` or NaN. -/
structure NanCosts (F : Type) [Top F] [Add F] [LE F] (nan : F → Prop) : Prop where
  le_left : ∀ {a : F} (b : F), nan a → ¬ a ≤ b
  le_right : ∀ (a : F) {b : F}, nan b → ¬ a ≤ b
  add_left : ∀ {a : F} (b : F), nan a → nan (a + b)
  add_right : ∀ (a : F) {b : F}, nan b → nan (a + b)
  top_add : ∀ b : F, (⊤ : F) + b = ⊤ ∨ nan (⊤ + b)

end Distclus.Spec
