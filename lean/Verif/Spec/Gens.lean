import Verif.Model.Gens
/-!
# Two algorithms and their generators
-/
namespace Distclus
namespace Spec
variable {G E F : Type}

/-- The calls of the first algorithm. -/
def lefts {O : Type} : List (O ⊕ O) → List O
  | [] => []
  | .inl o :: os => o :: lefts os
  | .inr _ :: os => lefts os

/-- The calls of the second algorithm. -/
def rights {O : Type} : List (O ⊕ O) → List O
  | [] => []
  | .inr o :: os => o :: rights os
  | .inl _ :: os => rights os

/-- `age` grows with each call of a generator, and does not decrease with a sample. -/
structure Ages (rng : Rng G F) (smp : E → Nat → G → E × G) (age : G → Nat) : Prop where
  float64 : ∀ g, age g < age (rng.float64 g).2
  intn : ∀ n g, age g < age (rng.intn n g).2
  sample : ∀ e t g, age g ≤ age (smp e t g).2

/-- The addresses of the generators of an mcmc algorithm. -/
def McmcGens.Has (g : McmcGens) (a : Nat) : Prop := a = g.conf ∨ a = g.own ∨ a = g.distrib

end Spec
end Distclus
