import Verif.Model.Ieee
import Verif.Spec.Fl
/-!
# Specification: numbers without overflow
-/
namespace Distclus

/-- Multiplying by a power of two does not change the digits of a number which is not small. -/
def Rounding.Scales (r : Rounding) : Prop := ∀ (k : Nat) (x : ℝ), 1 ≤ x → r.rnd (2 ^ k * x) = 2 ^ k * r.rnd x

/-- The number of the format which `x` is, if it does not overflow. -/
noncomputable def Fl.toIeee (f : Format) (x : Fl f.r) : Ieee f := Ieee.of f (.fin x.val)

/-- The point with these coordinates. -/
noncomputable def Vec.toIeee (f : Format) {n : Nat} (p : Vec (Fl f.r) n) : Vec (Ieee f) n :=
  ⟨p.1.map (Fl.toIeee f), by rw [List.length_map]; exact p.2⟩

namespace Spec

/-- The magnitudes of the coordinates are at most `2 ^ k`. -/
def Box {r : Rounding} {n : Nat} (k : Nat) (p : Vec (Fl r) n) : Prop := ∀ x ∈ p.1, |x.val| ≤ 2 ^ k

/-- The bound `2 ^ k` of the coordinates is far enough from the overflow, for `n` coordinates and `N` elements. -/
structure Room (f : Format) (k n N : Nat) : Prop where
  scales : f.r.Scales
  counts : f.r.CountsTo N
  dim : n ≤ N
  sums : (2 : ℝ) ^ k * N < f.top
  squares : (2 : ℝ) ^ (2 * k + 2) * n < f.top

/-- Every coordinate is a finite number. -/
def IeeeFinite {f : Format} {n : Nat} (p : Vec (Ieee f) n) : Prop := ∀ x ∈ p.1, ∃ y : ℝ, x.1 = .fin y

end Spec
end Distclus
