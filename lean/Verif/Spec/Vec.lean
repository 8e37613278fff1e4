import Verif.Model.Euclid
import Mathlib.Data.Real.Basic
/-!
# Points of dimension `n` read as functions on `Fin n`
-/
namespace Distclus

/-- The coordinates of a point. -/
def Vec.coords {F : Type} {n : Nat} (v : Vec F n) : Fin n → F :=
  fun i => v.1[i.1]'(by rw [v.2]; exact i.2)

/-- A point from its coordinates. -/
def Vec.of {F : Type} {n : Nat} (f : Fin n → F) : Vec F n := ⟨List.ofFn f, by simp⟩

end Distclus
