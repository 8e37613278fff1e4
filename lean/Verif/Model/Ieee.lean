import Verif.Model.XReal
import Verif.Model.Rounding
/-!
# `float64` with rounding, overflow and the special values

`XReal` has the special values and no rounding, `Fl r` the rounding and no special value.  Here is both: the numbers
represented are NaN, the two infinities and the real numbers kept by the rounding whose magnitude is less than `top`; an
operation is the exact one on the extended reals, rounded; a result whose rounding reaches `top` is an infinity.
`float64` is `binary64` with `top = 2¹⁰²⁴`.

Simplifications: one zero; `math.Pow`, `math.Exp`, `math.Log` are correctly rounded (C135 uses them, no other theorem does); no
fused multiply-add.
-/
namespace Distclus

/-- A rounding and the magnitude from which its results overflow. -/
structure Format where
  r : Rounding
  top : ℝ
  one_lt_top : 1 < top

namespace Format
noncomputable section
variable (f : Format)

/-- The result of an operation whose exact result is `x`. -/
def round : XReal → XReal
  | .fin x => open Classical in
    if |f.r.rnd x| < f.top then .fin (f.r.rnd x) else if 0 < x then .posInf else .negInf
  | y => y

/-- The values which are represented. -/
def Rep (x : XReal) : Prop := f.round x = x

theorem rep_round (x : XReal) : f.Rep (f.round x) := by
  cases x with
  | fin x =>
    unfold Rep
    by_cases h : |f.r.rnd x| < f.top
    · simp only [round, if_pos h, f.r.idem]
    · by_cases h2 : 0 < x
      · simp only [round, if_neg h, if_pos h2]
      · simp only [round, if_neg h, if_neg h2]
  | _ => rfl

end
end Format

/-- The floating-point numbers of a format. -/
def Ieee (f : Format) : Type := { x : XReal // f.Rep x }

namespace Ieee
noncomputable section
variable {f : Format}

/-- The number nearest to `x`, or an infinity. -/
def of (f : Format) (x : XReal) : Ieee f := ⟨f.round x, f.rep_round x⟩

instance : BEq (Ieee f) := ⟨fun a b => a.1 == b.1⟩
instance : Zero (Ieee f) := ⟨of f 0⟩
instance : One (Ieee f) := ⟨of f 1⟩
instance : Neg (Ieee f) := ⟨fun a => of f (-a.1)⟩
instance : Add (Ieee f) := ⟨fun a b => of f (a.1 + b.1)⟩
instance : Sub (Ieee f) := ⟨fun a b => of f (a.1 - b.1)⟩
instance : Mul (Ieee f) := ⟨fun a b => of f (a.1 * b.1)⟩
instance : Div (Ieee f) := ⟨fun a b => of f (a.1 / b.1)⟩
instance : LT (Ieee f) := ⟨fun a b => a.1 < b.1⟩
instance : DecidableLT (Ieee f) := fun _ _ => Classical.propDecidable _

instance : GoMath (Ieee f) where
  ofInt n := of f (GoMath.ofInt n)
  sqrt a := of f (GoMath.sqrt a.1)
  pow a b := of f (GoMath.pow a.1 b.1)
  exp a := of f (GoMath.exp a.1)
  log a := of f (GoMath.log a.1)
  inf := of f .posInf

end
end Ieee
end Distclus
