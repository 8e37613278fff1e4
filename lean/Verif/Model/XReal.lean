import Verif.Model.RealMath
/-!
# Extended reals with NaN: `F := XReal`

`float64` without rounding and without overflow of finite results, but with the IEEE special values:
NaN and the two infinities with their arithmetic and comparison rules.  There is a single zero, so
`x / 0` for `x > 0` is `+Inf` (as for `x / +0`).
-/
namespace Distclus

/-- A real number, an infinity or NaN. -/
inductive XReal where
  | nan
  | negInf
  | fin (r : ℝ)
  | posInf

namespace XReal

noncomputable section

/-- The infinity of the sign of `r`, NaN for 0 (the results of `r * Inf`). -/
def infOf (r : ℝ) : XReal := open Classical in
  if 0 < r then posInf else if r < 0 then negInf else nan

/-- IEEE negation. -/
def neg : XReal → XReal
  | nan => nan
  | negInf => posInf
  | fin r => fin (-r)
  | posInf => negInf

/-- IEEE addition. -/
def add : XReal → XReal → XReal
  | nan, _ => nan
  | _, nan => nan
  | fin a, fin b => fin (a + b)
  | fin _, posInf => posInf
  | fin _, negInf => negInf
  | posInf, fin _ => posInf
  | negInf, fin _ => negInf
  | posInf, posInf => posInf
  | negInf, negInf => negInf
  | posInf, negInf => nan
  | negInf, posInf => nan

/-- IEEE multiplication. -/
def mul : XReal → XReal → XReal
  | nan, _ => nan
  | _, nan => nan
  | fin a, fin b => fin (a * b)
  | fin a, posInf => infOf a
  | fin a, negInf => infOf (-a)
  | posInf, fin a => infOf a
  | negInf, fin a => infOf (-a)
  | posInf, posInf => posInf
  | negInf, negInf => posInf
  | posInf, negInf => negInf
  | negInf, posInf => negInf

/-- IEEE division (the only zero is positive). -/
def div : XReal → XReal → XReal
  | nan, _ => nan
  | _, nan => nan
  | fin a, fin b => open Classical in if b = 0 then infOf a else fin (a / b)
  | fin _, posInf => fin 0
  | fin _, negInf => fin 0
  | posInf, fin b => open Classical in if b < 0 then negInf else posInf
  | negInf, fin b => open Classical in if b < 0 then posInf else negInf
  | _, _ => nan

/-- IEEE comparison. -/
def lt : XReal → XReal → Prop
  | fin a, fin b => a < b
  | fin _, posInf => True
  | negInf, fin _ => True
  | negInf, posInf => True
  | _, _ => False

/-- IEEE equality: NaN differs from everything. -/
def beq : XReal → XReal → Bool
  | negInf, negInf => true
  | posInf, posInf => true
  | fin a, fin b => open Classical in decide (a = b)
  | _, _ => false

/-- `math.Pow`, with the special cases of its documentation (one zero). -/
def pow : XReal → XReal → XReal
  | nan, fin b => open Classical in if b = 0 then fin 1 else nan
  | nan, _ => nan
  | fin a, nan => open Classical in if a = 1 then fin 1 else nan
  | _, nan => nan
  | posInf, fin b => open Classical in if b = 0 then fin 1 else if 0 < b then posInf else fin 0
  | posInf, posInf => posInf
  | posInf, negInf => fin 0
  | negInf, fin b => open Classical in
    if b = 0 then fin 1 else if b < 0 then fin 0 else if ∃ n : Int, b = 2 * n + 1 then negInf else posInf
  | negInf, posInf => posInf
  | negInf, negInf => fin 0
  | fin a, fin b => open Classical in
    if a = 0 ∧ b < 0 then posInf else if a < 0 ∧ ¬ ∃ n : Int, b = n then nan else fin (a ^ b)
  | fin a, posInf => open Classical in if |a| = 1 then fin 1 else if 1 < |a| then posInf else fin 0
  | fin a, negInf => open Classical in if |a| = 1 then fin 1 else if 1 < |a| then fin 0 else posInf

instance : BEq XReal := ⟨beq⟩
instance : Zero XReal := ⟨fin 0⟩
instance : One XReal := ⟨fin 1⟩
instance : Neg XReal := ⟨neg⟩
instance : Add XReal := ⟨add⟩
instance : Sub XReal := ⟨fun a b => add a (neg b)⟩
instance : Mul XReal := ⟨mul⟩
instance : Div XReal := ⟨div⟩
instance : LT XReal := ⟨lt⟩
instance : DecidableLT XReal := fun _ _ => Classical.propDecidable _

instance : GoMath XReal where
  ofInt n := fin n
  sqrt
    | nan => nan
    | negInf => nan
    | fin r => open Classical in if r < 0 then nan else fin (Real.sqrt r)
    | posInf => posInf
  pow := pow
  exp
    | nan => nan
    | negInf => fin 0
    | fin r => fin (Real.exp r)
    | posInf => posInf
  log
    | nan => nan
    | negInf => nan
    | fin r => open Classical in
      if r < 0 then nan else if r = 0 then negInf else fin (Real.log r)
    | posInf => posInf
  inf := posInf

end
end XReal
end Distclus
