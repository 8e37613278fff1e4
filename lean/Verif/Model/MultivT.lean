import Verif.Model.Basic
/-!
# The multivariate t distribution (mcmc/multivt.go)

`math.Gamma` and `math.Pi` are parameters. The draws of `normal.Rand` and `chi2.Rand` are arguments of
`Sample`.
-/
namespace Distclus

section
variable {F : Type} [Zero F] [One F] [Neg F] [Add F] [Sub F] [Mul F] [Div F] [BEq F] [GoMath F]

/-- `MultivT` (mcmc/multivt.go:24-30), without its generators. -/
structure MultivT (F : Type) where
  dim : Nat
  nu : F
  gammaFactor : F
  power : F

/-- `NewMultivT` (mcmc/multivt.go:33-51) with `setConf` (mcmc/multivt.go:53-62): `Nu` is 3 by
default. -/
def MultivT.new (gamma : F → F) (dim : Nat) (nu : F) : MultivT F :=
  let nu := if nu == 0 then GoMath.ofInt 3 else nu
  let power := (GoMath.ofInt dim + nu) / GoMath.ofInt 2
  { dim, nu, power, gammaFactor := GoMath.log (gamma power / gamma (nu / GoMath.ofInt 2)) }

/-- The loop of `Pdf` (mcmc/multivt.go:85-88); `fx[i]` may be out of range. -/
def shiftLoop : List F → List F → F → Option F
  | [], _, shift => some shift
  | _ :: _, [], _ => none
  | a :: fmu, b :: fx, shift =>
    let f := a - b
    shiftLoop fmu fx (shift + f * f)

/-- `Pdf` (mcmc/multivt.go:80-93). -/
def MultivT.pdf (pi : F) (m : MultivT F) (mu x : List F) (time : Nat) : Option F :=
  match shiftLoop mu x 0 with
  | none => none
  | some shift =>
    let scale := m.nu / GoMath.sqrt (GoMath.ofInt (time * 20))
    let k := m.gammaFactor - GoMath.log (pi * scale) * GoMath.ofInt m.dim / GoMath.ofInt 2
    some (k + (-m.power * GoMath.log (1 + shift / scale)))

/-- The loop of `Sample` (mcmc/multivt.go:72-74) over the draw `student`; `fmu[i]` may be out of
range. -/
def sampleLoop (chiInverse scale : F) : List F → List F → Option (List F)
  | _, [] => some []
  | [], _ :: _ => none
  | a :: fmu, s :: student =>
    match sampleLoop chiInverse scale fmu student with
    | none => none
    | some r => some ((a + s * chiInverse * scale) :: r)

/-- `Sample` (mcmc/multivt.go:65-77), `normal` being the result of `normal.Rand(nil)` (`Dim` values),
`chi` the result of `chi2.Rand()`. -/
def MultivT.sample (m : MultivT F) (mu : List F) (time : Nat) (normal : List F) (chi : F) :
    Option (List F) :=
  let scale := GoMath.ofInt 1 / GoMath.sqrt (GoMath.ofInt (time * 20))
  let chiInverse := GoMath.sqrt (m.nu / chi)
  sampleLoop chiInverse scale mu normal

end
end Distclus
