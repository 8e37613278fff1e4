import Verif.Model.Basic
/-!
# Configurations (core/conf.go, kmeans/conf.go, mcmc/conf.go, streaming/conf.go, NewAlgo's)

`BEq F` is the comparison `==` of `float64`.  `RGen` is an optional generator of an arbitrary type
`R`.  The run-time environment (`runtime.NumCPU()`, a generator seeded by the clock) is an explicit
argument.  The fields `StatusNotifier` and `Finishing`, never read by the checks, are left out, as
are the private fields `lamb, l2b, tau` of `mcmc.Conf`, never set nor read.
-/
namespace Distclus

/-- What the run-time supplies to `SetDefaultValues`. -/
structure ConfEnv (R : Type) where
  numCPU : Int
  rgen : R

/-- `CtrlConf` (core/conf.go:16-24). -/
structure CtrlConf (F : Type) where
  iter : Int
  iterFreq : F
  timeout : Int
  dataPerIter : Int
  iterPerData : Int
deriving DecidableEq

/-- The errors of the checks. -/
inductive ConfErr where
  | iterPerData | dataPerIter | iterFreq | timeout | iter | k | maxK | outAfter
deriving DecidableEq, Repr

section
variable {F R : Type} [Zero F] [LT F] [DecidableLT F] [BEq F]

/-- `CtrlConf.SetDefaultValues` (core/conf.go:53-54). -/
def CtrlConf.setDefaults (c : CtrlConf F) : CtrlConf F := c

/-- `CtrlConf.Verify` (core/conf.go:27-45). -/
def CtrlConf.verify (c : CtrlConf F) : Option ConfErr :=
  let c := c.setDefaults
  let err : Option ConfErr := none
  let err := if c.iterPerData < 0 then some .iterPerData else err
  let err := if err = none ∧ c.dataPerIter < 0 then some .dataPerIter else err
  let err := if err = none ∧ c.iterFreq < 0 then some .iterFreq else err
  let err := if err = none ∧ c.timeout < 0 then some .timeout else err
  let err := if err = none ∧ c.iter < 0 then some .iter else err
  err

/-- The interface `core.Conf` (core/conf.go:9-13) for a configuration type `C`: `Verify` may change
the configuration. -/
structure ConfOps (C F : Type) where
  setDefaults : C → C
  verify : C → C × Option ConfErr
  ctrl : C → CtrlConf F

/-- `PrepareConf` (core/conf.go:57-65); `conf.Ctrl().SetDefaultValues()` does nothing. -/
def prepareConf {C : Type} (ops : ConfOps C F) (c : C) : C × Option ConfErr :=
  let c := ops.setDefaults c
  let (c, err) := ops.verify c
  if err = none then (c, (ops.ctrl c).verify) else (c, err)

/-- `core.NewAlgo` (core/algo.go:40-58) as far as the configuration is concerned: `none` is the
panic, `some c` the configuration held by the algorithm. -/
def coreNewAlgo {C : Type} (ops : ConfOps C F) (c : C) : Option C :=
  match prepareConf ops c with
  | (c, none) => some c
  | (_, some _) => none

/-! ### kmeans -/

/-- `kmeans.Conf` (kmeans/conf.go:14-21). -/
structure KMeansConf (F R : Type) where
  ctrl : CtrlConf F
  par : Bool
  k : Int
  frameSize : Int
  rgen : Option R
  numCPU : Int
deriving DecidableEq

/-- `SetDefaultValues` (kmeans/conf.go:33-41). -/
def KMeansConf.setDefaults (env : ConfEnv R) (c : KMeansConf F R) : KMeansConf F R :=
  let c := if c.rgen.isNone then { c with rgen := some env.rgen } else c
  let c := if c.numCPU = 0 then { c with numCPU := env.numCPU } else c
  c

/-- `Verify` (kmeans/conf.go:24-30). -/
def KMeansConf.verify (env : ConfEnv R) (c : KMeansConf F R) : KMeansConf F R × Option ConfErr :=
  let c := c.setDefaults env
  (c, if c.k < 1 then some .k else none)

/-- `*kmeans.Conf` as a `core.Conf`. -/
def KMeansConf.ops (env : ConfEnv R) : ConfOps (KMeansConf F R) F :=
  { setDefaults := KMeansConf.setDefaults env, verify := KMeansConf.verify env,
    ctrl := KMeansConf.ctrl }

/-- `kmeans.NewAlgo` (kmeans/algo.go:7-15): the result of `Verify` is dropped, its changes kept; the
construction of the implementation does not fail. -/
def KMeansConf.newAlgo (env : ConfEnv R) (c : KMeansConf F R) : Option (KMeansConf F R) :=
  coreNewAlgo (KMeansConf.ops env) (c.verify env).1

/-! ### mcmc -/

/-- `mcmc.Conf` (mcmc/conf.go:14-26). -/
structure McmcConf (F R : Type) where
  ctrl : CtrlConf F
  par : Bool
  initK : Int
  rgen : Option R
  b : F
  amp : F
  r : F
  norm : F
  maxK : Int
  probaK : List F
  frameSize : Int
  numCPU : Int
deriving DecidableEq

variable [GoMath F]

/-- `SetDefaultValues` (mcmc/conf.go:29-49). -/
def McmcConf.setDefaults (env : ConfEnv R) (c : McmcConf F R) : McmcConf F R :=
  let c := if c.rgen.isNone then { c with rgen := some env.rgen } else c
  let c := if c.probaK.length = 0 then
    { c with probaK := [GoMath.ofInt 1, GoMath.ofInt 8, GoMath.ofInt 1] } else c
  let c := if c.norm == 0 then { c with norm := GoMath.ofInt 2 } else c
  let c := if c.maxK = 0 then { c with maxK := 16 } else c
  let c := if c.b == 0 then { c with b := GoMath.ofInt 1 } else c
  let c := if c.numCPU = 0 then { c with numCPU := env.numCPU } else c
  c

/-- `Verify` (mcmc/conf.go:52-61). -/
def McmcConf.verify (env : ConfEnv R) (c : McmcConf F R) : McmcConf F R × Option ConfErr :=
  let c := c.setDefaults env
  let err : Option ConfErr := none
  let err := if c.initK < 1 then some .k else err
  let err := if err = none ∧ c.initK > c.maxK ∧ c.maxK ≠ 0 then some .maxK else err
  (c, err)

/-- `*mcmc.Conf` as a `core.Conf`. -/
def McmcConf.ops (env : ConfEnv R) : ConfOps (McmcConf F R) F :=
  { setDefaults := McmcConf.setDefaults env, verify := McmcConf.verify env, ctrl := McmcConf.ctrl }

/-- `mcmc.NewAlgo` (mcmc/algo.go:7-11). -/
def McmcConf.newAlgo (env : ConfEnv R) (c : McmcConf F R) : Option (McmcConf F R) :=
  coreNewAlgo (McmcConf.ops env) (c.verify env).1

/-! ### streaming -/

/-- `streaming.Conf` (streaming/conf.go:13-21). -/
structure StreamingConf (F R : Type) where
  ctrl : CtrlConf F
  bufferSize : Int
  mu : F
  sigma : F
  outRatio : F
  outAfter : Int
  rgen : Option R
deriving DecidableEq

variable [Div F]

/-- `SetDefaultValues` (streaming/conf.go:24-43). The constants `.5` and `0.1` are the correctly
rounded quotients `1/2` and `1/10`. -/
def StreamingConf.setDefaults (env : ConfEnv R) (c : StreamingConf F R) : StreamingConf F R :=
  let c := if c.bufferSize = 0 then { c with bufferSize := 100 } else c
  let c := if c.mu == 0 then { c with mu := GoMath.ofInt 1 / GoMath.ofInt 2 } else c
  let c := if c.outRatio == 0 then { c with outRatio := GoMath.ofInt 2 } else c
  let c := if c.outAfter = 0 then { c with outAfter := 5 } else c
  let c := if c.rgen.isNone then { c with rgen := some env.rgen } else c
  let c := if c.sigma == 0 then { c with sigma := GoMath.ofInt 1 / GoMath.ofInt 10 } else c
  c

/-- `Verify` (streaming/conf.go:46-52). -/
def StreamingConf.verify (env : ConfEnv R) (c : StreamingConf F R) :
    StreamingConf F R × Option ConfErr :=
  let c := c.setDefaults env
  (c, if c.outAfter < 2 then some .outAfter else none)

/-- `*streaming.Conf` as a `core.Conf`. -/
def StreamingConf.ops (env : ConfEnv R) : ConfOps (StreamingConf F R) F :=
  { setDefaults := StreamingConf.setDefaults env, verify := StreamingConf.verify env,
    ctrl := StreamingConf.ctrl }

/-- `streaming.NewAlgo` (streaming/algo.go:6-13) on `n` initial elements. -/
def StreamingConf.newAlgo (env : ConfEnv R) (c : StreamingConf F R) (n : Nat) :
    Option (StreamingConf F R) :=
  let c := (c.verify env).1
  if c.bufferSize < n then none else coreNewAlgo (StreamingConf.ops env) c

end
end Distclus
