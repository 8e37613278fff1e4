import Verif.Model.KMeans
import Verif.Model.Conf
/-!
# The MCMC algorithm (mcmc/impl.go, mcmc/store.go, mcmc/seq.go, mcmc/par.go, mcmc/dirac.go)

The random values used by an iteration are gathered in `McmcDraws`; they are arbitrary, as are the
samples drawn by `Distrib.Sample`.  `Distrib.Pdf` is an arbitrary function.  Every clustering handled
here has all its centroids (`List E`): the clusterings with missing centroids that an iteration of
k-means could in principle return are mapped to `none`, as panics are.
-/
namespace Distclus

section
variable {E F R : Type}

/-! ### The centre store -/

/-- `CenterStore` (mcmc/store.go:11-14): the map; the generator is given by the draws. -/
abbrev CenterStore (E : Type) := Int → Option (List E)

/-- `NewCenterStore` (mcmc/store.go:17-22). -/
def CenterStore.empty : CenterStore E := fun _ => none

/-- `SetCenters` (mcmc/store.go:36-38). -/
def CenterStore.setCenters (s : CenterStore E) (clust : List E) : CenterStore E :=
  fun k => if k = (clust.length : Int) then some clust else s k

/-- The loop of `delCenter` (mcmc/store.go:69-75), from index `i`, `n` turns remaining; `none` is an
index panic. -/
def delLoop (space : Space E F) (prev : List E) (del : Nat) : Nat → Nat → Option (List E)
  | _, 0 => some []
  | i, n + 1 =>
    match if i < del then prev[i]? else prev[i + 1]? with
    | none => none
    | some e =>
      match delLoop space prev del (i + 1) n with
      | none => none
      | some r => some (space.copy e :: r)

/-- `delCenter` (mcmc/store.go:66-77), `del` being the result of `rgen.Intn(prevK)`, which panics
for `prevK = 0`. -/
def delCenter (space : Space E F) (prev : List E) (del : Nat) : Option (List E) :=
  if prev.length = 0 then none else delLoop space prev del 0 (prev.length - 1)

variable [Zero F] [One F] [Neg F] [LT F] [DecidableLT F] [Add F] [Sub F] [Mul F] [BEq F]

/-- `addCenter` (mcmc/store.go:57-64), `u` being the draw of `PPIter`; the flag tells whether an
error is returned. On error `PPIter` still returns a copy of the first element
(kmeans/init.go:70). -/
def addCenter (space : Space E F) (data prev : List E) (u : F) : Option (List E × Bool) :=
  match ppIter space prev data u with
  | .panic => none
  | .nullSet =>
    match data[0]? with
    | none => none
    | some e => some (prev.map space.copy ++ [space.copy e], true)
  | .ok e => some (prev.map space.copy ++ [e], false)

/-- `genCenters` (mcmc/store.go:40-55). -/
def genCenters (space : Space E F) (data : List E) (k : Int) (prev : List E) (u : F) (del : Nat) :
    Option (List E × Bool) :=
  if (prev.length : Int) < k then addCenter space data prev u
  else if (prev.length : Int) > k then (delCenter space prev del).map fun c => (c, false)
  else some (prev, false)

/-- `GetCenters` (mcmc/store.go:25-33). -/
def CenterStore.getCenters (s : CenterStore E) (space : Space E F) (data : List E) (k : Int)
    (clust : List E) (u : F) (del : Nat) : Option (List E × Bool) :=
  match s k with
  | some centers => some (centers, false)
  | none => genCenters space data k clust u del

/-! ### Iterations -/

/-- `proposal` (mcmc/impl.go:83-88). -/
structure Proposal (E F : Type) where
  k : Int
  centers : List E
  loss : F
  pdf : F

/-- `Impl` (mcmc/impl.go:13-27). -/
structure McmcImpl (E F : Type) where
  buffer : DataBuffer E
  store : CenterStore E
  acc : Nat
  lambda : F
  rho : F
  rGibbs : F
  time : Nat
  dim : Nat
  current : Proposal E F

/-- The parameters of the algorithm: the configuration, the space, `runtime.NumCPU()`, the density
`Pdf(x, mu, time)` of the distribution and the initializer; `D` is what the initializer draws. -/
structure McmcParams (D E F R : Type) where
  conf : McmcConf F R
  space : Space E F
  sysCPU : Int
  pdf : E → E → Nat → F
  initializer : D → Int → List E → InitRes E

/-- The random values used by an iteration. -/
structure McmcDraws (E F : Type) where
  /-- `Float64()` of `WeightedChoice` in `nextK` -/
  move : F
  /-- `Float64()` of `PPIter` in the first, then the second call of `GetCenters` -/
  add : F
  add' : F
  /-- `Intn(prevK)` of `delCenter` in the first, then the second call of `GetCenters` -/
  del : Nat
  del' : Nat
  /-- `Sample` for the centre of the given index -/
  sample : Nat → E → E
  /-- `uniform.Rand()` -/
  accept : F

/-- `Dirac.Pdf` (mcmc/dirac.go:22-25). -/
def diracPdf : E → E → Nat → F := fun _ _ _ => 1

/-- `Dirac.Sample` (mcmc/dirac.go:17-19), for the centre of any index. -/
def diracSample : Nat → E → E := fun _ mu => mu

/-- `nextK` (mcmc/impl.go:141-155). `none` is an index panic. The error of `WeightedChoice` is
ignored, its index is then 0. -/
def nextK (conf : McmcConf F R) (k : Int) (data : List E) (u : F) : Option Int :=
  let i : Option Int := match weightedChoice conf.probaK u with
    | .panic => none
    | .nullSet => some 0
    | .ok i => some i
  match i with
  | none => none
  | some i =>
    match idx? [(-1 : Int), 0, 1] i with
    | none => none
    | some d =>
      let newK := k + d
      if newK < 1 then some 1
      else if newK > conf.maxK then some conf.maxK
      else if newK > data.length then some data.length
      else some newK

/-- `getKCenters` (mcmc/impl.go:115-123). -/
def McmcImpl.getKCenters {D : Type} (impl : McmcImpl E F) (p : McmcParams D E F R)
    (current : Proposal E F) (centroids data : List E) (d : McmcDraws E F) :
    Option (Int × List E) :=
  match nextK p.conf current.k data d.move with
  | none => none
  | some k =>
    match impl.store.getCenters p.space data k centroids d.add d.del with
    | none => none
    | some (centers, false) => some (k, centers)
    | some (_, true) =>
      match impl.store.getCenters p.space data current.k centroids d.add' d.del' with
      | none => none
      | some (centers, _) => some (current.k, centers)

/-- `alter` (mcmc/impl.go:157-165). -/
def alter (clust : List E) (d : McmcDraws E F) : List E := clust.mapIdx d.sample

/-- `SeqStrategy.Iterate` and `ParStrategy.Iterate` (mcmc/seq.go:27-45, mcmc/par.go:23-41), called
with `iter = 1`: both build a *parallel* k-means on the given data, whose degree is
`runtime.NumCPU()` by default, and initialise it with the given centroids
(core/clustering.go:194-196). -/
def mcmcStrategyIterate {D : Type} (p : McmcParams D E F R) (centers data : List E) :
    Option (List E) :=
  kmeansStep (.par p.sysCPU) p.space data centers

/-- The loop of `proba` (mcmc/impl.go:167-173); `mu[i]` may be out of range. -/
def probaLoop (pdf : E → E → Nat → F) (time : Nat) : List E → List E → F → Option F
  | [], _, p => some p
  | _ :: _, [], _ => none
  | v :: x, m :: mu, p => probaLoop pdf time x mu (p + pdf m v time)

/-- `proba` (mcmc/impl.go:167-173). -/
def proba (pdf : E → E → Nat → F) (time : Nat) (x mu : List E) : Option F :=
  probaLoop pdf time x mu 0

variable [GoMath F] [Div F]

/-- `SeqStrategy.Loss` (mcmc/seq.go:48-50), `ParStrategy.Loss` (mcmc/par.go:44-46); the strategy is
chosen by `getImpl` (mcmc/algo.go:13-22). -/
def mcmcLoss {D : Type} (p : McmcParams D E F R) (centers data : List E) : Option F :=
  if p.conf.par then parTotalLoss p.space centers data p.conf.norm p.conf.numCPU
  else totalLoss p.space centers data p.conf.norm

/-- `propose` (mcmc/impl.go:103-113). -/
def McmcImpl.propose {D : Type} (impl : McmcImpl E F) (p : McmcParams D E F R)
    (current : Proposal E F) (centroids data : List E) (time : Nat) (d : McmcDraws E F) :
    Option (Proposal E F) :=
  match impl.getKCenters p current centroids data d with
  | none => none
  | some (k, centers) =>
    match mcmcStrategyIterate p (alter centers d) data with
    | none => none
    | some centers =>
      match mcmcLoss p centers data, proba p.pdf time centers centers with
      | some loss, some pdf => some { k, centers, loss, pdf }
      | _, _ => none

/-- The figures computed by `accept` (mcmc/impl.go:125-136): lambda, rho, rGibbs. -/
def ratio (conf : McmcConf F R) (dim : Nat) (current prop : Proposal E F) (time : Nat) : F × F × F :=
  let rProp := current.pdf - prop.pdf
  let l2b := GoMath.log (GoMath.ofInt 2 * conf.b)
  let rInit := l2b * GoMath.ofInt (dim * (current.k - prop.k))
  let lambda := conf.amp * GoMath.sqrt (GoMath.ofInt (dim + 3) / GoMath.ofInt time)
  let rGibbs := lambda * (current.loss - prop.loss)
  let rho := GoMath.exp (rGibbs + rInit + rProp)
  (lambda, rho, rGibbs)

/-- `accept` (mcmc/impl.go:125-139), `u` being the result of `uniform.Rand()`. -/
def McmcImpl.accept (impl : McmcImpl E F) (conf : McmcConf F R) (current prop : Proposal E F)
    (time : Nat) (u : F) : McmcImpl E F × Bool :=
  let (lambda, rho, rGibbs) := ratio conf impl.dim current prop time
  ({ impl with lambda, rho, rGibbs }, decide (u < rho))

/-- `doIter` (mcmc/impl.go:90-101). -/
def McmcImpl.doIter {D : Type} (impl : McmcImpl E F) (p : McmcParams D E F R)
    (current : Proposal E F) (centroids data : List E) (time : Nat) (d : McmcDraws E F) :
    Option (McmcImpl E F × Proposal E F × List E) :=
  match impl.propose p current centroids data time d with
  | none => none
  | some prop =>
    let (impl, ok) := impl.accept p.conf current prop time d.accept
    if ok then
      some ({ impl with store := impl.store.setCenters prop.centers, acc := impl.acc + 1 }, prop,
        prop.centers)
    else some (impl, current, centroids)

/-- The figures returned by `runtimeFigures` (mcmc/impl.go:176-184), before conversion to
`float64`. -/
structure McmcFigures (F : Type) where
  acceptations : Nat
  lambda : F
  rho : F
  rGibbs : F
  time : Nat
deriving DecidableEq, Repr

/-- `runtimeFigures` (mcmc/impl.go:176-184). -/
def McmcImpl.figures (impl : McmcImpl E F) : McmcFigures F :=
  { acceptations := impl.acc, lambda := impl.lambda, rho := impl.rho, rGibbs := impl.rGibbs,
    time := impl.time }

/-- `Iterate` (mcmc/impl.go:64-72), `centroids` being `model.Centroids()`; `getCurrentTime`
(mcmc/impl.go:74-76) is the number of data. -/
def McmcImpl.iterate {D : Type} (impl : McmcImpl E F) (p : McmcParams D E F R)
    (centroids : List E) (d : McmcDraws E F) :
    Option (McmcImpl E F × List E × McmcFigures F) :=
  let data := impl.buffer.data
  match impl.doIter p impl.current centroids data data.length d with
  | none => none
  | some (impl, current, clust) =>
    let impl := { impl with current, time := data.length }
    some ({ impl with buffer := impl.buffer.apply }, clust, impl.figures)

/-- `Init` (mcmc/impl.go:43-61). -/
def McmcImpl.init {D : Type} (impl : McmcImpl E F) (p : McmcParams D E F R) (d : D) :
    McmcImpl E F × InitRes E :=
  let impl := { impl with buffer := impl.buffer.apply }
  let data := impl.buffer.data
  match p.initializer d p.conf.initK data with
  | .panic => (impl, .panic)
  | .err => (impl, .err)
  | .ok centroids =>
    let impl := { impl with dim := p.space.dim centroids }
    match mcmcLoss p centroids data, proba p.pdf data.length centroids centroids with
    | some loss, some pdf =>
      ({ impl with current := { k := p.conf.initK, centers := centroids, loss, pdf },
                   time := data.length }, .ok centroids)
    | _, _ => (impl, .panic)

/-- `NewSeqImpl` (mcmc/seq.go:11-20), `NewParImpl` (mcmc/par.go:9-15). -/
def McmcImpl.new {D : Type} (p : McmcParams D E F R) (data : List E) : McmcImpl E F :=
  { buffer := newDataBuffer data p.conf.frameSize, store := CenterStore.empty, acc := 0,
    lambda := 0, rho := 0, rGibbs := 0, time := 0, dim := 0,
    current := { k := 0, centers := [], loss := 0, pdf := 0 } }

/-- `Copy` (mcmc/impl.go:30-34): a new implementation on the stored data. -/
def McmcImpl.copy {D : Type} (impl : McmcImpl E F) (p : McmcParams D E F R) : McmcImpl E F :=
  McmcImpl.new p impl.buffer.data

/-! ### Histories -/

/-- The implementation and the centroids kept by the controller. `ready` tells that the last `Init`
succeeded and that no iteration has panicked since: the controller iterates only then. -/
structure McmcSys (E F : Type) where
  impl : McmcImpl E F
  centroids : List E
  ready : Bool

/-- A call of the controller to the implementation. -/
inductive McmcOp (D E F : Type) where
  | push (e : E) (running : Bool)
  | init (d : D)
  | iterate (d : McmcDraws E F)

/-- One call; `none` when it is not possible (a push blocked by a full pipe, an iteration without
initialisation). The controller keeps the centroids returned by `Init` (core/ctrl.go:85-88) and by
`Iterate` (core/ctrl.go:286-294); a panic of an iteration ends the run (core/ctrl.go:207-214) without
having changed the implementation, since `accept` is called after everything that may panic. -/
def McmcSys.step {D : Type} (s : McmcSys E F) (p : McmcParams D E F R) :
    McmcOp D E F → Option (McmcSys E F)
  | .push e running =>
    match s.impl.buffer.push e running with
    | none => none
    | some b => some { s with impl := { s.impl with buffer := b } }
  | .init d =>
    match s.impl.init p d with
    | (impl, .ok c) => some { impl, centroids := c, ready := true }
    | (impl, _) => some { s with impl, ready := false }
  | .iterate d =>
    if s.ready then
      match s.impl.iterate p s.centroids d with
      | none => some { s with ready := false }
      | some (impl, clust, _) => some { s with impl, centroids := clust }
    else none

/-- A history. -/
def McmcSys.run {D : Type} (p : McmcParams D E F R) : McmcSys E F → List (McmcOp D E F) →
    Option (McmcSys E F)
  | s, [] => some s
  | s, o :: os =>
    match s.step p o with
    | none => none
    | some s' => McmcSys.run p s' os

/-- The state before the first call. -/
def McmcSys.new {D : Type} (p : McmcParams D E F R) (data : List E) : McmcSys E F :=
  { impl := McmcImpl.new p data, centroids := [], ready := false }

end
end Distclus
