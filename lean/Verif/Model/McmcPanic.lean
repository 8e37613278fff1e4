import Verif.Model.ParPanic
import Verif.Model.Mcmc
import Verif.Model.MultivT
/-!
# MCMC with operations and distributions which panic (mcmc/impl.go, mcmc/store.go)

The functions of `Model/Mcmc.lean` are followed with operations of the space, densities and samples which may panic, and
with the goroutine in which they do: the k-means iteration of a proposal, the labelling of `PPIter` and the parallel loss
run in the goroutines of `Par`, where a panic ends the process (`Outcome.crash`); the rest runs in the goroutine of the
caller.

Simplification: the initializer is a function whose outcome is given (`InitRes`), it does not crash.
-/
namespace Distclus

/-- What follows a call. -/
def Outcome.bind {α β : Type} (o : Outcome α) (k : α → Outcome β) : Outcome β :=
  match o with
  | .ok a => k a
  | .panic => .panic
  | .crash => .crash

/-- A panic in the goroutine of the caller. -/
def Outcome.ofOption {α : Type} : Option α → Outcome α
  | some a => .ok a
  | none => .panic

/-- The parameters of the algorithm, see `McmcParams`; `dim` is `space.Dim`. -/
structure McmcPParams (D E F R : Type) where
  conf : McmcConf F R
  space : PSpace E F
  dim : List E → Nat
  sysCPU : Int
  /-- `distrib.Pdf(mu, x, time)` -/
  pdf : E → E → Nat → Option F
  initializer : D → Int → List E → InitRes E

/-- The random values used by an iteration, see `McmcDraws`; `sample i c` is the result of `distrib.Sample(c, time)` for
the centre of index `i`. -/
structure McmcPDraws (E F : Type) where
  move : F
  add : F
  add' : F
  del : Nat
  del' : Nat
  sample : Nat → E → Option E
  accept : F

section
variable {D E F R : Type}

/-- The loop of `delCenter` (mcmc/store.go:69-75), see `delLoop`. -/
def delLoopP (sp : PSpace E F) (prev : List E) (del : Nat) : Nat → Nat → Option (List E)
  | _, 0 => some []
  | i, n + 1 =>
    match if i < del then prev[i]? else prev[i + 1]? with
    | none => none
    | some e =>
      match sp.copy e with
      | none => none
      | some e' =>
        match delLoopP sp prev del (i + 1) n with
        | none => none
        | some r => some (e' :: r)

/-- `delCenter` (mcmc/store.go:66-77), see `delCenter`. -/
def delCenterP (sp : PSpace E F) (prev : List E) (del : Nat) : Option (List E) :=
  if prev.length = 0 then none else delLoopP sp prev del 0 (prev.length - 1)

variable [Zero F] [One F] [Neg F] [LT F] [DecidableLT F] [Add F] [Sub F] [Mul F] [BEq F]

/-- The distances of `MapLabel` (core/clustering.go:28-37). -/
def mapDistP (sp : PSpace E F) (c elemts : List E) : Option (List F) :=
  allSome (elemts.map fun e => (nearestP sp c e).map (·.2))

/-- The distances of `ParMapLabel` (core/clustering.go:40-42, core/par_assign.go:3-15): each chunk writes its own part of
the result, the parts follow each other. -/
def parDistP (sp : PSpace E F) (c elemts : List E) (degree : Int) : Outcome (List F) :=
  match parP elemts.length degree fun k => mapDistP sp c (slice elemts k.start k.stop) with
  | .ok parts => .ok parts.flatten
  | .panic => .panic
  | .crash => .crash

/-- `PPIter` (kmeans/init.go:67-71), see `ppIter`; the flag tells whether the null-set error is returned. -/
def ppIterP (sp : PSpace E F) (sysCPU : Int) (clust elemts : List E) (u : F) : Outcome (E × Bool) :=
  (parDistP sp clust elemts sysCPU).bind fun dists =>
    match weightedChoice dists u with
    | .panic => .panic
    | .nullSet =>
      match elemts[0]? with
      | none => .panic
      | some e => .ofOption ((sp.copy e).map fun e' => (e', true))
    | .ok i =>
      match idx? elemts i with
      | none => .panic
      | some e => .ofOption ((sp.copy e).map fun e' => (e', false))

/-- `addCenter` (mcmc/store.go:57-64): the copies come first. -/
def addCenterP (sp : PSpace E F) (sysCPU : Int) (data prev : List E) (u : F) : Outcome (List E × Bool) :=
  (Outcome.ofOption (allSome (prev.map sp.copy))).bind fun cs =>
    (ppIterP sp sysCPU prev data u).bind fun r => .ok (cs ++ [r.1], r.2)

/-- `genCenters` (mcmc/store.go:40-55). -/
def genCentersP (sp : PSpace E F) (sysCPU : Int) (data : List E) (k : Int) (prev : List E) (u : F) (del : Nat) :
    Outcome (List E × Bool) :=
  if (prev.length : Int) < k then addCenterP sp sysCPU data prev u
  else if (prev.length : Int) > k then .ofOption ((delCenterP sp prev del).map fun c => (c, false))
  else .ok (prev, false)

/-- `GetCenters` (mcmc/store.go:25-33). -/
def CenterStore.getCentersP (s : CenterStore E) (sp : PSpace E F) (sysCPU : Int) (data : List E) (k : Int)
    (clust : List E) (u : F) (del : Nat) : Outcome (List E × Bool) :=
  match s k with
  | some centers => .ok (centers, false)
  | none => genCentersP sp sysCPU data k clust u del

/-- `getKCenters` (mcmc/impl.go:115-123). -/
def McmcImpl.getKCentersP (impl : McmcImpl E F) (p : McmcPParams D E F R) (current : Proposal E F)
    (centroids data : List E) (d : McmcPDraws E F) : Outcome (Int × List E) :=
  match nextK p.conf current.k data d.move with
  | none => .panic
  | some k =>
    (impl.store.getCentersP p.space p.sysCPU data k centroids d.add d.del).bind fun r =>
      if r.2 then
        (impl.store.getCentersP p.space p.sysCPU data current.k centroids d.add' d.del').bind fun r' =>
          .ok (current.k, r'.1)
      else .ok (k, r.1)

/-- `alter` (mcmc/impl.go:157-165). -/
def alterP (clust : List E) (d : McmcPDraws E F) : Option (List E) := allSome (clust.mapIdx d.sample)

/-- The loop of `proba` (mcmc/impl.go:167-173), see `probaLoop`. -/
def probaLoopP (pdf : E → E → Nat → Option F) (time : Nat) : List E → List E → F → Option F
  | [], _, p => some p
  | _ :: _, [], _ => none
  | v :: x, m :: mu, p =>
    match pdf m v time with
    | none => none
    | some q => probaLoopP pdf time x mu (p + q)

/-- `proba` (mcmc/impl.go:167-173). -/
def probaP (pdf : E → E → Nat → Option F) (time : Nat) (x mu : List E) : Option F :=
  probaLoopP pdf time x mu 0

variable [GoMath F] [Div F]

/-- `SeqStrategy.Loss` (mcmc/seq.go:48-50), `ParStrategy.Loss` (mcmc/par.go:44-46), see `mcmcLoss`. -/
def mcmcLossP (p : McmcPParams D E F R) (centers data : List E) : Outcome F :=
  (if p.conf.par then KStrategy.par p.conf.numCPU else .seq).lossP p.space centers data p.conf.norm

/-- `propose` (mcmc/impl.go:103-113); the k-means iteration is parallel with both strategies (see
`mcmcStrategyIterate`). -/
def McmcImpl.proposeP (impl : McmcImpl E F) (p : McmcPParams D E F R) (current : Proposal E F)
    (centroids data : List E) (time : Nat) (d : McmcPDraws E F) : Outcome (Proposal E F) :=
  (impl.getKCentersP p current centroids data d).bind fun kc =>
    (Outcome.ofOption (alterP kc.2 d)).bind fun centers =>
      ((KStrategy.par p.sysCPU).iterateP p.space centers data).bind fun r =>
        (Outcome.ofOption (allSome r)).bind fun centers =>
          (mcmcLossP p centers data).bind fun loss =>
            (Outcome.ofOption (probaP p.pdf time centers centers)).bind fun pdf =>
              .ok { k := kc.1, centers, loss, pdf }

/-- `doIter` (mcmc/impl.go:90-101). -/
def McmcImpl.doIterP (impl : McmcImpl E F) (p : McmcPParams D E F R) (current : Proposal E F)
    (centroids data : List E) (time : Nat) (d : McmcPDraws E F) :
    Outcome (McmcImpl E F × Proposal E F × List E) :=
  (impl.proposeP p current centroids data time d).bind fun prop =>
    let (impl, ok) := impl.accept p.conf current prop time d.accept
    if ok then
      .ok ({ impl with store := impl.store.setCenters prop.centers, acc := impl.acc + 1 }, prop, prop.centers)
    else .ok (impl, current, centroids)

/-- `Iterate` (mcmc/impl.go:64-72). -/
def McmcImpl.iterateP (impl : McmcImpl E F) (p : McmcPParams D E F R) (centroids : List E) (d : McmcPDraws E F) :
    Outcome (McmcImpl E F × List E × McmcFigures F) :=
  let data := impl.buffer.data
  (impl.doIterP p impl.current centroids data data.length d).bind fun r =>
    let impl := { r.1 with current := r.2.1, time := data.length }
    .ok ({ impl with buffer := impl.buffer.apply }, r.2.2, impl.figures)

/-- `Init` (mcmc/impl.go:43-61); an error of the initializer is `ok none`. -/
def McmcImpl.initP (impl : McmcImpl E F) (p : McmcPParams D E F R) (d : D) :
    Outcome (McmcImpl E F × Option (List E)) :=
  let impl := { impl with buffer := impl.buffer.apply }
  let data := impl.buffer.data
  match p.initializer d p.conf.initK data with
  | .panic => .panic
  | .err => .ok (impl, none)
  | .ok centroids =>
    let impl := { impl with dim := p.dim centroids }
    (mcmcLossP p centroids data).bind fun loss =>
      (Outcome.ofOption (probaP p.pdf data.length centroids centroids)).bind fun pdf =>
        .ok ({ impl with current := { k := p.conf.initK, centers := centroids, loss, pdf },
                         time := data.length }, some centroids)

end

section
variable {E F : Type} [Zero F] [One F] [Neg F] [Add F] [Sub F] [Mul F] [Div F] [BEq F] [GoMath F]

/-- `MultivT.Pdf` on any elements (mcmc/multivt.go:80-93): `asVec` is the type assertion to `[]float64`. -/
def MultivT.pdfE (asVec : E → Option (List F)) (pi : F) (m : MultivT F) (mu x : E) (time : Nat) : Option F :=
  match asVec mu, asVec x with
  | some fmu, some fx => m.pdf pi fmu fx time
  | _, _ => none

/-- `MultivT.Sample` on any elements (mcmc/multivt.go:65-77), see `MultivT.sample`. -/
def MultivT.sampleE (asVec : E → Option (List F)) (ofVec : List F → E) (m : MultivT F) (mu : E) (time : Nat)
    (normal : List F) (chi : F) : Option E :=
  match asVec mu with
  | some fmu => (m.sample fmu time normal chi).map ofVec
  | none => none

end
end Distclus
