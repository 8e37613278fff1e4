import Verif.Model.KMeans
import Verif.Model.Euclid
/-!
# The iterations of k-means with operations which panic, and the goroutine which panics

A run recovers a panic of `impl.Iterate` (core/ctrl.go:207-214, 265), but only one which happens in its own goroutine: a
panic in a goroutine launched by `Par` (core/util.go:14-17, 27; nothing recovers there) ends the process.  The
functions of `Model/Clust.lean` and `Model/KMeans.lean` are followed here with operations of the space which may panic,
as those of the library do on points of different dimensions.

Simplification: the deferred `wg.Done()` of a goroutine which panics may let the others go on for an instant before the
process ends; nothing is said of this instant.
-/
namespace Distclus

/-- What a call leads to: it returns, it panics in the goroutine of the caller, or the process ends. -/
inductive Outcome (α : Type) where
  | ok (a : α)
  | panic
  | crash
deriving DecidableEq

/-- `core.Space` (core/space.go:7-12) with operations which may panic (`none`). -/
structure PSpace (E F : Type) where
  /-- `Dist` -/
  dist : E → E → Option F
  /-- `Combine` -/
  combine : E → Int → E → Int → Option E
  /-- `Copy` -/
  copy : E → Option E

section
variable {E F : Type} [Zero F] [One F] [Neg F] [LT F] [DecidableLT F]

/-- The loop of `nearest` (core/clustering.go:145-150), see `nearestLoop`. -/
def nearestLoopP (sp : PSpace E F) (elemt : E) : List E → Nat → Int → F → Option (Int × F)
  | [], _, label, min => some (label, min)
  | c :: cs, i, label, min =>
    match sp.dist elemt c with
    | none => none
    | some d =>
      if min < 0 ∨ d < min then nearestLoopP sp elemt cs (i + 1) (i : Int) d
      else nearestLoopP sp elemt cs (i + 1) label min

/-- `(*Clust).nearest` (core/clustering.go:141-153). -/
def nearestP (sp : PSpace E F) (c : List E) (elemt : E) : Option (Int × F) :=
  nearestLoopP sp elemt c 0 (-1) (-1)

/-- `(*Clust).Assign` (core/clustering.go:19-25), see `assign`. -/
def assignP (sp : PSpace E F) (c : List E) (elemt : E) : Option (Option E × Int × F) :=
  match nearestP sp c elemt with
  | none => none
  | some (label, dist) =>
    if label ≥ 0 then
      match idx? c label with
      | some centroid => some (some centroid, label, dist)
      | none => none
    else some (none, label, dist)

/-- One step of the loop of `ReduceDBA` (core/clustering.go:51-57), see `dbaStep`. -/
def dbaStepP (sp : PSpace E F) (st : List (Option E) × List Int) (ix : Int) (elemt : E) :
    Option (List (Option E) × List Int) :=
  match idx? st.2 ix with
  | none => none
  | some card =>
    if card = 0 then
      match sp.copy elemt with
      | none => none
      | some e => some (st.1.set ix.toNat (some e), st.2.set ix.toNat 1)
    else
      match idx? st.1 ix with
      | some (some m) =>
        match sp.combine m card elemt 1 with
        | none => none
        | some e => some (st.1.set ix.toNat (some e), st.2.set ix.toNat (card + 1))
      | _ => none

/-- The loop of `ReduceDBA` (core/clustering.go:49-58). -/
def reduceLoopP (sp : PSpace E F) (c : List E) :
    List E → List (Option E) × List Int → Option (List (Option E) × List Int)
  | [], st => some st
  | e :: es, st =>
    match assignP sp c e with
    | none => none
    | some (_, ix, _) =>
      match dbaStepP sp st ix e with
      | none => none
      | some st' => reduceLoopP sp c es st'

/-- `(*Clust).ReduceDBA` (core/clustering.go:45-62). -/
def reduceDBAP (sp : PSpace E F) (c elemts : List E) : Option (List (Option E) × List Int) :=
  reduceLoopP sp c elemts (List.replicate c.length none, List.replicate c.length 0)

/-- `dbaCombine` (core/par_dba.go:57-74) for one index, see `dbaCombine1`. -/
def dbaCombine1P (sp : PSpace E F) (a o : Option E × Int) : Option (Option E × Int) :=
  if a.2 = 0 then some o
  else if o.2 > 0 then
    match a.1, o.1 with
    | some x, some y =>
      match sp.combine x a.2 y o.2 with
      | none => none
      | some z => some (some z, a.2 + o.2)
    | _, _ => none
  else some a

/-- The loop of `dbaCombine` (core/par_dba.go:58-71), see `dbaCombineLoop`. -/
def dbaCombineLoopP (sp : PSpace E F) :
    List (Option E) → List Int → List (Option E) → List Int → Option (List (Option E) × List Int)
  | [], cs, _, _ => some ([], cs)
  | d :: ds, c :: cs, d' :: ds', c' :: cs' =>
    match dbaCombine1P sp (d, c) (d', c') with
    | none => none
    | some (d2, c2) =>
      match dbaCombineLoopP sp ds cs ds' cs' with
      | none => none
      | some (ds2, cs2) => some (d2 :: ds2, c2 :: cs2)
  | _, _, _, _ => none

/-- The loop of `dbaAggregate` (core/par_dba.go:43-55) once `aggregate.dbas` is not nil. -/
def dbaAggregateLoopP (sp : PSpace E F) :
    List (List (Option E) × List Int) → List (Option E) × List Int →
    Option (List (Option E) × List Int)
  | [], agg => some agg
  | o :: os, agg =>
    match dbaCombineLoopP sp agg.1 agg.2 o.1 o.2 with
    | none => none
    | some agg' => dbaAggregateLoopP sp os agg'

/-- `dbaAggregate` (core/par_dba.go:43-55). -/
def dbaAggregateP (sp : PSpace E F) :
    List (List (Option E) × List Int) → Option (List (Option E) × List Int)
  | [] => some ([], [])
  | p :: ps => dbaAggregateLoopP sp ps p

/-- `Par` (core/util.go:9-31) with workers which may panic: a wrong degree panics in the caller, a worker which panics
ends the process. -/
def parP {α : Type} (size : Nat) (degree : Int) (worker : Chunk → Option α) : Outcome (List α) :=
  match par size degree with
  | none => .panic
  | some chunks =>
    match allSome (chunks.map worker) with
    | none => .crash
    | some parts => .ok parts

/-- `SeqStrategy.Iterate` (kmeans/seq.go:21-24) and `ParStrategy.Iterate` (kmeans/par.go:22-25, core/par_dba.go:8-19);
an entry `none` of the result is a nil centroid. -/
def KStrategy.iterateP (s : KStrategy) (sp : PSpace E F) (c data : List E) : Outcome (List (Option E)) :=
  match s with
  | .seq =>
    match reduceDBAP sp c data with
    | none => .panic
    | some (result, _) =>
      match seqBuildResult c result with
      | none => .panic
      | some r => .ok r
  | .par degree =>
    match parP data.length degree fun k => reduceDBAP sp c (slice data k.start k.stop) with
    | .panic => .panic
    | .crash => .crash
    | .ok parts =>
      match dbaAggregateP sp parts with
      | none => .panic
      | some aggr =>
        match parBuildResult c aggr with
        | none => .panic
        | some r => .ok r

section
variable [Add F] [GoMath F]

/-- Loop of `ReduceLoss` (core/clustering.go:109-113), see `lossLoop`. -/
def lossLoopP (sp : PSpace E F) (c : List E) (norm : F) :
    List E → List F × List Int → Option (List F × List Int)
  | [], st => some st
  | e :: es, st =>
    match nearestP sp c e with
    | none => none
    | some (label, min) =>
      match lossStep st label (GoMath.pow min norm) with
      | none => none
      | some st' => lossLoopP sp c norm es st'

/-- `(*Clust).ReduceLoss` (core/clustering.go:106-115). -/
def reduceLossP (sp : PSpace E F) (c elemts : List E) (norm : F) : Option (List F × List Int) :=
  lossLoopP sp c norm elemts (List.replicate c.length 0, List.replicate c.length 0)

/-- `Loss` of the strategies of mcmc (mcmc/seq.go:47-50, mcmc/par.go:44-46): `TotalLoss` (core/clustering.go:94-97), or
`ParTotalLoss` (100-103, core/par_loss.go:21-32). -/
def KStrategy.lossP (s : KStrategy) (sp : PSpace E F) (c data : List E) (norm : F) : Outcome F :=
  match s with
  | .seq =>
    match reduceLossP sp c data norm with
    | none => .panic
    | some r => .ok (sumF r.1)
  | .par degree =>
    match parP data.length degree fun k => reduceLossP sp c (slice data k.start k.stop) norm with
    | .panic => .panic
    | .crash => .crash
    | .ok parts =>
      match lossAggregate parts with
      | none => .panic
      | some r => .ok (sumF r.1)

end
end

section
variable {F : Type} [Zero F] [One F] [Add F] [Sub F] [Mul F] [Div F] [GoMath F]

/-- `euclid.Space` on any points (euclid/vectors.go:19-67). -/
def euclidP : PSpace (List F) F := ⟨pointDist?, pointCombine?, fun p => some (pointCopy p)⟩

/-- `cosinus.Space` on any points (cosinus/cosinus.go:24-53). -/
def cosinusP : PSpace (List F) F := ⟨cosDist?, pointCombine?, fun p => some (pointCopy p)⟩

end
end Distclus
