import Verif.Model.Streaming
import Verif.Model.ParPanic
/-!
# The streaming algorithm with operations which panic

`Model/Streaming.lean` tells that a call panics when a label is out of range, the operations of the space being total.
Here the operations may panic as well, and a call which panics leaves a state behind: the run recovers a panic of
`Iterate` (core/ctrl.go:207-214, 265) and the algorithm can be played again on that state.
-/
namespace Distclus

section
variable {E F R : Type} [Zero F] [LT F] [DecidableLT F]

/-- `UpdateCenter` (streaming/impl.go:120-125); `none` is a panic, of an index or of `Combine`, both before the first
write. -/
def StreamImpl.updateCenterP (impl : StreamImpl E F R) (label : Int) (elemt : E) (distance : F) (sp : PSpace E F) :
    Option (StreamImpl E F R) :=
  match idx? impl.clust label, idx? impl.cards label with
  | some center, some card =>
    match sp.combine center card elemt 1 with
    | none => none
    | some cluster =>
      some (StreamImpl.updateMaxDistance
        { impl with
          clust := impl.clust.set label.toNat cluster
          cards := impl.cards.set label.toNat (card + 1) } distance)
  | _, _ => none

variable [One F] [Neg F] [BEq F] [Div F]

/-- `Process` (streaming/impl.go:133-148), with the state at the end of the call and whether it panics. -/
def StreamImpl.processP (impl : StreamImpl E F R) (sp : PSpace E F) (threshold : F) (elemt : E) :
    StreamImpl E F R × Bool :=
  match assignP sp impl.clust elemt with
  | none => (impl, true)
  | some (_, label, distance) =>
    let (impl, relative) := impl.getRelativeDistance distance
    let r :=
      if impl.conf.outAfter ≤ impl.count ∧ impl.conf.outRatio < relative then
        some (impl.addOutlier elemt)
      else if threshold < relative then some (impl.addCenter elemt distance)
      else impl.updateCenterP label elemt distance sp
    match r with
    | none => (impl, true)
    | some impl => ({ impl with count := impl.count + 1 }, false)

/-- `Iterate` (streaming/impl.go:61-70): the state at the end of the call, and the clustering and the figure which are
returned, or `none` for a panic. -/
def StreamImpl.iterateP (impl : StreamImpl E F R) (sp : PSpace E F) (threshold : F) :
    StreamImpl E F R × Option (Option (List E) × F) :=
  match impl.c with
  | e :: q =>
    match StreamImpl.processP { impl with c := q } sp threshold e with
    | (impl, true) => (impl, none)
    | (impl, false) => (impl, some (some impl.clust, impl.maxDistance))
  | [] => (impl, some (none, impl.maxDistance))

/-- One call: the state at its end and its result, `none` for a panic. -/
def StreamImpl.stepP (impl : StreamImpl E F R) (sp : PSpace E F) :
    StreamOp E F → StreamImpl E F R × Option (StreamRes E F)
  | .push e => let (impl, err) := impl.push e; (impl, some (.push err))
  | .init => let (impl, cl) := impl.init; (impl, some (.init cl))
  | .iterate t =>
    match impl.iterateP sp t with
    | (impl, none) => (impl, none)
    | (impl, some (cl, m)) => (impl, some (.iterate cl m))

/-- A sequence of calls with their results, the calls going on after a panic. -/
def StreamImpl.runP (sp : PSpace E F) :
    StreamImpl E F R → List (StreamOp E F) → StreamImpl E F R × List (Option (StreamRes E F))
  | impl, [] => (impl, [])
  | impl, op :: ops =>
    let (impl, r) := impl.stepP sp op
    let (impl, rs) := StreamImpl.runP sp impl ops
    (impl, r :: rs)

end
end Distclus
