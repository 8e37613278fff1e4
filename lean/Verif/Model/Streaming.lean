import Verif.Model.Clust
import Verif.Model.Conf
/-!
# The streaming algorithm (streaming/impl.go)

The buffered channel `c` is a FIFO list of at most `BufferSize` elements.  `Push` only touches the
channel, and only by one non-blocking send, so a `Push` running concurrently with `Iterate` behaves as
if it came wholly before the receive of `Iterate` or wholly after it: a history is a sequence of
calls. `norm.Rand()` is an arbitrary value given to each call of `Iterate`.
-/
namespace Distclus

section
variable {E F R : Type}

/-- `Impl` (streaming/impl.go:12-20); the distribution `norm` is given by the draws. -/
structure StreamImpl (E F R : Type) where
  maxDistance : F
  clust : List E
  cards : List Int
  /-- the elements waiting in the channel, the oldest one first -/
  c : List E
  conf : StreamingConf F R
  count : Int

/-- `NewImpl` (streaming/impl.go:30-44). `make(chan)` panics on a negative size and the sends block
for ever on too many elements: `none`, the call does not return. -/
def StreamImpl.new [Zero F] (conf : StreamingConf F R) (elemts : List E) :
    Option (StreamImpl E F R) :=
  if conf.bufferSize < 0 ∨ conf.bufferSize < elemts.length then none
  else some { maxDistance := 0, clust := [], cards := [], c := elemts, conf, count := 0 }

/-- `Push` (streaming/impl.go:77-84): a non-blocking send; the flag tells whether an error is
returned. -/
def StreamImpl.push (impl : StreamImpl E F R) (e : E) : StreamImpl E F R × Bool :=
  if (impl.c.length : Int) < impl.conf.bufferSize then ({ impl with c := impl.c ++ [e] }, false)
  else (impl, true)

variable [Zero F] [LT F] [DecidableLT F]

/-- `UpdateMaxDistance` (streaming/impl.go:87-91). -/
def StreamImpl.updateMaxDistance (impl : StreamImpl E F R) (distance : F) : StreamImpl E F R :=
  if impl.maxDistance < distance then { impl with maxDistance := distance } else impl

/-- `GetRelativeDistance` (streaming/impl.go:99-104). -/
def StreamImpl.getRelativeDistance [BEq F] [Div F] (impl : StreamImpl E F R) (distance : F) :
    StreamImpl E F R × F :=
  let impl := if impl.maxDistance == 0 then { impl with maxDistance := distance } else impl
  (impl, distance / impl.maxDistance)

/-- `AddCenter` (streaming/impl.go:107-111). -/
def StreamImpl.addCenter (impl : StreamImpl E F R) (cluster : E) (distance : F) :
    StreamImpl E F R :=
  StreamImpl.updateMaxDistance
    { impl with clust := impl.clust ++ [cluster], cards := impl.cards ++ [1] } distance

/-- `AddOutlier` (streaming/impl.go:114-117). -/
def StreamImpl.addOutlier (impl : StreamImpl E F R) (outlier : E) : StreamImpl E F R :=
  { impl with clust := impl.clust ++ [outlier], cards := impl.cards ++ [1] }

/-- `UpdateCenter` (streaming/impl.go:120-125); `none` is an index panic. -/
def StreamImpl.updateCenter (impl : StreamImpl E F R) (label : Int) (elemt : E) (distance : F)
    (space : Space E F) : Option (StreamImpl E F R) :=
  match idx? impl.clust label, idx? impl.cards label with
  | some center, some card =>
    some (StreamImpl.updateMaxDistance
      { impl with
        clust := impl.clust.set label.toNat (space.combine center card elemt 1)
        cards := impl.cards.set label.toNat (card + 1) } distance)
  | _, _ => none

/-- `Init` (streaming/impl.go:47-58): the clustering returned, or `none` for the error "at least one
element is needed". -/
def StreamImpl.init (impl : StreamImpl E F R) : StreamImpl E F R × Option (List E) :=
  match impl.c with
  | e :: q => (StreamImpl.addCenter { impl with c := q } e 0, some [e])
  | [] => (impl, none)

variable [One F] [Neg F] [BEq F] [Div F]

/-- `Process` (streaming/impl.go:133-148), `threshold` being the result of `norm.Rand()` if it is
called. -/
def StreamImpl.process (impl : StreamImpl E F R) (space : Space E F) (threshold : F) (elemt : E) :
    Option (StreamImpl E F R) :=
  match assign space impl.clust elemt with
  | none => none
  | some (_, label, distance) =>
    let (impl, relative) := impl.getRelativeDistance distance
    let r :=
      if impl.conf.outAfter ≤ impl.count ∧ impl.conf.outRatio < relative then
        some (impl.addOutlier elemt)
      else if threshold < relative then some (impl.addCenter elemt distance)
      else impl.updateCenter label elemt distance space
    match r with
    | none => none
    | some impl => some { impl with count := impl.count + 1 }

/-- `Iterate` (streaming/impl.go:61-70): the clustering returned, if any, and the figure
`maxDistance`. -/
def StreamImpl.iterate (impl : StreamImpl E F R) (space : Space E F) (threshold : F) :
    Option (StreamImpl E F R × Option (List E) × F) :=
  match impl.c with
  | e :: q =>
    match StreamImpl.process { impl with c := q } space threshold e with
    | none => none
    | some impl => some (impl, some impl.clust, impl.maxDistance)
  | [] => some (impl, none, impl.maxDistance)

/-- A call to the implementation. -/
inductive StreamOp (E F : Type) where
  | push (e : E)
  | init
  | iterate (threshold : F)

/-- The observable result of a call. -/
inductive StreamRes (E F : Type) where
  | push (err : Bool)
  | init (clust : Option (List E))
  | iterate (clust : Option (List E)) (maxDistance : F)

/-- One call; `none` is a panic. -/
def StreamImpl.step (impl : StreamImpl E F R) (space : Space E F) :
    StreamOp E F → Option (StreamImpl E F R × StreamRes E F)
  | .push e => let (impl, err) := impl.push e; some (impl, .push err)
  | .init => let (impl, cl) := impl.init; some (impl, .init cl)
  | .iterate t =>
    match impl.iterate space t with
    | none => none
    | some (impl, cl, m) => some (impl, .iterate cl m)

/-- A sequence of calls with their results. -/
def StreamImpl.run (space : Space E F) :
    StreamImpl E F R → List (StreamOp E F) → Option (StreamImpl E F R × List (StreamRes E F))
  | impl, [] => some (impl, [])
  | impl, op :: ops =>
    match impl.step space op with
    | none => none
    | some (impl, r) =>
      match StreamImpl.run space impl ops with
      | none => none
      | some (impl, rs) => some (impl, r :: rs)

/-- `Copy` (streaming/impl.go:23-27): a new algorithm is built on the current centres as initial data;
`conf` is the configuration of the copied model after `Verify` in `NewAlgo`
(streaming/algo.go:6-13). `none` is a panic. -/
def StreamImpl.copy (impl : StreamImpl E F R) (conf : StreamingConf F R) :
    Option (StreamImpl E F R) :=
  if conf.bufferSize < impl.clust.length then none else StreamImpl.new conf impl.clust

end
end Distclus
